import Verif.Model.ProxyCache
/-!
# Specification: a pool of proxies

What lookups may give, without queues and timers: the proxies handed back and not taken yet, each with the time it was handed back.
-/
namespace Frpc
namespace Spec.Pool
open Url (Url)
open ProxyCache (Use)
variable {α : Type}

/-- A proxy that was handed back. -/
structure Kept (α : Type) where
  url : Url
  impl : α
  time : Nat

/-- The same host, port and path. -/
def SamePlace (a b : Url) : Prop := a.host = b.host ∧ a.port = b.port ∧ a.path = b.path

/-- The results of the lookups in a history are right, for proxies kept for less than `life` milliseconds: a lookup gives a proxy that
was handed back for that place less than `life` ago and that is taken away by it; it gives none only if there is no such proxy. -/
inductive Right (life : Nat) : List (Kept α) → List (Use α) → List (Option α) → Prop
  | done {pool} : Right life pool [] []
  | give {pool now now' url impl us rs} : Right life (⟨url, impl, now'⟩ :: pool) us rs → Right life pool (.give now now' url impl :: us) rs
  | found {a b k now pick url us rs} : SamePlace k.url url → now < k.time + life → Right life (a ++ b) us rs →
      Right life (a ++ k :: b) (.take now pick url :: us) (some k.impl :: rs)
  | missed {pool now pick url us rs} : (∀ k ∈ pool, SamePlace k.url url → k.time + life ≤ now) → Right life pool us rs →
      Right life pool (.take now pick url :: us) (none :: rs)

/-- The clock readings of a use. -/
def times : Use α → List Nat
  | .take now _ _ => [now]
  | .give now now' _ _ => [now, now']

/-- The clock does not go back, and stays below 2^63 milliseconds. -/
def Clock (us : List (Use α)) : Prop := (us.flatMap times).Pairwise (· ≤ ·) ∧ ∀ t ∈ us.flatMap times, t < 2 ^ 63

/-- The proxies handed back in a history. -/
def given (us : List (Use α)) : List α := us.filterMap (fun | .give _ _ _ x => some x | .take .. => none)

end Spec.Pool
end Frpc
