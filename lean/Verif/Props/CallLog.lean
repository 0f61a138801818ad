import Verif.Model.CallLog
/-!
# Logging of calls (C82, C83)

`CallLog.withLogger name params outcome` is a call of `ServerProxy_t::call` whose marshalling, sending and reading come to `outcome`: what the
logger function is given, in order, and what the caller gets.
-/
namespace Frpc
open CallLog

/-- The logger can describe every sub-call of a multicall: its `params` are there and an array, and if it has failed, the code is an integer and
the message a string. -/
def Describable (call response : List (Bytes × Value)) : Prop :=
  (∃ ps, SMap.find? (asc "params") call = some (.array ps)) ∧
  (∀ v, SMap.find? (asc "faultCode") response = some v → (∃ n, v = .int n) ∧ ∀ m, SMap.find? (asc "faultString") response = some m → ∃ s, m = .string s)

/-- Not a multicall, or all pairs of a call and its response, both structs, are describable. -/
def Loggable (name : Bytes) (params : Option (List Value)) (outcome : Outcome) : Prop :=
  Registry.cstr name ∈ [asc "system.multicall", asc "system.parallelcall"] →
    ∀ calls rest responses, params = some (.array calls :: rest) → outcome = .value (some (.array responses)) →
      ∀ (i : Nat) c r, calls[i]? = some (.struct c) → responses[i]? = some (.struct r) → Describable c r

namespace CallLog

theorem logSub_ok {c r : List (Bytes × Value)} (h : Describable c r) : ∃ l, logSub c r = .ok l := by
  obtain ⟨⟨ps, hp⟩, hf⟩ := h
  have e1 : subParams c = .ok ps := by simp only [subParams, hp]
  simp only [logSub, e1, bind, Except.bind, pure, Except.pure]
  cases hc : SMap.find? (asc "faultCode") r with
  | none => exact ⟨_, rfl⟩
  | some v =>
    obtain ⟨⟨n, rfl⟩, hm⟩ := hf v hc
    have e2 : ∃ m, subMessage r = .ok m := by
      unfold subMessage
      cases hs : SMap.find? (asc "faultString") r with
      | none => exact ⟨_, rfl⟩
      | some m => obtain ⟨s, rfl⟩ := hm m hs; exact ⟨_, rfl⟩
    obtain ⟨m, e2⟩ := e2
    simp only [subCode, e2]
    exact ⟨_, rfl⟩

theorem logPairs_ok : ∀ (cs rs : List Value), (∀ (i : Nat) c r, cs[i]? = some (.struct c) → rs[i]? = some (.struct r) → Describable c r) → (logPairs cs rs).2 = none := by
  intro cs rs
  fun_induction logPairs cs rs with
  | case1 c cs r rs e he =>
    intro h
    obtain ⟨l, hl⟩ := logSub_ok (h 0 c r rfl rfl)
    rw [hl] at he; cases he
  | case2 c cs r rs l hl x ih =>
    intro h
    exact ih (fun i c r hc hr => h (i + 1) c r (by simpa using hc) (by simpa using hr))
  | case3 c cs r rs hne ih => 
    intro h
    exact ih (fun i c r hc hr => h (i + 1) c r (by simpa using hc) (by simpa using hr))
  | case4 => intro _; rfl

end CallLog

/-- **C82, `_partial`: for calls whose sub-calls the logger can describe.** Logging changes nothing: the caller gets what the call came to.
(The property asks for it for all calls, see the violations below.) -/
theorem C82_transparent_partial (name : Bytes) (params : Option (List Value)) (outcome : Outcome) (h : Loggable name params outcome) :
    (withLogger name params outcome).2 = outcome := by
  unfold withLogger
  cases outcome with
  | fault c m => rfl
  | error e => rfl
  | value v =>
    have hs : (logStructured (Registry.cstr name) params v).2 = none := by
      unfold logStructured
      split
      next hn =>
        split
        · exact logPairs_ok _ _ (h (by simpa using hn) _ _ _ rfl rfl)
        · rfl
      · rfl
    obtain ⟨ls, e⟩ : ∃ ls, logStructured (Registry.cstr name) params v = (ls, none) := ⟨_, Prod.ext rfl hs⟩
    simp only [e]

/-- **C82.** Every call of another method, and every call that throws, is not affected by logging. -/
theorem C82_other (name : Bytes) (params : Option (List Value)) (outcome : Outcome)
    (h : Registry.cstr name ∉ [asc "system.multicall", asc "system.parallelcall"] ∨ ∀ v, outcome ≠ .value v) : (withLogger name params outcome).2 = outcome := by
  apply C82_transparent_partial
  rintro hn calls rest responses - ho
  rcases h with h | h
  · exact absurd hn h
  · exact absurd ho (h _)

/-- A multicall of one method, as `system.multicall` takes it. -/
def oneCall (c : List (Bytes × Value)) : Option (List Value) := some [.array [.struct c]]

example : Loggable (asc "system.multicall") (oneCall [(asc "methodName", .string (asc "m")), (asc "params", .array [.int 1])])
    (.value (some (.array [.struct [(asc "faultCode", .int (-506)), (asc "faultString", .string (asc "no"))]]))) := by
  rintro - calls rest responses hp ho i c r hc hr
  simp only [oneCall, Option.some.injEq, List.cons.injEq, Value.array.injEq, Outcome.value.injEq] at hp ho
  obtain ⟨rfl, rfl⟩ := hp
  subst ho
  match i with
  | 0 =>
    simp only [List.getElem?_cons_zero, Option.some.injEq, Value.struct.injEq] at hc hr
    subst hc hr
    refine ⟨⟨[.int 1], rfl⟩, fun v hv => ⟨⟨-506, ?_⟩, fun m hm => ⟨asc "no", ?_⟩⟩⟩
    · exact (Option.some.inj (hv.symm.trans (by rfl : _ = some (Value.int (-506)))))
    · exact (Option.some.inj (hm.symm.trans (by rfl : _ = some (Value.string (asc "no")))))
  | i + 1 => simp at hc

/-- **C82 is false:** if a call in a multicall has no `params` and its response is a struct, such as the fault that this library's server gives
for it, the client's logging reads beyond the end of the struct, with or without a logger function. -/
theorem C82_params_violated (c r : List (Bytes × Value)) (hc : SMap.find? (asc "params") c = none) :
    (withLogger (asc "system.multicall") (oneCall c) (.value (some (.array [.struct r])))).2 = .error .ub := by
  simp only [withLogger, logStructured, show Registry.cstr (asc "system.multicall") = asc "system.multicall" by decide +kernel, true_or, if_true, oneCall, logPairs, logSub, subParams, hc]
  rfl

/-- The fault this library's server answers to a call without `params`. -/
example : (Registry.multicallOne ⟨[], some fun st _ _ => (.ok .null, st), false⟩ (fun _ st _ => (.ok .null, st)) () [(asc "methodName", .string (asc "m"))]).1 = .error (.key (asc "Key \"params\" does not exist.")) := by
  rfl

/-- **C82 is false:** if the `params` of a call are no array, the caller of the multicall gets a type error instead of the response. -/
theorem C82_type_violated (c r : List (Bytes × Value)) (v : Value) (hc : SMap.find? (asc "params") c = some v) (hv : ∀ ps, v ≠ .array ps) :
    (withLogger (asc "system.multicall") (oneCall c) (.value (some (.array [.struct r])))).2 = .error .type := by
  have : subParams c = .error .type := by
    simp only [subParams, hc]
  simp only [withLogger, logStructured, show Registry.cstr (asc "system.multicall") = asc "system.multicall" by decide +kernel, true_or, if_true, oneCall, logPairs, logSub, this]
  rfl

/-- **C82 is false:** a server can make the client throw a type error by a response with a member `faultCode` that is no integer. -/
theorem C82_code_violated (c r : List (Bytes × Value)) (ps : List Value) (hc : SMap.find? (asc "params") c = some (.array ps)) (v : Value)
    (hr : SMap.find? (asc "faultCode") r = some v) (hv : ∀ n, v ≠ .int n) :
    (withLogger (asc "system.multicall") (oneCall c) (.value (some (.array [.struct r])))).2 = .error .type := by
  have e1 : subParams c = .ok ps := by simp only [subParams, hc]
  have e2 : subCode v = .error .type := by
    cases v <;> first | rfl | exact absurd rfl (hv _)
  simp only [withLogger, logStructured, show Registry.cstr (asc "system.multicall") = asc "system.multicall" by decide +kernel, true_or, if_true, oneCall, logPairs, logSub, e1, hr, e2, bind, Except.bind]

example : SMap.find? (asc "faultCode") [(asc "faultCode", Value.string (asc "x"))] = some (Value.string (asc "x")) := by rfl

/-- The event for a pair of a sub-call and its response. -/
inductive Describes (c r : List (Bytes × Value)) : Logged → Prop
  | fault (ps : List Value) (code : Int) (hp : SMap.find? (asc "params") c = some (.array ps)) (hc : SMap.find? (asc "faultCode") r = some (.int code)) (msg : Bytes)
      (hm : SMap.find? (asc "faultString") r = some (.string msg) ∨ (SMap.find? (asc "faultString") r = none ∧ msg = [])) (name : Option Bytes)
      (hn : ∀ s, SMap.find? (asc "methodName") c = some (.string s) → name = some (Registry.cstr s)) (shown : Int) (hs : (shown - code) % 2 ^ 32 = 0 ∧ IsI32 shown) :
      Describes c r (.fault name (some ps) shown msg)
  | success (ps : List Value) (hp : SMap.find? (asc "params") c = some (.array ps)) (hc : SMap.find? (asc "faultCode") r = none) (name : Option Bytes)
      (hn : ∀ s, SMap.find? (asc "methodName") c = some (.string s) → name = some (Registry.cstr s)) :
      Describes c r (.success name (some ps) (some (.struct r)))

/-- The events of the sub-calls, in order: one for every pair of structs. -/
inductive DescribesAll : List Value → List Value → List Logged → Prop
  | done (cs rs : List Value) (h : cs = [] ∨ rs = []) : DescribesAll cs rs []
  | pair (c r : List (Bytes × Value)) (cs rs : List Value) (l : Logged) (ls : List Logged) (h : Describes c r l) (t : DescribesAll cs rs ls) :
      DescribesAll (.struct c :: cs) (.struct r :: rs) (l :: ls)
  | skip (v w : Value) (cs rs : List Value) (ls : List Logged) (h : (∀ c, v ≠ .struct c) ∨ ∀ r, w ≠ .struct r) (t : DescribesAll cs rs ls) : DescribesAll (v :: cs) (w :: rs) ls

namespace CallLog

theorem subName_some {c : List (Bytes × Value)} (s : Bytes) (h : SMap.find? (asc "methodName") c = some (.string s)) : subName c = some (Registry.cstr s) := by
  simp only [subName, h]

theorem describes_sub {c r : List (Bytes × Value)} {l : Logged} (h : logSub c r = .ok l) : Describes c r l := by
  simp only [logSub, bind, Except.bind, pure, Except.pure] at h
  split at h
  · cases h
  next ps hps =>
  have hp : SMap.find? (asc "params") c = some (.array ps) := by
    unfold subParams at hps
    split at hps
    · cases hps
    · injection hps with hps; subst hps; assumption
    · cases hps
  split at h
  next code hc =>
    split at h
    · cases h
    next n hn =>
    split at h
    · cases h
    next m hm =>
    injection h with h; subst h
    cases code with
    | int k =>
      simp only [subCode, Except.ok.injEq] at hn
      subst hn
      refine .fault ps k hp hc m ?_ _ subName_some _ ⟨?_, ?_⟩
      · unfold subMessage at hm
        split at hm
        · injection hm with hm; exact .inr ⟨by assumption, hm.symm⟩
        · injection hm with hm; subst hm; exact .inl (by assumption)
        · cases hm
      · unfold i32 u32; split <;> omega
      · unfold i32 u32 IsI32; split <;> omega
    | _ => cases hn
  next hc =>
    injection h with h; subst h
    exact .success ps hp hc _ subName_some

theorem describes_all : ∀ (cs rs : List Value) (ls : List Logged), logPairs cs rs = (ls, none) → DescribesAll cs rs ls := by
  intro cs rs
  fun_induction logPairs cs rs with
  | case1 c cs r rs e he => intro ls h; cases h
  | case2 c cs r rs l hl x ih =>
    intro ls h
    simp only [Prod.mk.injEq] at h
    rw [← h.1]
    exact .pair c r cs rs l _ (describes_sub hl) (ih _ (Prod.ext rfl h.2))
  | case3 v cs w rs hne ih =>
    intro ls h
    refine .skip v w cs rs ls ?_ (ih ls h)
    by_cases hv : ∃ c, v = .struct c
    · obtain ⟨c, rfl⟩ := hv
      exact .inr fun r hr => hne c r rfl hr
    · exact .inl fun c hc => hv ⟨c, hc⟩
  | case4 cs rs h1 h2 =>
    intro ls h
    injection h with h _; subst h
    refine .done cs rs ?_
    cases cs with
    | nil => exact .inl rfl
    | cons v cs =>
      cases rs with
      | nil => exact .inr rfl
      | cons w rs => exact absurd rfl (h2 _ _ _ _ rfl)

end CallLog

/-- The event for what a call came to. -/
def finalEvent (name : Bytes) (params : Option (List Value)) : Outcome → Logged
  | .value v => .success (some (Registry.cstr name)) params v
  | .fault c m => .fault (some (Registry.cstr name)) params c m
  | .error e => .error (Registry.cstr name) params e

/-- **C83, `_partial`: for calls that logging does not change.** What the logger function is given for a call: first the start of the call, at
last what it came to, and nothing in between unless it is a multicall that succeeded; then there is one event for every sub-call with a struct
for a response, in order. (See `C83_lost_violated` and `C83_silent_violated` for what the property asks for besides.) -/
theorem C83_events_partial (name : Bytes) (params : Option (List Value)) (outcome : Outcome) (h : Loggable name params outcome) :
    ∃ subs, (withLogger name params outcome).1 = .start (Registry.cstr name) params :: subs ++ [finalEvent name params outcome] ∧
      (subs = [] ∨ ∃ calls rest responses, Registry.cstr name ∈ [asc "system.multicall", asc "system.parallelcall"] ∧ params = some (.array calls :: rest) ∧
        outcome = .value (some (.array responses)) ∧ DescribesAll calls responses subs) := by
  have ht := C82_transparent_partial name params outcome h
  unfold withLogger at ht ⊢
  cases outcome with
  | fault c m => exact ⟨[], rfl, .inl rfl⟩
  | error e => exact ⟨[], rfl, .inl rfl⟩
  | value v =>
    simp only at ht ⊢
    cases hl : logStructured (Registry.cstr name) params v with
    | mk ls e =>
      rw [hl] at ht
      cases e with
      | some e => cases ht
      | none =>
        refine ⟨ls, rfl, ?_⟩
        unfold logStructured at hl
        split at hl
        next hn =>
          split at hl
          next calls rest responses =>
            exact .inr ⟨calls, rest, responses, by simpa using hn, rfl, rfl, describes_all _ _ _ hl⟩
          · injection hl with hl; exact .inl hl.symm
        · injection hl with hl; exact .inl hl.symm

/-- **C83 (other methods).** For every other method there are exactly two events. -/
theorem C83_other (name : Bytes) (params : Option (List Value)) (outcome : Outcome) (h : Registry.cstr name ∉ [asc "system.multicall", asc "system.parallelcall"]) :
    (withLogger name params outcome).1 = [.start (Registry.cstr name) params, finalEvent name params outcome] := by
  obtain ⟨subs, h1, h2⟩ := C83_events_partial name params outcome (fun hn => absurd hn h)
  rcases h2 with rfl | ⟨_, _, _, hn, _⟩
  · exact h1
  · exact absurd hn h

example : (withLogger (asc "system.multicall") (oneCall [(asc "methodName", .string (asc "m")), (asc "params", .array [.int 1])])
    (.value (some (.array [.struct [(asc "faultCode", .int (-506)), (asc "faultString", .string (asc "no"))]])))).1.length = 3 := by rfl

/-- **C83 is false for what logging itself throws:** the log has the start of the call and no end. -/
theorem C83_lost_violated (c r : List (Bytes × Value)) (hc : SMap.find? (asc "params") c = none) :
    (withLogger (asc "system.multicall") (oneCall c) (.value (some (.array [.struct r])))).1 = [.start (asc "system.multicall") (oneCall c)] := by
  simp only [withLogger, logStructured, show Registry.cstr (asc "system.multicall") = asc "system.multicall" by decide +kernel, true_or, if_true, oneCall, logPairs, logSub, subParams, hc]
  rfl

/-- **C83 is false for sub-calls whose result is no struct:** they are not logged. -/
theorem C83_silent_violated (c : List (Bytes × Value)) (v : Value) (hv : ∀ r, v ≠ .struct r) :
    (withLogger (asc "system.multicall") (oneCall c) (.value (some (.array [v])))).1 =
      [.start (asc "system.multicall") (oneCall c), .success (some (asc "system.multicall")) (oneCall c) (some (.array [v]))] := by
  have : logPairs [.struct c] [v] = ([], none) := by
    cases v <;> first | rfl | exact absurd rfl (hv _)
  simp only [withLogger, logStructured, show Registry.cstr (asc "system.multicall") = asc "system.multicall" by decide +kernel, true_or, if_true, oneCall, this]
  rfl
end Frpc
