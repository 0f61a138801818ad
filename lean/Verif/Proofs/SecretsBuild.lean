import Verif.Proofs.Secrets
import Verif.Proofs.XmlBuild
/-! # What the builder makes of a tree of secrets -/
namespace Frpc
namespace Secrets
open Spec BinUnMarshaller
open TreeBuilder (Cfg)
open XmlBuild (Ok OkItems OkMembers)

mutual
/-- The builder calls of a value: `sz` gives the sizes of containers, `g` changes date-times. -/
def evsWith (sz : Nat → Nat) (g : DateTime → DateTime) : Value → List Event
  | .int n => [.int n]
  | .bool b => [.bool b]
  | .double x => [.double x]
  | .string s => [.string s]
  | .stringView s => [.string s]
  | .binary s => [.binary s]
  | .binaryRef cs => [.binary cs.flatten]
  | .dateTime d => [.dateTime (g d)]
  | .null => [.null]
  | .array vs => .openArray (sz vs.length) :: (evsWithItems sz g vs ++ [.closeArray])
  | .struct ms => .openStruct (sz ms.length) :: (evsWithMembers sz g ms ++ [.closeStruct])
  | .secret v => evsWith sz g v
def evsWithItems (sz : Nat → Nat) (g : DateTime → DateTime) : List Value → List Event
  | [] => []
  | v :: vs => evsWith sz g v ++ evsWithItems sz g vs
def evsWithMembers (sz : Nat → Nat) (g : DateTime → DateTime) : List (Bytes × Value) → List Event
  | [] => []
  | (k, v) :: ms => .member k :: (evsWith sz g v ++ evsWithMembers sz g ms)
end

mutual
/-- The value that is built where the edge leads to `m`. -/
def paint (f : DateTime → DateTime) (m : Option STree) : Value → Value
  | .secret v => paint f m v
  | .array vs => wrap (found m).1 (.array (paintItems f (found m).2 0 vs))
  | .struct ms => wrap (found m).1 (.struct (paintMembers f (found m).2 ms))
  | .stringView s => wrap (found m).1 (.string s)
  | .binaryRef cs => wrap (found m).1 (.binary cs.flatten)
  | .dateTime d => wrap (found m).1 (.dateTime (f d))
  | v => wrap (found m).1 v
def paintItems (f : DateTime → DateTime) (es : Option Edges) (i : Nat) : List Value → List Value
  | [] => []
  | v :: vs => paint f (es.bind (findIndex i)) v :: paintItems f es (i + 1) vs
def paintMembers (f : DateTime → DateTime) (es : Option Edges) : List (Bytes × Value) → List (Bytes × Value)
  | [] => []
  | (k, v) :: ms => (k, paint f (es.bind (findKey k)) v) :: paintMembers f es ms
end

variable {cfg : Cfg} {sz : Nat → Nat} {g : DateTime → DateTime}

theorem leaf {b : XB} {m : Option STree} {path' : List PNode} {v : Value} {r : Except Err Value} (hr : r = .ok v) (hm : matchSecret b.path = .ok (found m))
    (hp : put (wrap (found m).1 v) b.path = .ok path') {e : Event} (he : build cfg b e = buildLeaf r b) : applyEvents (builder cfg) b [e] = ({ b with path := path' }, none) := by
  refine applyEvents_one ?_
  change build cfg b e = _
  rw [he, hr]
  simp only [buildLeaf, hm, hp, bind, Except.bind, pure, Except.pure]

theorem hang_put {v : Value} {path path' : List PNode} (h : put v path = .ok path') : ∃ h' rest, hang path = .ok (h', rest) ∧ attach v h' rest = path' := by
  unfold put at h
  split at h
  · cases h
  · cases h
  · cases h; exact ⟨_, _, rfl, rfl⟩
  · cases h; exact ⟨_, _, rfl, rfl⟩
  · cases h
  · cases h; exact ⟨_, _, rfl, rfl⟩
  · cases h; exact ⟨_, _, rfl, rfl⟩
  · next k n' s h' ms n r =>
    unfold SMap.appendChecked at h
    split at h
    · cases h
    · next hl =>
      simp only [bind, Except.bind, pure, Except.pure, Except.ok.injEq] at h
      subst h
      refine ⟨.key k, ⟨.str s h' ms, n⟩ :: r, ?_, rfl⟩
      simp only [hang, if_neg hl]
  · cases h

theorem container {b : XB} {m : Option STree} {path' : List PNode} {v : Value} {mk : Bool → Hang → Node} {eo ec : Event} {body : List Event}
    (hm : matchSecret b.path = .ok (found m)) (hp : put (wrap (found m).1 v) b.path = .ok path') (ho : build cfg b eo = buildOpen mk b)
    (hbody : ∀ h r, ∃ n es, applyEvents (builder cfg) { b with path := ⟨mk (found m).1 h, (found m).2⟩ :: r } body = ({ b with path := ⟨n, es⟩ :: r }, none) ∧
      ∀ b', build cfg { b with path := ⟨n, es⟩ :: r } ec = .ok b' ↔ b' = { b with path := attach (wrap (found m).1 v) h r }) :
    applyEvents (builder cfg) b (eo :: (body ++ [ec])) = ({ b with path := path' }, none) := by
  obtain ⟨h, rest, h1, h2⟩ := hang_put hp
  have e1 : (builder cfg).build b eo = .ok { b with path := ⟨mk (found m).1 h, (found m).2⟩ :: rest } := by
    change build cfg b eo = _
    rw [ho]
    simp only [buildOpen, hm, h1, bind, Except.bind, pure, Except.pure]
  rw [applyEvents_cons e1, applyEvents_append]
  obtain ⟨n, es, h3, h4⟩ := hbody h rest
  rw [h3]
  refine applyEvents_one ?_
  change build cfg _ ec = _
  rw [(h4 _).2 rfl, h2]

mutual
theorem xb_value : ∀ (v : Value), Ok cfg v → Held v → ∀ (b : XB) (m : Option STree) (path' : List PNode), matchSecret b.path = .ok (found m) →
    put (paint (fun d => cfg.date (g d)) m v) b.path = .ok path' → applyEvents (builder cfg) b (evsWith sz g v) = ({ b with path := path' }, none)
  | .int n, _, _, b, m, p, hm, hp => by simp only [paint] at hp; simp only [evsWith]; exact leaf rfl hm hp rfl
  | .bool n, _, _, b, m, p, hm, hp => by simp only [paint] at hp; simp only [evsWith]; exact leaf rfl hm hp rfl
  | .double n, _, _, b, m, p, hm, hp => by simp only [paint] at hp; simp only [evsWith]; exact leaf rfl hm hp rfl
  | .null, _, _, b, m, p, hm, hp => by simp only [paint] at hp; simp only [evsWith]; exact leaf rfl hm hp rfl
  | .binary n, _, _, b, m, p, hm, hp => by simp only [paint] at hp; simp only [evsWith]; exact leaf rfl hm hp rfl
  | .binaryRef n, _, _, b, m, p, hm, hp => by simp only [paint] at hp; simp only [evsWith]; exact leaf rfl hm hp rfl
  | .dateTime n, _, _, b, m, p, hm, hp => by simp only [paint] at hp; simp only [evsWith]; exact leaf rfl hm hp rfl
  | .string s, h, _, b, m, p, hm, hp => by
    simp only [paint] at hp; simp only [evsWith]
    refine leaf (r := if cfg.strOk s then .ok (.string s) else .error .type) ?_ hm hp rfl
    simp only [XmlBuild.Ok] at h
    rw [if_pos h]
  | .stringView s, h, _, b, m, p, hm, hp => by
    simp only [paint] at hp; simp only [evsWith]
    refine leaf (r := if cfg.strOk s then .ok (.string s) else .error .type) ?_ hm hp rfl
    simp only [XmlBuild.Ok] at h
    rw [if_pos h]
  | .secret v, h, h2, b, m, p, hm, hp => by
    simp only [XmlBuild.Ok] at h; simp only [Held] at h2
    simp only [paint] at hp; simp only [evsWith]
    exact xb_value v h h2 b m p hm hp
  | .array vs, h, h2, b, m, p, hm, hp => by
    simp only [XmlBuild.Ok] at h; simp only [Held] at h2
    simp only [paint] at hp; simp only [evsWith]
    refine container (mk := fun s h => .arr s h []) hm hp rfl ?_
    intro hg r
    have := xb_items vs h h2 { b with path := ⟨.arr (found m).1 hg [], (found m).2⟩ :: r } r (.arr (found m).1 hg) (found m).2 (.inl ⟨_, _, rfl⟩) [] rfl
    refine ⟨_, _, this, fun b' => ?_⟩
    simp only [List.nil_append, List.length_nil, build, popArray, bind, Except.bind, pure, Except.pure, Except.ok.injEq]
    exact eq_comm
  | .struct ms, h, h2, b, m, p, hm, hp => by
    simp only [XmlBuild.Ok] at h; simp only [Held] at h2
    simp only [paint] at hp; simp only [evsWith]
    refine container (mk := fun s h => .str s h []) hm hp rfl ?_
    intro hg r
    have := xb_members ms h h2.2 { b with path := ⟨.str (found m).1 hg [], (found m).2⟩ :: r } r (found m).1 hg (found m).2 [] rfl (by simpa [List.pairwise_map] using h2.1)
    refine ⟨_, _, this, fun b' => ?_⟩
    simp only [List.nil_append, build, popStruct, bind, Except.bind, pure, Except.pure, Except.ok.injEq]
    exact eq_comm
theorem xb_items : ∀ (vs : List Value), OkItems cfg vs → HeldItems vs → ∀ (b : XB) (r : List PNode) (mk : List Value → Node) (es : Option Edges),
    ((∃ s h, mk = .arr s h) ∨ ∃ name, mk = .call name) → ∀ acc, b.path = ⟨mk acc, es⟩ :: r →
    applyEvents (builder cfg) b (evsWithItems sz g vs) = ({ b with path := ⟨mk (acc ++ paintItems (fun d => cfg.date (g d)) es acc.length vs), es⟩ :: r }, none)
  | [], _, _, b, r, mk, es, _, acc, hb => by simp [evsWithItems, applyEvents, paintItems, ← hb]
  | v :: vs, h, h2, b, r, mk, es, hk, acc, hb => by
    simp only [OkItems] at h; simp only [HeldItems] at h2
    have hm : matchSecret b.path = .ok (found (es.bind (findIndex acc.length))) := by
      rw [hb]
      rcases hk with ⟨s, h, rfl⟩ | ⟨name, rfl⟩ <;> cases es <;> rfl
    have hp : put (paint (fun d => cfg.date (g d)) (es.bind (findIndex acc.length)) v) b.path =
        .ok (⟨mk (acc ++ [paint (fun d => cfg.date (g d)) (es.bind (findIndex acc.length)) v]), es⟩ :: r) := by
      rw [hb]
      rcases hk with ⟨s, h, rfl⟩ | ⟨name, rfl⟩ <;> rfl
    simp only [evsWithItems]
    rw [applyEvents_append, xb_value v h.1 h2.1 b _ _ hm hp]
    simp only
    rw [xb_items vs h.2 h2.2 _ r mk es hk _ rfl]
    simp [paintItems]
theorem xb_members : ∀ (ms : List (Bytes × Value)), OkMembers cfg ms → HeldMembers ms → ∀ (b : XB) (r : List PNode) (s : Bool) (h : Hang) (es : Option Edges) (acc : List (Bytes × Value)),
    b.path = ⟨.str s h acc, es⟩ :: r → (acc.map (·.1) ++ ms.map (·.1)).Pairwise (fun a b => keyLt a b = true) →
    applyEvents (builder cfg) b (evsWithMembers sz g ms) = ({ b with path := ⟨.str s h (acc ++ paintMembers (fun d => cfg.date (g d)) es ms), es⟩ :: r }, none)
  | [], _, _, b, r, s, h, es, acc, hb, _ => by simp [evsWithMembers, applyEvents, paintMembers, ← hb]
  | (k, v) :: ms, h, h2, b, r, s, hg, es, acc, hb, hs => by
    simp only [OkMembers] at h; simp only [HeldMembers] at h2
    have e1 : (builder cfg).build b (.member k) = .ok { b with path := ⟨.member k, es⟩ :: ⟨.str s hg acc, es⟩ :: r } := by
      change build cfg b (.member k) = _
      simp only [build, hb, pushName, bind, Except.bind, pure, Except.pure]
    have hm : matchSecret (⟨.member k, es⟩ :: ⟨.str s hg acc, es⟩ :: r) = .ok (found (es.bind (findKey k))) := by
      cases es <;> rfl
    have ha : SMap.append k (paint (fun d => cfg.date (g d)) (es.bind (findKey k)) v) acc = acc ++ [(k, paint (fun d => cfg.date (g d)) (es.bind (findKey k)) v)] := by
      apply append_last
      intro x hx
      rw [List.pairwise_append] at hs
      exact hs.2.2 x.1 (List.mem_map.2 ⟨x, hx, rfl⟩) k (by simp)
    have hp : put (paint (fun d => cfg.date (g d)) (es.bind (findKey k)) v) (⟨.member k, es⟩ :: ⟨.str s hg acc, es⟩ :: r) =
        .ok (⟨.str s hg (acc ++ [(k, paint (fun d => cfg.date (g d)) (es.bind (findKey k)) v)]), es⟩ :: r) := by
      simp only [put, SMap.appendChecked, if_neg (show ¬ k.length > 255 by have := h.1; omega), ha, bind, Except.bind, pure, Except.pure]
    simp only [evsWithMembers]
    rw [applyEvents_cons e1, applyEvents_append, xb_value v h.2.1 h2.1 _ _ _ hm hp]
    simp only
    rw [xb_members ms h.2.2 h2.2 _ r s hg es _ rfl (by simpa using hs)]
    simp [paintMembers]
end

/-! ## The values -/

theorem plain_wrap (f : DateTime → DateTime) (s : Bool) (v : Value) : plainWith f (wrap s v) = plainWith f v := by
  cases s <;> simp [wrap, plainWith]

mutual
theorem plain_paint (f : DateTime → DateTime) : ∀ (v : Value) (m : Option STree), plainWith id (paint f m v) = plainWith f v
  | .secret v, m => by simp only [paint, plainWith, plain_paint f v m]
  | .array vs, m => by simp only [paint, plain_wrap, plainWith, plain_paintItems f vs]
  | .struct ms, m => by simp only [paint, plain_wrap, plainWith, plain_paintMembers f ms]
  | .int _, m | .bool _, m | .double _, m | .null, m | .string _, m | .stringView _, m | .binary _, m | .binaryRef _, m | .dateTime _, m => by simp [paint, plain_wrap, plainWith]
theorem plain_paintItems (f : DateTime → DateTime) : ∀ (vs : List Value) (es : Option Edges) (i : Nat), plainItemsWith id (paintItems f es i vs) = plainItemsWith f vs
  | [], _, _ => rfl
  | v :: vs, es, i => by simp only [paintItems, plainItemsWith, plain_paint f v, plain_paintItems f vs]
theorem plain_paintMembers (f : DateTime → DateTime) : ∀ (ms : List (Bytes × Value)) (es : Option Edges), plainMembersWith id (paintMembers f es ms) = plainMembersWith f ms
  | [], _ => rfl
  | (k, v) :: ms, es => by simp only [paintMembers, plainMembersWith, plain_paint f v, plain_paintMembers f ms]
end

/-! ## The marks -/

theorem items_get (f : DateTime → DateTime) (es : Option Edges) : ∀ (vs : List Value) (i j : Nat), (paintItems f es i vs)[j]? = (vs[j]?).map (paint f (es.bind (findIndex (i + j))))
  | [], i, j => by simp [paintItems]
  | v :: vs, i, 0 => by simp [paintItems]
  | v :: vs, i, j + 1 => by
    simp only [paintItems, List.getElem?_cons_succ, items_get f es vs (i + 1) j]
    rw [show i + 1 + j = i + (j + 1) by omega]

theorem members_mem (f : DateTime → DateTime) (es : Option Edges) : ∀ (ms : List (Bytes × Value)) (k : Bytes) (w : Value), (k, w) ∈ paintMembers f es ms ↔ ∃ v, (k, v) ∈ ms ∧ w = paint f (es.bind (findKey k)) v
  | [], k, w => by simp [paintMembers]
  | (k', v) :: ms, k, w => by
    simp only [paintMembers, List.mem_cons, members_mem f es ms k w, Prod.mk.injEq]
    constructor
    · rintro (⟨rfl, rfl⟩ | ⟨u, h1, h2⟩)
      · exact ⟨v, .inl ⟨rfl, rfl⟩, rfl⟩
      · exact ⟨u, .inr h1, h2⟩
    · rintro ⟨u, (⟨rfl, rfl⟩ | h1), h2⟩
      · exact .inl ⟨rfl, h2⟩
      · exact .inr ⟨u, h1, h2⟩

theorem secretAt_wrap {s : Bool} {v : Value} {p : List Seg} : SecretAt (wrap s v) p ↔ (s = true ∧ p = []) ∨ SecretAt v p := by
  cases s with
  | false => simp [wrap]
  | true =>
    simp only [wrap, if_true, true_and]
    constructor
    · rintro (_ | ⟨_, _, h⟩)
      · exact .inl rfl
      · exact .inr h
    · rintro (rfl | h)
      · exact .here v
      · exact .inside v p h

theorem secretAt_array {vs : List Value} {p : List Seg} : SecretAt (.array vs) p ↔ ∃ i v q, p = .index i :: q ∧ vs[i]? = some v ∧ SecretAt v q := by
  constructor
  · rintro (_ | _ | ⟨_, i, v, hi, q, h⟩); exact ⟨i, v, q, rfl, hi, h⟩
  · rintro ⟨i, v, q, rfl, hi, h⟩; exact .item vs i v hi q h

theorem secretAt_struct {ms : List (Bytes × Value)} {p : List Seg} : SecretAt (.struct ms) p ↔ ∃ k v q, p = .key k :: q ∧ (k, v) ∈ ms ∧ SecretAt v q := by
  constructor
  · rintro (_ | _ | _ | ⟨_, k, v, hk, q, h⟩); exact ⟨k, v, q, rfl, hk, h⟩
  · rintro ⟨k, v, q, rfl, hk, h⟩; exact .member ms k v hk q h

mutual
theorem paint_none (f : DateTime → DateTime) : ∀ (v : Value) (p : List Seg), ¬ SecretAt (paint f none v) p
  | .secret v, p => by simp only [paint]; exact paint_none f v p
  | .array vs, p => by
    simp only [paint, found, secretAt_wrap, secretAt_array]
    rintro (⟨h, -⟩ | ⟨i, w, q, rfl, hi, h⟩)
    · cases h
    · exact paintItems_none f vs 0 i w hi q h
  | .struct ms, p => by
    simp only [paint, found, secretAt_wrap, secretAt_struct]
    rintro (⟨h, -⟩ | ⟨i, w, q, rfl, hi, h⟩)
    · cases h
    · exact paintMembers_none f ms i w hi q h
  | .int _, p | .bool _, p | .double _, p | .null, p | .string _, p | .stringView _, p | .binary _, p | .binaryRef _, p | .dateTime _, p => by
    simp only [paint, found, wrap]; intro h; cases h
theorem paintItems_none (f : DateTime → DateTime) : ∀ (vs : List Value) (n i : Nat) (w : Value), (paintItems f none n vs)[i]? = some w → ∀ q, ¬ SecretAt w q
  | [], n, i, w, h, _ => by simp [paintItems] at h
  | v :: vs, n, 0, w, h, q => by
    simp only [paintItems, List.getElem?_cons_zero, Option.some.injEq] at h
    subst h
    exact paint_none f v q
  | v :: vs, n, i + 1, w, h, q => by
    simp only [paintItems, List.getElem?_cons_succ] at h
    exact paintItems_none f vs (n + 1) i w h q
theorem paintMembers_none (f : DateTime → DateTime) : ∀ (ms : List (Bytes × Value)) (k : Bytes) (w : Value), (k, w) ∈ paintMembers f none ms → ∀ q, ¬ SecretAt w q
  | [], k, w, h, _ => by simp [paintMembers] at h
  | (k', v) :: ms, k, w, h, q => by
    simp only [paintMembers, List.mem_cons] at h
    rcases h with h | h
    · cases h; exact paint_none f v q
    · exact paintMembers_none f ms k w h q
end

/-- The keys of pointers. -/
def keys (L : List (List Seg)) : List (List Bytes) := L.map fun p => p.map keyOf

theorem keys_all (L : List (List Seg)) : (keys L).all List.isEmpty = L.all List.isEmpty := by
  unfold keys
  rw [List.all_map]
  congr 1
  funext p
  cases p <;> rfl

theorem below_index (i : Nat) : ∀ (L : List (List Seg)), (∀ p ∈ L, ∀ s q, p = s :: q → ∃ j, s = .index j) → below (dec i) (keys L) = keys (below (.index i) L)
  | [], _ => rfl
  | [] :: L, h => by
    have := below_index i L (fun p hp => h p (List.mem_cons_of_mem _ hp))
    simpa [keys, below] using this
  | (s :: p) :: L, h => by
    obtain ⟨j, rfl⟩ := h (s :: p) (by simp) s p rfl
    have ih := below_index i L (fun p hp => h p (List.mem_cons_of_mem _ hp))
    unfold keys at ih ⊢
    simp only [List.map_cons, below, keyOf]
    by_cases hj : j = i
    · subst hj; simp [ih]
    · rw [if_neg (fun h => hj (dec_inj h)), if_neg (by simpa using hj), ih]

theorem below_key (k : Bytes) : ∀ (L : List (List Seg)), (∀ p ∈ L, ∀ s q, p = s :: q → ∃ j, s = .key j) → below k (keys L) = keys (below (.key k) L)
  | [], _ => rfl
  | [] :: L, h => by
    have := below_key k L (fun p hp => h p (List.mem_cons_of_mem _ hp))
    simpa [keys, below] using this
  | (s :: p) :: L, h => by
    obtain ⟨j, rfl⟩ := h (s :: p) (by simp) s p rfl
    have ih := below_key k L (fun p hp => h p (List.mem_cons_of_mem _ hp))
    unfold keys at ih ⊢
    simp only [List.map_cons, below, keyOf]
    by_cases hj : j = k
    · subst hj; simp [ih]
    · rw [if_neg hj, if_neg (by simpa using hj), ih]

/-- The pointers without those to the root. -/
def proper (L : List (List Seg)) : List (List Seg) := L.filter fun p => !p.isEmpty

theorem below_proper (s : Seg) : ∀ (L : List (List Seg)), below s (proper L) = below s L
  | [] => rfl
  | [] :: L => by have := below_proper s L; unfold proper at this ⊢; simpa [below] using this
  | (t :: p) :: L => by
    have := below_proper s L
    unfold proper at this ⊢
    simp only [List.filter_cons, List.isEmpty_cons, Bool.not_false, if_true, below, this]

theorem mem_proper {L : List (List Seg)} {p : List Seg} : p ∈ proper L ↔ p ∈ L ∧ p ≠ [] := by
  unfold proper
  cases p <;> simp

theorem below_same (s : Seg) : ∀ (L : List (List Seg)), below s (L.map (s :: ·)) = L
  | [] => rfl
  | p :: L => by simp [below, below_same s L]

theorem below_other {s t : Seg} (h : t ≠ s) : ∀ (L : List (List Seg)), below s (L.map (t :: ·)) = []
  | [] => rfl
  | p :: L => by simp [below, h, below_other h L]

theorem below_items : ∀ (vs : List Value) (n i : Nat) (v : Value), vs[i]? = some v → below (.index (n + i)) (placesItems n vs) = places v
  | [], _, _, _, h => by simp at h
  | w :: vs, n, 0, v, h => by
    simp only [List.getElem?_cons_zero, Option.some.injEq] at h
    subst h
    simp only [placesItems, below_append, Nat.add_zero, below_same]
    have : ∀ (vs : List Value) (m : Nat), n < m → below (.index n) (placesItems m vs) = [] := by
      intro vs
      induction vs with
      | nil => intros; rfl
      | cons u vs ih =>
        intro m hm
        simp only [placesItems, below_append]
        rw [below_other (by intro h; injection h; omega), ih (m + 1) (by omega)]; rfl
    rw [this vs (n + 1) (by omega), List.append_nil]
  | w :: vs, n, i + 1, v, h => by
    simp only [List.getElem?_cons_succ] at h
    have ih := below_items vs (n + 1) i v h
    simp only [placesItems, below_append]
    rw [below_other (by intro h; injection h; omega), List.nil_append, show n + (i + 1) = n + 1 + i by omega, ih]

theorem below_members : ∀ (ms : List (Bytes × Value)), (ms.map (·.1)).Nodup → ∀ k v, (k, v) ∈ ms → below (.key k) (placesMembers ms) = places v
  | [], _, _, _, h => by simp at h
  | (k', w) :: ms, hn, k, v, h => by
    simp only [List.map_cons, List.nodup_cons] at hn
    simp only [placesMembers, below_append]
    rcases List.mem_cons.1 h with h | h
    · injection h with h1 h2
      subst h1 h2
      rw [below_same]
      have : ∀ (ms : List (Bytes × Value)), k ∉ ms.map (·.1) → below (.key k) (placesMembers ms) = [] := by
        intro ms
        induction ms with
        | nil => intros; rfl
        | cons u ms ih =>
          obtain ⟨k2, u⟩ := u
          intro hk
          simp only [List.map_cons, List.mem_cons, not_or] at hk
          simp only [placesMembers, below_append]
          rw [below_other (by intro h; injection h with h; exact hk.1 h.symm), ih hk.2]; rfl
      rw [this ms hn.1, List.append_nil]
    · rw [below_other, List.nil_append, below_members ms hn.2 k v h]
      intro h2
      injection h2 with h2
      subst h2
      exact hn.1 (List.mem_map.2 ⟨_, h, rfl⟩)

theorem nodup_of_sorted {ms : List (Bytes × Value)} (h : ms.Pairwise (fun a b => keyLt a.1 b.1 = true)) : (ms.map (·.1)).Nodup := by
  unfold List.Nodup
  rw [List.pairwise_map]
  refine h.imp ?_
  intro a b hab he
  rw [he, keyLt_irrefl] at hab
  cases hab

/-- Where secrets are after the transfer, given the pointers. -/
def Kept (L : List (List Seg)) (p : List Seg) : Prop := p ∈ L ∧ (∀ q, q ≠ [] → p ++ q ∉ L) ∧ ∀ i, .index i ∈ p → ¬ InnerZero i

theorem kept_cons {s : Seg} {L : List (List Seg)} {p : List Seg} : Kept L (s :: p) ↔ Kept (below s L) p ∧ ∀ i, s = .index i → ¬ InnerZero i := by
  unfold Kept
  simp only [mem_below, List.cons_append, List.mem_cons]
  constructor
  · rintro ⟨h1, h2, h3⟩
    exact ⟨⟨h1, h2, fun i hi => h3 i (.inr hi)⟩, fun i hi => h3 i (.inl hi.symm)⟩
  · rintro ⟨⟨h1, h2, h3⟩, h4⟩
    refine ⟨h1, h2, fun i hi => ?_⟩
    rcases hi with hi | hi
    · exact h4 i hi.symm
    · exact h3 i hi

theorem kept_nil {L : List (List Seg)} : Kept L [] ↔ L ≠ [] ∧ L.all List.isEmpty = true := by
  unfold Kept
  simp only [List.nil_append, List.not_mem_nil, false_implies, implies_true, and_true]
  constructor
  · rintro ⟨h1, h2⟩
    refine ⟨List.ne_nil_of_mem h1, List.all_eq_true.2 fun q hq => ?_⟩
    cases q with
    | nil => rfl
    | cons s q => exact absurd hq (h2 _ (by simp))
  · rintro ⟨h1, h2⟩
    rw [List.all_eq_true] at h2
    obtain ⟨p, L, rfl⟩ := List.exists_cons_of_ne_nil h1
    refine ⟨?_, fun q hq hm => hq (by simpa using h2 q hm)⟩
    have := h2 p (by simp)
    simp only [List.isEmpty_iff] at this
    subst this
    simp

theorem found_classify (L : List (List Seg)) : found (classify (keys L)) = (decide (L ≠ [] ∧ L.all List.isEmpty = true), if L.all List.isEmpty then none else some (treeOf (keys L))) := by
  unfold classify
  by_cases h0 : L = []
  · subst h0; rfl
  · have hk : keys L ≠ [] := by unfold keys; simpa using h0
    rw [if_neg hk, keys_all]
    by_cases h1 : L.all List.isEmpty = true
    · rw [if_pos h1, if_pos h1]; simp [found, h0]; simpa using h1
    · rw [if_neg h1, if_neg h1]; simp only [found, Prod.mk.injEq, and_true]
      rw [eq_comm, decide_eq_false_iff_not]
      exact fun h => h1 h.2

theorem all_of_proper {L : List (List Seg)} (h : L.all List.isEmpty = true) : proper L = [] := by
  unfold proper
  rw [List.filter_eq_nil_iff]
  intro p hp
  rw [List.all_eq_true] at h
  simp [h p hp]

theorem classify_none {L : List (List Seg)} (h : L = []) : classify (keys L) = none := by subst h; rfl

mutual
theorem paint_marks (f : DateTime → DateTime) : ∀ (v : Value), Held v → ∀ (L : List (List Seg)), proper L = proper (places v) → (∀ p ∈ L, ∀ x ∈ p, Seg.Plain x) →
    ∀ p, SecretAt (paint f (classify (keys L)) v) p ↔ Kept L p
  | .secret v, hh, L, hL, hpl, p => by
    simp only [Held] at hh
    simp only [paint]
    refine paint_marks f v hh L ?_ hpl p
    rw [hL]
    simp [places, proper]
  | .array vs, hh, L, hL, hpl, p => by
    simp only [Held] at hh
    simp only [paint, secretAt_wrap, secretAt_array, found_classify, decide_eq_true_eq]
    have hheads : ∀ p ∈ L, ∀ s q, p = s :: q → ∃ j, s = .index j := by
      rintro p hp s q rfl
      have : (s :: q) ∈ proper L := mem_proper.2 ⟨hp, by simp⟩
      rw [hL] at this
      obtain ⟨j, v, q', -, h, -⟩ := (mem_placesItems vs 0 _).1 (by simpa only [places] using (mem_proper.1 this).1)
      injection h with h _
      exact ⟨_, h⟩
    cases p with
    | nil =>
      rw [kept_nil]
      simp
    | cons s p =>
      rw [kept_cons]
      have hnn : ¬ ((L ≠ [] ∧ L.all List.isEmpty = true) ∧ s :: p = []) := by rintro ⟨-, h⟩; cases h
      simp only [hnn, false_or, List.cons.injEq]
      by_cases hall : L.all List.isEmpty = true
      · rw [if_pos hall]
        have hb : below s L = [] := by rw [← below_proper, all_of_proper hall]; rfl
        rw [hb]
        constructor
        · rintro ⟨i, w, q, ⟨rfl, rfl⟩, hi, h⟩
          exact absurd h (paintItems_none f vs 0 i w hi _)
        · rintro ⟨⟨h, -⟩, -⟩
          cases h
      · rw [if_neg hall]
        have hbel : ∀ i v, vs[i]? = some v → below (.index (0 + i)) L = places v := fun i v hiv => by
          rw [← below_proper, hL, below_proper]
          simp only [places]
          exact below_items vs 0 i v hiv
        constructor
        · rintro ⟨i, w, q, ⟨rfl, rfl⟩, hi, h⟩
          have hm := paintItems_marks f vs hh L 0 hbel hpl hheads i w hi p
          simp only [Nat.zero_add] at hm
          exact (kept_cons).1 (hm.1 h)
        · rintro h
          have hk : Kept L (s :: p) := kept_cons.2 h
          obtain ⟨i, rfl⟩ := hheads _ hk.1 s p rfl
          have : (.index i :: p) ∈ proper L := mem_proper.2 ⟨hk.1, by simp⟩
          rw [hL] at this
          obtain ⟨j, v, q', hj, hq, -⟩ := (mem_placesItems vs 0 _).1 (by simpa only [places] using (mem_proper.1 this).1)
          injection hq with hq _
          injection hq with hq
          have hij : i = j := by omega
          subst hij
          have hg := items_get f (some (treeOf (keys L))) vs 0 i
          rw [hj, Nat.zero_add] at hg
          refine ⟨i, _, p, ⟨rfl, rfl⟩, hg, ?_⟩
          have hm := paintItems_marks f vs hh L 0 hbel hpl hheads i _ hg p
          simp only [Nat.zero_add] at hm
          exact hm.2 hk
  | .struct ms, hh, L, hL, hpl, p => by
    simp only [Held] at hh
    simp only [paint, secretAt_wrap, secretAt_struct, found_classify, decide_eq_true_eq]
    have hheads : ∀ p ∈ L, ∀ s q, p = s :: q → ∃ j, s = .key j := by
      rintro p hp s q rfl
      have : (s :: q) ∈ proper L := mem_proper.2 ⟨hp, by simp⟩
      rw [hL] at this
      obtain ⟨j, v, q', -, h, -⟩ := (mem_placesMembers ms _).1 (by simpa only [places] using (mem_proper.1 this).1)
      injection h with h _
      exact ⟨_, h⟩
    cases p with
    | nil =>
      rw [kept_nil]
      simp
    | cons s p =>
      rw [kept_cons]
      have hnn : ¬ ((L ≠ [] ∧ L.all List.isEmpty = true) ∧ s :: p = []) := by rintro ⟨-, h⟩; cases h
      simp only [hnn, false_or, List.cons.injEq]
      by_cases hall : L.all List.isEmpty = true
      · rw [if_pos hall]
        have hb : below s L = [] := by rw [← below_proper, all_of_proper hall]; rfl
        rw [hb]
        constructor
        · rintro ⟨i, w, q, ⟨rfl, rfl⟩, hi, h⟩
          exact absurd h (paintMembers_none f ms i w hi _)
        · rintro ⟨⟨h, -⟩, -⟩
          cases h
      · rw [if_neg hall]
        have hbel : ∀ k v, (k, v) ∈ ms → below (.key k) L = places v := fun k v hkv => by
          rw [← below_proper, hL, below_proper]
          simp only [places]
          exact below_members ms (nodup_of_sorted hh.1) k v hkv
        constructor
        · rintro ⟨k, w, q, ⟨rfl, rfl⟩, hk, h⟩
          have hm := paintMembers_marks f ms hh.2 L hbel hpl hheads k w hk p
          exact (kept_cons).1 (hm.1 h)
        · rintro h
          have hk : Kept L (s :: p) := kept_cons.2 h
          obtain ⟨k, rfl⟩ := hheads _ hk.1 s p rfl
          have : (.key k :: p) ∈ proper L := mem_proper.2 ⟨hk.1, by simp⟩
          rw [hL] at this
          obtain ⟨j, v, q', hj, hq, -⟩ := (mem_placesMembers ms _).1 (by simpa only [places] using (mem_proper.1 this).1)
          injection hq with hq _
          injection hq with hq
          subst hq
          have hg := (members_mem f (some (treeOf (keys L))) ms k _).2 ⟨v, hj, rfl⟩
          refine ⟨k, _, p, ⟨rfl, rfl⟩, hg, ?_⟩
          exact (paintMembers_marks f ms hh.2 L hbel hpl hheads k _ hg p).2 hk
  | .int _, _, L, hL, _, p | .bool _, _, L, hL, _, p | .double _, _, L, hL, _, p | .null, _, L, hL, _, p | .string _, _, L, hL, _, p | .stringView _, _, L, hL, _, p
  | .binary _, _, L, hL, _, p | .binaryRef _, _, L, hL, _, p | .dateTime _, _, L, hL, _, p => by
    simp only [paint, secretAt_wrap, found_classify, decide_eq_true_eq]
    have hempty : proper L = [] := by rw [hL]; simp [places, proper]
    constructor
    · rintro (⟨h, rfl⟩ | h)
      · exact kept_nil.2 h
      · cases h
    · intro h
      cases p with
      | nil => exact .inl ⟨kept_nil.1 h, rfl⟩
      | cons s p =>
        have : (s :: p) ∈ proper L := mem_proper.2 ⟨h.1, by simp⟩
        rw [hempty] at this
        cases this
theorem paintItems_marks (f : DateTime → DateTime) : ∀ (vs : List Value), HeldItems vs → ∀ (L : List (List Seg)) (n : Nat), (∀ i v, vs[i]? = some v → below (.index (n + i)) L = places v) →
    (∀ p ∈ L, ∀ x ∈ p, Seg.Plain x) → (∀ p ∈ L, ∀ s q, p = s :: q → ∃ j, s = .index j) →
    ∀ i w, (paintItems f (some (treeOf (keys L))) n vs)[i]? = some w → ∀ p, SecretAt w p ↔ Kept L (.index (n + i) :: p)
  | [], _, L, n, _, _, _, i, w, h, _ => by simp [paintItems] at h
  | v :: vs, hh, L, n, hb, hpl, hheads, 0, w, h, p => by
    simp only [HeldItems] at hh
    simp only [paintItems, List.getElem?_cons_zero, Option.some.injEq, Option.bind_some] at h
    subst h
    have hbv := hb 0 v rfl
    simp only [Nat.add_zero] at hbv ⊢
    rw [kept_cons, hbv]
    have hkeys : ∀ e ∈ treeOf (keys L), ∃ j, j < 2 ^ 32 ∧ e.1 = dec j := by
      intro e he
      obtain ⟨l, hl⟩ := keys_treeOf _ e he
      unfold keys at hl
      simp only [List.mem_map] at hl
      obtain ⟨q, hq, h1⟩ := hl
      cases q with
      | nil => cases h1
      | cons s q =>
        obtain ⟨j, rfl⟩ := hheads _ hq s q rfl
        simp only [List.map_cons, List.cons.injEq, keyOf] at h1
        exact ⟨j, hpl _ hq (.index j) (by simp), h1.1.symm⟩
    by_cases hz : InnerZero n
    · have hn : findIndex n (treeOf (keys L)) = none := findIndex_none _ (fun e he => by
        obtain ⟨j, hj, h1⟩ := hkeys e he
        exact ⟨j, hj, h1, fun _ => hz⟩)
      rw [hn]
      constructor
      · intro h; exact absurd h (paint_none f v p)
      · rintro ⟨-, h⟩; exact absurd hz (h n rfl)
    · have hfind : findIndex n (treeOf (keys L)) = classify (keys (places v)) := by
        by_cases hn : n < 2 ^ 32
        · rw [findIndex_good hn hz _ hkeys, findKey_treeOf, below_index n L hheads, hbv]
        · have hn' : findIndex n (treeOf (keys L)) = none := findIndex_none _ (fun e he => by
            obtain ⟨j, hj, h1⟩ := hkeys e he
            exact ⟨j, hj, h1, fun h => by omega⟩)
          rw [hn']
          have : places v = [] := by
            rw [← hbv]
            refine List.eq_nil_iff_forall_not_mem.2 fun q hq => ?_
            have := hpl _ (mem_below.1 hq) (.index n) (by simp)
            exact hn this
          rw [this]; rfl
      rw [hfind]
      rw [paint_marks f v hh.1 (places v) rfl (fun q hq x hx => by
        rw [← hbv] at hq
        exact hpl _ (mem_below.1 hq) x (by simp [hx])) p]
      constructor
      · exact fun h => ⟨h, fun i hi => by injection hi with hi; subst hi; exact hz⟩
      · exact fun h => h.1
  | v :: vs, hh, L, n, hb, hpl, hheads, i + 1, w, h, p => by
    simp only [HeldItems] at hh
    simp only [paintItems, List.getElem?_cons_succ] at h
    have := paintItems_marks f vs hh.2 L (n + 1) (fun j u hu => by
      have := hb (j + 1) u (by simpa using hu)
      rw [← this, show n + 1 + j = n + (j + 1) by omega]) hpl hheads i w h p
    rw [this, show n + 1 + i = n + (i + 1) by omega]
theorem paintMembers_marks (f : DateTime → DateTime) : ∀ (ms : List (Bytes × Value)), HeldMembers ms → ∀ (L : List (List Seg)), (∀ k v, (k, v) ∈ ms → below (.key k) L = places v) →
    (∀ p ∈ L, ∀ x ∈ p, Seg.Plain x) → (∀ p ∈ L, ∀ s q, p = s :: q → ∃ j, s = .key j) →
    ∀ k w, (k, w) ∈ paintMembers f (some (treeOf (keys L))) ms → ∀ p, SecretAt w p ↔ Kept L (.key k :: p)
  | [], _, L, _, _, _, k, w, h, _ => by simp [paintMembers] at h
  | (k', v) :: ms, hh, L, hb, hpl, hheads, k, w, h, p => by
    simp only [HeldMembers] at hh
    simp only [paintMembers, List.mem_cons, Option.bind_some] at h
    rcases h with h | h
    · injection h with h1 h2
      subst h1 h2
      have hbv := hb k v (by simp)
      rw [kept_cons, findKey_treeOf, below_key k L hheads, hbv]
      rw [paint_marks f v hh.1 (places v) rfl (fun q hq x hx => by
        rw [← hbv] at hq
        exact hpl _ (mem_below.1 hq) x (by simp [hx])) p]
      constructor
      · exact fun h => ⟨h, fun i hi => by cases hi⟩
      · exact fun h => h.1
    · exact paintMembers_marks f ms hh.2 L (fun k u hu => hb k u (List.mem_cons_of_mem _ hu)) hpl hheads k w h p
end

end Secrets
end Frpc
