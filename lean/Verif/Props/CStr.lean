import Verif.Model.CStr
/-!
# C153: texts given as C strings
-/
namespace Frpc

namespace CStrSpec

/-- A C string: a text without NUL, the NUL that ends it, and whatever follows in memory. -/
def Points (p t : Bytes) : Prop := (0 : UInt8) ∉ t ∧ ∃ junk, p = t ++ 0 :: junk

/-- The call with a size that a call with a C string stands for. -/
inductive Means : CStr.Op → PackOp → Prop
  | sized (op : PackOp) : Means (.sized op) op
  | member {p t : Bytes} : Points p t → Means (.member p) (.packStructMember t)
  | string {p t : Bytes} : Points p t → Means (.string p) (.packString t)
  | fault {p t : Bytes} (code : Int) : Points p t → Means (.fault code p) (.packFault code t)
  | call {p t : Bytes} : Points p t → Means (.call p) (.packMethodCall t)

/-- Calls one by one. -/
inductive MeansAll : List CStr.Op → List PackOp → Prop
  | nil : MeansAll [] []
  | cons {o : CStr.Op} {op : PackOp} {os : List CStr.Op} {ops : List PackOp} : Means o op → MeansAll os ops → MeansAll (o :: os) (op :: ops)

/-- The text of an operation that has one. -/
def textOf : PackOp → Bytes
  | .packStructMember t => t
  | .packString t => t
  | .packFault _ t => t
  | .packMethodCall t => t
  | _ => []

/-- The same for calls of a builder. -/
inductive MeansB : CStr.BuildOp → Event → Prop
  | sized (e : Event) : MeansB (.sized e) e
  | fault {p t : Bytes} (code : Int) : Points p t → MeansB (.fault code p) (.fault code t)
  | call {p t : Bytes} : Points p t → MeansB (.call p) (.methodCall t)
  | string {p t : Bytes} : Points p t → MeansB (.string p) (.string t)
  | member {p t : Bytes} : Points p t → MeansB (.member p) (.member t)

/-- Calls one by one. -/
inductive MeansAllB : List CStr.BuildOp → List Event → Prop
  | nil : MeansAllB [] []
  | cons {o : CStr.BuildOp} {e : Event} {os : List CStr.BuildOp} {es : List Event} : MeansB o e → MeansAllB os es → MeansAllB (o :: os) (e :: es)

/-- The text of a call of a builder that has one. -/
def textOfB : Event → Bytes
  | .fault _ t => t
  | .methodCall t => t
  | .string t => t
  | .member t => t
  | _ => []

end CStrSpec
open CStrSpec

namespace CStr

theorem strlen_points {p t : Bytes} (h : Points p t) : strlen p = some t.length := by
  obtain ⟨h0, junk, rfl⟩ := h
  induction t with
  | nil => simp [strlen]
  | cons c t ih =>
    have hc : c ≠ 0 := fun e => h0 (by simp [e])
    rw [List.cons_append, strlen, if_neg hc, ih (fun h => h0 (List.mem_cons_of_mem _ h))]
    rfl

theorem strlen_some {p : Bytes} {n : Nat} (h : strlen p = some n) : ∃ t, Points p t := by
  induction p generalizing n with
  | nil => cases h
  | cons c p ih =>
    rw [strlen] at h
    by_cases hc : c = 0
    · exact ⟨[], by simp, p, by rw [hc]; rfl⟩
    · rw [if_neg hc] at h
      cases hp : strlen p with
      | none => rw [hp] at h; cases h
      | some m =>
        obtain ⟨t, h0, junk, e⟩ := ih hp
        refine ⟨c :: t, ?_, junk, by rw [e]; rfl⟩
        intro hm
        rcases List.mem_cons.1 hm with h | h
        · exact hc h.symm
        · exact h0 h

theorem text_points {p t : Bytes} (h : Points p t) : text p = .ok (t.take (t.length % 2 ^ 32)) := by
  unfold text
  rw [strlen_points h]
  obtain ⟨-, junk, rfl⟩ := h
  have : t.length % 2 ^ 32 ≤ t.length := Nat.mod_le _ _
  simp only
  rw [List.take_append_of_le_length this]

theorem text_short {p t : Bytes} (h : Points p t) (hl : t.length < 2 ^ 32) : text p = .ok t := by
  rw [text_points h, Nat.mod_eq_of_lt hl, List.take_length]

theorem lower_means {o : Op} {op : PackOp} (h : Means o op) (hl : (textOf op).length < 2 ^ 32) : lower o = .ok op := by
  cases h with
  | sized => rfl
  | member hp => simp only [lower, text_short hp hl]; rfl
  | string hp => simp only [lower, text_short hp hl]; rfl
  | fault code hp => simp only [lower, text_short hp hl]; rfl
  | call hp => simp only [lower, text_short hp hl]; rfl

theorem lowerAll_means {os : List Op} {ops : List PackOp} (h : MeansAll os ops) (hl : ∀ op ∈ ops, (textOf op).length < 2 ^ 32) : lowerAll os = .ok ops := by
  induction h with
  | nil => rfl
  | cons h1 _ ih =>
    rw [lowerAll, lower_means h1 (hl _ (by simp))]
    simp only
    rw [ih fun op hm => hl op (List.mem_cons_of_mem _ hm)]
    rfl

theorem buildLower_means {o : BuildOp} {e : Event} (h : MeansB o e) (hl : (textOfB e).length < 2 ^ 32) : buildLower o = .ok e := by
  cases h with
  | sized => rfl
  | fault code hp => simp only [buildLower, text_short hp hl]; rfl
  | call hp => simp only [buildLower, text_short hp hl]; rfl
  | string hp => simp only [buildLower, text_short hp hl]; rfl
  | member hp => simp only [buildLower, text_short hp hl]; rfl

end CStr
open CStr

/-- **C153 (partial).** Any calls of the marshallers, some of them with C strings, write the same as the calls with the texts and their sizes – the same bytes, or the same beginning and the same exception –
whatever follows the strings in memory, for texts shorter than 4 GiB. Missing: longer ones (`C153_long_violated`). -/
theorem C153_same_partial (strOk : Bytes → Bool) (dbl : BitVec 64 → Bytes) (ver : Version) {os : List CStr.Op} {ops : List PackOp} (h : MeansAll os ops) (hl : ∀ op ∈ ops, (textOf op).length < 2 ^ 32) :
    CStr.binary strOk ver os = .ok (BinMarshaller.run strOk ver ops) ∧ CStr.xml dbl ver os = .ok (XmlMarshaller.run dbl ver ops) := by
  unfold CStr.binary CStr.xml
  rw [lowerAll_means h hl]
  exact ⟨rfl, rfl⟩

/-- **C153 (builders, partial).** The same of any builder: calls with C strings leave it, and end, as those with the texts and their sizes do. Missing: texts of 4 GiB and more (`C153_build_long_violated`). -/
theorem C153_build_partial {β : Type} (B : BinUnMarshaller.Builder β) (b : β) {os : List CStr.BuildOp} {es : List Event} (h : MeansAllB os es) (hl : ∀ e ∈ es, (textOfB e).length < 2 ^ 32) :
    CStr.build B b os = BinUnMarshaller.applyEvents B b es := by
  induction h generalizing b with
  | nil => rfl
  | cons h1 _ ih =>
    rw [CStr.build, BinUnMarshaller.applyEvents, buildLower_means h1 (hl _ (by simp))]
    simp only
    cases hb : B.build b _ with
    | error x => rfl
    | ok b' => exact ih b' fun e he => hl e (List.mem_cons_of_mem _ he)

/-- **C153 is false of builders** that are given texts of 4 GiB and more: they get a shorter text. -/
theorem C153_build_long_violated {β : Type} (B : BinUnMarshaller.Builder β) (b : β) {p t : Bytes} (hp : Points p t) (h32 : 2 ^ 32 ≤ t.length) :
    ∃ u, u.length = t.length % 2 ^ 32 ∧ u <+: t ∧ u ≠ t ∧ CStr.build B b [.string p] = BinUnMarshaller.applyEvents B b [.string u] := by
  have hlen : (t.take (t.length % 2 ^ 32)).length = t.length % 2 ^ 32 := by
    rw [List.length_take]; exact Nat.min_eq_left (Nat.mod_le _ _)
  have hmod : t.length % 2 ^ 32 < 2 ^ 32 := Nat.mod_lt _ (by decide)
  refine ⟨_, hlen, List.take_prefix _ _, fun e => ?_, ?_⟩
  · rw [e] at hlen; omega
  · have ht : buildLower (.string p) = .ok (.string (t.take (t.length % 2 ^ 32))) := by
      simp only [buildLower, text_points hp]; rfl
    rw [CStr.build, ht, BinUnMarshaller.applyEvents]
    simp only
    cases B.build b _ <;> rfl

/-- **C153 (where a string ends).** A pointer into memory with a NUL after it is a C string in one way: up to the first NUL; without any, reading it is undefined. -/
theorem C153_ends (p : Bytes) : (∀ t u, Points p t → Points p u → t = u) ∧ ((0 : UInt8) ∈ p ↔ ∃ t, Points p t) ∧ ((0 : UInt8) ∉ p ↔ CStr.text p = .error .ub) := by
  have hE : (0 : UInt8) ∈ p ↔ ∃ t, Points p t := by
    constructor
    · intro h
      induction p with
      | nil => cases h
      | cons c p ih =>
        by_cases hc : c = 0
        · exact ⟨[], by simp, p, by rw [hc]; rfl⟩
        · obtain ⟨t, h0, junk, e⟩ := ih ((List.mem_cons.1 h).resolve_left fun e => hc e.symm)
          refine ⟨c :: t, ?_, junk, by rw [e]; rfl⟩
          intro hm
          rcases List.mem_cons.1 hm with h | h
          · exact hc h.symm
          · exact h0 h
    · rintro ⟨t, -, junk, rfl⟩
      simp
  refine ⟨fun t u ht hu => ?_, hE, ?_, ?_⟩
  · have h := (strlen_points ht).symm.trans (strlen_points hu)
    simp only [Option.some.injEq] at h
    obtain ⟨-, j, e⟩ := ht
    obtain ⟨-, k, e'⟩ := hu
    rw [e] at e'
    exact (List.append_inj e' h).1
  · intro h
    unfold text
    cases hs : strlen p with
    | none => rfl
    | some n => exact absurd (hE.2 (strlen_some hs)) h
  · intro h hm
    obtain ⟨t, ht⟩ := hE.1 hm
    rw [text_points ht] at h
    cases h

/-- **C153 is false of texts of 4 GiB and more**: their lengths are taken modulo 2^32, and the rest is lost without an exception; a method name or a member name that is far too long
is not refused but cut to a short one. -/
theorem C153_long_violated (strOk : Bytes → Bool) (ver : Version) {p t : Bytes} (hp : Points p t) (h32 : 2 ^ 32 ≤ t.length) :
    (∃ u, u.length = t.length % 2 ^ 32 ∧ u <+: t ∧ u ≠ t ∧ CStr.binary strOk ver [.string p] = .ok (BinMarshaller.run strOk ver [.packString u])) ∧
    (∀ k, 0 < k → k ≤ 255 → t.length = 2 ^ 32 + k → CStr.binary strOk ver [.call p] = .ok ([BinMarshaller.packMagic ver, [BinMarshaller.dataType T_CALL 0], [UInt8.ofNat k], t.take k], none) ∧
      (BinMarshaller.run strOk ver [.packMethodCall t]).2 = some .len) := by
  have ht := text_points hp
  have hmod : t.length % 2 ^ 32 < 2 ^ 32 := Nat.mod_lt _ (by decide)
  have hlen : (t.take (t.length % 2 ^ 32)).length = t.length % 2 ^ 32 := by
    rw [List.length_take]; exact Nat.min_eq_left (Nat.mod_le _ _)
  constructor
  · refine ⟨_, hlen, List.take_prefix _ _, fun e => ?_, ?_⟩
    · rw [e] at hlen; omega
    · unfold CStr.binary
      simp only [lowerAll, lower, ht]
      rfl
  · intro k hk hk' hl
    have hm : t.length % 2 ^ 32 = k := by omega
    rw [hm] at ht hlen
    constructor
    · unfold CStr.binary
      simp only [lowerAll, lower, ht, Except.map, BinMarshaller.run, BinMarshaller.pack, hlen]
      rw [if_neg (by simp; omega)]
      rfl
    · simp only [BinMarshaller.run, BinMarshaller.pack]
      rw [if_pos (by simp; omega)]

/-- Calls with C strings, and what they write. -/
example : MeansAll [.call (asc "add" ++ 0 :: asc "junk"), .sized (.packInt 5), .string [0]] [.packMethodCall (asc "add"), .packInt 5, .packString []] :=
  .cons (.call ⟨by decide, asc "junk", rfl⟩) (.cons (.sized _) (.cons (.string ⟨by simp, [], rfl⟩) .nil))
example : CStr.binary (fun _ => true) ⟨2, 1⟩ [.call (asc "add" ++ 0 :: asc "junk"), .sized (.packInt 5), .string [0]] =
    .ok ([[0xCA, 0x11, 2, 1], [0x68], [3], asc "add", [0x38], [5], [0x20], [0], []], none) := by decide +kernel
/-- Calls of a builder that takes no faults. -/
example : CStr.build (β := List Event) ⟨fun l e => match e with | .fault _ _ => .error .type | e => .ok (l ++ [e])⟩ [] [.call (asc "m" ++ 0 :: asc "x"), .sized (.int 5), .string [65, 0, 66], .fault 3 [67, 0], .member [0]] =
    ([.methodCall (asc "m"), .int 5, .string [65]], some .type) := by decide +kernel
/-- There are texts of any length, and so as long as that. -/
example (n : Nat) : ∃ t : Bytes, (0 : UInt8) ∉ t ∧ t.length = n := ⟨List.replicate n 65, by simp [List.mem_replicate], List.length_replicate⟩

end Frpc
