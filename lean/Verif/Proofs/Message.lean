import Verif.Proofs.Build
/-! # Whole messages: headers, arguments, faults -/
namespace Frpc
open BinMarshaller BinUnMarshaller TreeBuilder

variable {req : Req} {stop : Bool} {β : Type} {B : Builder β}

/-- Steps that use up the whole stream give the result of any division of it into pieces. -/
theorem _root_.Frpc.BinUnMarshaller.Steps.all {bytes : Bytes} {es : List Event} {c : Core} {b b' : β}
    (h : Steps req false init.core bytes es c []) (hw : 0 < c.wanted) (ha : applyEvents B b es = (b', none))
    (ps : List Bytes) (hps : ps.flatten = bytes) :
    unMarshallAll B req init b ps = (⟨c, []⟩, b', none) := by
  obtain ⟨m, hm⟩ := h.eval ha (Eval.more (B := B) (req := req) (stop := false) (c := c) (p := []) (b := b') (by simp; omega))
  obtain ⟨c2, p2, b2, x2, n2, q, h4, h5, h6, _⟩ := unMarshallAll_eval (B := B) (req := req) (o := init) (b := b) (ps := ps) Rest.init
  have h4' : Eval B req false init.core bytes b c2 (p2 ++ q) b2 x2 n2 := by rw [← hps]; exact h4
  obtain ⟨rfl, hp, rfl, rfl, _⟩ := h4'.det hm
  have hp2 : p2 = [] ∧ q = [] := by simpa using hp
  rw [h5, hp2.1]
  rfl

/-- The decoder after a message header. -/
def top (ver : Version) (fault : Nat) (errNo : Int) : Core :=
  { st := .valueType, wanted := 1, stack := [], fault := fault, errNo := errNo, ver := ver }

theorem top_ready (ver : Version) (e : Int) : Ready ver (top ver 0 e) := ⟨⟨.inl ⟨rfl, rfl⟩, rfl, rfl⟩, rfl⟩

theorem after_top (ver : Version) (e : Int) : after (top ver 0 e) = top ver 0 e := rfl

theorem dec_magic {ver : Version} (hv : ver.Known) (q : Bytes) :
    Steps req stop init.core (packMagic ver ++ q) [] { init.core with st := .body, wanted := 1, ver := ver } q := by
  refine Steps.one rfl ?_
  obtain ⟨maj, min⟩ := ver
  simp only [step, BinUnMarshaller.init, packMagic, rd, List.getElem?_cons_zero, List.getElem?_cons_succ, bind, Except.bind, pure, Except.pure,
    throw, throwThe, MonadExceptOf.throw]
  rw [if_neg (by simp), if_neg]
  intro h
  rcases hv.cases with hm | hm | hm <;> (simp only at hm; subst hm; revert h; decide)

theorem dec_response {ver : Version} (hv : ver.Known) (hreq : req = .response ∨ req = .any) (q : Bytes) :
    Steps req stop init.core (packMagic ver ++ (dataType T_RESPONSE 0 :: q)) [.methodResponse] (top ver 0 0) q := by
  have s1 := dec_magic (req := req) (stop := stop) hv (dataType T_RESPONSE 0 :: q)
  have s2 : Steps req stop { init.core with st := .body, wanted := 1, ver := ver } (dataType T_RESPONSE 0 :: q) [.methodResponse] (top ver 0 0) q := by
    refine Steps.one (d := [_]) rfl ?_
    rcases hreq with rfl | rfl <;> rfl
  exact s1.trans s2

theorem dec_fault {ver : Version} (hv : ver.Known) (hreq : req ≠ .call) (q : Bytes) :
    Steps req stop init.core (packMagic ver ++ (dataType T_FAULT 0 :: q)) [] (top ver 1 0) q := by
  have s1 := dec_magic (req := req) (stop := stop) hv (dataType T_FAULT 0 :: q)
  have s2 : Steps req stop { init.core with st := .body, wanted := 1, ver := ver } (dataType T_FAULT 0 :: q) [] (top ver 1 0) q := by
    refine Steps.one (d := [_]) rfl ?_
    cases req <;> first | rfl | exact absurd rfl hreq
  exact s1.trans s2

theorem dec_call {ver : Version} (hv : ver.Known) (hreq : req = .call ∨ req = .any) (name q : Bytes)
    (h1 : 1 ≤ name.length) (h2 : name.length ≤ 255) :
    Steps req stop init.core (packMagic ver ++ (dataType T_CALL 0 :: UInt8.ofNat name.length :: (name ++ q)))
      [.methodCall name] (top ver 0 0) q := by
  have hb : (UInt8.ofNat name.length).toNat = name.length := by rw [UInt8.toNat_ofNat']; omega
  have s1 := dec_magic (req := req) (stop := stop) hv (dataType T_CALL 0 :: UInt8.ofNat name.length :: (name ++ q))
  have s2 : Steps req stop { init.core with st := .body, wanted := 1, ver := ver }
      (dataType T_CALL 0 :: UInt8.ofNat name.length :: (name ++ q)) []
      { init.core with st := .methodNameLen, wanted := 1, ver := ver } (UInt8.ofNat name.length :: (name ++ q)) := by
    refine Steps.one (d := [_]) rfl ?_
    rcases hreq with rfl | rfl <;> rfl
  have s3 : Steps req stop { init.core with st := .methodNameLen, wanted := 1, ver := ver } (UInt8.ofNat name.length :: (name ++ q))
      [] { init.core with st := .methodName, wanted := name.length, ver := ver } (name ++ q) := by
    refine Steps.one (d := [_]) rfl ?_
    simp only [step, rd, List.getElem?_cons_zero, bind, Except.bind, pure, Except.pure, throw, throwThe, MonadExceptOf.throw]
    rw [if_neg, hb]
    intro h
    have := congrArg UInt8.toNat h
    rw [hb] at this
    simp at this
    rw [this] at h1; simp at h1
  have s4 : Steps req stop { init.core with st := .methodName, wanted := name.length, ver := ver } (name ++ q)
      [.methodCall name] (top ver 0 0) q := by
    refine Steps.one rfl ?_
    rfl
  exact s1.trans (s2.trans (s3.trans s4))

/-- Arguments of a call: values at the outermost level. -/
theorem codecTop {strOk : Bytes → Bool} {ver : Version} (hv : ver.Known) (e : Int) : ∀ (vs : List Value), WireOkItems strOk ver vs → ∃ ws,
    run strOk ver (feedItems vs) = (ws, none) ∧
    ∀ q, Steps req stop (top ver 0 e) (ws.flatten ++ q) (evsItems ver vs) (top ver 0 e) q
  | [], _ => ⟨[], rfl, fun _ => .refl⟩
  | v :: vs, h => by
    unfold WireOkItems at h
    obtain ⟨w1, hw1, hd1⟩ := codec (req := req) (stop := stop) hv v h.1
    obtain ⟨w2, hw2, hd2⟩ := codecTop hv e vs h.2
    refine ⟨w1 ++ w2, ?_, fun q => ?_⟩
    · simp only [feedItems]; rw [run_append _ _ _ _ _ hw1, hw2]
    · rw [List.flatten_append, List.append_assoc]
      have s1 := hd1 (top ver 0 e) (w2.flatten ++ q) (top_ready ver e)
      rw [after_top] at s1
      have s1' : Steps req stop (top ver 0 e) (w1.flatten ++ (w2.flatten ++ q)) (evs ver v) (top ver 0 e) (w2.flatten ++ q) := by
        simpa [top, closeUp] using s1
      exact s1'.trans (hd2 q)

/-! ### Fault payload -/

theorem dec_fault_body {ver : Version} (hv : ver.Known) (code : Int) (msg q : Bytes) (hc : IsI64 code)
    (h1 : ver.major = 1 → 0 ≤ code ∧ code < 2 ^ 32) (hm : msg.length < 2 ^ 30) :
    Steps req stop (top ver 1 0) ((packInt ver code).flatten ++ ((sized ver T_STRING msg.length).flatten ++ (msg ++ q)))
      [.fault (i32 (u32 code)) msg] (top ver 3 code) q := by
  have s1 : Steps req stop (top ver 1 0) ((packInt ver code).flatten ++ ((sized ver T_STRING msg.length).flatten ++ (msg ++ q)))
      [] (top ver 2 code) ((sized ver T_STRING msg.length).flatten ++ (msg ++ q)) :=
    dec_int0 hv ⟨.inl ⟨rfl, rfl⟩, rfl, rfl⟩ code _ hc h1 (fun _ _ => rfl)
  have s2 := dec_blob0 (req := req) (stop := stop) (c := top ver 2 code) (c1 := top ver 3 code) (es := [.fault (i32 (u32 code)) msg])
    hv ⟨.inl ⟨rfl, rfl⟩, rfl, rfl⟩ msg q hm true (fun _ _ => rfl)
  rw [List.append_assoc] at s2
  exact s1.trans s2

/-! ### What the receiver holds, as a transformation of what the sender held -/

open Spec (Held HeldItems HeldMembers Small SmallItems SmallMembers plainWith plainItemsWith plainMembersWith DatesAll DatesAllItems DatesAllMembers plain)

theorem keyLt_irrefl (a : Bytes) : keyLt a a = false := by
  induction a with
  | nil => rfl
  | cons x xs ih => simp [keyLt, ih]

theorem keyLt_asymm : ∀ (a b : Bytes), keyLt a b = true → keyLt b a = false
  | _, [], h => by simp [keyLt] at h
  | [], _ :: _, _ => by simp [keyLt]
  | a :: as, b :: bs, h => by
    simp only [keyLt] at h ⊢
    by_cases h1 : a.toNat < b.toNat
    · rw [if_neg (by omega), if_pos h1]
    · rw [if_neg h1] at h
      by_cases h2 : b.toNat < a.toNat
      · rw [if_pos h2] at h; cases h
      · rw [if_neg h2] at h
        rw [if_neg h2, if_neg h1]
        exact keyLt_asymm as bs h

/-- Appending a greater key puts it last. -/
theorem append_last {α} (k : Bytes) (v : α) (ms : List (Bytes × α)) (h : ∀ m ∈ ms, keyLt m.1 k = true) :
    SMap.append k v ms = ms ++ [(k, v)] := by
  have : SMap.insert k v ms = (ms ++ [(k, v)], true) := by
    induction ms with
    | nil => rfl
    | cons m ms ih =>
      obtain ⟨k', v'⟩ := m
      have h1 : keyLt k' k = true := h (k', v') (by simp)
      have h2 := keyLt_asymm _ _ h1
      have h3 : k ≠ k' := by intro e; subst e; rw [keyLt_irrefl] at h1; cases h1
      simp [SMap.insert, h2, h3, ih (fun m hm => h m (by simp [hm]))]
  simp [SMap.append, this]

theorem collect_sorted (acc ms : List (Bytes × Value)) (h : (acc ++ ms).Pairwise (fun a b => keyLt a.1 b.1 = true)) :
    collect acc ms = acc ++ ms := by
  induction ms generalizing acc with
  | nil => simp [collect]
  | cons m ms ih =>
    have h1 : SMap.append m.1 m.2 acc = acc ++ [m] := by
      apply append_last
      intro x hx
      rw [List.pairwise_append] at h
      exact h.2.2 x hx m (by simp)
    have := ih (acc ++ [m]) (by simpa using h)
    simp only [collect, List.foldl_cons] at this ⊢
    rw [h1, this]; simp

theorem receivedMembers_keys (cfg : Cfg) (ver : Version) (ms : List (Bytes × Value)) :
    (receivedMembers cfg ver ms).map (·.1) = ms.map (·.1) := by
  induction ms with
  | nil => simp [receivedMembers]
  | cons m ms ih => obtain ⟨k, v⟩ := m; simp [receivedMembers, ih]

theorem pairwise_keys {ms ms' : List (Bytes × Value)} (h : ms.map (·.1) = ms'.map (·.1))
    (hp : ms.Pairwise (fun a b => keyLt a.1 b.1 = true)) : ms'.Pairwise (fun a b => keyLt a.1 b.1 = true) := by
  have h1 : (ms.map (·.1)).Pairwise (fun a b => keyLt a b = true) := by rw [List.pairwise_map]; exact hp
  rw [h, List.pairwise_map] at h1
  exact h1

mutual
theorem received_plain (cfg : Cfg) (ver : Version) : ∀ v, Held v → received cfg ver v = plainWith (fun d => cfg.date (receivedDate ver d)) v
  | .int _, _ | .bool _, _ | .double _, _ | .string _, _ | .dateTime _, _ | .binary _, _ | .null, _ | .binaryRef _, _ | .stringView _, _ => by
    simp [received, plainWith]
  | .secret v, h => by
    unfold Held at h; simp only [received, plainWith]; exact received_plain cfg ver v h
  | .array vs, h => by
    unfold Held at h; simp only [received, plainWith]; rw [received_plainItems cfg ver vs h]
  | .struct ms, h => by
    unfold Held at h; simp only [received, plainWith]
    rw [collect_sorted _ _ (by rw [List.nil_append]; exact pairwise_keys (receivedMembers_keys cfg ver ms).symm h.1), List.nil_append,
      received_plainMembers cfg ver ms h.2]
theorem received_plainItems (cfg : Cfg) (ver : Version) : ∀ vs, HeldItems vs → receivedItems cfg ver vs = plainItemsWith (fun d => cfg.date (receivedDate ver d)) vs
  | [], _ => by simp [receivedItems, plainItemsWith]
  | v :: vs, h => by
    unfold HeldItems at h
    simp only [receivedItems, plainItemsWith]
    rw [received_plain cfg ver v h.1, received_plainItems cfg ver vs h.2]
theorem received_plainMembers (cfg : Cfg) (ver : Version) : ∀ ms, HeldMembers ms → receivedMembers cfg ver ms = plainMembersWith (fun d => cfg.date (receivedDate ver d)) ms
  | [], _ => by simp [receivedMembers, plainMembersWith]
  | (k, v) :: vs, h => by
    unfold HeldMembers at h
    simp only [receivedMembers, plainMembersWith]
    rw [received_plain cfg ver v h.1, received_plainMembers cfg ver vs h.2]
end

mutual
theorem plainWith_congr (f g : DateTime → DateTime) : ∀ v, DatesAll (fun d => f d = g d) v → plainWith f v = plainWith g v
  | .int _, _ | .bool _, _ | .double _, _ | .string _, _ | .binary _, _ | .null, _ | .binaryRef _, _ | .stringView _, _ => by
    simp [plainWith]
  | .dateTime d, h => by unfold DatesAll at h; simp only [plainWith]; rw [h]
  | .secret v, h => by
    unfold DatesAll at h; simp only [plainWith]; exact plainWith_congr f g v h
  | .array vs, h => by
    unfold DatesAll at h; simp only [plainWith]; rw [plainWith_congrItems f g vs h]
  | .struct ms, h => by
    unfold DatesAll at h; simp only [plainWith]; rw [plainWith_congrMembers f g ms h]
theorem plainWith_congrItems (f g : DateTime → DateTime) : ∀ vs, DatesAllItems (fun d => f d = g d) vs → plainItemsWith f vs = plainItemsWith g vs
  | [], _ => by simp [plainItemsWith]
  | v :: vs, h => by
    unfold DatesAllItems at h
    simp only [plainItemsWith]
    rw [plainWith_congr f g v h.1, plainWith_congrItems f g vs h.2]
theorem plainWith_congrMembers (f g : DateTime → DateTime) : ∀ ms, DatesAllMembers (fun d => f d = g d) ms → plainMembersWith f ms = plainMembersWith g ms
  | [], _ => by simp [plainMembersWith]
  | (k, v) :: vs, h => by
    unfold DatesAllMembers at h
    simp only [plainMembersWith]
    rw [plainWith_congr f g v h.1, plainWith_congrMembers f g vs h.2]
end

mutual
theorem DatesAll.imp {P Q : DateTime → Prop} (hpq : ∀ d, P d → Q d) : ∀ v, DatesAll P v → DatesAll Q v
  | .int _, _ | .bool _, _ | .double _, _ | .string _, _ | .binary _, _ | .null, _ | .binaryRef _, _ | .stringView _, _ => by
    simp [DatesAll]
  | .dateTime d, h => by unfold DatesAll at h ⊢; exact hpq d h
  | .secret v, h => by unfold DatesAll at h ⊢; exact DatesAll.imp hpq v h
  | .array vs, h => by unfold DatesAll at h ⊢; exact DatesAllItems.imp hpq vs h
  | .struct ms, h => by unfold DatesAll at h ⊢; exact DatesAllMembers.imp hpq ms h
theorem DatesAllItems.imp {P Q : DateTime → Prop} (hpq : ∀ d, P d → Q d) : ∀ vs, DatesAllItems P vs → DatesAllItems Q vs
  | [], _ => by simp [DatesAllItems]
  | v :: vs, h => by
    unfold DatesAllItems at h ⊢; exact ⟨DatesAll.imp hpq v h.1, DatesAllItems.imp hpq vs h.2⟩
theorem DatesAllMembers.imp {P Q : DateTime → Prop} (hpq : ∀ d, P d → Q d) : ∀ ms, DatesAllMembers P ms → DatesAllMembers Q ms
  | [], _ => by simp [DatesAllMembers]
  | (k, v) :: vs, h => by
    unfold DatesAllMembers at h ⊢; exact ⟨DatesAll.imp hpq v h.1, DatesAllMembers.imp hpq vs h.2⟩
end

/-! ### What the marshaller accepts -/

theorem run_append_none {strOk : Bytes → Bool} {ver : Version} (a b : List PackOp) (h : (run strOk ver (a ++ b)).2 = none) :
    (run strOk ver a).2 = none ∧ (run strOk ver b).2 = none := by
  induction a with
  | nil => exact ⟨rfl, h⟩
  | cons op ops ih =>
    simp only [List.cons_append, run] at h ⊢
    cases hp : pack strOk ver op with
    | mk w e =>
      rw [hp] at h
      cases e with
      | some e => simp at h
      | none => exact ih h

theorem run_one_none {strOk : Bytes → Bool} {ver : Version} (op : PackOp) (b : List PackOp) (h : (run strOk ver (op :: b)).2 = none) :
    (pack strOk ver op).2 = none ∧ (run strOk ver b).2 = none := by
  have := run_append_none [op] b h
  refine ⟨?_, this.2⟩
  have h1 := this.1
  simp only [run] at h1
  cases hp : pack strOk ver op with
  | mk w e =>
    rw [hp] at h1
    cases e with
    | some e => simp at h1
    | none => rfl

mutual
/-- Integers and timestamps are 64-bit. -/
def Ranged : Value → Prop
  | .int n => IsI64 n
  | .dateTime d => IsI64 d.unixTime
  | .array vs => RangedItems vs
  | .struct ms => RangedMembers ms
  | .secret v => Ranged v
  | _ => True
/-- For all elements. -/
def RangedItems : List Value → Prop
  | [] => True
  | v :: vs => Ranged v ∧ RangedItems vs
/-- For all members. -/
def RangedMembers : List (Bytes × Value) → Prop
  | [] => True
  | (_, v) :: ms => Ranged v ∧ RangedMembers ms
end

mutual
theorem held_ranged : ∀ v, Held v → Ranged v
  | .int _, h => by unfold Held at h; unfold Ranged; exact h
  | .dateTime _, h => by unfold Held at h; unfold Ranged; exact h
  | .array vs, h => by unfold Held at h; unfold Ranged; exact held_rangedItems vs h
  | .struct ms, h => by unfold Held at h; unfold Ranged; exact held_rangedMembers ms h.2
  | .secret v, h => by unfold Held at h; unfold Ranged; exact held_ranged v h
  | .bool _, _ | .double _, _ | .string _, _ | .binary _, _ | .null, _ | .binaryRef _, _ | .stringView _, _ => by simp [Ranged]
theorem held_rangedItems : ∀ vs, HeldItems vs → RangedItems vs
  | [], _ => by simp [RangedItems]
  | v :: vs, h => by unfold HeldItems at h; unfold RangedItems; exact ⟨held_ranged v h.1, held_rangedItems vs h.2⟩
theorem held_rangedMembers : ∀ ms, HeldMembers ms → RangedMembers ms
  | [], _ => by simp [RangedMembers]
  | (_, v) :: ms, h => by unfold HeldMembers at h; unfold RangedMembers; exact ⟨held_ranged v h.1, held_rangedMembers ms h.2⟩
end

mutual
/-- A tree of permitted size that the marshaller accepts can be transferred; the order of the members does not matter. -/
theorem rangedOk {strOk : Bytes → Bool} {ver : Version} (hv : 2 ≤ ver.major) : ∀ v, Ranged v → Small v →
    (run strOk ver (feed v)).2 = none → WireOk strOk ver v
  | .int n, h, _, _ => by
    unfold Ranged at h; unfold WireOk; exact ⟨h, fun h1 => absurd (h1 ▸ hv) (by decide)⟩
  | .bool _, _, _, _ => by simp [WireOk]
  | .double _, _, _, _ => by simp [WireOk]
  | .string s, _, hs, hr => by
    unfold Small at hs; unfold WireOk
    refine ⟨hs, ?_⟩
    simp only [feed, sz32_take hs] at hr
    have := (run_one_none _ _ hr).1
    simp only [pack, packString] at this
    cases h : strOk s <;> simp_all
  | .stringView s, _, hs, hr => by
    unfold Small at hs; unfold WireOk
    refine ⟨hs, ?_⟩
    simp only [feed, sz32_take hs] at hr
    have := (run_one_none _ _ hr).1
    simp only [pack, packString] at this
    cases h : strOk s <;> simp_all
  | .binary s, _, hs, hr => by unfold Small at hs; unfold WireOk; exact hs
  | .binaryRef s, _, hs, hr => by unfold Small at hs; unfold WireOk; exact hs
  | .dateTime d, h, _, hr => by
    unfold Ranged at h; unfold WireOk
    refine ⟨h, fun hm he => ?_⟩
    simp only [feed] at hr
    have := (run_one_none _ _ hr).1
    simp only [pack, packDateTime] at this
    rw [if_neg (by simpa using hm), if_pos he] at this
    simp at this
  | .null, _, _, hr => by
    unfold WireOk Version.HasNull
    simp only [feed] at hr
    have := (run_one_none _ _ hr).1
    simp only [pack] at this
    intro hn
    rw [if_pos (by simpa using hn)] at this
    simp at this
  | .secret v, h, hs, hr => by
    unfold Ranged at h; unfold Small at hs; unfold WireOk
    simp only [feed] at hr
    exact rangedOk hv v h hs hr
  | .array vs, h, hs, hr => by
    unfold Ranged at h; unfold Small at hs; unfold WireOk
    simp only [feed] at hr
    exact ⟨hs.1, rangedItems hv vs h hs.2 (run_one_none _ _ hr).2⟩
  | .struct ms, h, hs, hr => by
    unfold Ranged at h; unfold Small at hs; unfold WireOk
    simp only [feed] at hr
    exact ⟨hs.1, rangedMembers hv ms h hs.2 (run_one_none _ _ hr).2⟩
theorem rangedItems {strOk : Bytes → Bool} {ver : Version} (hv : 2 ≤ ver.major) : ∀ vs, RangedItems vs → SmallItems vs →
    (run strOk ver (feedItems vs)).2 = none → WireOkItems strOk ver vs
  | [], _, _, _ => by simp [WireOkItems]
  | v :: vs, h, hs, hr => by
    unfold RangedItems at h; unfold SmallItems at hs; unfold WireOkItems
    simp only [feedItems] at hr
    have := run_append_none _ _ hr
    exact ⟨rangedOk hv v h.1 hs.1 this.1, rangedItems hv vs h.2 hs.2 this.2⟩
theorem rangedMembers {strOk : Bytes → Bool} {ver : Version} (hv : 2 ≤ ver.major) : ∀ ms, RangedMembers ms → SmallMembers ms →
    (run strOk ver (feedMembers ms)).2 = none → WireOkMembers strOk ver ms
  | [], _, _, _ => by simp [WireOkMembers]
  | (k, v) :: vs, h, hs, hr => by
    unfold RangedMembers at h; unfold SmallMembers at hs; unfold WireOkMembers
    simp only [feedMembers, sz32_take hs.1] at hr
    have h1 := run_one_none _ _ hr
    have := run_append_none _ _ h1.2
    refine ⟨?_, rangedOk hv v h.1 hs.2.1 this.1, rangedMembers hv vs h.2 hs.2.2 this.2⟩
    have h2 := h1.1
    simp only [pack] at h2
    by_cases hk : (decide (k.length > 255) || k.length == 0) = true
    · rw [if_pos hk] at h2; simp at h2
    · simp only [Bool.or_eq_true, decide_eq_true_eq, beq_iff_eq, not_or] at hk
      omega
end

/-- A tree of permitted size that the marshaller accepts can be transferred. -/
theorem accepted {strOk : Bytes → Bool} {ver : Version} (hv : 2 ≤ ver.major) (v : Value) (h : Held v) (hs : Small v)
    (hr : (run strOk ver (feed v)).2 = none) : WireOk strOk ver v := rangedOk hv v (held_ranged v h) hs hr
theorem acceptedItems {strOk : Bytes → Bool} {ver : Version} (hv : 2 ≤ ver.major) (vs : List Value) (h : HeldItems vs) (hs : SmallItems vs)
    (hr : (run strOk ver (feedItems vs)).2 = none) : WireOkItems strOk ver vs := rangedItems hv vs (held_rangedItems vs h) hs hr
theorem acceptedMembers {strOk : Bytes → Bool} {ver : Version} (hv : 2 ≤ ver.major) (ms : List (Bytes × Value)) (h : HeldMembers ms) (hs : SmallMembers ms)
    (hr : (run strOk ver (feedMembers ms)).2 = none) : WireOkMembers strOk ver ms := rangedMembers hv ms (held_rangedMembers ms h) hs hr

end Frpc
