import Verif.Props.RoundTrip
import Verif.Proofs.Prefix
import Verif.Proofs.StructMap
/-!
# Properties of the binary encoding itself (C19–C21) and repeated members (C62)
-/
namespace Frpc
open BinMarshaller BinUnMarshaller TreeBuilder
open Spec (Held HeldItems HeldMembers Small SmallItems SmallMembers plainWith plainItemsWith plainMembersWith DatesAll
  DatesAllItems DatesAllMembers plain)

/-! ### Names -/

/-- **C19 (marshaller).** A method name or member name is refused with a length error, nothing being written, exactly when it is empty or longer than 255
bytes; all others are accepted. -/
theorem C19_marshaller (strOk : Bytes → Bool) (ver : Version) (name : Bytes) :
    ∀ op ∈ [PackOp.packMethodCall name, .packStructMember name],
      (pack strOk ver op = ([], some .len) ↔ name.length = 0 ∨ 255 < name.length) ∧
      ((pack strOk ver op).2 = none ↔ 1 ≤ name.length ∧ name.length ≤ 255) := by
  intro op hop
  by_cases h : name.length = 0 ∨ 255 < name.length
  · have hc : (decide (name.length > 255) || name.length == 0) = true := by
      rw [Bool.or_eq_true, decide_eq_true_eq, beq_iff_eq]; omega
    have : pack strOk ver op = ([], some .len) := by
      simp only [List.mem_cons, List.not_mem_nil, or_false] at hop
      rcases hop with rfl | rfl <;> simp only [pack, hc, if_true]
    rw [this]
    exact ⟨⟨fun _ => h, fun _ => rfl⟩, ⟨(fun hx => by simp at hx), (fun _ => by omega)⟩⟩
  · have hc : (decide (name.length > 255) || name.length == 0) = false := by
      rw [Bool.or_eq_false_iff]; exact ⟨decide_eq_false (by omega), beq_eq_false_iff_ne.2 (by omega)⟩
    have : (pack strOk ver op).2 = none := by
      simp only [List.mem_cons, List.not_mem_nil, or_false] at hop
      rcases hop with rfl | rfl <;> simp only [pack, hc] <;> rfl
    refine ⟨⟨(fun hx => by rw [hx] at this; simp at this), fun hx => absurd hx h⟩, ⟨(fun _ => by omega), fun _ => this⟩⟩

/-- A decoder that is about to fail, whatever the division of the stream. -/
theorem reject_all {β} {B : Builder β} {req : Req} {bytes p : Bytes} {es : List Event} {c : Core} {b b1 : β} {e : Err}
    (hs : Steps req false BinUnMarshaller.init.core bytes es c p) (ha : applyEvents B b es = (b1, none))
    (hl : c.wanted ≤ p.length) (herr : step req false c (p.take c.wanted) = .error e) (ps : List Bytes) (hps : ps.flatten = bytes) :
    (unMarshallAll B req BinUnMarshaller.init b ps).2 = (b1, some e) := by
  obtain ⟨m, hm⟩ := hs.eval ha (Eval.err (B := B) (req := req) (stop := false) (b := b1) hl herr)
  obtain ⟨c2, p2, b2, x2, n2, q, h4, h5, h6, _⟩ := unMarshallAll_eval (B := B) (req := req) (o := BinUnMarshaller.init) (b := b) (ps := ps) Rest.init
  rw [hps] at h4
  obtain ⟨rfl, hp, rfl, rfl, _⟩ := h4.det hm
  rw [h5]; rfl

/-- **C19 (unmarshaller, method name).** A call header followed by a zero name length is rejected with a stream error and no builder call, however divided and whatever follows. -/
theorem C19_empty_method_rejected {β} (B : Builder β) (req : Req) (hreq : req = .call ∨ req = .any) (ver : Version) (hv : ver.Known)
    (b : β) (rest : Bytes) (ps : List Bytes) (hps : ps.flatten = packMagic ver ++ (dataType T_CALL 0 :: 0 :: rest)) :
    (unMarshallAll B req BinUnMarshaller.init b ps).2 = (b, some .stream) := by
  have s1 := dec_magic (req := req) (stop := false) hv (dataType T_CALL 0 :: 0 :: rest)
  have s2 : Steps req false { BinUnMarshaller.init.core with st := .body, wanted := 1, ver := ver } (dataType T_CALL 0 :: 0 :: rest) []
      { BinUnMarshaller.init.core with st := .methodNameLen, wanted := 1, ver := ver } (0 :: rest) := by
    refine Steps.one (d := [dataType T_CALL 0]) rfl ?_
    rcases hreq with rfl | rfl <;> rfl
  exact reject_all (s1.trans s2) (b1 := b) rfl (by simp) rfl ps hps

/-- **C19 (unmarshaller, member name).** In a response carrying a struct, after any number `ms.length` of members (fewer than announced), a zero name length
is rejected with a stream error; the members before it have been delivered. -/
theorem C19_empty_member_rejected {β} (B : Builder β) (req : Req) (hreq : req = .response ∨ req = .any) (strOk : Bytes → Bool) (ver : Version)
    (hv : ver.Known) (b b1 : β) (ms : List (Bytes × Value)) (hw : WireOkMembers strOk ver ms) (n : Nat) (hn : ms.length < n) (hn2 : n < 2 ^ 30)
    (hb : applyEvents B b ([.methodResponse, .openStruct n] ++ evsMembers ver ms) = (b1, none)) (rest : Bytes) :
    ∃ ws, BinMarshaller.run strOk ver (.packMethodResponse :: .packStruct n :: feedMembers ms) = (ws, none) ∧
      ∀ ps : List Bytes, ps.flatten = ws.flatten ++ 0 :: rest →
        (unMarshallAll B req BinUnMarshaller.init b ps).2 = (b1, some .stream) := by
  obtain ⟨wm, hr, hd⟩ := codecMembersPrefix (req := req) (stop := false) hv (n - ms.length - 1) ms hw
  refine ⟨[packMagic ver, [dataType T_RESPONSE 0]] ++ (sized ver T_STRUCT n ++ wm), ?_, fun ps hps => ?_⟩
  · rw [run_cons _ _ _ _ _ rfl, run_cons _ _ _ _ _ rfl, hr]
  · have s1 := dec_response (stop := false) hv hreq ((sized ver T_STRUCT n).flatten ++ (wm.flatten ++ 0 :: rest))
    have s2 := dec_open (req := req) (stop := false) hv (top_ready ver 0) .struct n hn2 (wm.flatten ++ 0 :: rest)
    rw [if_neg (by omega), if_neg (by omega)] at s2
    have s3 := hd (top ver 0 0) [] (0 :: rest) rfl rfl (by omega)
    have en : ms.length + (n - ms.length - 1) + 1 = n := by omega
    rw [en] at s3
    have s4 := (s1.trans s2).trans s3
    refine reject_all s4 hb (by simp [inside]) ?_ ps (by rw [hps]; simp)
    rfl

example : WireOkMembers plainCfg.strOk ⟨2, 1⟩ [(asc "a", .int 1), (asc "b", .null)] ∧ [(asc "a", Value.int 1), (asc "b", .null)].length < 3 := by
  simp only [WireOkMembers, WireOk]; decide

/-- **C19 (delivery).** Every method name and every member name of 1..255 bytes is delivered exactly. -/
theorem C19_delivered (strOk : Bytes → Bool) (ver : Version) (hv : ver.Known) (name : Bytes) (h1 : 1 ≤ name.length) (h2 : name.length ≤ 255) :
    (∃ ws, sendCall strOk ver name [] = (ws, none) ∧ ∀ ps, ps.flatten = ws.flatten → trace .call ps = [.methodCall name]) ∧
    (∃ ws, sendResponse strOk ver (.struct [(name, .bool true)]) = (ws, none) ∧ ∀ ps, ps.flatten = ws.flatten →
      trace .response ps = [.methodResponse, .openStruct 1, .member name, .bool true, .closeStruct]) := by
  have hc : (decide (name.length > 255) || name.length == 0) = false := by
    rw [Bool.or_eq_false_iff]; exact ⟨decide_eq_false (by omega), beq_eq_false_iff_ne.2 (by omega)⟩
  constructor
  · refine ⟨[packMagic ver, [dataType T_CALL 0], [UInt8.ofNat name.length], name], ?_, fun ps hps => ?_⟩
    · unfold sendCall
      refine run_one ?_
      simp only [pack, hc]; rfl
    · have s1 := dec_call (req := .call) (stop := false) hv (.inl rfl) name [] h1 h2
      have h := s1.all (B := traceBuilder) (b := []) (by simp [top]) (applyEvents_trace _ _) ps (by rw [hps]; simp)
      unfold trace
      rw [h]; rfl
  · obtain ⟨ws, hr, hd⟩ := codec (strOk := strOk) (req := .response) (stop := false) hv (.struct [(name, .bool true)])
      (by simp only [WireOk, WireOkMembers, List.length_cons, List.length_nil]; exact ⟨by omega, ⟨h1, h2⟩, trivial, trivial⟩)
    refine ⟨[packMagic ver, [dataType T_RESPONSE 0]] ++ ws, ?_, fun ps hps => ?_⟩
    · unfold sendResponse
      rw [run_cons _ _ _ _ _ rfl, hr]
    · have s1 := dec_response (req := .response) (stop := false) hv (.inl rfl) ws.flatten
      have s2 := hd (top ver 0 0) [] (top_ready ver 0)
      rw [List.append_nil, after_top] at s2
      have h := (s1.trans s2).all (B := traceBuilder) (b := []) (by simp [top]) (applyEvents_trace _ _) ps (by rw [hps]; simp)
      unfold trace
      rw [h]; rfl

example : 1 ≤ (asc "system.listMethods").length ∧ (asc "system.listMethods").length ≤ 255 := by decide

/-! ### Unambiguity -/

/-- General form of C20, any version, any values that fit it, date-times up to what the wire format keeps of them. -/
theorem encoding_prefix_free (strOk : Bytes → Bool) (ver : Version) (hv : ver.Known) (v w : Value) (hw1 : WireOk strOk ver v) (hw2 : WireOk strOk ver w)
    (wv ww : List Bytes) (h1 : BinMarshaller.run strOk ver (feed v) = (wv, none)) (h2 : BinMarshaller.run strOk ver (feed w) = (ww, none))
    (q r : Bytes) (h : wv.flatten ++ q = ww.flatten ++ r) :
    plainWith (receivedDate ver) v = plainWith (receivedDate ver) w ∧ q = r := by
  obtain ⟨wv', hr1, hd1⟩ := codec (req := .any) (stop := false) hv v hw1
  obtain ⟨ww', hr2, hd2⟩ := codec (req := .any) (stop := false) hv w hw2
  rw [h1] at hr1; cases hr1
  rw [h2] at hr2; cases hr2
  have a1 := hd1 (top ver 0 0) q (top_ready ver 0)
  have a2 := hd2 (top ver 0 0) r (top_ready ver 0)
  rw [after_top] at a1 a2
  simp only [top, closeUp, List.append_nil] at a1 a2
  rw [h] at a1
  have hok : Ok (top ver 0 0) := by
    have := dec_response (req := .any) (stop := false) hv (.inr rfl) []
    exact Steps.ok Rest.init.ok this
  have fin : ∀ (q r : Bytes) (es : List Event), Steps .any false (top ver 0 0) q es (top ver 0 0) r → es = [] → r = q := by
    intro q r es hs he
    rcases steps_silent hs hok rfl (by simp [top, IsEarly]) he rfl with ⟨_, h⟩ | h
    · exact h
    · exact h.elim
  rcases a1.linear a2 with ⟨es, hs, he⟩ | ⟨es, hs, he⟩
  · have := evs_prefix ver _ w v [] es (Nat.le_refl _) (by simpa using he)
    exact ⟨this.1.symm, (fin _ _ _ hs this.2.symm).symm⟩
  · have := evs_prefix ver _ v w [] es (Nat.le_refl _) (by simpa using he)
    exact ⟨this.1, fin _ _ _ hs this.2.symm⟩

/-- **C20.** If the encoding of one tree, followed by anything, is the encoding of another followed by anything, the trees are the same (up to `plain`: views,
references and secret marks are not part of the encoding) and so is what follows.  Hence different trees have different encodings and no encoding is a proper prefix of another. -/
theorem C20_unambiguous (strOk : Bytes → Bool) (ver : Version) (hv : ver.Known) (h2 : 2 ≤ ver.major) (v w : Value)
    (hv1 : Held v) (hv2 : Small v) (hv3 : DatesAll (DateOk ver) v) (hw1 : Held w) (hw2 : Small w) (hw3 : DatesAll (DateOk ver) w)
    (ev ew : List Bytes) (hev : BinMarshaller.run strOk ver (feed v) = (ev, none)) (hew : BinMarshaller.run strOk ver (feed w) = (ew, none))
    (q r : Bytes) (h : ev.flatten ++ q = ew.flatten ++ r) : plain v = plain w ∧ q = r := by
  obtain ⟨hp, hq⟩ := encoding_prefix_free strOk ver hv v w (accepted h2 v hv1 hv2 (by rw [hev])) (accepted h2 w hw1 hw2 (by rw [hew])) ev ew hev hew q r h
  refine ⟨?_, hq⟩
  unfold plain
  rw [plainWith_congr id (receivedDate ver) v (DatesAll.imp (fun d hd => by simp [hd.received]) v hv3),
      plainWith_congr id (receivedDate ver) w (DatesAll.imp (fun d hd => by simp [hd.received]) w hw3)]
  exact hp

/-- **C20 (corollary).** Equal encodings mean equal trees; an encoding is never a proper prefix of another. -/
theorem C20_injective (strOk : Bytes → Bool) (ver : Version) (hv : ver.Known) (h2 : 2 ≤ ver.major) (v w : Value)
    (hv1 : Held v) (hv2 : Small v) (hv3 : DatesAll (DateOk ver) v) (hw1 : Held w) (hw2 : Small w) (hw3 : DatesAll (DateOk ver) w)
    (ev ew : List Bytes) (hev : BinMarshaller.run strOk ver (feed v) = (ev, none)) (hew : BinMarshaller.run strOk ver (feed w) = (ew, none)) :
    (ev.flatten = ew.flatten → plain v = plain w) ∧ (ev.flatten <+: ew.flatten → ev.flatten = ew.flatten) := by
  constructor
  · intro h
    exact (C20_unambiguous strOk ver hv h2 v w hv1 hv2 hv3 hw1 hw2 hw3 ev ew hev hew [] [] (by simpa using h)).1
  · rintro ⟨t, ht⟩
    have := (C20_unambiguous strOk ver hv h2 v w hv1 hv2 hv3 hw1 hw2 hw3 ev ew hev hew t [] (by simpa using ht)).2
    subst this
    simpa using ht

example : BinMarshaller.run plainCfg.strOk ⟨3, 0⟩ (feed (.array [.int 1])) ≠ BinMarshaller.run plainCfg.strOk ⟨3, 0⟩ (feed (.array [.int (-1)])) := by
  decide

/-! ### Minimality -/

/-- `k` is the least positive number of bytes that can hold `n`. -/
def LeastBytes (n k : Nat) : Prop := 1 ≤ k ∧ n < 256 ^ k ∧ ∀ j, 1 ≤ j → j < k → 256 ^ j ≤ n

theorem leastBytes_of {n k : Nat} (h1 : 1 ≤ k) (h2 : n < 256 ^ k) (h3 : k = 1 ∨ 256 ^ (k - 1) ≤ n) : LeastBytes n k := by
  refine ⟨h1, h2, fun j hj hk => ?_⟩
  rcases h3 with rfl | h3
  · omega
  · exact Nat.le_trans (Nat.pow_le_pow_right (by omega) (by omega)) h3

theorem getNumberType_least (ver : Version) (n : Int) :
    LeastBytes (if ver.major < 2 then u32 n else u64 n) (getNumberSize ver (getNumberType ver n)) := by
  have h64 := u64_lt n
  have h32 : u32 n < 2 ^ 32 := by unfold u32; omega
  unfold getNumberSize getNumberType
  simp only
  by_cases hv : ver.major < 2
  · simp only [hv, if_true]
    repeat' split
    all_goals (apply leastBytes_of <;> omega)
  · simp only [hv, if_false]
    repeat' split
    all_goals (apply leastBytes_of <;> omega)

/-- The tag byte says how many bytes follow. -/
theorem tag_says (ver : Version) (t : Nat) (ht : t < 32) (n : Int) :
    ((dataType t (getNumberType ver n)).toNat &&& 7) + (if ver.major < 2 then 0 else 1) = getNumberSize ver (getNumberType ver n) := by
  rw [dataType_info ht (getNumberType_lt ver n)]
  unfold getNumberSize
  split <;> rfl

/-- **C21 (sizes).** The size field of every string, binary, array and struct is one tag byte and the least number of bytes holding the size, and the tag byte carries
that number (less one at major version ≥ 2). -/
theorem C21_sizes (ver : Version) (n : Nat) (hn : n < 2 ^ 32) (t : Nat) (ht : t ∈ [T_STRING, T_BINARY, T_ARRAY, T_STRUCT]) :
    ∃ (tag : UInt8) (bs : Bytes), sized ver t n = [[tag], bs] ∧ LeastBytes n bs.length ∧ leNat bs = n ∧
      (tag.toNat &&& 7) + (if ver.major < 2 then 0 else 1) = bs.length ∧ tag.toNat >>> 3 = t := by
  have ht' : t < 32 := by
    simp only [List.mem_cons, List.not_mem_nil, or_false] at ht
    rcases ht with rfl | rfl | rfl | rfl <;> decide
  have hu : u64 (n : Int) = n := u64_natCast (by omega)
  have h32 : u32 (n : Int) = n := by unfold u32; omega
  refine ⟨_, _, rfl, ?_, ?_, ?_, dataType_tag ht' (getNumberType_lt _ _)⟩
  · rw [size_length]
    have := getNumberType_least ver n
    rw [hu, h32] at this
    simpa using this
  · rw [leNat_number (getNumberSize_bound ver n).2 (getNumberSize_fits ver n (by rw [hu]; omega)), hu]
  · rw [size_length]; exact tag_says ver t ht' n

/-- **C21 (integers).** An integer takes one tag byte and the least number of bytes holding: its absolute value at protocol 2; its zigzag image
(`2n`, or `-2n-1` for negative `n`) at protocol 3; its value modulo `2^32` at protocol 1. -/
theorem C21_integers (ver : Version) (hv : ver.Known) (n : Int) (hn : IsI64 n) :
    ∃ (tag : UInt8) (bs : Bytes), packInt ver n = [[tag], bs] ∧
      (ver.major = 1 → LeastBytes (n % 2 ^ 32).toNat bs.length) ∧
      (ver.major = 2 → LeastBytes n.natAbs bs.length) ∧
      (ver.major = 3 → LeastBytes (if n < 0 then 2 * n.natAbs - 1 else 2 * n.natAbs) bs.length) := by
  unfold IsI64 at hn
  rcases hv.cases with h | h | h
  · have e : packInt ver n = [[dataType T_INT (getNumberType ver n)], number32 n (getNumberSize ver (getNumberType ver n))] := by
      unfold packInt; rw [if_neg (by rw [h]; decide), if_neg (by rw [h]; decide)]
    refine ⟨_, _, e, fun _ => ?_, fun h' => absurd (h.symm.trans h') (by decide), fun h' => absurd (h.symm.trans h') (by decide)⟩
    have hl := getNumberType_least ver n
    rw [if_pos (by rw [h]; decide)] at hl
    have hk : getNumberSize ver (getNumberType ver n) ≤ 4 := by
      unfold getNumberSize getNumberType
      simp only [show ver.major < 2 by rw [h]; decide, if_true]
      repeat' split
      all_goals omega
    have : (number32 n (getNumberSize ver (getNumberType ver n))).length = getNumberSize ver (getNumberType ver n) := by
      unfold number32
      rw [List.length_take, leBytes_length]; omega
    rw [this]
    exact hl
  · refine Exists.elim (?_ : ∃ (t : Nat) (m : Int), packInt ver n = [[dataType t (getNumberType ver m)], number m (getNumberSize ver (getNumberType ver m))] ∧ u64 m = n.natAbs) ?_
    · unfold packInt
      rw [if_neg (by rw [h]; decide), if_pos (by rw [h]; decide)]
      by_cases h0 : n < 0
      · rw [if_pos h0]
        refine ⟨_, _, rfl, ?_⟩
        rw [safeAbs_eq (by unfold IsI64; omega)]
        unfold u64 i64; split <;> omega
      · rw [if_neg h0]
        exact ⟨_, _, rfl, by unfold u64; omega⟩
    · rintro t ⟨m, e, hm⟩
      refine ⟨_, _, e, fun h' => absurd (h.symm.trans h') (by decide), fun _ => ?_, fun h' => absurd (h.symm.trans h') (by decide)⟩
      have hl := getNumberType_least ver m
      rw [if_neg (by rw [h]; decide), hm] at hl
      rw [size_length]; exact hl
  · have e : packInt ver n = [[dataType T_INT (getNumberType ver (i64 (zigzagEncode n)))],
        number (i64 (zigzagEncode n)) (getNumberSize ver (getNumberType ver (i64 (zigzagEncode n))))] := by
      unfold packInt; rw [if_pos (by rw [h]; decide)]
    refine ⟨_, _, e, fun h' => absurd (h.symm.trans h') (by decide), fun h' => absurd (h.symm.trans h') (by decide), fun _ => ?_⟩
    have hl := getNumberType_least ver (i64 (zigzagEncode n))
    have hz := zigzagEncode_lt n
    have hu : u64 (i64 (zigzagEncode n)) = zigzagEncode n := by unfold u64 i64; split <;> omega
    rw [if_neg (by rw [h]; decide), hu] at hl
    rw [size_length]
    have ez : (if n < 0 then 2 * n.natAbs - 1 else 2 * n.natAbs) = zigzagEncode n := by
      by_cases h0 : n < 0
      · rw [if_pos h0, zigzagEncode_neg h0 hn.1]; omega
      · rw [if_neg h0, zigzagEncode_nonneg (by omega) hn.2]; omega
    rw [ez]; exact hl

example : packInt ⟨3, 0⟩ (-128) = [[dataType T_INT 0], [0xff]] ∧ packInt ⟨3, 0⟩ 128 = [[dataType T_INT 1], [0x00, 0x01]] := by decide

/-! ### Repeated members -/

/-- General form of C62: any values, in terms of what each member value is received as. -/
theorem last_member_wins (cfg : Cfg) (ver : Version) (hv : ver.Known) (ms : List (Bytes × Value)) (hl : ms.length < 2 ^ 30)
    (hw : WireOkMembers cfg.strOk ver ms) :
    ∃ ws, sendResponse cfg.strOk ver (.struct ms) = (ws, none) ∧
      ∀ ps, ps.flatten = ws.flatten → ∃ tb rs, receive cfg .response ps = .ok tb ∧ getData tb = .ok (.struct rs) ∧
        rs.Pairwise (fun a b => keyLt a.1 b.1 = true) ∧ (rs.map (·.1)).Nodup ∧ (∀ k, k ∈ rs.map (·.1) ↔ k ∈ ms.map (·.1)) ∧
        (∀ k v, (k, v) ∈ rs ↔ ∃ pre w post, ms = pre ++ (k, w) :: post ∧ k ∉ post.map (·.1) ∧ v = received cfg ver w) := by
  obtain ⟨ws, h1, h2⟩ := response_received cfg ver hv .response (.inl rfl) (.struct ms) (by unfold WireOk; exact ⟨hl, hw⟩)
  refine ⟨ws, h1, fun ps hps => ?_⟩
  obtain ⟨tb, h3, h4⟩ := h2 ps hps
  have hk : (receivedMembers cfg ver ms).map (·.1) = ms.map (·.1) := by
    clear h1 h2 h4 hw hl
    induction ms with
    | nil => rfl
    | cons m ms ih => obtain ⟨k, v⟩ := m; simp [receivedMembers, ih]
  obtain ⟨c1, c2, c3⟩ := collect_spec [] (receivedMembers cfg ver ms) List.Pairwise.nil
  refine ⟨tb, _, h3, h4, c2, c2.nodup, fun k => ?_, fun k v => ?_⟩
  · rw [c3, hk]; simp
  · have hfm : (k, v) ∈ collect [] (receivedMembers cfg ver ms) ↔ SMap.find? k (collect [] (receivedMembers cfg ver ms)) = some v := by
      constructor
      · intro hm
        have hnd := c2
        generalize collect [] (receivedMembers cfg ver ms) = l at hm hnd
        clear h1 h2 h4 hw hl c1 c2 c3 hk h3
        induction l with
        | nil => simp at hm
        | cons m l ih =>
          obtain ⟨k', v'⟩ := m
          unfold Sorted at hnd
          rw [List.pairwise_cons] at hnd
          unfold SMap.find?
          rcases List.mem_cons.1 hm with h | h
          · cases h; simp
          · have := hnd.1 _ h
            rw [if_neg (by rintro rfl; rw [keyLt_irrefl] at this; cases this)]
            exact ih h hnd.2
      · exact find?_mem
    rw [hfm, c1]
    simp only [SMap.find?, Option.or_none]
    clear h1 h2 h4 hw hl c1 c2 c3 hk h3 hfm
    induction ms with
    | nil => simp [receivedMembers, lastOf]
    | cons m ms ih =>
      obtain ⟨k', w'⟩ := m
      simp only [receivedMembers]
      rw [lastOf_cons]
      have hkm : (receivedMembers cfg ver ms).map (·.1) = ms.map (·.1) := by
        clear ih
        induction ms with
        | nil => rfl
        | cons m ms ih => obtain ⟨k, v⟩ := m; simp [receivedMembers, ih]
      cases hx : lastOf k (receivedMembers cfg ver ms) with
      | some x =>
        rw [hx] at ih
        simp only [Option.some_or, Option.some.injEq] at ih ⊢
        refine ih.trans ?_
        constructor
        · rintro ⟨pre, w, post, rfl, h2, h3⟩
          exact ⟨(k', w') :: pre, w, post, rfl, h2, h3⟩
        · rintro ⟨pre, w, post, h1, h2, h3⟩
          cases pre with
          | nil =>
            simp only [List.nil_append, List.cons.injEq, Prod.mk.injEq] at h1
            obtain ⟨⟨rfl, rfl⟩, rfl⟩ := h1
            exfalso
            unfold lastOf at hx
            rw [Option.map_eq_some_iff] at hx
            obtain ⟨a, ha, rfl⟩ := hx
            have hm := List.mem_of_find?_eq_some ha
            have he := List.find?_some ha
            simp only [beq_iff_eq] at he
            rw [← he, ← hkm] at h2
            exact h2 (List.mem_map_of_mem (List.mem_reverse.1 hm))
          | cons m pre =>
            simp only [List.cons_append, List.cons.injEq] at h1
            exact ⟨pre, w, post, h1.2, h2, h3⟩
      | none =>
        rw [hx] at ih
        have hnk : k ∉ ms.map (·.1) := by
          rw [← hkm]
          intro hmem
          unfold lastOf at hx
          rw [Option.map_eq_none_iff, List.find?_eq_none] at hx
          obtain ⟨m, hm, rfl⟩ := List.mem_map.1 hmem
          have := hx m (List.mem_reverse.2 hm)
          simp at this
        simp only [Option.none_or]
        by_cases he : k' = k
        · subst he
          simp only [if_true, Option.some.injEq]
          constructor
          · rintro rfl; exact ⟨[], w', ms, rfl, hnk, rfl⟩
          · rintro ⟨pre, w, post, h1, h2, h3⟩
            cases pre with
            | nil =>
              simp only [List.nil_append, List.cons.injEq, Prod.mk.injEq] at h1
              obtain ⟨⟨_, rfl⟩, rfl⟩ := h1
              exact h3.symm
            | cons m pre =>
              simp only [List.cons_append, List.cons.injEq] at h1
              exfalso; apply hnk; rw [h1.2]; simp
        · rw [if_neg he]
          simp only [reduceCtorEq, false_iff]
          rintro ⟨pre, w, post, h1, h2, h3⟩
          cases pre with
          | nil =>
            simp only [List.nil_append, List.cons.injEq, Prod.mk.injEq] at h1
            exact he h1.1.1
          | cons m pre =>
            simp only [List.cons_append, List.cons.injEq] at h1
            apply hnk; rw [h1.2]; simp

theorem heldMembers_mem {ms : List (Bytes × Value)} (h : HeldMembers ms) {m} (hm : m ∈ ms) : Held m.2 := by
  induction ms with
  | nil => simp at hm
  | cons a ms ih =>
    obtain ⟨k, v⟩ := a
    unfold HeldMembers at h
    rcases List.mem_cons.1 hm with rfl | hm
    · exact h.1
    · exact ih h.2 hm

theorem datesMembers_mem {P : DateTime → Prop} {ms : List (Bytes × Value)} (h : DatesAllMembers P ms) {m} (hm : m ∈ ms) : DatesAll P m.2 := by
  induction ms with
  | nil => simp at hm
  | cons a ms ih =>
    obtain ⟨k, v⟩ := a
    unfold DatesAllMembers at h
    rcases List.mem_cons.1 hm with rfl | hm
    · exact h.1
    · exact ih h.2 hm

/-- **C62.** A struct sent with any list of members (in any order, names repeated or not) is received as a struct whose names are exactly the sent names, each once and in
ascending order, each holding the last value sent under it: `(k, v)` is a member of what is received exactly if some sent member `(k, w)` has no later member named `k` and `v` is `w`. -/
theorem C62_last_member_wins (cfg : Cfg) (hcfg : cfg.mktime = none) (ver : Version) (hv : ver.Known) (ms : List (Bytes × Value)) (hl : ms.length < 2 ^ 30)
    (hw : WireOkMembers cfg.strOk ver ms) (hheld : HeldMembers ms) (hd : DatesAllMembers (DateOk ver) ms) :
    ∃ ws, sendResponse cfg.strOk ver (.struct ms) = (ws, none) ∧
      ∀ ps, ps.flatten = ws.flatten → ∃ tb rs, receive cfg .response ps = .ok tb ∧ getData tb = .ok (.struct rs) ∧
        rs.Pairwise (fun a b => keyLt a.1 b.1 = true) ∧ (rs.map (·.1)).Nodup ∧ (∀ k, k ∈ rs.map (·.1) ↔ k ∈ ms.map (·.1)) ∧
        (∀ k v, (k, v) ∈ rs ↔ ∃ pre w post, ms = pre ++ (k, w) :: post ∧ k ∉ post.map (·.1) ∧ v = plain w) := by
  obtain ⟨ws, h1, h2⟩ := last_member_wins cfg ver hv ms hl hw
  refine ⟨ws, h1, fun ps hps => ?_⟩
  obtain ⟨tb, rs, a, b, c, d, e, f⟩ := h2 ps hps
  refine ⟨tb, rs, a, b, c, d, e, fun k v => (f k v).trans ?_⟩
  have key : ∀ pre w post, ms = pre ++ (k, w) :: post → received cfg ver w = plain w := by
    intro pre w post he
    have hm : (k, w) ∈ ms := by rw [he]; simp
    rw [received_plain cfg ver w (heldMembers_mem hheld hm)]
    unfold plain
    rw [plainWith_congr _ id w]
    refine DatesAll.imp (fun d hd => ?_) w (datesMembers_mem hd hm)
    simp only [hd.received, Cfg.date, hcfg, id]
  constructor
  · rintro ⟨pre, w, post, h1, h2, h3⟩
    exact ⟨pre, w, post, h1, h2, by rw [h3, key pre w post h1]⟩
  · rintro ⟨pre, w, post, h1, h2, h3⟩
    exact ⟨pre, w, post, h1, h2, by rw [h3, key pre w post h1]⟩

example : getData <$> receive plainCfg .response
      [(sendResponse plainCfg.strOk ⟨2, 1⟩ (.struct [(asc "b", .int 1), (asc "a", .int 2), (asc "b", .int 3)])).1.flatten] =
    .ok (.ok (.struct [(asc "a", .int 2), (asc "b", .int 3)])) := by rfl

end Frpc
