import Verif.Proofs.Partial
import Verif.Proofs.Dates
import Verif.Model.TreeFeeder
import Verif.Spec.Wire
/-! # Decoding what the marshaller wrote -/
namespace Frpc
open BinMarshaller BinUnMarshaller

mutual
/-- The builder calls a received value makes. -/
def evs (ver : Version) : Value → List Event
  | .int n => [.int n]
  | .bool b => [.bool b]
  | .double x => [.double x]
  | .string s => [.string s]
  | .stringView s => [.string s]
  | .binary s => [.binary s]
  | .binaryRef cs => [.binary cs.flatten]
  | .dateTime d => [.dateTime (receivedDate ver d)]
  | .null => [.null]
  | .array vs => .openArray vs.length :: (evsItems ver vs ++ [.closeArray])
  | .struct ms => .openStruct ms.length :: (evsMembers ver ms ++ [.closeStruct])
  | .secret v => evs ver v
/-- For elements. -/
def evsItems (ver : Version) : List Value → List Event
  | [] => []
  | v :: vs => evs ver v ++ evsItems ver vs
/-- For members. -/
def evsMembers (ver : Version) : List (Bytes × Value) → List Event
  | [] => []
  | (k, v) :: ms => .member k :: (evs ver v ++ evsMembers ver ms)
end

variable {req : Req} {stop : Bool}

theorem Steps.one {c c1 : Core} {d q : Bytes} {es} (hd : d.length = c.wanted)
    (hs : step req stop c d = .ok (some (c1, es))) : Steps req stop c (d ++ q) es c1 q := by
  have := Steps.cons (req := req) (stop := stop) (c := c) (p := d ++ q) (c1 := c1) (es1 := es) (es2 := []) (c2 := c1) (p2 := q)
    (by simp; omega) (by rw [List.take_left' hd]; exact hs) (by rw [List.drop_left' hd]; exact .refl)
  simpa using this

/-- The decoder is about to read a value's type byte. -/
structure Ready0 (ver : Version) (c : Core) : Prop where
  st : c.st = .valueType ∧ insideStruct c = false ∨ c.st = .realValueType
  wanted : c.wanted = 1
  ver : c.ver = ver

/-- The same outside a fault. -/
structure Ready (ver : Version) (c : Core) : Prop extends Ready0 ver c where
  fault : c.fault = 0

/-- Whatever the value, handing over `e` and finishing the value leads to `c1` with the calls `es`. -/
def Hands (c : Core) (e : Event) (c1 : Core) (es : List Event) : Prop :=
  ∀ st w, scalar { c with st := st, wanted := w } e = .ok (c1, es)

/-- The decoder after the value and everything it completes. -/
def after (c : Core) : Core := { c with st := .valueType, wanted := 1, stack := (closeUp c.stack).1 }

theorem step_tag {ver c} (hr : Ready0 ver c) (b : UInt8) : step req stop c [b] = valueTag stop c b := by
  unfold step
  rcases hr.st with ⟨h, hi⟩ | h <;> rw [h] <;> simp [rd, bind, Except.bind]
  simp [hi]

theorem Steps.tag {ver c c1 es} (hr : Ready0 ver c) (b : UInt8) (q : Bytes) (h : valueTag stop c b = .ok (some (c1, es))) :
    Steps req stop c (b :: q) es c1 q :=
  Steps.one (d := [b]) (by simp [hr.wanted]) (by rw [step_tag hr]; exact h)

theorem scalar_eq {c : Core} (hf : c.fault = 0) (e : Event) :
    scalar c e = .ok (after c, e :: (closeUp c.stack).2) := by
  simp [scalar, emit, hf, bind, Except.bind, pure, Except.pure, finalize, after]

theorem scalar_eq' {c : Core} (hf : c.fault = 0) (e : Event) :
    (do return some (← scalar c e) : StepRes) = .ok (some (after c, e :: (closeUp c.stack).2)) := by
  rw [scalar_eq hf]; rfl

theorem Ready.hands {ver c} (hr : Ready ver c) (e : Event) : Hands c e (after c) (e :: (closeUp c.stack).2) :=
  fun st w => scalar_eq (c := { c with st := st, wanted := w }) hr.fault e

theorem Hands.step {c e c1 es} (h : Hands c e c1 es) (st : St) (w : Nat) :
    (do return some (← scalar { c with st := st, wanted := w } e) : StepRes) = .ok (some (c1, es)) := by
  rw [h st w]; rfl

theorem after_goto (c : Core) (st : St) (w : Nat) : after { c with st := st, wanted := w } = after c := rfl

/-- Tag byte and size, up to the state that reads the payload. -/
theorem valueTag_sized {ver : Version} (hv : ver.Known) {c} (hc : c.ver = ver) (n : Nat) {t : Nat} {st : St}
    (h : (t, st) ∈ [(T_STRING, St.stringLen), (T_BINARY, .binaryLen), (T_ARRAY, .array), (T_STRUCT, .struct)]) :
    valueTag stop c (dataType t (getNumberType ver n)) =
      .ok (some ({ c with st := st, wanted := getNumberSize ver (getNumberType ver n) }, [])) := by
  have ht : t < 32 := by
    simp only [List.mem_cons, Prod.mk.injEq, List.not_mem_nil, or_false] at h
    rcases h with ⟨rfl, _⟩ | ⟨rfl, _⟩ | ⟨rfl, _⟩ | ⟨rfl, _⟩ <;> decide
  subst hc
  have hl := lengthSize_number hv ht (n : Int)
  unfold valueTag
  rw [dataType_tag ht (getNumberType_lt _ n), hl]
  simp only [List.mem_cons, Prod.mk.injEq, List.not_mem_nil, or_false] at h
  rcases h with ⟨rfl, rfl⟩ | ⟨rfl, rfl⟩ | ⟨rfl, rfl⟩ | ⟨rfl, rfl⟩ <;> rfl

theorem natCast_isI64 {n : Nat} (h : n < 2 ^ 30) : IsI64 (n : Int) := by unfold IsI64; omega

/-- The size field reads back. -/
theorem getInt64_size (ver : Version) {n : Nat} (h : n < 2 ^ 30) :
    getInt64 (number n (getNumberSize ver (getNumberType ver n))) (getNumberSize ver (getNumberType ver n)) = .ok (n : Int) := by
  have hu : u64 (n : Int) = n := u64_natCast (by omega)
  exact getInt64_number (getNumberSize_bound ver n).2 (getNumberSize_fits ver n (by rw [hu]; omega)) (natCast_isI64 h)

theorem size_length (ver : Version) (n : Int) :
    (number n (getNumberSize ver (getNumberType ver n))).length = getNumberSize ver (getNumberType ver n) :=
  number_length n (getNumberSize_bound ver n).2

/-- A string or binary: tag, size, bytes. -/
theorem dec_blob0 {ver : Version} (hv : ver.Known) {c c1 es} (hr : Ready0 ver c) (s q : Bytes) (hs : s.length < 2 ^ 30) (isStr : Bool)
    (hh : Hands c (if isStr then Event.string s else .binary s) c1 es) :
    Steps req stop c ((sized ver (if isStr then T_STRING else T_BINARY) s.length).flatten ++ s ++ q)
      es c1 q := by
  have hu : u64 (s.length : Int) = s.length := u64_natCast (by omega)
  simp only [sized, List.flatten_cons, List.flatten_nil, List.append_nil, List.append_assoc, List.singleton_append]
  have key : ∀ (t : Nat) (st st2 : St) (e : Event), Hands c e c1 es →
      (t, st) ∈ [(T_STRING, St.stringLen), (T_BINARY, .binaryLen), (T_ARRAY, .array), (T_STRUCT, .struct)] →
      (∀ c1 : Core, c1.st = st → step req stop c1 (number s.length c1.wanted) = (do
        let n ← getInt64 (number s.length c1.wanted) c1.wanted
        if u64 n ≥ 2 ^ 30 then throw .stream
        return some ({ c1 with wanted := u64 n, st := st2 }, []))) →
      (∀ c1 : Core, c1.st = st2 → step req stop c1 s = (do return some (← scalar c1 e))) →
      Steps req stop c (dataType t (getNumberType ver s.length) ::
        (number s.length (getNumberSize ver (getNumberType ver s.length)) ++ (s ++ q)))
        es c1 q := by
    intro t st st2 e hh ht h1 h2
    have s1 := Steps.tag (req := req) hr (dataType t (getNumberType ver s.length))
      (number s.length (getNumberSize ver (getNumberType ver s.length)) ++ (s ++ q)) (valueTag_sized (stop := stop) hv hr.ver s.length ht)
    have s2 : Steps req stop { c with st := st, wanted := getNumberSize ver (getNumberType ver s.length) }
        (number s.length (getNumberSize ver (getNumberType ver s.length)) ++ (s ++ q)) []
        { c with st := st2, wanted := s.length } (s ++ q) := by
      refine Steps.one (size_length ver _) ?_
      rw [h1 _ rfl]
      simp only [getInt64_size ver hs]
      simp only [bind, Except.bind, pure, Except.pure, throw, throwThe, MonadExceptOf.throw, hu]
      rw [if_neg (by omega)]
    have s3 : Steps req stop { c with st := st2, wanted := s.length } (s ++ q) es c1 q := by
      refine Steps.one rfl ?_
      rw [h2 _ rfl]
      exact hh.step _ _
    exact s1.trans (s2.trans s3)
  cases isStr with
  | true =>
    exact key T_STRING .stringLen .string (.string s) hh (by simp) (by intro c1 h; unfold step; rw [h]) (by intro c1 h; unfold step; rw [h])
  | false =>
    exact key T_BINARY .binaryLen .binary (.binary s) hh (by simp) (by intro c1 h; unfold step; rw [h]) (by intro c1 h; unfold step; rw [h])

/-- A string or binary outside a fault. -/
theorem dec_blob {ver : Version} (hv : ver.Known) {c} (hr : Ready ver c) (s q : Bytes) (hs : s.length < 2 ^ 30) (isStr : Bool) :
    Steps req stop c ((sized ver (if isStr then T_STRING else T_BINARY) s.length).flatten ++ s ++ q)
      ((if isStr then Event.string s else .binary s) :: (closeUp c.stack).2) (after c) q :=
  dec_blob0 hv hr.toReady0 s q hs isStr (hr.hands _)

/-- A payload of fixed size read in one step. -/
theorem dec_payload0 {ver : Version} {c c1 es} (hr : Ready0 ver c) (b : UInt8) (d q : Bytes) (st : St) (e : Event)
    (hh : Hands c e c1 es)
    (ht : valueTag stop c b = .ok (some ({ c with st := st, wanted := d.length }, [])))
    (hs : step req stop { c with st := st, wanted := d.length } d = (do return some (← scalar { c with st := st, wanted := d.length } e))) :
    Steps req stop c (b :: (d ++ q)) es c1 q := by
  have s1 := Steps.tag (req := req) hr b (d ++ q) ht
  have s2 : Steps req stop { c with st := st, wanted := d.length } (d ++ q) es c1 q := by
    refine Steps.one rfl ?_
    rw [hs]
    exact hh.step _ _
  exact s1.trans s2

/-- A payload of fixed size outside a fault. -/
theorem dec_payload {ver : Version} {c} (hr : Ready ver c) (b : UInt8) (d q : Bytes) (st : St) (e : Event)
    (ht : valueTag stop c b = .ok (some ({ c with st := st, wanted := d.length }, [])))
    (hs : step req stop { c with st := st, wanted := d.length } d = (do return some (← scalar { c with st := st, wanted := d.length } e))) :
    Steps req stop c (b :: (d ++ q)) (e :: (closeUp c.stack).2) (after c) q :=
  dec_payload0 hr.toReady0 b d q st e (hr.hands e) ht hs

theorem isI64_i64 (n : Nat) : IsI64 (i64 n) := i64_isI64 n

/-- Integers. -/
theorem dec_int0 {ver : Version} (hv : ver.Known) {c cz es} (hr : Ready0 ver c) (n : Int) (q : Bytes) (hn : IsI64 n)
    (h1 : ver.major = 1 → 0 ≤ n ∧ n < 2 ^ 32) (hh : Hands c (.int n) cz es) :
    Steps req stop c ((packInt ver n).flatten ++ q) es cz q := by
  obtain rfl : c.ver = ver := hr.ver
  unfold packInt
  rcases hv.cases with hm | hm | hm
  · -- protocol 1
    obtain ⟨h0, h32⟩ := h1 hm
    rw [if_neg (by rw [hm]; decide), if_neg (by rw [hm]; decide)]
    have hu : u64 n = u32 n := by unfold u64 u32; omega
    have hb := getNumberSize_bound c.ver n
    have hb4 : getNumberSize c.ver (getNumberType c.ver n) ≤ 4 := by
      unfold getNumberSize getNumberType; simp only [hm]
      simp only [show (1 : UInt8) < 2 from by decide, if_true]
      repeat' split
      all_goals omega
    have hnum : number32 n (getNumberSize c.ver (getNumberType c.ver n)) = number n (getNumberSize c.ver (getNumberType c.ver n)) := by
      unfold number32 number
      rw [leBytes_take _ _ _ hb4, leBytes_take _ _ _ hb.2, hu]
    simp only [List.flatten_cons, List.flatten_nil, List.append_nil, List.cons_append, List.nil_append, hnum]
    have hlen := size_length c.ver n
    refine dec_payload0 hr _ _ q .int (.int n) hh ?_ ?_
    · rw [hlen]
      have hl := lengthSize_number hv (t := T_INT) (by decide) n
      unfold valueTag
      rw [dataType_tag (by decide) (getNumberType_lt c.ver n), hm]
      simp only [hm] at hl
      have e1 : decide ((1 : UInt8) > 2) = decide ((1 : UInt8) ≥ 2) := by decide
      simp only [e1, hl]
      rfl
    · unfold step
      simp only [hlen, getInt64_number hb.2 (getNumberSize_fits c.ver n (by intro _; rw [hu]; unfold u32; omega)) hn]
      simp only [hm]
      rfl
  · -- protocol 2
    rw [if_neg (by rw [hm]; decide), if_pos (by rw [hm]; decide)]
    by_cases h0 : n < 0
    · rw [if_pos h0]
      simp only [List.flatten_cons, List.flatten_nil, List.append_nil, List.cons_append, List.nil_append]
      have hlen := size_length c.ver (i64 (safeAbs n))
      have hb := getNumberSize_bound c.ver (i64 (safeAbs n))
      refine dec_payload0 hr _ _ q .intN8 (.int n) hh ?_ ?_
      · rw [hlen]
        unfold valueTag
        rw [dataType_tag (by decide) (getNumberType_lt c.ver _), dataType_info (by decide) (getNumberType_lt c.ver _)]
        have : getNumberSize c.ver (getNumberType c.ver (i64 (safeAbs n))) = getNumberType c.ver (i64 (safeAbs n)) + 1 := by
          simp [getNumberSize, hm]
        rw [this]
        rfl
      · unfold step
        simp only [hlen, getInt64_number hb.2 (getNumberSize_fits c.ver _ (by rw [hm]; intro h; exact absurd h (by decide))) (i64_isI64 _)]
        simp only [bind, Except.bind, safeNegate_safeAbs hn h0]
    · rw [if_neg h0]
      simp only [List.flatten_cons, List.flatten_nil, List.append_nil, List.cons_append, List.nil_append]
      have hlen := size_length c.ver n
      have hb := getNumberSize_bound c.ver n
      refine dec_payload0 hr _ _ q .intP8 (.int n) hh ?_ ?_
      · rw [hlen]
        unfold valueTag
        rw [dataType_tag (by decide) (getNumberType_lt c.ver _), dataType_info (by decide) (getNumberType_lt c.ver _)]
        have : getNumberSize c.ver (getNumberType c.ver n) = getNumberType c.ver n + 1 := by
          simp [getNumberSize, hm]
        rw [this]
        rfl
      · unfold step
        simp only [hlen, getInt64_number hb.2 (getNumberSize_fits c.ver _ (by rw [hm]; intro h; exact absurd h (by decide))) hn]
        rfl
  · -- protocol 3
    rw [if_pos (by rw [hm]; decide)]
    simp only [List.flatten_cons, List.flatten_nil, List.append_nil, List.cons_append, List.nil_append]
    have hlen := size_length c.ver (i64 (zigzagEncode n))
    have hb := getNumberSize_bound c.ver (i64 (zigzagEncode n))
    refine dec_payload0 hr _ _ q .int (.int n) hh ?_ ?_
    · rw [hlen]
      have hl := lengthSize_number hv (t := T_INT) (by decide) (i64 (zigzagEncode n))
      unfold valueTag
      rw [dataType_tag (by decide) (getNumberType_lt c.ver _), hm]
      simp only [hm] at hl
      have e1 : decide ((3 : UInt8) > 2) = decide ((3 : UInt8) ≥ 2) := by decide
      simp only [e1, hl]
      rfl
    · unfold step
      simp only [hlen, getInt64_number hb.2 (getNumberSize_fits c.ver _ (by rw [hm]; intro h; exact absurd h (by decide))) (i64_isI64 _)]
      simp only [hm]
      have e1 : (3 : UInt8) > 2 := by decide
      simp only [bind, Except.bind, e1, if_true, zigzag_inv hn]

/-- Integers outside a fault. -/
theorem dec_int {ver : Version} (hv : ver.Known) {c} (hr : Ready ver c) (n : Int) (q : Bytes) (hn : IsI64 n)
    (h1 : ver.major = 1 → 0 ≤ n ∧ n < 2 ^ 32) :
    Steps req stop c ((packInt ver n).flatten ++ q) (.int n :: (closeUp c.stack).2) (after c) q :=
  dec_int0 hv hr.toReady0 n q hn h1 (hr.hands _)

theorem dec_bool {ver : Version} {c} (hr : Ready ver c) (b : Bool) (q : Bytes) :
    Steps req stop c (dataType T_BOOL (if b then 1 else 0) :: q) (.bool b :: (closeUp c.stack).2) (after c) q := by
  refine Steps.tag hr.toReady0 _ q ?_
  have : valueTag stop c (dataType T_BOOL (if b then 1 else 0)) = (do return some (← scalar c (.bool b))) := by
    cases b <;> rfl
  rw [this]
  exact scalar_eq' hr.fault _

theorem dec_null {ver : Version} {c} (hr : Ready ver c) (h : ver.HasNull) (q : Bytes) :
    Steps req stop c (dataType T_NULL 0 :: q) (.null :: (closeUp c.stack).2) (after c) q := by
  refine Steps.tag hr.toReady0 _ q ?_
  unfold valueTag
  rw [dataType_tag (by decide) (by decide)]
  have hm : c.ver.major ≠ 1 := by
    intro hh; rw [hr.ver] at hh; apply h; left; rw [hh]; decide
  simp only [T_NULL, T_BOOL, if_neg hm]
  exact scalar_eq' hr.fault _

theorem dec_double {ver : Version} {c} (hr : Ready ver c) (x : BitVec 64) (q : Bytes) :
    Steps req stop c (dataType T_DOUBLE 0 :: (leBytes 8 x.toNat ++ q)) (.double x :: (closeUp c.stack).2) (after c) q := by
  refine dec_payload hr _ _ q .double (.double x) ?_ ?_
  · rw [leBytes_length]; rfl
  · unfold step
    have : getDouble (leBytes 8 x.toNat) = .ok x := by
      unfold getDouble
      rw [if_neg (by simp), List.take_of_length_le (by simp), leNat_leBytes 8 _ (by have := x.isLt; omega)]
      simp
    simp only [this]
    rfl

theorem dec_date {ver : Version} {c} (hr : Ready ver c) (d : DateTime) (q : Bytes) (ht : IsI64 d.unixTime)
    (hmin : ver.major ≤ 2 → d.unixTime ≠ -(2 : Int) ^ 63) :
    Steps req stop c ((packDateTime ver d).1.flatten ++ q) (.dateTime (receivedDate ver d) :: (closeUp c.stack).2) (after c) q := by
  obtain rfl : c.ver = ver := hr.ver
  obtain ⟨body, hp, hl, hg⟩ := getDate_pack c.ver d ht hmin
  rw [hp]
  simp only [List.flatten_cons, List.flatten_nil, List.append_nil, List.cons_append, List.nil_append]
  refine dec_payload hr _ _ q .dateTime _ ?_ ?_
  · rw [hl]
    rfl
  · unfold step
    simp only [hg]
    rfl

/-- Opening a container. -/
theorem dec_open {ver : Version} (hv : ver.Known) {c} (hr : Ready ver c) (k : Kind) (n : Nat) (hn : n < 2 ^ 30) (q : Bytes) :
    Steps req stop c ((sized ver (match k with | .struct => T_STRUCT | .array => T_ARRAY) n).flatten ++ q)
      (if n = 0 then openEv k 0 :: closeEv k :: (closeUp c.stack).2 else [openEv k n])
      (if n = 0 then after c else { c with st := .valueType, wanted := 1, stack := ⟨n, k⟩ :: c.stack }) q := by
  simp only [sized, List.flatten_cons, List.flatten_nil, List.append_nil, List.cons_append, List.nil_append]
  have ho : ∀ c1 : Core, c1.fault = 0 → openContainer c1 k (n : Int) =
      .ok (if n = 0 then (after c1, openEv k 0 :: closeEv k :: (closeUp c1.stack).2)
           else ({ c1 with st := .valueType, wanted := 1, stack := ⟨n, k⟩ :: c1.stack }, [openEv k n])) := by
    intro c1 hf
    unfold openContainer
    simp only [bind, Except.bind, pure, Except.pure, throw, throwThe, MonadExceptOf.throw]
    rw [if_neg (by omega), if_neg (by omega), if_neg (by omega)]
    simp only [emit, hf, if_true, Int.toNat_natCast]
    by_cases h0 : n = 0
    · subst h0; simp [finalize, after]
    · simp [h0]
  have key : ∀ (t : Nat) (st : St),
      (t, st) ∈ [(T_STRING, St.stringLen), (T_BINARY, .binaryLen), (T_ARRAY, .array), (T_STRUCT, .struct)] →
      (∀ c1 : Core, c1.st = st → step req stop c1 (number n c1.wanted) = (do
        let n ← getInt64 (number n c1.wanted) c1.wanted
        return some (← openContainer c1 k n))) →
      Steps req stop c (dataType t (getNumberType ver n) ::
        (number n (getNumberSize ver (getNumberType ver n)) ++ q))
        (if n = 0 then openEv k 0 :: closeEv k :: (closeUp c.stack).2 else [openEv k n])
        (if n = 0 then after c else { c with st := .valueType, wanted := 1, stack := ⟨n, k⟩ :: c.stack }) q := by
    intro t st ht h1
    have s1 := Steps.tag (req := req) hr.toReady0 (dataType t (getNumberType ver n))
      (number n (getNumberSize ver (getNumberType ver n)) ++ q) (valueTag_sized (stop := stop) hv hr.ver n ht)
    have s2 : Steps req stop { c with st := st, wanted := getNumberSize ver (getNumberType ver n) }
        (number n (getNumberSize ver (getNumberType ver n)) ++ q)
        (if n = 0 then openEv k 0 :: closeEv k :: (closeUp c.stack).2 else [openEv k n])
        (if n = 0 then after c else { c with st := .valueType, wanted := 1, stack := ⟨n, k⟩ :: c.stack }) q := by
      refine Steps.one (size_length ver _) ?_
      rw [h1 _ rfl]
      simp only [getInt64_size ver hn]
      simp only [bind, Except.bind, pure, Except.pure]
      rw [ho { c with st := st, wanted := getNumberSize ver (getNumberType ver n) } hr.fault]
      by_cases h0 : n = 0
      · simp [h0, after]
      · simp [h0]
    exact s1.trans s2
  cases k with
  | struct => exact key T_STRUCT .struct (by simp) (by intro c1 h; unfold step; rw [h])
  | array => exact key T_ARRAY .array (by simp) (by intro c1 h; unfold step; rw [h])

/-- A member name. -/
theorem dec_member {c : Core} (hst : c.st = .valueType) (hw : c.wanted = 1) (hi : insideStruct c = true) (hf : c.fault = 0)
    (k q : Bytes) (h1 : 1 ≤ k.length) (h2 : k.length ≤ 255) :
    Steps req stop c (UInt8.ofNat k.length :: (k ++ q)) [.member k] { c with st := .realValueType, wanted := 1 } q := by
  have hb : (UInt8.ofNat k.length).toNat = k.length := by rw [UInt8.toNat_ofNat']; omega
  have s1 : Steps req stop c (UInt8.ofNat k.length :: (k ++ q)) [] { c with st := .memberName, wanted := k.length } (k ++ q) := by
    refine Steps.one (d := [_]) (by simp [hw]) ?_
    unfold step
    rw [hst]
    simp only [rd, List.getElem?_cons_zero, bind, Except.bind, hi, if_true, throw, throwThe, MonadExceptOf.throw, pure, Except.pure]
    rw [if_neg, hb]
    intro h
    have := congrArg UInt8.toNat h
    rw [hb] at this
    simp at this
    rw [this] at h1; simp at h1
  have s2 : Steps req stop { c with st := .memberName, wanted := k.length } (k ++ q) [.member k] { c with st := .realValueType, wanted := 1 } q := by
    refine Steps.one rfl ?_
    unfold step
    simp [emit, hf, bind, Except.bind, pure, Except.pure]
  exact s1.trans s2

/-! ### Output of the marshaller -/

theorem run_append (strOk : Bytes → Bool) (ver : Version) (a b : List PackOp) (ws : List Bytes)
    (h : run strOk ver a = (ws, none)) :
    run strOk ver (a ++ b) = (ws ++ (run strOk ver b).1, (run strOk ver b).2) := by
  induction a generalizing ws with
  | nil => simp [run] at h; subst h; simp
  | cons op ops ih =>
    simp only [List.cons_append, run] at h ⊢
    cases hp : pack strOk ver op with
    | mk w e =>
      rw [hp] at h
      cases e with
      | some e => simp at h
      | none =>
        simp only at h ⊢
        simp only [Prod.mk.injEq] at h
        obtain ⟨rfl, h2⟩ := h
        rw [ih _ (Prod.ext rfl h2)]
        simp

theorem run_cons (strOk : Bytes → Bool) (ver : Version) (op : PackOp) (b : List PackOp) (ws : List Bytes)
    (h : pack strOk ver op = (ws, none)) :
    run strOk ver (op :: b) = (ws ++ (run strOk ver b).1, (run strOk ver b).2) := by
  simp [run, h]

/-- The value is marshalled without error and the decoder turns its bytes into `evs`. -/
def Decodes (strOk : Bytes → Bool) (ver : Version) (ops : List PackOp) (P : Bytes → Prop) : Prop :=
  ∃ ws, run strOk ver ops = (ws, none) ∧ P ws.flatten

theorem sz32_take {s : Bytes} (h : s.length < 2 ^ 30) : s.take (sz32 s.length) = s := by
  unfold sz32; rw [Nat.mod_eq_of_lt (by omega)]; simp

theorem sz32_eq {n : Nat} (h : n < 2 ^ 30) : sz32 n = n := by
  unfold sz32; rw [Nat.mod_eq_of_lt (by omega)]

theorem run_one {strOk : Bytes → Bool} {ver : Version} {op : PackOp} {ws : List Bytes}
    (h : pack strOk ver op = (ws, none)) : run strOk ver [op] = (ws, none) := by
  rw [run_cons _ _ _ _ _ h]; simp [run]

/-- Core in which the items of an open container of kind `k` with `n` items to go are read. -/
def inside (c : Core) (k : Kind) (n : Nat) (s : List Frame) : Core :=
  { c with st := .valueType, wanted := 1, stack := ⟨n, k⟩ :: s }

theorem closeUp_last (k : Kind) (s : List Frame) : closeUp (⟨1, k⟩ :: s) = ((closeUp s).1, closeEv k :: (closeUp s).2) := by
  have : ((1 : Nat) + (2 ^ 32 - 1)) % 2 ^ 32 = 0 := by decide
  simp only [closeUp, this]
  rfl

theorem closeUp_more (k : Kind) (n : Nat) (h : n + 2 < 2 ^ 30) (s : List Frame) :
    closeUp (⟨n + 2, k⟩ :: s) = (⟨n + 1, k⟩ :: s, []) := by
  have : (n + 2 + (2 ^ 32 - 1)) % 2 ^ 32 = n + 1 := by omega
  simp only [closeUp, this]
  rw [if_pos (by omega)]

variable {strOk : Bytes → Bool}

mutual
/-- Marshalling then decoding one value. -/
theorem codec {ver : Version} (hv : ver.Known) : ∀ (v : Value), WireOk strOk ver v → ∃ ws, run strOk ver (feed v) = (ws, none) ∧
    ∀ (c : Core) (q : Bytes), Ready ver c →
      Steps req stop c (ws.flatten ++ q) (evs ver v ++ (closeUp c.stack).2) (after c) q
  | .int n, h => ⟨_, run_one rfl, fun c q hr => dec_int hv hr n q h.1 h.2⟩
  | .bool b, _ => ⟨_, run_one rfl, fun c q hr => by
      simpa [evs] using dec_bool hr b q⟩
  | .double x, _ => ⟨_, run_one rfl, fun c q hr => by
      simpa [evs] using dec_double hr x q⟩
  | .string s, h => by
      unfold WireOk at h
      have hp : pack strOk ver (.packString s) = (sized ver T_STRING s.length ++ [s], none) := by
        simp [pack, packString, h.2]
      refine ⟨_, by simp only [feed, sz32_take h.1]; exact run_one hp, fun c q hr => ?_⟩
      have := dec_blob (req := req) (stop := stop) hv hr s q h.1 true
      simpa [evs] using this
  | .stringView s, h => by
      unfold WireOk at h
      have hp : pack strOk ver (.packString s) = (sized ver T_STRING s.length ++ [s], none) := by
        simp [pack, packString, h.2]
      refine ⟨_, by simp only [feed, sz32_take h.1]; exact run_one hp, fun c q hr => ?_⟩
      have := dec_blob (req := req) (stop := stop) hv hr s q h.1 true
      simpa [evs] using this
  | .binary s, h => by
      unfold WireOk at h
      refine ⟨sized ver T_BINARY s.length ++ [s], by simp only [feed, sz32_take h]; exact run_one rfl, fun c q hr => ?_⟩
      have := dec_blob (req := req) (stop := stop) hv hr s q h false
      simpa [evs] using this
  | .binaryRef cs, h => by
      unfold WireOk at h
      refine ⟨sized ver T_BINARY cs.flatten.length ++ cs, by simp only [feed]; exact run_one rfl, fun c q hr => ?_⟩
      have := dec_blob (req := req) (stop := stop) hv hr cs.flatten q h false
      simpa only [evs, List.flatten_append, Bool.false_eq_true, if_false, List.singleton_append] using this
  | .dateTime d, h => by
      unfold WireOk at h
      obtain ⟨body, hp, _, _⟩ := getDate_pack ver d h.1 h.2
      refine ⟨_, by simp only [feed]; exact run_one hp, fun c q hr => ?_⟩
      have := dec_date (req := req) (stop := stop) hr d q h.1 h.2
      rw [hp] at this
      exact this
  | .null, h => by
      unfold WireOk at h
      have hp : pack strOk ver .packNull = ([[dataType T_NULL 0]], none) := by
        unfold pack
        rw [if_neg]
        simpa [Version.HasNull] using h
      refine ⟨_, by simp only [feed]; exact run_one hp, fun c q hr => ?_⟩
      simpa [evs] using dec_null hr h q
  | .secret v, h => by
      unfold WireOk at h
      simpa only [feed, evs] using codec hv v h
  | .array vs, h => by
      unfold WireOk at h
      obtain ⟨ws, hw, hd⟩ := codecItems hv vs h.2
      refine ⟨sized ver T_ARRAY vs.length ++ ws, ?_, fun c q hr => ?_⟩
      · simp only [feed, sz32_eq h.1]
        rw [run_cons _ _ _ _ (sized ver T_ARRAY vs.length) rfl, hw]
      · have s1 := dec_open (req := req) (stop := stop) hv hr .array vs.length h.1 (ws.flatten ++ q)
        rw [List.flatten_append, List.append_assoc]
        cases vs with
        | nil =>
          simp only [feedItems, run, Prod.mk.injEq, and_true] at hw
          subst hw
          simpa [evs, evsItems, openEv, closeEv] using s1
        | cons v vs =>
          rw [if_neg (by simp), if_neg (by simp)] at s1
          have s2 := hd (by simp) c c.stack q hr.ver hr.fault h.1
          have := s1.trans s2
          simpa [evs, openEv, closeEv, after] using this
  | .struct ms, h => by
      unfold WireOk at h
      obtain ⟨ws, hw, hd⟩ := codecMembers hv ms h.2
      refine ⟨sized ver T_STRUCT ms.length ++ ws, ?_, fun c q hr => ?_⟩
      · simp only [feed, sz32_eq h.1]
        rw [run_cons _ _ _ _ (sized ver T_STRUCT ms.length) rfl, hw]
      · have s1 := dec_open (req := req) (stop := stop) hv hr .struct ms.length h.1 (ws.flatten ++ q)
        rw [List.flatten_append, List.append_assoc]
        cases ms with
        | nil =>
          simp only [feedMembers, run, Prod.mk.injEq, and_true] at hw
          subst hw
          simpa [evs, evsMembers, openEv, closeEv] using s1
        | cons v vs =>
          rw [if_neg (by simp), if_neg (by simp)] at s1
          have s2 := hd (by simp) c c.stack q hr.ver hr.fault h.1
          have := s1.trans s2
          simpa [evs, openEv, closeEv, after] using this
/-- Marshalling then decoding the elements of a non-empty array. -/
theorem codecItems {ver : Version} (hv : ver.Known) : ∀ (vs : List Value), WireOkItems strOk ver vs → ∃ ws,
    run strOk ver (feedItems vs) = (ws, none) ∧
    (vs ≠ [] → ∀ (c : Core) (s : List Frame) (q : Bytes), c.ver = ver → c.fault = 0 → vs.length < 2 ^ 30 →
      Steps req stop (inside c .array vs.length s) (ws.flatten ++ q) (evsItems ver vs ++ (.closeArray :: (closeUp s).2))
        { c with st := .valueType, wanted := 1, stack := (closeUp s).1 } q)
  | [], _ => ⟨[], rfl, fun h => absurd rfl h⟩
  | v :: vs, h => by
      unfold WireOkItems at h
      obtain ⟨w1, hw1, hd1⟩ := codec hv v h.1
      obtain ⟨w2, hw2, hd2⟩ := codecItems hv vs h.2
      refine ⟨w1 ++ w2, ?_, fun _ c s q hc hf hl => ?_⟩
      · simp only [feedItems]; rw [run_append _ _ _ _ _ hw1, hw2]
      · rw [List.flatten_append, List.append_assoc]
        have hr : Ready ver (inside c .array (v :: vs).length s) :=
          ⟨⟨.inl ⟨rfl, rfl⟩, rfl, hc⟩, hf⟩
        have s1 := hd1 (inside c .array (v :: vs).length s) (w2.flatten ++ q) hr
        cases vs with
        | nil =>
          simp only [feedItems, run, Prod.mk.injEq, and_true] at hw2
          subst hw2
          simp only [List.length_cons, List.length_nil, Nat.zero_add, inside, closeUp_last, after, closeEv] at s1
          simpa [evsItems, inside] using s1
        | cons v' vs =>
          have s2 := hd2 (by simp) c s q hc hf (by simp only [List.length_cons] at hl ⊢; omega)
          simp only [List.length_cons, inside, after] at s1 hl
          rw [closeUp_more _ _ hl] at s1
          have := s1.trans s2
          simpa [evsItems, inside] using this
/-- Marshalling then decoding the members of a non-empty struct. -/
theorem codecMembers {ver : Version} (hv : ver.Known) : ∀ (ms : List (Bytes × Value)), WireOkMembers strOk ver ms → ∃ ws,
    run strOk ver (feedMembers ms) = (ws, none) ∧
    (ms ≠ [] → ∀ (c : Core) (s : List Frame) (q : Bytes), c.ver = ver → c.fault = 0 → ms.length < 2 ^ 30 →
      Steps req stop (inside c .struct ms.length s) (ws.flatten ++ q) (evsMembers ver ms ++ (.closeStruct :: (closeUp s).2))
        { c with st := .valueType, wanted := 1, stack := (closeUp s).1 } q)
  | [], _ => ⟨[], rfl, fun h => absurd rfl h⟩
  | (k, v) :: vs, h => by
      unfold WireOkMembers at h
      obtain ⟨w1, hw1, hd1⟩ := codec hv v h.2.1
      obtain ⟨w2, hw2, hd2⟩ := codecMembers hv vs h.2.2
      have hk := h.1
      have hp : pack strOk ver (.packStructMember k) = ([[UInt8.ofNat k.length], k], none) := by
        have hc : (decide (k.length > 255) || k.length == 0) = false := by
          rw [Bool.or_eq_false_iff]; exact ⟨decide_eq_false (by omega), beq_eq_false_iff_ne.2 (by omega)⟩
        simp only [pack, hc]; rfl
      refine ⟨[[UInt8.ofNat k.length], k] ++ (w1 ++ w2), ?_, fun _ c s q hc hf hl => ?_⟩
      · simp only [feedMembers, sz32_take (show k.length < 2 ^ 30 by omega)]
        rw [run_cons _ _ _ _ _ hp, run_append _ _ _ _ _ hw1, hw2]
      · have s0 := dec_member (req := req) (stop := stop) (c := inside c .struct ((k, v) :: vs).length s) rfl rfl rfl hf k
          (w1.flatten ++ (w2.flatten ++ q)) hk.1 hk.2
        have hr : Ready ver { inside c .struct ((k, v) :: vs).length s with st := .realValueType, wanted := 1 } :=
          ⟨⟨.inr rfl, rfl, hc⟩, hf⟩
        have s1 := hd1 _ (w2.flatten ++ q) hr
        have e0 : ([[UInt8.ofNat k.length], k] ++ (w1 ++ w2)).flatten ++ q =
            UInt8.ofNat k.length :: (k ++ (w1.flatten ++ (w2.flatten ++ q))) := by simp
        rw [e0]
        cases vs with
        | nil =>
          simp only [feedMembers, run, Prod.mk.injEq, and_true] at hw2
          subst hw2
          simp only [List.length_cons, List.length_nil, Nat.zero_add, inside, closeUp_last, after, closeEv] at s1 s0
          have := s0.trans s1
          simpa [evsMembers, inside] using this
        | cons v' vs =>
          have s2 := hd2 (by simp) c s q hc hf (by simp only [List.length_cons] at hl ⊢; omega)
          simp only [List.length_cons, inside, after] at s1 s0 hl
          rw [closeUp_more _ _ hl] at s1
          have := s0.trans (s1.trans s2)
          simpa [evsMembers, inside] using this
end

end Frpc
