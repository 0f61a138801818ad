import Verif.Proofs.Message
import Verif.Proofs.Js
import Verif.Spec.Python
/-! # The Python builder and feeder -/
namespace Frpc
namespace Python
open BinMarshaller BinUnMarshaller
open Spec (plainWith plainItemsWith plainMembersWith isUtf8)
open Spec.Python (shows showsItems showsMembers means meansItems meansMembers Loadable LoadableItems LoadableMembers)

theorem takeWhile_noNul : ∀ {l : Bytes}, (0 : UInt8) ∉ l → l.takeWhile (fun c => decide (c ≠ 0)) = l
  | [], _ => rfl
  | b :: l, h => by
    simp only [List.mem_cons, not_or] at h
    have hb : decide (b ≠ 0) = true := decide_eq_true (fun e => h.1 e.symm)
    simp only [List.takeWhile_cons, hb, if_true, takeWhile_noNul h.2]

theorem nodup_keys {β : Type} {ms : List (Bytes × β)} (h : (ms.map Prod.fst).Nodup) : (ms.map (fun m => Key.str m.1)).Nodup := by
  induction ms with
  | nil => exact List.nodup_nil
  | cons m ms ih =>
    simp only [List.map_cons, List.nodup_cons, List.mem_map, not_exists, not_and] at h ⊢
    exact ⟨fun x hx he => h.1 x hx (Key.str.inj he), ih h.2⟩

theorem keyOf_name {k : Bytes} (h : isUtf8 k = true) (h0 : (0 : UInt8) ∉ k) : keyOf k = some k := by
  unfold keyOf
  split
  · rw [if_pos (by unfold decodes; exact h)]
  · rw [takeWhile_noNul h0]

/-- The options of `loads` by default. -/
structure Plain (o : Opts) : Prop where
  bool : o.nativeBoolean = true
  date : o.datetimeBuilder = none

/-- A value may be put into the builder: no exception is set, and a name is known where one is needed. -/
def Good (pb : PB) : Prop :=
  pb.error = none ∧ ∀ s ms fs, pb.frames = (s, .dict ms) :: fs → (keyOf pb.memberName).isSome = true

/-- What Python makes of a date-time of a stream. -/
def gotDate (o : Opts) (ver : Version) (d : DateTime) : DateTime := newDateTime o.L (receivedDate ver d)

/-- The object for a value of a stream. -/
def got (o : Opts) (ver : Version) (v : Value) : Py := shows (plainWith (gotDate o ver) v)

theorem setItem_new {k : Key} {v : Py} : ∀ {ms : List (Key × Py)}, k ∉ ms.map Prod.fst → setItem k v ms = ms ++ [(k, v)]
  | [], _ => rfl
  | (j, w) :: ms, h => by
    simp only [List.map_cons, List.mem_cons, not_or] at h
    simp only [setItem, if_neg (fun e => h.1 (Eq.symm e)), setItem_new h.2, List.cons_append]

variable {o : Opts} {ver : Version}

theorem container {pb : PB} {c c' : Cont} {body : List Event} {eo ec : Event} (hg : Good pb)
    (ho : ∀ t, build o t eo = .ok (openC t c)) (hc : ∀ t, build o t ec = close t)
    (hb : ∀ (t : PB) s fs, t.error = none → t.frames = (s, c) :: fs → ∃ m, applyEvents (builder o) t body =
      ({ t with frames := (s, c') :: fs, memberName := m }, none)) :
    ∃ m, applyEvents (builder o) pb (eo :: (body ++ [ec])) = ({ place pb c'.val with memberName := m }, none) := by
  obtain ⟨he, hk⟩ := hg
  have fin : ∀ s fs, openC pb c = { openC pb c with frames := (s, c) :: fs } → (openC pb c).error = none →
      (∀ m, close { openC pb c with frames := (s, c') :: fs, memberName := m } = .ok { place pb c'.val with memberName := m }) →
      ∃ m, applyEvents (builder o) pb (eo :: (body ++ [ec])) = ({ place pb c'.val with memberName := m }, none) := by
    intro s fs hf her hcl
    have e1 : (builder o).build pb eo = .ok (openC pb c) := ho pb
    rw [applyEvents_cons e1, applyEvents_append]
    obtain ⟨m, hm⟩ := hb (openC pb c) s fs her (by rw [hf])
    rw [hm]
    refine ⟨m, applyEvents_one ?_⟩
    change build o _ ec = _
    rw [hc]; exact hcl m
  cases hfr : pb.frames with
  | nil =>
    cases h1 : pb.first with
    | true =>
      refine fin .root [] (by unfold openC; rw [he]; simp only [hfr, h1, if_true]) (by unfold openC; rw [he]; simp only [hfr, h1, if_true]) ?_
      intro m
      unfold openC place
      simp only [he, hfr, h1, if_true, close, attach]
    | false =>
      refine fin .lost [] (by unfold openC; rw [he]; simp only [hfr, h1]; rfl) (by unfold openC; rw [he]; simp [hfr, h1]) ?_
      intro m
      unfold openC place
      simp [he, hfr, h1, close, attach]
  | cons f fs =>
    obtain ⟨s0, c0⟩ := f
    cases c0 with
    | list xs =>
      refine fin .item ((s0, .list xs) :: fs) (by unfold openC; rw [he]; simp only [hfr]) (by unfold openC; rw [he]; simp only [hfr]) ?_
      intro m
      unfold openC place
      simp only [he, hfr, close, attach]
    | dict ms =>
      obtain ⟨k, hk⟩ := Option.isSome_iff_exists.1 (hk s0 ms fs hfr)
      refine fin (.key k) ((s0, .dict ms) :: fs) (by unfold openC; rw [he]; simp only [hfr, hk]) (by unfold openC; rw [he]; simp only [hfr, hk]) ?_
      intro m
      unfold openC place
      simp only [he, hfr, hk, close, attach]

theorem one {pb : PB} {e : Event} {x : Py} (h : build o pb e = .ok (place pb x)) :
    ∃ m, applyEvents (builder o) pb [e] = ({ place pb x with memberName := m }, none) :=
  ⟨(place pb x).memberName, applyEvents_one (B := builder o) h⟩

mutual
theorem build_value (hp : Plain o) : ∀ (v : Value), Loadable v → ∀ (pb : PB), Good pb →
    ∃ m, applyEvents (builder o) pb (evs ver v) = ({ place pb (got o ver v) with memberName := m }, none)
  | .int n, _, pb, _ => by simpa [evs, got, plainWith, shows] using one (o := o) (pb := pb) (e := .int n) (x := .int n) rfl
  | .bool b, _, pb, _ => by
    simpa [evs, got, plainWith, shows] using one (o := o) (pb := pb) (e := .bool b) (x := .bool b) (by simp only [build, hp.bool, if_true])
  | .double n, _, pb, _ => by simpa [evs, got, plainWith, shows] using one (o := o) (pb := pb) (e := .double n) (x := .float n) rfl
  | .null, _, pb, _ => by simpa [evs, got, plainWith, shows] using one (o := o) (pb := pb) (e := .null) (x := .none) rfl
  | .binary n, _, pb, _ => by simpa [evs, got, plainWith, shows] using one (o := o) (pb := pb) (e := .binary n) (x := .bytes n) rfl
  | .binaryRef n, _, pb, _ => by
    simpa [evs, got, plainWith, shows] using one (o := o) (pb := pb) (e := .binary n.flatten) (x := .bytes n.flatten) rfl
  | .dateTime d, _, pb, hg => by
    simpa [evs, got, plainWith, shows] using one (o := o) (pb := pb) (e := .dateTime (receivedDate ver d)) (x := .dateTime (gotDate o ver d)) (by
      simp only [build, hg.1, Option.isSome_none, Bool.false_eq_true, if_false, makeDate, hp.date, gotDate])
  | .string s, h, pb, hg => by
    unfold Loadable at h
    simpa [evs, got, plainWith, shows] using one (o := o) (pb := pb) (e := .string s) (x := .str s) (by
      simp only [build, hg.1, Option.isSome_none, Bool.false_eq_true, if_false, decodes, h, if_true])
  | .stringView s, h, pb, hg => by
    unfold Loadable at h
    simpa [evs, got, plainWith, shows] using one (o := o) (pb := pb) (e := .string s) (x := .str s) (by
      simp only [build, hg.1, Option.isSome_none, Bool.false_eq_true, if_false, decodes, h, if_true])
  | .secret v, h, pb, hg => by
    unfold Loadable at h
    simpa only [evs, got, plainWith] using build_value hp v h pb hg
  | .array vs, h, pb, hg => by
    unfold Loadable at h
    simp only [evs]
    have := container (o := o) (c := .list []) (c' := .list (showsItems (plainItemsWith (gotDate o ver) vs))) (eo := .openArray vs.length) (ec := .closeArray)
      (body := evsItems ver vs) hg (fun _ => rfl) (fun _ => rfl) (by
        intro t s fs he hf
        simpa using build_items hp vs h t s [] fs he hf)
    simpa only [got, plainWith, shows, Cont.val] using this
  | .struct ms, h, pb, hg => by
    unfold Loadable at h
    simp only [evs]
    have := container (o := o) (c := .dict []) (c' := .dict (showsMembers (plainMembersWith (gotDate o ver) ms))) (eo := .openStruct ms.length) (ec := .closeStruct)
      (body := evsMembers ver ms) hg (fun _ => rfl) (fun _ => rfl) (by
        intro t s fs he hf
        simpa using build_members hp ms h.2 t s [] fs he hf (by simpa using nodup_keys h.1))
    simpa only [got, plainWith, shows, Cont.val] using this
theorem build_items (hp : Plain o) : ∀ (vs : List Value), LoadableItems vs → ∀ (pb : PB) s acc fs, pb.error = none → pb.frames = (s, .list acc) :: fs →
    ∃ m, applyEvents (builder o) pb (evsItems ver vs) =
      ({ pb with frames := (s, .list (acc ++ showsItems (plainItemsWith (gotDate o ver) vs))) :: fs, memberName := m }, none)
  | [], _, pb, s, acc, fs, he, hf => ⟨pb.memberName, by simp [evsItems, applyEvents, plainItemsWith, showsItems, ← hf]⟩
  | v :: vs, h, pb, s, acc, fs, he, hf => by
    unfold LoadableItems at h
    obtain ⟨m, hm⟩ := build_value hp v h.1 pb ⟨he, by rw [hf]; intro s ms fs h; simp at h⟩
    have hpl : place pb (got o ver v) = { pb with frames := (s, .list (acc ++ [got o ver v])) :: fs } := by
      unfold place; rw [he]; simp only [hf]
    rw [hpl] at hm
    obtain ⟨m2, hm2⟩ := build_items hp vs h.2 { pb with frames := (s, .list (acc ++ [got o ver v])) :: fs, memberName := m } s _ fs he rfl
    refine ⟨m2, ?_⟩
    simp only [evsItems]
    rw [applyEvents_append, hm]
    simp only
    rw [hm2]
    simp [plainItemsWith, showsItems, got]
theorem build_members (hp : Plain o) : ∀ (ms : List (Bytes × Value)), LoadableMembers ms → ∀ (pb : PB) s acc fs, pb.error = none → pb.frames = (s, .dict acc) :: fs →
    (acc.map Prod.fst ++ ms.map (fun m => Key.str m.1)).Nodup →
    ∃ m, applyEvents (builder o) pb (evsMembers ver ms) =
      ({ pb with frames := (s, .dict (acc ++ showsMembers (plainMembersWith (gotDate o ver) ms))) :: fs, memberName := m }, none)
  | [], _, pb, s, acc, fs, he, hf, _ => ⟨pb.memberName, by simp [evsMembers, applyEvents, plainMembersWith, showsMembers, ← hf]⟩
  | (k, v) :: ms, h, pb, s, acc, fs, he, hf, hnd => by
    unfold LoadableMembers at h
    have hk := keyOf_name h.1.1 h.1.2
    obtain ⟨m, hm⟩ := build_value hp v h.2.1 { pb with memberName := k } ⟨he, by intro s ms fs _; simp only [hk]; rfl⟩
    have hnew : Key.str k ∉ acc.map Prod.fst := by
      intro hmem
      simp only [List.map_cons] at hnd
      have := (List.nodup_append.1 hnd).2.2 _ hmem (.str k) (by simp)
      exact this rfl
    have hpl : place { pb with memberName := k } (got o ver v) = { pb with memberName := k, frames := (s, .dict (acc ++ [(.str k, got o ver v)])) :: fs } := by
      unfold place
      simp only [he, hf, hk, setItem_new hnew]
    rw [hpl] at hm
    obtain ⟨m2, hm2⟩ := build_members hp ms h.2.2 { pb with frames := (s, .dict (acc ++ [(.str k, got o ver v)])) :: fs, memberName := m } s _ fs he rfl
      (by simpa [List.append_assoc] using hnd)
    refine ⟨m2, ?_⟩
    simp only [evsMembers]
    rw [applyEvents_cons (b' := { pb with memberName := k }) (by simp only [builder, build, he]; rfl), applyEvents_append, hm]
    simp only
    rw [hm2]
    simp [plainMembersWith, showsMembers, got]
end

/-! ## Feeding -/

theorem toInt64_in {n : Int} (h : -(2 : Int) ^ 63 ≤ n ∧ n < 2 ^ 63) : toInt64 n = some n := by
  unfold toInt64
  rw [if_neg (by omega), if_pos h]

theorem argc_small {n : Nat} (h : n < 2 ^ 30) : argc n = n := by
  unfold argc i32; omega

variable {L : DateTimeMake.Libc}

theorem means_list {xs : List Py} {v : Value} (h : (meansItems xs).map Value.array = some v) : ∃ vs, meansItems xs = some vs ∧ v = .array vs := by
  cases hm : meansItems xs with
  | none => rw [hm] at h; simp at h
  | some vs => rw [hm] at h; simp at h; exact ⟨vs, rfl, h.symm⟩

theorem means_dict {ms : List (Key × Py)} {v : Value} (h : (meansMembers ms).map Value.struct = some v) : ∃ vs, meansMembers ms = some vs ∧ v = .struct vs := by
  cases hm : meansMembers ms with
  | none => rw [hm] at h; simp at h
  | some vs => rw [hm] at h; simp at h; exact ⟨vs, rfl, h.symm⟩

theorem means_cons {x : Py} {xs : List Py} {ws : List Value} (h : meansItems (x :: xs) = some ws) :
    ∃ v vs, means x = some v ∧ meansItems xs = some vs ∧ ws = v :: vs := by
  unfold meansItems at h
  split at h
  · next v vs h1 h2 => exact ⟨v, vs, h1, h2, (Option.some.inj h).symm⟩
  · simp at h

theorem means_member {k : Key} {x : Py} {xs : List (Key × Py)} {ws : List (Bytes × Value)} (h : meansMembers ((k, x) :: xs) = some ws) :
    ∃ s v vs, k = .str s ∧ means x = some v ∧ meansMembers xs = some vs ∧ ws = (s, v) :: vs := by
  cases k with
  | str s =>
    unfold meansMembers at h
    split at h
    · next v vs h1 h2 => exact ⟨s, v, vs, rfl, h1, h2, (Option.some.inj h).symm⟩
    · simp at h
  | surrogates => unfold meansMembers at h; simp at h
  | other => unfold meansMembers at h; simp at h

theorem means_items_length : ∀ {xs : List Py} {vs : List Value}, meansItems xs = some vs → vs.length = xs.length
  | [], vs, h => by unfold meansItems at h; simp at h; subst h; rfl
  | x :: xs, vs, h => by
    obtain ⟨v, ws, _, h2, rfl⟩ := means_cons h
    simp [means_items_length h2]

theorem means_members_length : ∀ {xs : List (Key × Py)} {vs : List (Bytes × Value)}, meansMembers xs = some vs → vs.length = xs.length
  | [], vs, h => by unfold meansMembers at h; simp at h; subst h; rfl
  | (k, x) :: xs, vs, h => by
    obtain ⟨s, v, ws, _, _, h2, rfl⟩ := means_member h
    simp [means_members_length h2]

theorem u32_small {n : Nat} (h : n < 2 ^ 30) : u32 (n : Int) = n := by unfold u32; omega

mutual
/-- An object that stands for a value is fed as that value. -/
theorem feed_means : ∀ (p : Py) (v : Value), means p = some v → Spec.Python.Small p → feedValue L p = (feed v, none)
  | .none, v, h, _ => by unfold means at h; cases h; rfl
  | .bool b, v, h, _ => by unfold means at h; cases h; rfl
  | .boolean b, v, h, _ => by unfold means at h; cases h; rfl
  | .int n, v, h, _ => by
    unfold means at h
    split at h
    · next hn => cases h; simp only [feedValue, toInt64_in hn, feed]
    · cases h
  | .float x, v, h, _ => by unfold means at h; cases h; rfl
  | .str s, v, h, _ => by unfold means at h; cases h; rfl
  | .bytes s, v, h, _ => by unfold means at h; cases h; rfl
  | .dateTime d, v, h, _ => by unfold means at h; cases h; rfl
  | .list xs, v, h, hs => by
    unfold means at h
    obtain ⟨vs, h1, rfl⟩ := means_list h
    unfold Spec.Python.Small at hs
    have := feed_items xs vs h1 hs.2
    simp only [feedValue, argc_small hs.1, Int.toNat_natCast, this, andThen, feed, means_items_length h1, u32_small hs.1, sz32_eq hs.1, List.cons_append, List.nil_append]
  | .tuple xs, v, h, hs => by
    unfold means at h
    obtain ⟨vs, h1, rfl⟩ := means_list h
    unfold Spec.Python.Small at hs
    have := feed_items xs vs h1 hs.2
    simp only [feedValue, argc_small hs.1, Int.toNat_natCast, this, andThen, feed, means_items_length h1, u32_small hs.1, sz32_eq hs.1, List.cons_append, List.nil_append]
  | .dict ms, v, h, hs => by
    unfold means at h
    obtain ⟨vs, h1, rfl⟩ := means_dict h
    unfold Spec.Python.Small at hs
    have := feed_members ms vs h1 hs.2
    simp only [feedValue, this, andThen, feed, means_members_length h1, List.cons_append, List.nil_append]
  | .surrogates, v, h, _ => by unfold means at h; cases h
  | .native .., v, h, _ => by unfold means at h; cases h
  | .fault .., v, h, _ => by unfold means at h; cases h
  | .other, v, h, _ => by unfold means at h; cases h
theorem feed_items : ∀ (xs : List Py) (vs : List Value), meansItems xs = some vs → Spec.Python.SmallItems xs → Python.feedItems L xs.length xs = (Frpc.feedItems vs, none)
  | [], vs, h, _ => by unfold meansItems at h; simp at h; subst h; rfl
  | x :: xs, ws, h, hs => by
    obtain ⟨v, vs, h1, h2, rfl⟩ := means_cons h
    unfold Spec.Python.SmallItems at hs
    simp only [List.length_cons, Python.feedItems, feed_means x v h1 hs.1, feed_items xs vs h2 hs.2, andThen, Frpc.feedItems]
theorem feed_members : ∀ (xs : List (Key × Py)) (vs : List (Bytes × Value)), meansMembers xs = some vs → Spec.Python.SmallMembers xs → Python.feedMembers L xs = (Frpc.feedMembers vs, none)
  | [], vs, h, _ => by unfold meansMembers at h; simp at h; subst h; rfl
  | (k, x) :: xs, ws, h, hs => by
    obtain ⟨s, v, vs, rfl, h1, h2, rfl⟩ := means_member h
    unfold Spec.Python.SmallMembers at hs
    simp only [Python.feedMembers, feed_means x v h1 hs.2.1, feed_members xs vs h2 hs.2.2, andThen, Frpc.feedMembers, List.cons_append, List.nil_append]
end

theorem andThen_none {a b : List PackOp × Option Exn} (h : (andThen a b).2 = none) : a.2 = none ∧ b.2 = none := by
  obtain ⟨a1, a2⟩ := a
  cases a2 with
  | some e => simp [andThen] at h
  | none => exact ⟨rfl, h⟩

variable {N : Spec.Python.Need}

mutual
/-- An object that is fed without an exception stands for a value, if its integers are in range and it has no `datetime` in it. -/
theorem means_of_fed (hi : ∀ n, N.int n → ¬ ((2 : Int) ^ 63 ≤ n ∧ n < 2 ^ 64)) (hn : ¬ N.native) : ∀ (p : Py), Spec.Python.Each N p → Spec.Python.Small p →
    (feedValue L p).2 = none → ∃ v, means p = some v
  | .none, _, _, _ => ⟨_, rfl⟩
  | .bool b, _, _, _ => ⟨_, rfl⟩
  | .boolean b, _, _, _ => ⟨_, rfl⟩
  | .int n, he, _, h => by
    unfold Spec.Python.Each at he
    unfold means
    have := hi n he
    by_cases hr : -(2 : Int) ^ 63 ≤ n ∧ n < 2 ^ 63
    · exact ⟨_, if_pos hr⟩
    · have ht : toInt64 n = none := by unfold toInt64; rw [if_neg this, if_neg hr]
      simp [feedValue, ht] at h
  | .float x, _, _, _ => ⟨_, rfl⟩
  | .str s, _, _, _ => ⟨_, rfl⟩
  | .bytes s, _, _, _ => ⟨_, rfl⟩
  | .dateTime d, _, _, _ => ⟨_, rfl⟩
  | .list xs, he, hs, h => by
    unfold Spec.Python.Each at he
    unfold Spec.Python.Small at hs
    simp only [feedValue, argc_small hs.1, Int.toNat_natCast] at h
    obtain ⟨vs, hv⟩ := means_of_fed_items hi hn xs he hs.2 (andThen_none h).2
    exact ⟨.array vs, by unfold means; rw [hv]; rfl⟩
  | .tuple xs, he, hs, h => by
    unfold Spec.Python.Each at he
    unfold Spec.Python.Small at hs
    simp only [feedValue, argc_small hs.1, Int.toNat_natCast] at h
    obtain ⟨vs, hv⟩ := means_of_fed_items hi hn xs he hs.2 (andThen_none h).2
    exact ⟨.array vs, by unfold means; rw [hv]; rfl⟩
  | .dict ms, he, hs, h => by
    unfold Spec.Python.Each at he
    unfold Spec.Python.Small at hs
    simp only [feedValue] at h
    obtain ⟨vs, hv⟩ := means_of_fed_members hi hn ms he hs.2 (andThen_none h).2
    exact ⟨.struct vs, by unfold means; rw [hv]; rfl⟩
  | .surrogates, _, _, h => by simp [feedValue] at h
  | .native .., he, _, _ => by unfold Spec.Python.Each at he; exact absurd he hn
  | .fault .., _, _, h => by simp [feedValue] at h
  | .other, _, _, h => by simp [feedValue] at h
theorem means_of_fed_items (hi : ∀ n, N.int n → ¬ ((2 : Int) ^ 63 ≤ n ∧ n < 2 ^ 64)) (hn : ¬ N.native) : ∀ (xs : List Py), Spec.Python.EachItems N xs → Spec.Python.SmallItems xs →
    (Python.feedItems L xs.length xs).2 = none → ∃ vs, meansItems xs = some vs
  | [], _, _, _ => ⟨[], rfl⟩
  | x :: xs, he, hs, h => by
    unfold Spec.Python.EachItems at he
    unfold Spec.Python.SmallItems at hs
    simp only [List.length_cons, Python.feedItems] at h
    obtain ⟨v, hv⟩ := means_of_fed hi hn x he.1 hs.1 (andThen_none h).1
    obtain ⟨vs, hvs⟩ := means_of_fed_items hi hn xs he.2 hs.2 (andThen_none h).2
    exact ⟨v :: vs, by unfold meansItems; rw [hv, hvs]⟩
theorem means_of_fed_members (hi : ∀ n, N.int n → ¬ ((2 : Int) ^ 63 ≤ n ∧ n < 2 ^ 64)) (hn : ¬ N.native) : ∀ (xs : List (Key × Py)), Spec.Python.EachMembers N xs →
    Spec.Python.SmallMembers xs → (Python.feedMembers L xs).2 = none → ∃ vs, meansMembers xs = some vs
  | [], _, _, _ => ⟨[], rfl⟩
  | (.str k, x) :: xs, he, hs, h => by
    unfold Spec.Python.EachMembers at he
    unfold Spec.Python.SmallMembers at hs
    simp only [Python.feedMembers] at h
    have h1 := andThen_none (andThen_none h).2
    obtain ⟨v, hv⟩ := means_of_fed hi hn x he.2.1 hs.2.1 h1.1
    obtain ⟨vs, hvs⟩ := means_of_fed_members hi hn xs he.2.2 hs.2.2 h1.2
    exact ⟨(k, v) :: vs, by unfold meansMembers; rw [hv, hvs]⟩
  | (.surrogates, x) :: xs, _, _, h => by simp [Python.feedMembers] at h
  | (.other, x) :: xs, _, _, h => by simp [Python.feedMembers] at h
end

mutual
theorem means_ranged : ∀ (p : Py) (v : Value), means p = some v → Spec.Python.Proper p → Ranged v
  | .none, v, h, _ => by unfold means at h; cases h; simp [Ranged]
  | .bool b, v, h, _ => by unfold means at h; cases h; simp [Ranged]
  | .boolean b, v, h, _ => by unfold means at h; cases h; simp [Ranged]
  | .int n, v, h, _ => by
    unfold means at h
    split at h
    · next hn => cases h; unfold Ranged IsI64; exact hn
    · cases h
  | .float x, v, h, _ => by unfold means at h; cases h; simp [Ranged]
  | .str s, v, h, _ => by unfold means at h; cases h; simp [Ranged]
  | .bytes s, v, h, _ => by unfold means at h; cases h; simp [Ranged]
  | .dateTime d, v, h, hp => by unfold means at h; cases h; unfold Spec.Python.Proper at hp; unfold Ranged; exact hp
  | .list xs, v, h, hp => by
    unfold means at h; unfold Spec.Python.Proper at hp
    obtain ⟨vs, h1, rfl⟩ := means_list h
    unfold Ranged; exact means_ranged_items xs vs h1 hp
  | .tuple xs, v, h, hp => by
    unfold means at h; unfold Spec.Python.Proper at hp
    obtain ⟨vs, h1, rfl⟩ := means_list h
    unfold Ranged; exact means_ranged_items xs vs h1 hp
  | .dict ms, v, h, hp => by
    unfold means at h; unfold Spec.Python.Proper at hp
    obtain ⟨vs, h1, rfl⟩ := means_dict h
    unfold Ranged; exact means_ranged_members ms vs h1 hp.2
  | .surrogates, v, h, _ => by unfold means at h; cases h
  | .native .., v, h, _ => by unfold means at h; cases h
  | .fault .., v, h, _ => by unfold means at h; cases h
  | .other, v, h, _ => by unfold means at h; cases h
theorem means_ranged_items : ∀ (xs : List Py) (vs : List Value), meansItems xs = some vs → Spec.Python.ProperItems xs → RangedItems vs
  | [], vs, h, _ => by unfold meansItems at h; simp at h; subst h; simp [RangedItems]
  | x :: xs, ws, h, hp => by
    obtain ⟨v, vs, h1, h2, rfl⟩ := means_cons h
    unfold Spec.Python.ProperItems at hp
    unfold RangedItems; exact ⟨means_ranged x v h1 hp.1, means_ranged_items xs vs h2 hp.2⟩
theorem means_ranged_members : ∀ (xs : List (Key × Py)) (vs : List (Bytes × Value)), meansMembers xs = some vs → Spec.Python.ProperMembers xs → RangedMembers vs
  | [], vs, h, _ => by unfold meansMembers at h; simp at h; subst h; simp [RangedMembers]
  | (k, x) :: xs, ws, h, hp => by
    obtain ⟨s, v, vs, rfl, h1, h2, rfl⟩ := means_member h
    unfold Spec.Python.ProperMembers at hp
    unfold RangedMembers; exact ⟨means_ranged x v h1 hp.2.1, means_ranged_members xs vs h2 hp.2.2⟩
end

mutual
theorem means_small : ∀ (p : Py) (v : Value), means p = some v → Spec.Python.Small p → Spec.Small v
  | .none, v, h, _ => by unfold means at h; cases h; simp [Spec.Small]
  | .bool b, v, h, _ => by unfold means at h; cases h; simp [Spec.Small]
  | .boolean b, v, h, _ => by unfold means at h; cases h; simp [Spec.Small]
  | .int n, v, h, _ => by
    unfold means at h
    split at h
    · cases h; simp [Spec.Small]
    · cases h
  | .float x, v, h, _ => by unfold means at h; cases h; simp [Spec.Small]
  | .str s, v, h, hp => by unfold means at h; cases h; unfold Spec.Python.Small at hp; unfold Spec.Small; exact hp
  | .bytes s, v, h, hp => by unfold means at h; cases h; unfold Spec.Python.Small at hp; unfold Spec.Small; exact hp
  | .dateTime d, v, h, hp => by unfold means at h; cases h; simp [Spec.Small]
  | .list xs, v, h, hp => by
    unfold means at h; unfold Spec.Python.Small at hp
    obtain ⟨vs, h1, rfl⟩ := means_list h
    unfold Spec.Small; exact ⟨by rw [means_items_length h1]; exact hp.1, means_small_items xs vs h1 hp.2⟩
  | .tuple xs, v, h, hp => by
    unfold means at h; unfold Spec.Python.Small at hp
    obtain ⟨vs, h1, rfl⟩ := means_list h
    unfold Spec.Small; exact ⟨by rw [means_items_length h1]; exact hp.1, means_small_items xs vs h1 hp.2⟩
  | .dict ms, v, h, hp => by
    unfold means at h; unfold Spec.Python.Small at hp
    obtain ⟨vs, h1, rfl⟩ := means_dict h
    unfold Spec.Small; exact ⟨by rw [means_members_length h1]; exact hp.1, means_small_members ms vs h1 hp.2⟩
  | .surrogates, v, h, _ => by unfold means at h; cases h
  | .native .., v, h, _ => by unfold means at h; cases h
  | .fault .., v, h, _ => by unfold means at h; cases h
  | .other, v, h, _ => by unfold means at h; cases h
theorem means_small_items : ∀ (xs : List Py) (vs : List Value), meansItems xs = some vs → Spec.Python.SmallItems xs → Spec.SmallItems vs
  | [], vs, h, _ => by unfold meansItems at h; simp at h; subst h; simp [Spec.SmallItems]
  | x :: xs, ws, h, hp => by
    obtain ⟨v, vs, h1, h2, rfl⟩ := means_cons h
    unfold Spec.Python.SmallItems at hp
    unfold Spec.SmallItems; exact ⟨means_small x v h1 hp.1, means_small_items xs vs h2 hp.2⟩
theorem means_small_members : ∀ (xs : List (Key × Py)) (vs : List (Bytes × Value)), meansMembers xs = some vs → Spec.Python.SmallMembers xs → Spec.SmallMembers vs
  | [], vs, h, _ => by unfold meansMembers at h; simp at h; subst h; simp [Spec.SmallMembers]
  | (k, x) :: xs, ws, h, hp => by
    obtain ⟨s, v, vs, rfl, h1, h2, rfl⟩ := means_member h
    unfold Spec.Python.SmallMembers at hp
    unfold Spec.SmallMembers; exact ⟨hp.1 s rfl, means_small x v h1 hp.2.1, means_small_members xs vs h2 hp.2.2⟩
end

theorem means_keys : ∀ {xs : List (Key × Py)} {vs : List (Bytes × Value)}, meansMembers xs = some vs → xs.map Prod.fst = vs.map (fun m => Key.str m.1)
  | [], vs, h => by unfold meansMembers at h; simp at h; subst h; rfl
  | (k, x) :: xs, vs, h => by
    obtain ⟨s, v, ws, rfl, _, h2, rfl⟩ := means_member h
    simp [means_keys h2]

theorem nodup_of_keys {β : Type} {ms : List (Bytes × β)} (h : (ms.map (fun m => Key.str m.1)).Nodup) : (ms.map Prod.fst).Nodup := by
  induction ms with
  | nil => exact List.nodup_nil
  | cons m ms ih =>
    simp only [List.map_cons, List.nodup_cons, List.mem_map, not_exists, not_and] at h ⊢
    exact ⟨fun x hx he => h.1 x hx (by rw [he]), ih h.2⟩

mutual
/-- What Python sends can be loaded by Python, if there is no NUL in a key; what is loaded is what was sent, its date-times changed by `f`. -/
theorem means_back (hk : ∀ k, N.key k → (0 : UInt8) ∉ k) {f : DateTime → DateTime} (hd : ∀ d, N.date d → f d = d) : ∀ (p : Py) (v : Value), means p = some v →
    Spec.Python.Proper p → Spec.Python.Each N p → Loadable v ∧ shows (plainWith f v) = Spec.Python.back p
  | .none, v, h, _, _ => by unfold means at h; cases h; simp [Loadable, plainWith, shows, Spec.Python.back]
  | .bool b, v, h, _, _ => by unfold means at h; cases h; simp [Loadable, plainWith, shows, Spec.Python.back]
  | .boolean b, v, h, _, _ => by unfold means at h; cases h; simp [Loadable, plainWith, shows, Spec.Python.back]
  | .int n, v, h, _, _ => by
    unfold means at h
    split at h
    · cases h; simp [Loadable, plainWith, shows, Spec.Python.back]
    · cases h
  | .float x, v, h, _, _ => by unfold means at h; cases h; simp [Loadable, plainWith, shows, Spec.Python.back]
  | .str s, v, h, hp, _ => by
    unfold means at h; cases h; unfold Spec.Python.Proper at hp
    simp [Loadable, plainWith, shows, Spec.Python.back, hp]
  | .bytes s, v, h, _, _ => by unfold means at h; cases h; simp [Loadable, plainWith, shows, Spec.Python.back]
  | .dateTime d, v, h, _, he => by
    unfold means at h; cases h; unfold Spec.Python.Each at he
    simp [Loadable, plainWith, shows, Spec.Python.back, hd d he]
  | .list xs, v, h, hp, he => by
    unfold means at h; unfold Spec.Python.Proper at hp; unfold Spec.Python.Each at he
    obtain ⟨vs, h1, rfl⟩ := means_list h
    have := means_back_items hk hd xs vs h1 hp he
    unfold Loadable; simp only [plainWith, shows, Spec.Python.back, this, and_self]
  | .tuple xs, v, h, hp, he => by
    unfold means at h; unfold Spec.Python.Proper at hp; unfold Spec.Python.Each at he
    obtain ⟨vs, h1, rfl⟩ := means_list h
    have := means_back_items hk hd xs vs h1 hp he
    unfold Loadable; simp only [plainWith, shows, Spec.Python.back, this, and_self]
  | .dict ms, v, h, hp, he => by
    unfold means at h; unfold Spec.Python.Proper at hp; unfold Spec.Python.Each at he
    obtain ⟨vs, h1, rfl⟩ := means_dict h
    have := means_back_members hk hd ms vs h1 hp.2 he
    unfold Loadable; simp only [plainWith, shows, Spec.Python.back, this, and_true]
    exact nodup_of_keys (by rw [← means_keys h1]; exact hp.1)
  | .surrogates, v, h, _, _ => by unfold means at h; cases h
  | .native .., v, h, _, _ => by unfold means at h; cases h
  | .fault .., v, h, _, _ => by unfold means at h; cases h
  | .other, v, h, _, _ => by unfold means at h; cases h
theorem means_back_items (hk : ∀ k, N.key k → (0 : UInt8) ∉ k) {f : DateTime → DateTime} (hd : ∀ d, N.date d → f d = d) : ∀ (xs : List Py) (vs : List Value),
    meansItems xs = some vs → Spec.Python.ProperItems xs → Spec.Python.EachItems N xs → LoadableItems vs ∧ showsItems (plainItemsWith f vs) = Spec.Python.backItems xs
  | [], vs, h, _, _ => by unfold meansItems at h; simp at h; subst h; simp [LoadableItems, plainItemsWith, showsItems, Spec.Python.backItems]
  | x :: xs, ws, h, hp, he => by
    obtain ⟨v, vs, h1, h2, rfl⟩ := means_cons h
    unfold Spec.Python.ProperItems at hp
    unfold Spec.Python.EachItems at he
    have h3 := means_back hk hd x v h1 hp.1 he.1
    have h4 := means_back_items hk hd xs vs h2 hp.2 he.2
    unfold LoadableItems; simp only [plainItemsWith, showsItems, Spec.Python.backItems, h3, h4, and_self]
theorem means_back_members (hk : ∀ k, N.key k → (0 : UInt8) ∉ k) {f : DateTime → DateTime} (hd : ∀ d, N.date d → f d = d) : ∀ (xs : List (Key × Py)) (vs : List (Bytes × Value)),
    meansMembers xs = some vs → Spec.Python.ProperMembers xs → Spec.Python.EachMembers N xs →
    LoadableMembers vs ∧ showsMembers (plainMembersWith f vs) = Spec.Python.backMembers xs
  | [], vs, h, _, _ => by unfold meansMembers at h; simp at h; subst h; simp [LoadableMembers, plainMembersWith, showsMembers, Spec.Python.backMembers]
  | (k, x) :: xs, ws, h, hp, he => by
    obtain ⟨s, v, vs, rfl, h1, h2, rfl⟩ := means_member h
    unfold Spec.Python.ProperMembers at hp
    unfold Spec.Python.EachMembers at he
    have h3 := means_back hk hd x v h1 hp.2.1 he.2.1
    have h4 := means_back_members hk hd xs vs h2 hp.2.2 he.2.2
    unfold LoadableMembers; simp only [plainMembersWith, showsMembers, Spec.Python.backMembers, h3, h4, and_true]
    exact ⟨hp.1 s rfl, hk s (he.1 s rfl)⟩
end

theorem stands_perm : ∀ {xs : List (Key × Py)} {a b : List (Bytes × Value)}, b.Perm a → Spec.Python.StandsMembers xs a → Spec.Python.StandsMembers xs b
  | [], a, b, hp, h => by unfold Spec.Python.StandsMembers at h ⊢; subst h; exact List.perm_nil.1 hp
  | (.str k, x) :: xs, a, b, hp, h => by
    unfold Spec.Python.StandsMembers at h ⊢
    obtain ⟨w, ws, h1, h2, h3⟩ := h
    exact ⟨w, ws, hp.trans h1, h2, h3⟩
  | (.surrogates, x) :: xs, a, b, hp, h => by unfold Spec.Python.StandsMembers at h; exact h.elim
  | (.other, x) :: xs, a, b, hp, h => by unfold Spec.Python.StandsMembers at h; exact h.elim

mutual
theorem received_stands {cfg : TreeBuilder.Cfg} (hd : ∀ d, N.date d → cfg.date (receivedDate ver d) = d) : ∀ (p : Py) (v : Value), means p = some v →
    Spec.Python.Proper p → Spec.Python.Each N p → Spec.Python.Stands p (received cfg ver v)
  | .none, v, h, _, _ => by unfold means at h; cases h; simp [Spec.Python.Stands, received]
  | .bool b, v, h, _, _ => by unfold means at h; cases h; simp [Spec.Python.Stands, received]
  | .boolean b, v, h, _, _ => by unfold means at h; cases h; simp [Spec.Python.Stands, received]
  | .int n, v, h, _, _ => by
    unfold means at h
    split at h
    · cases h; simp [Spec.Python.Stands, received]
    · cases h
  | .float x, v, h, _, _ => by unfold means at h; cases h; simp [Spec.Python.Stands, received]
  | .str s, v, h, _, _ => by unfold means at h; cases h; simp [Spec.Python.Stands, received]
  | .bytes s, v, h, _, _ => by unfold means at h; cases h; simp [Spec.Python.Stands, received]
  | .dateTime d, v, h, _, he => by
    unfold means at h; cases h; unfold Spec.Python.Each at he
    simp [Spec.Python.Stands, received, hd d he]
  | .list xs, v, h, hp, he => by
    unfold means at h; unfold Spec.Python.Proper at hp; unfold Spec.Python.Each at he
    obtain ⟨vs, h1, rfl⟩ := means_list h
    unfold Spec.Python.Stands received
    exact ⟨_, rfl, received_stands_items hd xs vs h1 hp he⟩
  | .tuple xs, v, h, hp, he => by
    unfold means at h; unfold Spec.Python.Proper at hp; unfold Spec.Python.Each at he
    obtain ⟨vs, h1, rfl⟩ := means_list h
    unfold Spec.Python.Stands received
    exact ⟨_, rfl, received_stands_items hd xs vs h1 hp he⟩
  | .dict ms, v, h, hp, he => by
    unfold means at h; unfold Spec.Python.Proper at hp; unfold Spec.Python.Each at he
    obtain ⟨vs, h1, rfl⟩ := means_dict h
    unfold Spec.Python.Stands received
    have hk : ((receivedMembers cfg ver vs).map (·.1)).Nodup := by
      rw [receivedMembers_keys]
      exact nodup_of_keys (by rw [← means_keys h1]; exact hp.1)
    obtain ⟨c1, c2⟩ := Js.collect_perm (receivedMembers cfg ver vs) [] hk (by simp) List.Pairwise.nil
    exact ⟨_, rfl, c2, stands_perm c1 (received_stands_members hd ms vs h1 hp.2 he)⟩
  | .surrogates, v, h, _, _ => by unfold means at h; cases h
  | .native .., v, h, _, _ => by unfold means at h; cases h
  | .fault .., v, h, _, _ => by unfold means at h; cases h
  | .other, v, h, _, _ => by unfold means at h; cases h
theorem received_stands_items {cfg : TreeBuilder.Cfg} (hd : ∀ d, N.date d → cfg.date (receivedDate ver d) = d) : ∀ (xs : List Py) (vs : List Value),
    meansItems xs = some vs → Spec.Python.ProperItems xs → Spec.Python.EachItems N xs → Spec.Python.StandsItems xs (receivedItems cfg ver vs)
  | [], vs, h, _, _ => by unfold meansItems at h; simp at h; subst h; simp [Spec.Python.StandsItems, receivedItems]
  | x :: xs, ws, h, hp, he => by
    obtain ⟨v, vs, h1, h2, rfl⟩ := means_cons h
    unfold Spec.Python.ProperItems at hp
    unfold Spec.Python.EachItems at he
    unfold Spec.Python.StandsItems receivedItems
    exact ⟨_, _, rfl, received_stands hd x v h1 hp.1 he.1, received_stands_items hd xs vs h2 hp.2 he.2⟩
theorem received_stands_members {cfg : TreeBuilder.Cfg} (hd : ∀ d, N.date d → cfg.date (receivedDate ver d) = d) : ∀ (xs : List (Key × Py)) (vs : List (Bytes × Value)),
    meansMembers xs = some vs → Spec.Python.ProperMembers xs → Spec.Python.EachMembers N xs → Spec.Python.StandsMembers xs (receivedMembers cfg ver vs)
  | [], vs, h, _, _ => by unfold meansMembers at h; simp at h; subst h; simp [Spec.Python.StandsMembers, receivedMembers]
  | (k, x) :: xs, ws, h, hp, he => by
    obtain ⟨s, v, vs, rfl, h1, h2, rfl⟩ := means_member h
    unfold Spec.Python.ProperMembers at hp
    unfold Spec.Python.EachMembers at he
    unfold Spec.Python.StandsMembers receivedMembers
    exact ⟨_, _, List.Perm.refl _, received_stands hd x v h1 hp.2.1 he.2.1, received_stands_members hd xs vs h2 hp.2.2 he.2.2⟩
end

end Python
end Frpc
