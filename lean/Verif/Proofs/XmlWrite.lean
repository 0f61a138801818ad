import Verif.Proofs.XmlRead
import Verif.Spec.Wire
import Verif.Props.Base64
/-!
# Lemmas on the XML marshaller
-/
namespace Frpc
namespace XmlMarshaller
open Spec.Xml Spec.XmlRpc

/-! ## What is written -/

/-- `<value><tag>text</tag></value>` and a line feed. -/
def typed (tag t : Bytes) : Bytes := asc "<value><" ++ tag ++ [62] ++ t ++ [60, 47] ++ tag ++ asc "></value>\n"

/-- The text of a date-time. -/
def dateText (d : DateTime) : Bytes := IsoDate.format d.year d.month d.day d.hour d.minute d.sec d.timeZone

/-- The tag of an integer. -/
def intTag (n : Int) : Bytes := if n.natAbs ≥ 2 ^ 31 then asc "i8" else asc "i4"

mutual
/-- The text of a value. -/
def xtext (dbl : BitVec 64 → Bytes) : Value → Bytes
  | .int n => typed (intTag n) (decInt n)
  | .bool b => typed (asc "boolean") [if b then 49 else 48]
  | .double x => typed (asc "double") (dbl x)
  | .string s | .stringView s => typed (asc "string") (quoted s)
  | .dateTime d => typed (asc "dateTime.iso8601") (dateText d)
  | .binary s => typed (asc "base64") (Base64.writeEncodeBase64 true [s])
  | .binaryRef cs => typed (asc "base64") (Base64.writeEncodeBase64 true cs)
  | .null => asc "<value><nil/></value>\n"
  | .secret v => xtext dbl v
  | .array vs => asc "<value>\n<array>\n<data>\n" ++ xitems dbl vs ++ asc "</data>\n</array>\n</value>\n"
  | .struct ms => asc "<value>\n<struct>\n" ++ xmembers dbl ms ++ asc "</struct>\n</value>\n"
/-- Of the elements. -/
def xitems (dbl : BitVec 64 → Bytes) : List Value → Bytes
  | [] => []
  | v :: vs => xtext dbl v ++ xitems dbl vs
/-- Of the members. -/
def xmembers (dbl : BitVec 64 → Bytes) : List (Bytes × Value) → Bytes
  | [] => []
  | (k, v) :: ms => asc "<member>\n<name>" ++ quoted k ++ asc "</name>\n" ++ xtext dbl v ++ asc "</member>\n" ++ xmembers dbl ms
end

/-- `</param>` at the top. -/
def closeParam (s : Storage) : List Bytes := if s.isEmpty then [asc "</param>\n"] else []

/-- The operations succeed, write that and leave that state. -/
def Runs (dbl : BitVec 64 → Bytes) (m : M) (ops : List PackOp) (out : Bytes) (m' : M) : Prop :=
  ∃ ws, packAll dbl m ops = (ws, m', none) ∧ ws.flatten = out

theorem Runs.nil {dbl : BitVec 64 → Bytes} {m : M} : Runs dbl m [] [] m := ⟨[], rfl, rfl⟩

theorem Runs.cons {dbl : BitVec 64 → Bytes} {m m1 m2 : M} {op : PackOp} {ops : List PackOp} {ws : List Bytes} {y : Bytes}
    (h1 : pack dbl m op = (ws, m1, none)) (h2 : Runs dbl m1 ops y m2) : Runs dbl m (op :: ops) (ws.flatten ++ y) m2 := by
  obtain ⟨ws2, h3, h4⟩ := h2
  refine ⟨ws ++ ws2, ?_, by simp [h4]⟩
  rw [packAll, h1]
  simp only [h3]

theorem Runs.append {dbl : BitVec 64 → Bytes} {b : List PackOp} {m2 : M} {y : Bytes} : ∀ {a : List PackOp} {m m1 : M} {x : Bytes},
    Runs dbl m a x m1 → Runs dbl m1 b y m2 → Runs dbl m (a ++ b) (x ++ y) m2
  | [], m, m1, x, ⟨ws, h1, h2⟩, h => by
    rw [packAll] at h1
    simp only [Prod.mk.injEq, and_true] at h1
    obtain ⟨rfl, rfl⟩ := h1
    subst h2
    simpa using h
  | op :: a, m, m1, x, ⟨ws, h1, h2⟩, h => by
    rw [packAll] at h1
    generalize hp : pack dbl m op = r at h1
    obtain ⟨w, m', e⟩ := r
    cases e with
    | some e => simp at h1
    | none =>
      simp only [Prod.mk.injEq] at h1
      obtain ⟨h3, h4⟩ := h1
      have : Runs dbl m' a (packAll dbl m' a).1.flatten m1 := ⟨_, Prod.ext rfl h4, rfl⟩
      have h5 := Runs.cons hp (this.append h)
      rw [← h2, ← h3]
      simpa using h5

/-- What a value writes: the text, within `<param>` at the top, then what `decrementItem` writes. -/
def Writes (dbl : BitVec 64 → Bytes) (m : M) (t : Bytes) (ops : List PackOp) : Prop :=
  Runs dbl m ops ((openParam m.storage).flatten ++ (t ++ ((closeParam m.storage).flatten ++ (decrementItem m.storage).1.flatten)))
    { m with storage := (decrementItem m.storage).2 }

theorem writes_item (dbl : BitVec 64 → Bytes) {op : PackOp} {ws : List Bytes} {m : M}
    (h : pack dbl m op = plainOp m (item ws m.storage)) : Writes dbl m ws.flatten [op] := by
  have := Runs.cons (ops := []) h Runs.nil
  simpa [Writes, item, closeParam] using this

theorem quote_flatten (s : Bytes) : (quote s).flatten = quoted s := rfl

theorem take_sz {s : Bytes} (h : s.length < 2 ^ 30) : s.take (sz32 s.length) = s := by
  apply List.take_of_length_le
  unfold sz32
  omega

theorem take_sz' {s : Bytes} (h : s.length ≤ 255) : s.take (sz32 s.length) = s := take_sz (by omega)

theorem decr_last (k : Kind) (s : Storage) : decrementItem ((k, 1) :: s) =
    (endMember k ++ closing k ++ closeParam s ++ (decrementItem s).1, (decrementItem s).2) := by
  rw [decrementItem]; rfl

theorem decr_more (k : Kind) {n : Nat} (s : Storage) (h0 : 0 < n) (h : n < 2 ^ 31) : decrementItem ((k, n + 1) :: s) = (endMember k, (k, n) :: s) := by
  rw [decrementItem]
  have : (n + 1 + 2 ^ 32 - 1) % 2 ^ 32 = n := by omega
  rw [this, if_neg (by omega)]

/-- The needs of the marshaller. -/
def needs (ver : Version) : Need := ⟨fun n => n ≠ -(2 : Int) ^ 63 ∧ (ver.major < 2 → n.natAbs < 2 ^ 31), fun _ => True, fun _ => True, fun _ => True⟩

theorem packInt_ok {ver : Version} {n : Int} (h : (needs ver).int n) (s : Storage) :
    packInt ver n s = ((item [asc "<value><" ++ intTag n ++ [62], decInt n, [60, 47] ++ intTag n ++ asc "></value>\n"] s).1,
      (item [asc "<value><" ++ intTag n ++ [62], decInt n, [60, 47] ++ intTag n ++ asc "></value>\n"] s).2, none) := by
  unfold packInt intTag
  rw [if_neg h.1]
  by_cases h1 : n.natAbs ≥ 2 ^ 31
  · rw [if_pos h1, if_pos h1, if_neg]
    · rfl
    · intro h2; have := h.2 h2; omega
  · rw [if_neg h1, if_neg h1]
    rfl

open Spec (Small SmallItems SmallMembers)

/-- What follows an element of an array: the other elements and the end. -/
def AfterItem (dbl : BitVec 64 → Bytes) (k : Kind) (n : Nat) (m : M) (t : Bytes) (ops : List PackOp) : Prop :=
  ∃ d1 d2 out, decrementItem ((k, n) :: m.storage) = (d1, d2) ∧
    Runs dbl { m with storage := d2 } ops out { m with storage := (decrementItem m.storage).2 } ∧
    d1.flatten ++ out = t ++ ((closeParam m.storage).flatten ++ (decrementItem m.storage).1.flatten)

/-- In a container nothing is written around the text. -/
theorem Writes.inside {dbl : BitVec 64 → Bytes} {m : M} {t u : Bytes} {a b : List PackOp} {k : Kind} {n : Nat}
    (h : Writes dbl { m with storage := (k, n) :: m.storage } t a) (h2 : AfterItem dbl k n m u b) :
    Runs dbl { m with storage := (k, n) :: m.storage } (a ++ b) (t ++ (u ++ ((closeParam m.storage).flatten ++ (decrementItem m.storage).1.flatten)))
      { m with storage := (decrementItem m.storage).2 } := by
  obtain ⟨d1, d2, out, e, h3, h4⟩ := h2
  unfold Writes at h
  dsimp only at h
  rw [e] at h
  have := h.append h3
  simp only [openParam, closeParam, List.isEmpty_cons, Bool.false_eq_true, if_false, List.flatten_nil, List.nil_append, List.append_assoc] at this h4 ⊢
  rw [h4] at this
  exact this

mutual
theorem writes_value (dbl : BitVec 64 → Bytes) : ∀ (v : Value), Small v → ∀ (m : M), Leaves (needs m.ver) v → Writes dbl m (xtext dbl v) (feed v)
  | .int n, _, m, h => by
    have := writes_item dbl (ws := [asc "<value><" ++ intTag n ++ [62], decInt n, [60, 47] ++ intTag n ++ asc "></value>\n"]) (m := m) (op := .packInt n)
      (by simp only [pack, packInt_ok h, plainOp])
    simpa [xtext, feed, typed] using this
  | .bool b, _, m, _ => by
    have := writes_item dbl (ws := [asc "<value><boolean>", [if b then 49 else 48], asc "</boolean></value>\n"]) (m := m) (op := .packBool b) rfl
    simpa [xtext, feed, typed, asc] using this
  | .double x, _, m, _ => by
    have := writes_item dbl (ws := [asc "<value><double>", dbl x, asc "</double></value>\n"]) (m := m) (op := .packDouble x) rfl
    simpa [xtext, feed, typed, asc] using this
  | .string s, h, m, _ => by
    have := writes_item dbl (ws := [asc "<value><string>"] ++ quote s ++ [asc "</string></value>\n"]) (m := m) (op := .packString s) rfl
    rw [List.flatten_append, List.flatten_append, quote_flatten] at this
    simp only [Small] at h
    rw [feed, take_sz h]
    simpa [xtext, typed, asc] using this
  | .stringView s, h, m, _ => by
    have := writes_item dbl (ws := [asc "<value><string>"] ++ quote s ++ [asc "</string></value>\n"]) (m := m) (op := .packString s) rfl
    rw [List.flatten_append, List.flatten_append, quote_flatten] at this
    simp only [Small] at h
    rw [feed, take_sz h]
    simpa [xtext, typed, asc] using this
  | .dateTime d, _, m, _ => by
    have := writes_item dbl (ws := [asc "<value><dateTime.iso8601>", dateText d, asc "</dateTime.iso8601></value>\n"]) (m := m) (op := .packDateTime d) rfl
    simpa [xtext, feed, typed, asc] using this
  | .binary s, h, m, _ => by
    have := writes_item dbl (ws := [asc "<value><base64>"] ++ (Base64.writeEncodeBase64 true [s]).map (fun c => [c]) ++ [asc "</base64></value>\n"]) (m := m)
      (op := .packBinary s) rfl
    rw [List.flatten_append, List.flatten_append, flatten_singles] at this
    simp only [Small] at h
    rw [feed, take_sz h]
    simpa [xtext, typed, asc] using this
  | .binaryRef cs, _, m, _ => by
    have := writes_item dbl (ws := [asc "<value><base64>"] ++ (Base64.writeEncodeBase64 true cs).map (fun c => [c]) ++ [asc "</base64></value>\n"]) (m := m)
      (op := .packBinaryRef cs) rfl
    rw [List.flatten_append, List.flatten_append, flatten_singles] at this
    rw [feed]
    simpa [xtext, typed, asc] using this
  | .null, _, m, _ => by
    have := writes_item dbl (ws := [asc "<value><nil/></value>\n"]) (m := m) (op := .packNull) rfl
    simpa [xtext, feed] using this
  | .secret v, h, m, hl => by
    have := writes_value dbl v (by simpa only [Small] using h) m (by simpa only [Leaves] using hl)
    simpa only [feed, xtext] using this
  | .array [], _, m, _ => by
    have := writes_item dbl (ws := [asc "<value>\n", asc "<array>\n", asc "<data>\n"] ++ [asc "</data>\n", asc "</array>\n", asc "</value>\n"]) (m := m)
      (op := .packArray 0) rfl
    simpa [xtext, xitems, feed, feedItems, sz32, asc] using this
  | .struct [], _, m, _ => by
    have := writes_item dbl (ws := [asc "<value>\n", asc "<struct>\n"] ++ [asc "</struct>\n", asc "</value>\n"]) (m := m) (op := .packStruct 0) rfl
    simpa [xtext, xmembers, feed, feedMembers, sz32, asc] using this
  | .array (v :: vs), h, m, hl => by
    simp only [Small, SmallItems] at h
    simp only [Leaves, LeavesItems] at hl
    have hlen : vs.length + 1 < 2 ^ 30 := by simpa using h.1
    have hn : sz32 (v :: vs).length = vs.length + 1 := by
      unfold sz32; simp only [List.length_cons] at h ⊢; omega
    have h1 := (writes_value dbl v h.2.1 { m with storage := (.array, vs.length + 1) :: m.storage } hl.1).inside (writes_items dbl vs h.2.2 m hl.2 (by omega))
    have h2 : pack dbl m (.packArray (vs.length + 1)) =
        (openParam m.storage ++ [asc "<value>\n", asc "<array>\n", asc "<data>\n"], { m with storage := (.array, vs.length + 1) :: m.storage }, none) := rfl
    have h3 := Runs.cons h2 h1
    unfold Writes
    rw [feed, hn, feedItems]
    have e : (openParam m.storage ++ [asc "<value>\n", asc "<array>\n", asc "<data>\n"]).flatten = (openParam m.storage).flatten ++ asc "<value>\n<array>\n<data>\n" := by
      simp [asc]
    rw [e] at h3
    simpa only [xtext, xitems, List.append_assoc] using h3
  | .struct ((k, v) :: ms), h, m, hl => by
    simp only [Small, SmallMembers] at h
    simp only [Leaves, LeavesMembers] at hl
    have hlen : ms.length + 1 < 2 ^ 30 := by simpa using h.1
    have hn : sz32 ((k, v) :: ms).length = ms.length + 1 := by
      unfold sz32; simp only [List.length_cons] at h ⊢; omega
    have hk : ¬ (k.length > 255 ∨ k.length = 0) := by omega
    have h1 := (writes_value dbl v h.2.2.1 { m with storage := (.struct, ms.length + 1) :: m.storage } hl.2.2.1).inside
      (writes_members dbl ms h.2.2.2 m hl.2.2.2 (by omega))
    have h2 : pack dbl m (.packStruct (ms.length + 1)) =
        (openParam m.storage ++ [asc "<value>\n", asc "<struct>\n"], { m with storage := (.struct, ms.length + 1) :: m.storage }, none) := rfl
    have h3 : pack dbl { m with storage := (.struct, ms.length + 1) :: m.storage } (.packStructMember k) =
        ([asc "<member>\n", asc "<name>"] ++ quote k ++ [asc "</name>\n"], { m with storage := (.struct, ms.length + 1) :: m.storage }, none) := by
      simp only [pack, packStructMember, hk, if_false]
    have h4 := Runs.cons h2 (Runs.cons h3 h1)
    unfold Writes
    rw [feed, hn, feedMembers, take_sz' hl.1.2]
    have e : (openParam m.storage ++ [asc "<value>\n", asc "<struct>\n"]).flatten = (openParam m.storage).flatten ++ asc "<value>\n<struct>\n" := by
      simp [asc]
    have e2 : ([asc "<member>\n", asc "<name>"] ++ quote k ++ [asc "</name>\n"]).flatten = asc "<member>\n<name>" ++ quoted k ++ asc "</name>\n" := by
      rw [List.flatten_append, List.flatten_append, quote_flatten]; simp [asc]
    rw [e, e2] at h4
    simpa only [xtext, xmembers, List.append_assoc] using h4
theorem writes_items (dbl : BitVec 64 → Bytes) : ∀ (vs : List Value), SmallItems vs → ∀ (m : M), LeavesItems (needs m.ver) vs → vs.length < 2 ^ 31 →
    AfterItem dbl .array (vs.length + 1) m (xitems dbl vs ++ asc "</data>\n</array>\n</value>\n") (feedItems vs)
  | [], _, m, _, _ => by
    refine ⟨_, _, [], decr_last _ _, Runs.nil, ?_⟩
    simp [xitems, endMember, closing, asc]
  | v :: vs, h, m, hl, hlen => by
    simp only [SmallItems] at h
    simp only [LeavesItems] at hl
    simp only [List.length_cons] at hlen
    have h1 := (writes_value dbl v h.1 { m with storage := (.array, vs.length + 1) :: m.storage } hl.1).inside (writes_items dbl vs h.2 m hl.2 (by omega))
    refine ⟨_, _, _, decr_more .array (n := vs.length + 1) m.storage (by omega) (by omega), h1, ?_⟩
    simp [xitems, endMember]
theorem writes_members (dbl : BitVec 64 → Bytes) : ∀ (ms : List (Bytes × Value)), SmallMembers ms → ∀ (m : M), LeavesMembers (needs m.ver) ms → ms.length < 2 ^ 31 →
    AfterItem dbl .struct (ms.length + 1) m (asc "</member>\n" ++ xmembers dbl ms ++ asc "</struct>\n</value>\n") (feedMembers ms)
  | [], _, m, _, _ => by
    refine ⟨_, _, [], decr_last _ _, Runs.nil, ?_⟩
    simp [xmembers, endMember, closing, asc]
  | (k, v) :: ms, h, m, hl, hlen => by
    simp only [SmallMembers] at h
    simp only [LeavesMembers] at hl
    simp only [List.length_cons] at hlen
    have hk : ¬ (k.length > 255 ∨ k.length = 0) := by omega
    have h1 := (writes_value dbl v h.2.1 { m with storage := (.struct, ms.length + 1) :: m.storage } hl.2.2.1).inside
      (writes_members dbl ms h.2.2 m hl.2.2.2 (by omega))
    have h3 : pack dbl { m with storage := (.struct, ms.length + 1) :: m.storage } (.packStructMember k) =
        ([asc "<member>\n", asc "<name>"] ++ quote k ++ [asc "</name>\n"], { m with storage := (.struct, ms.length + 1) :: m.storage }, none) := by
      simp only [pack, packStructMember, hk, if_false]
    have h4 := Runs.cons h3 h1
    rw [feedMembers, take_sz' hl.1.2]
    have e2 : ([asc "<member>\n", asc "<name>"] ++ quote k ++ [asc "</name>\n"]).flatten = asc "<member>\n<name>" ++ quoted k ++ asc "</name>\n" := by
      rw [List.flatten_append, List.flatten_append, quote_flatten]; simp [asc]
    rw [e2] at h4
    refine ⟨_, _, _, decr_more .struct (n := ms.length + 1) m.storage (by omega) (by omega), h4, ?_⟩
    simp only [xmembers, endMember, List.append_assoc]
    simp
end

/-- The `param` elements. -/
def xparams (dbl : BitVec 64 → Bytes) : List Value → Bytes
  | [] => []
  | v :: vs => asc "<param>\n" ++ xtext dbl v ++ asc "</param>\n" ++ xparams dbl vs

theorem writes_params (dbl : BitVec 64 → Bytes) : ∀ (vs : List Value), SmallItems vs → ∀ (ver : Version) (main : Main), LeavesItems (needs ver) vs →
    Runs dbl ⟨ver, [], main⟩ (feedItems vs) (xparams dbl vs) ⟨ver, [], main⟩
  | [], _, _, _, _ => Runs.nil
  | v :: vs, h, ver, main, hl => by
    simp only [SmallItems] at h
    simp only [LeavesItems] at hl
    have h1 := writes_params dbl vs h.2 ver main hl.2
    have h2 : Runs dbl ⟨ver, [], main⟩ (feed v) _ ⟨ver, [], main⟩ := writes_value dbl v h.1 ⟨ver, [], main⟩ hl.1
    have h3 := h2.append h1
    rw [feedItems]
    simpa [xparams, openParam, closeParam, decrementItem] using h3

end XmlMarshaller
end Frpc
