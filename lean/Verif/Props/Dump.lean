import Verif.Model.Dump
import Verif.Spec.Dump
/-!
# The text dump of a tree (C55)

`Dump.dump o level pos v` is the text `dumpFastrpcTree` makes of `v`: `o.names` and `pos` are to be hidden, `level` is the greatest depth (−1: no
limit) and `o.maxlen` the greatest length of strings (−1: no limit).
-/
namespace Frpc
open Spec (AlikeBut AlikeTo)
namespace Dump

theorem items_congr {o : Opts} {level : Int} {pos : List Nat} : ∀ (vs ws : List Value) (first : Bool) (x : Nat), vs.length = ws.length →
    (∀ i v w, vs[i]? = some v → ws[i]? = some w → ¬ (x + i < 64 ∧ x + i ∈ pos) → dump o level [] v = dump o level [] w) →
    dumpItems o level pos first x vs = dumpItems o level pos first x ws
  | [], [], _, _, _, _ => rfl
  | [], _ :: _, _, _, hl, _ => by simp at hl
  | _ :: _, [], _, _, hl, _ => by simp at hl
  | v :: vs, w :: ws, first, x, hl, h => by
    have ih := items_congr (o := o) (level := level) (pos := pos) vs ws false (x + 1) (by simpa using hl)
      (fun i v w hv hw hn => h (i + 1) v w (by simpa using hv) (by simpa using hw) (by rw [show x + (i + 1) = x + 1 + i by omega]; exact hn))
    simp only [dumpItems, ih]
    by_cases hx : x < 64 ∧ x ∈ pos
    · simp only [if_pos hx]
    · simp only [if_neg hx]
      rw [h 0 v w rfl rfl (by simpa using hx)]

theorem members_congr {o : Opts} {level : Int} : ∀ (ms ns : List (Bytes × Value)) (first : Bool), ms.map (·.1) = ns.map (·.1) →
    (∀ (i : Nat) k v w, ms[i]? = some (k, v) → ns[i]? = some (k, w) → k ∉ o.names → dump o level [] v = dump o level [] w) →
    dumpMembers o level first ms = dumpMembers o level first ns
  | [], [], _, _, _ => rfl
  | [], _ :: _, _, hl, _ => by simp at hl
  | _ :: _, [], _, hl, _ => by simp at hl
  | (k, v) :: ms, (k', w) :: ns, first, hl, h => by
    simp only [List.map_cons, List.cons.injEq] at hl
    obtain ⟨rfl, hl⟩ := hl
    have ih := members_congr (o := o) (level := level) ms ns false hl (fun i k v w hv hw hn => h (i + 1) k v w (by simpa using hv) (by simpa using hw) hn)
    simp only [dumpMembers, ih]
    by_cases hx : k ∈ o.names
    · simp only [if_pos hx]
    · simp only [if_neg hx]
      rw [h 0 k v w rfl rfl hx]

end Dump

/-- **C55.** Whatever the level, the length limit and the text of doubles: the dumps of trees that differ only inside secret values, in members
with a hidden name (at any depth) and in elements of the top array at a hidden position below 64 are the same. -/
theorem C55_hidden (o : Dump.Opts) (level : Int) (pos : List Nat) (hpos : ∀ i ∈ pos, i < 64) (v w : Value) (h : AlikeBut o.names pos v w) :
    Dump.dump o level pos v = Dump.dump o level pos w := by
  induction h generalizing level with
  | same => rfl
  | secret => rfl
  | array pos vs ws hl h ih =>
    simp only [Dump.dump]
    rw [Dump.items_congr vs ws true 0 hl]
    intro i v w hv hw hn
    refine ih i v w hv hw (fun hp => hn ⟨?_, ?_⟩) _ (by simp)
    · have := hpos i hp; omega
    · simpa using hp
  | struct pos ms ns hk h ih =>
    simp only [Dump.dump]
    rw [Dump.members_congr ms ns true hk (fun i k v w hv hw hn => ih i k v w hv hw hn _ (by simp))]

/-- The options of the examples. -/
def sampleDump : Dump.Opts := ⟨fun _ => asc "?", [asc "password"], Dump.MAX_LEN⟩

/-- Two calls that differ in a password, a secret and a hidden position. -/
def dumpA (pw token : Bytes) (third : Value) : Value :=
  .array [.struct [(asc "password", .string pw), (asc "user", .string (asc "joe"))], .array [.secret (.string token), .binary [1, 171]], third]

example : AlikeBut sampleDump.names [2] (dumpA (asc "x") (asc "y") .null) (dumpA (asc "longer") (asc "") (.int 7)) := by
  refine .array _ _ _ rfl fun i v w hv hw hi => ?_
  match i with
  | 0 =>
    simp at hv hw; subst hv hw
    refine .struct _ _ _ rfl fun j k v w hv hw hk => ?_
    match j with
    | 0 => simp at hv hw; exact absurd hv.1 (by rintro rfl; exact hk (by simp [sampleDump]))
    | 1 => simp at hv hw; rw [← hv.2, ← hw.2]; exact .same _ _
    | j + 2 => simp at hv
  | 1 =>
    simp at hv hw; subst hv hw
    refine .array _ _ _ rfl fun j v w hv hw _ => ?_
    match j with
    | 0 => simp at hv hw; subst hv hw; exact .secret _ _ _
    | 1 => simp at hv hw; rw [← hv, ← hw]; exact .same _ _
    | j + 2 => simp at hv
  | 2 => simp at hi
  | i + 3 => simp at hv

example : Dump.dump sampleDump (-1) [2] (dumpA (asc "x") (asc "y") .null) = asc "({password: -hidden-, user: \"joe\"}, (-hidden-, b\"01 ab\"), -hidden-)" := by
  decide +kernel

/-- **C55 (level).** With a level `n` the dump does not depend on what is inside containers more than `n` containers deep. -/
theorem C55_level (o : Dump.Opts) (n : Nat) (pos : List Nat) (v w : Value) (h : AlikeTo n v w) : Dump.dump o n pos v = Dump.dump o n pos w := by
  induction h generalizing pos with
  | same => rfl
  | array0 => rfl
  | struct0 => rfl
  | array n vs ws hl h ih =>
    simp only [Dump.dump]
    rw [Dump.items_congr vs ws true 0 hl]
    intro i v w hv hw _
    have : Dump.deeper ((n + 1 : Nat) : Int) = n := by unfold Dump.deeper; rw [if_neg (by omega)]; omega
    rw [this]
    exact ih i v w hv hw _
  | struct n ms ns hk h ih =>
    simp only [Dump.dump]
    rw [Dump.members_congr ms ns true hk]
    intro i k v w hv hw _
    have : Dump.deeper ((n + 1 : Nat) : Int) = n := by unfold Dump.deeper; rw [if_neg (by omega)]; omega
    rw [this]
    exact ih i k v w hv hw _

example : AlikeTo 1 (.array [.array [.int 1], .int 2]) (.array [.array [], .int 2]) := by
  refine .array _ _ _ rfl fun i v w hv hw => ?_
  match i with
  | 0 => simp at hv hw; subst hv hw; exact .array0 _ _
  | 1 => simp at hv hw; rw [← hv, ← hw]; exact .same _ _
  | i + 2 => simp at hv

/-- **C55 (length).** Of strings longer than the limit only the beginning matters. -/
theorem C55_length (o : Dump.Opts) (level : Int) (pos : List Nat) (n : Nat) (ho : o.maxlen = n) (s t : Bytes) (hs : n < s.length) (ht : n < t.length)
    (h : s.take n = t.take n) : Dump.dump o level pos (.string s) = Dump.dump o level pos (.string t) ∧ Dump.dump o level pos (.stringView s) = Dump.dump o level pos (.string t) := by
  have hn : (n : Int) ≠ -1 := by omega
  simp only [Dump.dump, Dump.text, ho, hn, ne_eq, not_false_eq_true, true_and, Int.toNat_natCast, h]
  rw [if_pos ⟨by omega, by omega⟩, if_pos ⟨by omega, by omega⟩]
  simp

example : Dump.dump sampleDump 0 [] (.string (asc "a string longer than twenty characters")) = asc "\"a string longer than...\"" := by decide +kernel

/-- **C55 (positions).** Positions from 64 on cannot be hidden (the set has 64 bits), nor any below the top. -/
theorem C55_positions (o : Dump.Opts) (level : Int) (pos : List Nat) (v : Value) : Dump.dump o level pos v = Dump.dump o level (pos.filter (· < 64)) v := by
  cases v <;> try rfl
  rename_i vs
  have : ∀ (vs : List Value) (level : Int) (first : Bool) (x : Nat), Dump.dumpItems o level pos first x vs = Dump.dumpItems o level (pos.filter (· < 64)) first x vs := by
    intro vs
    induction vs with
    | nil => intros; rfl
    | cons v vs ih =>
      intro level first x
      simp only [Dump.dumpItems, ih, List.mem_filter, decide_eq_true_eq]
      have : (x < 64 ∧ x ∈ pos ∧ x < 64) ↔ (x < 64 ∧ x ∈ pos) := ⟨fun h => ⟨h.1, h.2.1⟩, fun h => ⟨h.1, h.2, h.1⟩⟩
      simp only [this]
  simp only [Dump.dump, this]

/-- **C55 does not hold of `printValue`:** the function prints what is inside a secret value. -/
theorem C55_print_violated (other : Value → Bytes) (n : Nat) : Dump.print other n (.secret (.string (asc "x"))) ≠ Dump.print other n (.secret (.string (asc "y"))) := by
  intro h
  simp only [Dump.print] at h
  revert h
  decide +kernel

/-- **C55 (whole texts).** Without a limit, or up to it, a string is shown whole; beyond it, exactly the first `maxlen` bytes and three dots. -/
theorem C55_text (o : Dump.Opts) (level : Int) (pos : List Nat) (s : Bytes) :
    ((o.maxlen = -1 ∨ (s.length : Int) ≤ o.maxlen) → Dump.dump o level pos (.string s) = asc "\"" ++ s ++ asc "\"") ∧
    (∀ n : Nat, o.maxlen = n → n < s.length → Dump.dump o level pos (.string s) = asc "\"" ++ s.take n ++ asc "...\"") := by
  refine ⟨fun h => ?_, fun n hn hl => ?_⟩
  · simp only [Dump.dump, Dump.text]
    rw [if_neg (by omega)]
  · have e : asc "...\"" = asc "..." ++ asc "\"" := by decide +kernel
    simp only [Dump.dump, Dump.text]
    rw [if_pos (by omega), hn, Int.toNat_natCast, e]
    simp only [List.append_assoc]

/-- Bytes in hexadecimal, with a space between each two. -/
def Spec.spacedHex : Bytes → Bytes
  | [] => []
  | [c] => [hexChar (c.toNat / 16), hexChar (c.toNat % 16)]
  | c :: s => [hexChar (c.toNat / 16), hexChar (c.toNat % 16), 32] ++ spacedHex s

namespace Dump

theorem hexLoop_all (s : Bytes) : ∀ (first : Bool) (len : Int), hexLoop (-1) first len s = ((if first ∨ s = [] then [] else [32]) ++ Spec.spacedHex s, len) := by
  induction s with
  | nil => intro first len; simp [hexLoop, Spec.spacedHex]
  | cons c s ih =>
    intro first len
    simp only [hexLoop, ih]
    cases s with
    | nil => cases first <;> simp [Spec.spacedHex, hex2]
    | cons d s => cases first <;> simp [Spec.spacedHex, hex2]

theorem hexLoop_some (m : Nat) (s : Bytes) : ∀ (first : Bool) (n : Nat), 0 < n → hexLoop m first n s =
    ((if first ∨ s = [] then [] else [32]) ++ Spec.spacedHex (s.take n), (n : Int) - (min n s.length : Nat)) := by
  induction s with
  | nil => intro first n hn; simp [hexLoop, Spec.spacedHex]
  | cons c s ih =>
    intro first n hn
    have hm : (m : Int) ≠ -1 := by omega
    obtain ⟨k, rfl⟩ : ∃ k, n = k + 1 := ⟨n - 1, by omega⟩
    simp only [hexLoop, hm, ne_eq, not_false_eq_true, if_true]
    by_cases hk : k = 0
    · subst hk
      rw [if_pos (by omega)]
      cases first <;> simp [Spec.spacedHex, hex2]
    · rw [if_neg (by omega)]
      have e : ((k + 1 : Nat) : Int) - 1 = (k : Nat) := by omega
      rw [e, ih false k (by omega)]
      have e2 : ((k : Nat) : Int) - (min k s.length : Nat) = ((k + 1 : Nat) : Int) - (min (k + 1) (c :: s).length : Nat) := by
        simp only [List.length_cons]; omega
      rw [e2]
      obtain ⟨j, rfl⟩ : ∃ j, k = j + 1 := ⟨k - 1, by omega⟩
      cases s with
      | nil => cases first <;> simp [Spec.spacedHex, hex2]
      | cons d s => cases first <;> simp [Spec.spacedHex, hex2, List.take_succ_cons]

end Dump

/-- **C55 (binary values).** Of a binary value at most `maxlen` bytes are shown; there are dots as soon as it has `maxlen` bytes, even if no
byte is missing. -/
theorem C55_binary (o : Dump.Opts) (level : Int) (pos : List Nat) (s : Bytes) :
    (o.maxlen = -1 → Dump.dump o level pos (.binary s) = asc "b\"" ++ Spec.spacedHex s ++ asc "\"") ∧
    (∀ n : Nat, 0 < n → o.maxlen = n → Dump.dump o level pos (.binary s) = asc "b\"" ++ Spec.spacedHex (s.take n) ++ (if n ≤ s.length then asc "..." else []) ++ asc "\"") := by
  refine ⟨fun h => ?_, fun n h0 h => ?_⟩
  · simp only [Dump.dump, h, Dump.hexLoop_all, Dump.dots]
    simp
  · simp only [Dump.dump, h, Dump.hexLoop_some n s true n h0, Dump.dots]
    by_cases hl : n ≤ s.length
    · simp [hl]
    · have e : (n : Int) - (min n s.length : Nat) ≠ 0 := by omega
      simp only [e, hl, if_false]; simp

example : Dump.dump ⟨fun _ => [], [], 2⟩ (-1) [] (.binary [1, 255, 3]) = asc "b\"01 ff...\"" := by decide +kernel
example : Dump.dump ⟨fun _ => [], [], 2⟩ (-1) [] (.binary [1, 255]) = asc "b\"01 ff...\"" := by decide +kernel

/-- **C55:** the text of a binary reference lacks the beginning that the text of the same binary value has. -/
theorem C55_ref_violated (o : Dump.Opts) (s : Bytes) (level : Int) : Dump.dump o level [] (.binary s) = asc "b\"" ++ Dump.dump o level [] (.binaryRef [s]) := by
  simp only [Dump.dump, Dump.chunkLoop]
  split
  · simp
  · simp

namespace Dump

theorem hexLoop_append (m : Int) (hm : m = -1 ∨ 0 < m) (s t : Bytes) : ∀ (first : Bool) (len : Int), (m = -1 → len = -1) → (m ≠ -1 → 0 < len) →
    hexLoop m first len (s ++ t) = if (hexLoop m first len s).2 = 0 then hexLoop m first len s
      else ((hexLoop m first len s).1 ++ (hexLoop m (first && s.isEmpty) (hexLoop m first len s).2 t).1, (hexLoop m (first && s.isEmpty) (hexLoop m first len s).2 t).2) := by
  induction s with
  | nil =>
    intro first len h1 h2
    have : len ≠ 0 := by omega
    simp [hexLoop, this]
  | cons c s ih =>
    intro first len h1 h2
    simp only [List.cons_append, hexLoop, List.isEmpty_cons, Bool.and_false]
    by_cases hm1 : m = -1
    · subst hm1
      simp only [ne_eq, not_true_eq_false, if_false]
      rw [ih false len h1 h2]
      simp only [Bool.false_and]
      by_cases hz : (hexLoop (-1) false len s).2 = 0
      · rw [if_pos hz, if_pos hz]
      · rw [if_neg hz, if_neg hz]; simp only [List.append_assoc]
    · simp only [ne_eq, hm1, not_false_eq_true, if_true]
      by_cases h0 : len - 1 = 0
      · simp [h0]
      · have h2 := h2 hm1
        simp only [h0, if_false]
        rw [ih false (len - 1) (fun h => absurd h hm1) (by omega)]
        simp only [Bool.false_and]
        by_cases hz : (hexLoop m false (len - 1) s).2 = 0
        · rw [if_pos hz, if_pos hz]
        · rw [if_neg hz, if_neg hz]; simp only [List.append_assoc]

/-- While something may still be written, `len` says so. -/
theorem hexLoop_len (m : Int) (s : Bytes) : ∀ (first : Bool) (len : Int), (m = -1 → len = -1) → (m ≠ -1 → 0 < len) →
    (m = -1 → (hexLoop m first len s).2 = -1) ∧ (m ≠ -1 → 0 ≤ (hexLoop m first len s).2) := by
  induction s with
  | nil => intro first len h1 h2; exact ⟨h1, fun h => by have := h2 h; simp only [hexLoop]; omega⟩
  | cons c s ih =>
    intro first len h1 h2
    simp only [hexLoop]
    by_cases hm1 : m = -1
    · subst hm1
      simp only [ne_eq, not_true_eq_false, if_false]
      exact ⟨fun _ => (ih false len h1 h2).1 rfl, fun h => h.elim⟩
    · simp only [ne_eq, hm1, not_false_eq_true, if_true]
      have h2 := h2 hm1
      by_cases h0 : len - 1 = 0
      · simp [h0]
      · simp only [h0, if_false]
        exact ⟨fun h => h.elim, fun _ => (ih false (len - 1) (fun h => absurd h hm1) (by omega)).2 hm1⟩

theorem chunkLoop_flatten (m : Int) (hm : m = -1 ∨ 0 < m) (cs : List Bytes) : ∀ (first : Bool) (len : Int), (m = -1 → len = -1) → (m ≠ -1 → 0 < len) →
    chunkLoop m first len cs = hexLoop m first len cs.flatten := by
  induction cs with
  | nil => intros; rfl
  | cons c cs ih =>
    intro first len h1 h2
    simp only [chunkLoop, List.flatten_cons]
    rw [hexLoop_append m hm c cs.flatten first len h1 h2]
    have hl := hexLoop_len m c first len h1 h2
    split
    · rfl
    · next h0 => rw [ih _ _ hl.1 (fun h => by have := hl.2 h; omega)]

end Dump

/-- **C55 (binary references).** How a binary reference is divided into chunks cannot be seen in its text: it is the text of the same bytes as a binary value,
less the beginning. -/
theorem C55_chunks (o : Dump.Opts) (level : Int) (pos : List Nat) (cs : List Bytes) (hm : o.maxlen = -1 ∨ 0 < o.maxlen) :
    Dump.dump o level pos (.binary cs.flatten) = asc "b\"" ++ Dump.dump o level pos (.binaryRef cs) := by
  simp only [Dump.dump]
  rw [Dump.chunkLoop_flatten o.maxlen hm cs true o.maxlen (fun h => h) (fun h => by omega)]
  simp only [List.append_assoc]

example : Dump.dump ⟨fun _ => [], [], 3⟩ (-1) [] (.binaryRef [[], [1, 255], [], [3, 4]]) = asc "01 ff 03...\"" := by decide +kernel

end Frpc
