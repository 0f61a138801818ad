import Verif.Model.PyDump
import Verif.Spec.PyDump
import Verif.Proofs.Utf8
/-!
# `fastrpc.dumpTree` (C119)

`PyDump.dumpTree E v level names pos` is what `fastrpc.dumpTree(v, level, names, pos)` gives: the text of a Python object for logs, in which the values under the names and at the
positions (the bits of a number) are to be hidden.
-/
namespace Frpc
open Python (Py Key)
open Spec.PyDump
namespace PyDump
variable {E : Env} {names : Names}

theorem items_congr {level pos : Int} : ∀ (vs ws : List Py) (i : Nat) (p : Bool), vs.length = ws.length →
    (∀ j v w, vs[j]? = some v → ws[j]? = some w → bit pos (i + j) = false → ∀ p, print E names level 0 p v = print E names level 0 p w) →
    printItems E names level pos i p vs = printItems E names level pos i p ws
  | [], [], _, _, _, _ => rfl
  | [], _ :: _, _, _, hl, _ => by simp at hl
  | _ :: _, [], _, _, hl, _ => by simp at hl
  | v :: vs, w :: ws, i, p, hl, h => by
    have ih := fun p => items_congr (level := level) (pos := pos) vs ws (i + 1) p (by simpa using hl)
      (fun j v w hv hw hn => h (j + 1) v w (by simpa using hv) (by simpa using hw) (by rw [show i + (j + 1) = i + 1 + j by omega]; exact hn))
    simp only [printItems, ih]
    cases hx : bit pos i with
    | true => simp
    | false => simp only [Bool.false_eq_true, if_false]; simp only [h 0 v w rfl rfl hx]

theorem members_congr {level : Int} : ∀ (ms ns : List (Key × Py)) (first p : Bool), ms.map (·.1) = ns.map (·.1) →
    (∀ (i : Nat) k v w, ms[i]? = some (k, v) → ns[i]? = some (k, w) → names.has (keyName k) = false → ∀ p, print E names level 0 p v = print E names level 0 p w) →
    printMembers E names level first p ms = printMembers E names level first p ns
  | [], [], _, _, _, _ => rfl
  | [], _ :: _, _, _, hl, _ => by simp at hl
  | _ :: _, [], _, _, hl, _ => by simp at hl
  | (k, v) :: ms, (k', w) :: ns, first, p, hl, h => by
    simp only [List.map_cons, List.cons.injEq] at hl
    obtain ⟨rfl, hl⟩ := hl
    have ih := fun p => members_congr (level := level) ms ns false p hl (fun i k v w hv hw hn => h (i + 1) k v w (by simpa using hv) (by simpa using hw) hn)
    simp only [printMembers, ih]
    cases hx : names.has (keyName k) with
    | true => simp
    | false => simp only [Bool.false_eq_true, if_false]; simp only [h 0 k v w rfl rfl hx]

theorem keyName_eq {s : Bytes} (h : (0 : UInt8) ∉ s) : keyName (.str s) = s := by
  show s.takeWhile (fun c => c != 0) = s
  induction s with
  | nil => rfl
  | cons c s ih =>
    simp only [List.mem_cons, not_or] at h
    have : (c != 0) = true := by simp only [bne_iff_ne]; exact fun e => h.1 e.symm
    rw [List.takeWhile_cons, if_pos this, ih h.2]

theorem bit_nat {pos i : Nat} (h : pos < 2 ^ 31) : bit (pos : Int) i = pos.testBit i := by
  unfold bit
  have e : ((pos : Int) % 2 ^ 64).toNat = pos := by omega
  rw [e]
  by_cases hi : i < 64
  · simp [hi]
  · simp only [hi, decide_false, Bool.false_and]
    symm
    apply Nat.testBit_lt_two_pow
    have : 2 ^ 64 ≤ 2 ^ i := Nat.pow_le_pow_right (by omega) (by omega)
    omega

theorem bit_zero (i : Nat) : bit 0 i = false := by
  have := bit_nat (pos := 0) (i := i) (by omega)
  simpa using this

end PyDump
open PyDump (Env Names Res dumpTree)

/-- **C119 (hiding).** Whatever the object, the level and the text of doubles and of other objects: the dumps of objects that differ only in values of `dict`s under hidden names (keys of
the `dict` given, without NUL), at any depth, and in items of the top list or tuple at hidden positions, are the same: the same text or the same exception. -/
theorem C119_hidden (E : Env) (names : List Bytes) (hn : ∀ s ∈ names, (0 : UInt8) ∉ s) (level : Int) (pos : Nat) (hp : pos < 2 ^ 31) (v w : Py)
    (h : AlikeBut names (fun i => pos.testBit i = true) v w) : dumpTree E v level (.dict names) pos = dumpTree E w level (.dict names) pos := by
  have key : ∀ (level pos : Int) (P : Nat → Prop) (v w : Py), AlikeBut names P v w → (∀ i, P i → PyDump.bit pos i = true) → ∀ p,
      PyDump.print E (.dict names) level pos p v = PyDump.print E (.dict names) level pos p w := by
    intro level pos P v w h
    induction h generalizing level pos with
    | same => intros; rfl
    | list P vs ws hl h ih =>
      intro hb p
      simp only [PyDump.print]
      have := fun p => PyDump.items_congr (E := E) (names := .dict names) (level := level - 1) (pos := pos) vs ws 0 p hl
        (fun j v w hv hw hj p => ih j v w hv hw (fun hj' => by have := hb j hj'; simp [this] at hj) _ 0 (fun i hi => hi.elim) p)
      simp only [this]
    | tuple P vs ws hl h ih =>
      intro hb p
      simp only [PyDump.print]
      have := fun p => PyDump.items_congr (E := E) (names := .dict names) (level := level - 1) (pos := pos) vs ws 0 p hl
        (fun j v w hv hw hj p => ih j v w hv hw (fun hj' => by have := hb j hj'; simp [this] at hj) _ 0 (fun i hi => hi.elim) p)
      simp only [this]
    | dict P ms ns hk h ih =>
      intro hb p
      simp only [PyDump.print]
      have := fun p => PyDump.members_congr (E := E) (names := .dict names) (level := level - 1) ms ns true p hk
        (fun i k v w hv hw hj p => ih i k v w hv hw (fun s hs e => by
          subst e
          rw [PyDump.keyName_eq (hn s hs)] at hj
          simp [Names.has, hs] at hj) _ 0 (fun i hi => hi.elim) p)
      simp only [this]
  unfold dumpTree
  rw [key level pos _ v w h (fun i hi => by rw [PyDump.bit_nat hp]; exact hi) false]

/-- **C119 (level).** With a level `n` the dump does not depend on what is inside containers more than `n` containers deep. -/
theorem C119_level (E : Env) (names : Names) (n : Nat) (pos : Int) (v w : Py) (h : AlikeTo n v w) : dumpTree E v n names pos = dumpTree E w n names pos := by
  have key : ∀ (n : Nat) (v w : Py), AlikeTo n v w → ∀ (pos : Int) (p : Bool), PyDump.print E names n pos p v = PyDump.print E names n pos p w := by
    intro n v w h
    induction h with
    | same => intros; rfl
    | list0 => intros; rfl
    | tuple0 => intros; rfl
    | dict0 => intros; rfl
    | list n vs ws hl h ih =>
      intro pos p
      simp only [PyDump.print]
      have e : ((n + 1 : Nat) : Int) - 1 = n := by omega
      have := fun p => PyDump.items_congr (E := E) (names := names) (level := (n : Int)) (pos := pos) vs ws 0 p hl (fun j v w hv hw _ p => ih j v w hv hw 0 p)
      simp only [e, this]
    | tuple n vs ws hl h ih =>
      intro pos p
      simp only [PyDump.print]
      have e : ((n + 1 : Nat) : Int) - 1 = n := by omega
      have := fun p => PyDump.items_congr (E := E) (names := names) (level := (n : Int)) (pos := pos) vs ws 0 p hl (fun j v w hv hw _ p => ih j v w hv hw 0 p)
      simp only [e, this]
    | dict n ms ns hk h ih =>
      intro pos p
      simp only [PyDump.print]
      have e : ((n + 1 : Nat) : Int) - 1 = n := by omega
      have := fun p => PyDump.members_congr (E := E) (names := names) (level := (n : Int)) ms ns true p hk (fun i k v w hv hw _ p => ih i k v w hv hw 0 p)
      simp only [e, this]
  unfold dumpTree
  rw [key n v w h pos false]

namespace PyDump
variable {E : Env}

mutual
theorem print_same {a b : Names} (h : ∀ k, a.has k = b.has k) : ∀ (v : Py) (level pos : Int) (p : Bool), print E a level pos p v = print E b level pos p v
  | .bool _, _, _, _ => rfl
  | .boolean _, _, _, _ => rfl
  | .int _, _, _, _ => rfl
  | .float _, _, _, _ => rfl
  | .str _, _, _, _ => rfl
  | .surrogates, _, _, _ => rfl
  | .dateTime _, _, _, _ => rfl
  | .bytes _, _, _, _ => rfl
  | .none, _, _, _ => rfl
  | .native .., _, _, _ => rfl
  | .fault .., _, _, _ => rfl
  | .other, _, _, _ => rfl
  | .list xs, level, pos, p => by simp only [print, items_same h xs]
  | .tuple xs, level, pos, p => by simp only [print, items_same h xs]
  | .dict ms, level, pos, p => by simp only [print, members_same h ms]
theorem items_same {a b : Names} (h : ∀ k, a.has k = b.has k) : ∀ (xs : List Py) (level pos : Int) (i : Nat) (p : Bool),
    printItems E a level pos i p xs = printItems E b level pos i p xs
  | [], _, _, _, _ => rfl
  | x :: xs, level, pos, i, p => by simp only [printItems, print_same h x, items_same h xs]
theorem members_same {a b : Names} (h : ∀ k, a.has k = b.has k) : ∀ (ms : List (Key × Py)) (level : Int) (first p : Bool),
    printMembers E a level first p ms = printMembers E b level first p ms
  | [], _, _, _ => rfl
  | (k, x) :: ms, level, first, p => by simp only [printMembers, print_same h x, members_same h ms, h]
end

/-- What follows a first item. -/
def rest : List Bytes → Bytes
  | [] => []
  | t :: ts => asc ", " ++ t ++ rest ts

theorem commas_cons (t : Bytes) (ts : List Bytes) : commas (t :: ts) = t ++ rest ts := by
  induction ts generalizing t with
  | nil => simp [commas, rest]
  | cons u us ih => rw [commas, ih]; simp [rest]

theorem print_items {names : Names} {level pos : Int} : ∀ (vs : List Py) (ts : List Bytes) (i : Nat), ts.length = vs.length →
    (∀ j v t, vs[j]? = some v → ts[j]? = some t → (if bit pos (i + j) then (asc "-hidden-", St.run false) else print E names level 0 false v) = (t, .run false)) →
    printItems E names level pos i false vs = ((if i = 0 then commas ts else rest ts), .run false)
  | [], ts, i, hl, _ => by
    have : ts = [] := by simpa using hl
    subst this
    simp [printItems, commas, rest]
  | v :: vs, [], i, hl, _ => by simp at hl
  | v :: vs, t :: ts, i, hl, h => by
    have h0 := h 0 v t rfl rfl
    rw [Nat.add_zero] at h0
    have ih := print_items vs ts (i + 1) (by simpa using hl)
      (fun j v t hv ht => by rw [show i + 1 + j = i + (j + 1) by omega]; exact h (j + 1) v t (by simpa using hv) (by simpa using ht))
    rw [if_neg (by omega)] at ih
    simp only [printItems, cont, h0, ih]
    by_cases hi : i = 0
    · simp [hi, commas_cons]
    · simp [hi, rest]

theorem print_members {names : List Bytes} {level : Int} : ∀ (ms : List (Bytes × Py)) (ts : List Bytes) (first : Bool), ts.length = ms.length →
    (∀ m ∈ ms, (0 : UInt8) ∉ m.1) →
    (∀ (j : Nat) (m : Bytes × Py) (t : Bytes), ms[j]? = some m → ts[j]? = some t → (if m.1 ∈ names then (asc "-hidden-", St.run false) else print E (.dict names) level 0 false m.2) = (t, .run false)) →
    printMembers E (.dict names) level first false (ms.map fun m => (.str m.1, m.2)) =
      ((if first then commas (List.zipWith (fun m t => quoted m.1 ++ asc ": " ++ t) ms ts) else rest (List.zipWith (fun m t => quoted m.1 ++ asc ": " ++ t) ms ts)), .run false)
  | [], ts, first, hl, _, _ => by
    have : ts = [] := by simpa using hl
    subst this
    cases first <;> simp [printMembers, commas, rest]
  | v :: vs, [], i, hl, _, _ => by simp at hl
  | (k, v) :: ms, t :: ts, first, hl, hz, h => by
    have h0 := h 0 (k, v) t rfl rfl
    have ih := print_members ms ts false (by simpa using hl) (fun m hm => hz m (by simp [hm]))
      (fun j m t hv ht => h (j + 1) m t (by simpa using hv) (by simpa using ht))
    have hq : keyText E false (.str k) = some (quoted k) := by
      unfold keyText quoted limited
      simp only [show (k.length ≤ 9) = (k.length < 10) by simp only [eq_iff_iff]; omega]
    have hk : (Names.dict names).has (keyName (.str k)) = decide (k ∈ names) := by rw [keyName_eq (hz (k, v) (by simp))]; rfl
    simp only [Bool.false_eq_true, if_false] at ih
    simp only [List.map_cons, printMembers, cont, hq, hk, decide_eq_true_eq, h0, ih, List.zipWith_cons_cons]
    cases first
    · simp [rest]
    · simp [commas_cons]

theorem print_shows {names : List Bytes} {level : Int} {P : Nat → Prop} {v : Py} {t : Bytes} (h : Shows names E.dbl level P v t) :
    ∀ pos : Int, (∀ i, P i ↔ bit pos i = true) → print E (.dict names) level pos false v = (t, .run false) := by
  have none_hidden : ∀ i, (fun _ : Nat => False) i ↔ bit 0 i = true := fun i => by rw [bit_zero]; simp
  induction h with
  | bool => intros; rfl
  | boolean => intros; rfl
  | int l P n h => intro pos hp; simp only [print, and_true]; rw [if_pos h]
  | float => intros; rfl
  | str l P s =>
    intro pos hp
    simp only [print, quoted, limited, show (s.length ≤ 9) = (s.length < 10) by simp only [eq_iff_iff]; omega]
  | dateTime => intros; rfl
  | list0 => intros; rfl
  | tuple0 => intros; rfl
  | dict0 => intros; rfl
  | list l P hl vs ts hn hh h ih =>
    intro pos hp
    have := print_items (E := E) (names := .dict names) (level := l - 1) (pos := pos) vs ts 0 hn (fun j v t hv ht => by
      rw [Nat.zero_add]
      cases hb : bit pos j with
      | true => rw [hh j t ht ((hp j).2 hb)]; rfl
      | false => exact ih j v t hv ht (fun hj => by simp [(hp j).1 hj] at hb) 0 none_hidden)
    simp only [print, cont, if_pos hl, this, if_true, List.append_assoc]
  | tuple l P hl vs ts hn hh h ih =>
    intro pos hp
    have := print_items (E := E) (names := .dict names) (level := l - 1) (pos := pos) vs ts 0 hn (fun j v t hv ht => by
      rw [Nat.zero_add]
      cases hb : bit pos j with
      | true => rw [hh j t ht ((hp j).2 hb)]; rfl
      | false => exact ih j v t hv ht (fun hj => by simp [(hp j).1 hj] at hb) 0 none_hidden)
    simp only [print, cont, if_pos hl, this, if_true, List.append_assoc]
  | dict l P hl ms ts hn h0 hh h ih =>
    intro pos hp
    have := print_members (E := E) (names := names) (level := l - 1) ms ts true hn h0 (fun j m t hm ht => by
      by_cases hb : m.1 ∈ names
      · rw [if_pos hb, hh j m t hm ht hb]
      · rw [if_neg hb]; exact ih j m t hm ht hb 0 none_hidden)
    simp only [print, cont, if_pos hl, this, if_true, List.append_assoc]

theorem quoted_utf8 {s : Bytes} (h : Cut s) : Spec.isUtf8 (quoted s) = true := by
  unfold quoted
  unfold Cut at h
  have q : Spec.isUtf8 (asc "\"") = true := by decide
  refine Spec.isUtf8_append (Spec.isUtf8_append q ?_) q
  split
  · next c => rwa [if_pos c] at h
  · next c => rw [if_neg c] at h; exact Spec.isUtf8_append h (by decide)

theorem commas_utf8 : ∀ ts : List Bytes, (∀ t ∈ ts, Spec.isUtf8 t = true) → Spec.isUtf8 (commas ts) = true
  | [], _ => rfl
  | [t], h => h t (by simp)
  | t :: u :: ts, h => by
    rw [commas]
    exact Spec.isUtf8_append (Spec.isUtf8_append (h t (by simp)) (by decide)) (commas_utf8 (u :: ts) (fun x hx => h x (List.mem_cons_of_mem _ hx)))

theorem digit_ascii {c : UInt8} (h : isDigit c = true) : c.toNat < 128 := by
  unfold isDigit at h
  simp only [decide_eq_true_eq] at h
  omega

theorem decInt_utf8 (n : Int) : Spec.isUtf8 (decInt n) = true := by
  refine Spec.isUtf8_ascii _ fun c hc => ?_
  unfold decInt at hc
  split at hc
  · rcases List.mem_cons.1 hc with rfl | hc
    · decide
    · exact digit_ascii (dec_digits _ c hc)
  · exact digit_ascii (dec_digits _ c hc)

theorem decIntPad_ascii (w : Nat) (n : Int) : ∀ c ∈ decIntPad w n, c.toNat < 128 := by
  intro c hc
  unfold decIntPad at hc
  split at hc
  · rcases List.mem_cons.1 hc with rfl | hc
    · decide
    · exact digit_ascii (decPad_digits _ _ c hc)
  · exact digit_ascii (decPad_digits _ _ c hc)

theorem format_utf8 (y mo d h mi s tz : Int) : Spec.isUtf8 (IsoDate.format y mo d h mi s tz) = true := by
  refine Spec.isUtf8_ascii _ fun c hc => ?_
  unfold IsoDate.format at hc
  simp only [List.mem_append, List.mem_singleton] at hc
  rcases hc with ((((((((((hc | hc) | hc) | rfl) | hc) | rfl) | hc) | rfl) | hc) | hc) | hc) | hc
  · exact decIntPad_ascii _ _ c hc
  · exact decIntPad_ascii _ _ c hc
  · exact decIntPad_ascii _ _ c hc
  · decide
  · exact decIntPad_ascii _ _ c hc
  · decide
  · exact decIntPad_ascii _ _ c hc
  · decide
  · exact decIntPad_ascii _ _ c hc
  · rw [hc]; split <;> decide
  · exact digit_ascii (decPad_digits _ _ c hc)
  · exact digit_ascii (decPad_digits _ _ c hc)

theorem wholeItems_mem : ∀ {vs : List Py} {i : Nat} {v : Py}, WholeItems vs → vs[i]? = some v → Whole v
  | [], _, _, _, h => by simp at h
  | x :: xs, 0, v, hw, h => by simp at h; subst h; rw [WholeItems] at hw; exact hw.1
  | x :: xs, i + 1, v, hw, h => by rw [WholeItems] at hw; exact wholeItems_mem hw.2 (by simpa using h)

theorem wholeMembers_mem : ∀ {ms : List (Bytes × Py)} {i : Nat} {m : Bytes × Py}, WholeMembers (ms.map fun m => (.str m.1, m.2)) → ms[i]? = some m → Cut m.1 ∧ Whole m.2
  | [], _, _, _, h => by simp at h
  | x :: xs, 0, v, hw, h => by simp at h; subst h; rw [List.map_cons, WholeMembers] at hw; exact ⟨hw.1 _ rfl, hw.2.1⟩
  | x :: xs, i + 1, v, hw, h => by rw [List.map_cons, WholeMembers] at hw; exact wholeMembers_mem hw.2.2 (by simpa using h)

theorem items_utf8 {P : Nat → Prop} {vs : List Py} {ts : List Bytes} (hn : ts.length = vs.length) (hw : WholeItems vs)
    (hh : ∀ (i : Nat) t, ts[i]? = some t → P i → t = asc "-hidden-")
    (ih : ∀ (i : Nat) v t, vs[i]? = some v → ts[i]? = some t → ¬ P i → Whole v → Spec.isUtf8 t = true) : Spec.isUtf8 (asc "(" ++ commas ts ++ asc ")") = true := by
  refine Spec.isUtf8_append (Spec.isUtf8_append (by decide) (commas_utf8 ts fun t ht => ?_)) (by decide)
  obtain ⟨i, hi, e⟩ := List.mem_iff_getElem.1 ht
  have et : ts[i]? = some t := by rw [List.getElem?_eq_getElem hi, e]
  have ev : vs[i]? = some vs[i] := List.getElem?_eq_getElem (by omega)
  by_cases hp : P i
  · rw [hh i t et hp]; decide
  · exact ih i _ t ev et hp (wholeItems_mem hw ev)

theorem shows_utf8 {names : List Bytes} {dbl : BitVec 64 → Bytes} (hd : ∀ x, Spec.isUtf8 (dbl x) = true) {level : Int} {P : Nat → Prop} {v : Py} {t : Bytes}
    (h : Shows names dbl level P v t) : Whole v → Spec.isUtf8 t = true := by
  induction h with
  | bool l P b => intro _; cases b <;> decide
  | boolean l P b => intro _; cases b <;> decide
  | int l P n => intro _; exact decInt_utf8 n
  | float l P x => intro _; exact hd x
  | str l P s => intro hw; rw [Whole] at hw; exact quoted_utf8 hw
  | dateTime l P d => intro _; exact format_utf8 _ _ _ _ _ _ _
  | list0 => intro _; decide
  | tuple0 => intro _; decide
  | dict0 => intro _; decide
  | list l P hl vs ts hn hh h ih => intro hw; rw [Whole] at hw; exact items_utf8 hn hw hh ih
  | tuple l P hl vs ts hn hh h ih => intro hw; rw [Whole] at hw; exact items_utf8 hn hw hh ih
  | dict l P hl ms ts hn h0 hh h ih =>
    intro hw
    rw [Whole] at hw
    refine Spec.isUtf8_append (Spec.isUtf8_append (by decide) (commas_utf8 _ fun t ht => ?_)) (by decide)
    obtain ⟨i, hi, e⟩ := List.mem_iff_getElem.1 ht
    rw [List.length_zipWith] at hi
    rw [List.getElem_zipWith] at e
    have et : ts[i]? = some ts[i] := List.getElem?_eq_getElem (by omega)
    have em : ms[i]? = some ms[i] := List.getElem?_eq_getElem (by omega)
    obtain ⟨hc, hw'⟩ := wholeMembers_mem hw em
    rw [← e]
    refine Spec.isUtf8_append (Spec.isUtf8_append (quoted_utf8 hc) (by decide)) ?_
    by_cases hp : ms[i].1 ∈ names
    · rw [hh i _ _ em et hp]; decide
    · exact ih i _ _ em et hp hw'

end PyDump

/-- **C119 (the text), partial.** If the texts in the object are cut between characters, if at all, and the text of doubles is UTF-8, then the caller gets the text that shows the object.
Missing: texts that are cut within a character, for which there is an exception (`C119_cut_violated`); other objects, `bytes` (for these `C119_bytes`), and integers of more than 64 bits. -/
theorem C119_text_partial (E : Env) (hd : ∀ x, Spec.isUtf8 (E.dbl x) = true) (names : List Bytes) (level : Int) (pos : Nat) (hp : pos < 2 ^ 31) (v : Py) (hw : Whole v) (t : Bytes)
    (h : Shows names E.dbl level (fun i => pos.testBit i = true) v t) : dumpTree E v level (.dict names) pos = .text t := by
  have h1 := PyDump.print_shows h pos (fun i => by rw [PyDump.bit_nat hp])
  unfold dumpTree
  simp only [h1]
  rw [if_pos (show Python.decodes t = true from PyDump.shows_utf8 hd h hw)]

theorem hexChar_eq (a : Nat) (h : a < 16) : hexChar a = if a < 10 then UInt8.ofNat (48 + a) else UInt8.ofNat (87 + a) := by
  have : ∀ a, a < 16 → hexChar a = if a < 10 then UInt8.ofNat (48 + a) else UInt8.ofNat (87 + a) := by decide
  exact this a h

theorem literal_flatMap {q : UInt8} (hq : q = 39 ∨ q = 34) : ∀ s : Bytes, Literal q (s.flatMap (PyDump.escaped q)) s
  | [] => .nil
  | c :: s => by
    have ih := literal_flatMap hq s
    rw [List.flatMap_cons]
    unfold PyDump.escaped
    by_cases h1 : c = q ∨ c = 92
    · rw [if_pos h1]
      exact .itself c (by rcases h1 with rfl | rfl <;> grind) ih
    rw [if_neg h1]
    by_cases h2 : c = 9
    · rw [if_pos h2, h2]; exact .tab ih
    rw [if_neg h2]
    by_cases h3 : c = 10
    · rw [if_pos h3, h3]; exact .newline ih
    rw [if_neg h3]
    by_cases h4 : c = 13
    · rw [if_pos h4, h4]; exact .return ih
    rw [if_neg h4]
    have hc := c.toNat_lt
    by_cases h5 : c.toNat < 32 ∨ 127 ≤ c.toNat
    · rw [if_pos h5]
      have := Literal.hex (q := q) (c.toNat / 16) (c.toNat % 16) (by omega) (by omega) ih
      rw [← hexChar_eq _ (by omega), ← hexChar_eq _ (by omega), Nat.div_add_mod, UInt8.ofNat_toNat] at this
      exact this
    · rw [if_neg h5]
      exact .plain c ⟨by omega, by omega⟩ (fun h => h1 (.inl h)) (fun h => h1 (.inr h)) ih

/-- The printable characters. -/
def Printable (s : Bytes) : Prop := ∀ c ∈ s, 32 ≤ c.toNat ∧ c.toNat ≤ 126

theorem literal_printable {q : UInt8} {t s : Bytes} (h : Literal q t s) : Printable t := by
  have key : ∀ (a : Nat), a < 16 → 32 ≤ (if a < 10 then UInt8.ofNat (48 + a) else UInt8.ofNat (87 + a)).toNat ∧
    (if a < 10 then UInt8.ofNat (48 + a) else UInt8.ofNat (87 + a)).toNat ≤ 126 := by decide
  unfold Printable
  induction h with
  | nil => intro c hc; cases hc
  | plain c h hq hb r ih =>
    intro x hx
    rcases List.mem_cons.1 hx with rfl | hx
    · exact h
    · exact ih x hx
  | itself c h r ih =>
    intro x hx
    rcases List.mem_cons.1 hx with rfl | hx
    · decide
    rcases List.mem_cons.1 hx with rfl | hx
    · rcases h with rfl | rfl | rfl <;> decide
    · exact ih x hx
  | tab r ih | newline r ih | «return» r ih =>
    intro x hx
    rcases List.mem_cons.1 hx with rfl | hx
    · decide
    rcases List.mem_cons.1 hx with rfl | hx
    · decide
    · exact ih x hx
  | hex a b ha hb r ih =>
    intro x hx
    rcases List.mem_cons.1 hx with rfl | hx
    · decide
    rcases List.mem_cons.1 hx with rfl | hx
    · decide
    rcases List.mem_cons.1 hx with rfl | hx
    · exact key a ha
    rcases List.mem_cons.1 hx with rfl | hx
    · exact key b hb
    · exact ih x hx

/-- **C119 (bytes).** `bytes` are shown as a literal of Python that stands for them, in printable ASCII whatever they are, and cut as texts are; so every `bytes` object has a dump. -/
theorem C119_bytes (E : Env) (names : Names) (level pos : Int) (s : Bytes) :
    ∃ (q : UInt8) (body t : Bytes), (q = 39 ∨ q = 34) ∧ Literal q body s ∧ t = asc "b" ++ [q] ++ body ++ [q] ∧ Printable t ∧
      dumpTree E (.bytes s) level names pos = .text (if t.length ≤ 9 then t else t.take 10 ++ asc "...") := by
  obtain ⟨q, hq, ht⟩ : ∃ q : UInt8, (q = 39 ∨ q = 34) ∧ PyDump.bytesText s = asc "b" ++ [q] ++ s.flatMap (PyDump.escaped q) ++ [q] := by
    unfold PyDump.bytesText
    by_cases h : (39 : UInt8) ∈ s ∧ (34 : UInt8) ∉ s
    · exact ⟨34, .inr rfl, by simp only [if_pos h]⟩
    · exact ⟨39, .inl rfl, by simp only [if_neg h]⟩
  have hl := literal_flatMap hq s
  have hp : Printable (PyDump.bytesText s) := by
    rw [ht]
    intro c hc
    simp only [List.mem_append, List.mem_singleton] at hc
    have hqq : 32 ≤ q.toNat ∧ q.toNat ≤ 126 := by rcases hq with rfl | rfl <;> decide
    rcases hc with ((hc | rfl) | hc) | rfl
    · rw [show asc "b" = [98] by decide] at hc; rw [List.mem_singleton.1 hc]; decide
    · exact hqq
    · exact literal_printable hl c hc
    · exact hqq
  refine ⟨q, _, PyDump.bytesText s, hq, hl, ht, hp, ?_⟩
  have e : PyDump.limited (PyDump.bytesText s) = if (PyDump.bytesText s).length ≤ 9 then PyDump.bytesText s else (PyDump.bytesText s).take 10 ++ asc "..." := by
    unfold PyDump.limited
    simp only [show ((PyDump.bytesText s).length ≤ 9) = ((PyDump.bytesText s).length < 10) by simp only [eq_iff_iff]; omega]
  unfold dumpTree
  simp only [PyDump.print]
  rw [← e]
  have hd : Python.decodes (PyDump.limited (PyDump.bytesText s)) = true := by
    unfold Python.decodes
    apply Spec.isUtf8_ascii
    intro c hc
    unfold PyDump.limited at hc
    have h126 : ∀ c ∈ asc "...", c.toNat < 128 := by decide +kernel
    by_cases h : (PyDump.bytesText s).length < 10
    · rw [if_pos h] at hc; have := (hp c hc).2; omega
    · rw [if_neg h] at hc
      rcases List.mem_append.1 hc with hc | hc
      · have := (hp c (List.mem_of_mem_take hc)).2; omega
      · exact h126 c hc
  exact if_pos hd

/-- **C119 is violated by long texts**: if the first ten bytes of a `str` are not UTF-8, that is, the tenth byte is in the middle of a character, then there is an exception. -/
theorem C119_cut_violated (E : Env) (names : Names) (level pos : Int) (s : Bytes) (hl : 10 ≤ s.length) (h : Spec.isUtf8 (asc "\"" ++ (s.take 10 ++ asc "...") ++ asc "\"") = false) :
    dumpTree E (.str s) level names pos = .raised .unicode := by
  have e : PyDump.limited s = s.take 10 ++ asc "..." := by unfold PyDump.limited; rw [if_neg (by omega)]
  unfold dumpTree
  simp only [PyDump.print, e]
  rw [if_neg (by rw [show Python.decodes _ = Spec.isUtf8 _ from rfl, h]; simp)]

/-- **C119 is violated by large integers**: the exception is left behind and the caller gets a `SystemError`. -/
theorem C119_large_violated (E : Env) (names : Names) (level pos : Int) (n : Int) (h : n < -(2 : Int) ^ 63 ∨ 2 ^ 63 ≤ n) : dumpTree E (.int n) level names pos = .raised .system := by
  unfold dumpTree
  have hn : ¬ (-(2 : Int) ^ 63 ≤ n ∧ n < 2 ^ 63 ∧ True) := fun c => by
    obtain ⟨a, b, -⟩ := c
    rcases h with h | h
    · exact absurd a (by omega)
    · exact absurd b (by omega)
  simp only [PyDump.print, if_neg hn]
  rfl

/-- **C119 is violated by names in a list or a set**: it hides nothing, whatever is in it. -/
theorem C119_names_violated (E : Env) (ks : List Bytes) (level pos : Int) (v : Py) : dumpTree E v level (.sequence ks) pos = dumpTree E v level .missing pos := by
  have key : ∀ p, PyDump.print E (.sequence ks) level pos p v = PyDump.print E .missing level pos p v := by
    intro p
    exact PyDump.print_same (a := .sequence ks) (b := .missing) (fun _ => rfl) v level pos p
  unfold dumpTree
  rw [key]

/-! ### Witnesses -/

/-- The interpreter of the examples. -/
def dumpEnv : Env := ⟨fun _ => asc "1.5", fun _ _ => some (asc "None"), fun _ => some (asc "7"), fun _ => asc "object"⟩

/-- A call's arguments: a struct with a password, a list, and a third argument. -/
def pyArgs (pw : Bytes) (third : Py) : Py :=
  .tuple [.dict [(.str (asc "password"), .str pw), (.str (asc "user"), .str (asc "joe"))], .list [.int 1, .list [.int 2]], third]

/-- They differ in what is hidden only. -/
example : AlikeBut [asc "password"] (fun i => (4 : Nat).testBit i = true) (pyArgs (asc "x") .none) (pyArgs (asc "longer") (.int 7)) := by
  refine .tuple _ _ _ rfl fun i v w hv hw hi => ?_
  match i with
  | 0 =>
    simp at hv hw; subst hv hw
    refine .dict _ _ _ rfl fun j k v w hv hw hk => ?_
    match j with
    | 0 => simp at hv hw; exact absurd hv.1.symm (hk _ (by simp))
    | 1 => simp at hv hw; rw [← hv.2, ← hw.2]; exact .same _ _
    | j + 2 => simp at hv
  | 1 => simp at hv hw; subst hv hw; exact .same _ _
  | 2 => exact absurd (by decide) hi
  | i + 3 => simp at hv

/-- What is printed. -/
example : dumpTree dumpEnv (pyArgs (asc "x") (.int 7)) 2 (.dict [asc "password"]) 4 =
    .text (asc "({\"password\": -hidden-, \"user\": \"joe\"}, (1, (...)), -hidden-)") := by decide +kernel

/-- The same is so by the specification. -/
example : Shows [asc "password"] dumpEnv.dbl 2 (fun i => (4 : Nat).testBit i = true) (pyArgs (asc "x") (.int 7))
    (asc "({\"password\": -hidden-, \"user\": \"joe\"}, (1, (...)), -hidden-)") := by
  have h := Shows.tuple (names := [asc "password"]) (dbl := dumpEnv.dbl) 2 (fun i => (4 : Nat).testBit i = true) (by decide)
    [.dict ([(asc "password", .str (asc "x")), (asc "user", .str (asc "joe"))].map fun m : Bytes × Py => (.str m.1, m.2)), .list [.int 1, .list [.int 2]], .int 7]
    [asc "{" ++ commas (List.zipWith (fun (m : Bytes × Py) t => quoted m.1 ++ asc ": " ++ t) [(asc "password", .str (asc "x")), (asc "user", .str (asc "joe"))] [asc "-hidden-", quoted (asc "joe")]) ++ asc "}",
      asc "(" ++ commas [decInt 1, asc "(...)"] ++ asc ")", asc "-hidden-"] rfl
    (fun i t ht hi => by
      match i with
      | 0 => exact absurd hi (by decide)
      | 1 => exact absurd hi (by decide)
      | 2 => simpa using ht.symm
      | i + 3 => simp at ht)
    (fun i v t hv ht hi => by
      match i with
      | 0 =>
        simp only [List.getElem?_cons_zero, Option.some.injEq] at hv ht; subst hv ht
        refine .dict _ _ (by decide) _ _ rfl (by decide) (fun j m t hm ht hk => ?_) (fun j m t hm ht hk => ?_)
        · match j with
          | 0 => simpa using ht.symm
          | 1 => simp at hm; subst hm; exact absurd hk (by decide)
          | j + 2 => simp at hm
        · match j with
          | 0 => simp at hm; subst hm; exact absurd (by decide) hk
          | 1 => simp at hm ht; subst hm ht; exact .str _ _ _
          | j + 2 => simp at hm
      | 1 =>
        simp only [List.getElem?_cons_zero, List.getElem?_cons_succ, Option.some.injEq] at hv ht; subst hv ht
        refine .list _ _ (by decide) _ _ rfl (fun j t ht hj => hj.elim) (fun j v t hv ht _ => ?_)
        match j with
        | 0 => simp at hv ht; subst hv ht; exact .int _ _ _ (by decide)
        | 1 => simp at hv ht; subst hv ht; exact .list0 _ _
        | j + 2 => simp at hv
      | 2 => exact absurd (by decide) hi
      | i + 3 => simp at hv)
  have e : (asc "(" ++ commas [asc "{" ++ commas (List.zipWith (fun (m : Bytes × Py) t => quoted m.1 ++ asc ": " ++ t) [(asc "password", Py.str (asc "x")), (asc "user", .str (asc "joe"))]
      [asc "-hidden-", quoted (asc "joe")]) ++ asc "}", asc "(" ++ commas [decInt 1, asc "(...)"] ++ asc ")", asc "-hidden-"] ++ asc ")") =
      asc "({\"password\": -hidden-, \"user\": \"joe\"}, (1, (...)), -hidden-)" := by decide +kernel
  rw [e] at h
  exact h

example : Whole (pyArgs (asc "a longer password") .none) := by
  simp only [pyArgs, Whole, WholeItems, WholeMembers, and_true]
  refine ⟨?_, ?_, ?_, ?_⟩ <;> first | (intro s h; injection h with h; subst h; unfold Cut; decide) | (unfold Cut; decide) | trivial

/-- A name of nine letters and one with an accent. -/
example : dumpTree dumpEnv (.str (asc "Bartholom" ++ [0xC4, 0x9B])) 1 .missing 0 = .raised .unicode :=
  C119_cut_violated dumpEnv .missing 1 0 _ (by decide) (by decide)

/-- Ten letters are shown in full, with dots behind them. -/
example : dumpTree dumpEnv (.str (asc "abcdefghij")) 1 .missing 0 = .text (asc "\"abcdefghij...\"") := by decide +kernel

/-- A password that should be hidden. -/
example : dumpTree dumpEnv (.dict [(.str (asc "password"), .str (asc "tiger"))]) 1 (.sequence [asc "password"]) 0 = .text (asc "{\"password\": \"tiger\"}") := by decide +kernel

/-- Containers below the level. -/
example : AlikeTo 1 (.list [.list [.int 1], .int 2]) (.list [.list [], .int 2]) := by
  refine .list _ _ _ rfl fun i v w hv hw => ?_
  match i with
  | 0 => simp at hv hw; subst hv hw; exact .list0 _ _
  | 1 => simp at hv hw; rw [← hv, ← hw]; exact .same _ _
  | i + 2 => simp at hv

/-- `bytes`. -/
example : dumpTree dumpEnv (.bytes [127, 10]) 1 .missing 0 = .text (asc "b'\\x7f\\n'") := by decide +kernel

example : dumpTree dumpEnv (.bytes [65, 39, 0]) 1 .missing 0 = .text (asc "b\"A'\\x00\"") := by decide +kernel

end Frpc
