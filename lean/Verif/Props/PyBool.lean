import Verif.Model.PyBool
import Verif.Props.PyDate
/-!
# Truth values in Python: C122
-/
namespace Frpc
open Python (Py)
open PyDate (Op)
open PyBool (Put)

/-- What the language says of the truth of an object: nothing, zero and the empty ones are false. -/
def PyFalsy : Py → Prop
  | .none => True
  | .bool b => b = false
  | .boolean b => b = false
  | .int n => n = 0
  | .float x => x = 0 ∨ x = BitVec.ofNat 64 (2 ^ 63)
  | .str s => s = []
  | .bytes s => s = []
  | .list xs => xs = []
  | .tuple xs => xs = []
  | .dict ms => ms = []
  | _ => False

theorem PyBool.falsy_iff (v : Py) (hv : v ≠ .other) (o : Option Bool) : (PyFalsy v → PyBool.isTrue o v = some false) ∧ (¬ PyFalsy v → PyBool.isTrue o v = some true) := by
  cases v with
  | other => exact absurd rfl hv
  | float x =>
    simp only [PyFalsy, PyBool.isTrue, Option.some.injEq, decide_eq_false_iff_not, decide_eq_true_eq]
    have hx := x.isLt
    refine ⟨fun h => ?_, fun h => ?_⟩
    · rcases h with rfl | rfl <;> decide
    · rintro h0
      apply h
      have : x.toNat = 0 ∨ x.toNat = 2 ^ 63 := by omega
      rcases this with h1 | h1
      · exact .inl (BitVec.eq_of_toNat_eq (by rw [h1]; rfl))
      · exact .inr (BitVec.eq_of_toNat_eq (by rw [h1]; rfl))
  | bool b => cases b <;> simp [PyFalsy, PyBool.isTrue]
  | boolean b => cases b <;> simp [PyFalsy, PyBool.isTrue]
  | str s => cases s <;> simp [PyFalsy, PyBool.isTrue]
  | bytes s => cases s <;> simp [PyFalsy, PyBool.isTrue]
  | list s => cases s <;> simp [PyFalsy, PyBool.isTrue]
  | tuple s => cases s <;> simp [PyFalsy, PyBool.isTrue]
  | dict s => cases s <;> simp [PyFalsy, PyBool.isTrue]
  | _ => simp [PyFalsy, PyBool.isTrue]

/-- **C122 (making one).** `Boolean(v)`, `boolean(v)` and the value that is set are true just if the object is, for every object; no argument is false; an exception of the object comes through. -/
theorem C122_made (o : Option Bool) (rest : Bytes → Bool) (v : Py) (b : Bool) :
    PyBool.new o [] = .ok (.boolean false) ∧
    (v ≠ .other → (b = false ↔ PyFalsy v) → PyBool.new o [v] = .ok (.boolean b) ∧ PyBool.boolean o rest v none = .ok (.boolean b) ∧ ∀ self, PyBool.setattr o self (asc "value") (some v) = .ok b) ∧
    (o = none → PyBool.new o [.other] = .error .raised ∧ PyBool.boolean o rest .other none = .error .raised ∧ ∀ self, PyBool.setattr o self (asc "value") (some .other) = .raised .raised) ∧
    PyBool.getattr b (asc "value") = .ok (.bool b) := by
  refine ⟨rfl, fun hv hb => ?_, fun h => ?_, by simp [PyBool.getattr]⟩
  · have ht : PyBool.isTrue o v = some b := by
      have := PyBool.falsy_iff v hv o
      cases b with
      | false => exact this.1 (hb.mp rfl)
      | true => exact this.2 (fun h => by simpa using hb.mpr h)
    refine ⟨?_, ?_, fun self => ?_⟩
    · simp only [PyBool.new, ht, PyBool.ofTruth]
    · simp only [PyBool.boolean, ht]
    · simp only [PyBool.setattr, ht, if_true]
      cases self <;> cases b <;> rfl
  · subst h
    refine ⟨rfl, rfl, fun self => ?_⟩
    simp only [PyBool.setattr, PyBool.isTrue, if_true]

/-- **C122 (`boolean(v, truefalse)`).** Of a pair, the second item stands for true and the first for false, and its truth is the result; of a shorter list, `IndexError`; of what is
no sequence, `TypeError`. -/
theorem C122_pair (o : Option Bool) (rest : Bytes → Bool) (v no yes : Py) (more : List Py) (hv : v ≠ .other) (hn : no ≠ .other) (hy : yes ≠ .other) (b : Bool)
    (hb : b = true ↔ (PyFalsy v ∧ ¬ PyFalsy no) ∨ (¬ PyFalsy v ∧ ¬ PyFalsy yes)) :
    PyBool.boolean o rest v (some (.tuple (no :: yes :: more))) = .ok (.boolean b) ∧ PyBool.boolean o rest v (some (.list (no :: yes :: more))) = .ok (.boolean b) := by
  have key : ∀ x : Py, x ≠ .other → (b = true ↔ ¬ PyFalsy x) → PyBool.isTrue o x = some b := by
    intro x hx hbx
    have := PyBool.falsy_iff x hx o
    cases b with
    | true => exact this.2 (hbx.mp rfl)
    | false => exact this.1 (by
        apply Classical.byContradiction
        intro h
        simpa using hbx.mpr h)
  by_cases c : PyFalsy v
  · simp only [c, true_and, not_true_eq_false, false_and, or_false] at hb
    have h1 := (PyBool.falsy_iff v hv o).1 c
    have h2 := key no hn hb
    simp [PyBool.boolean, h1, PyBool.item, h2, PyBool.ofTruth]
  · simp only [c, not_false_eq_true, true_and, false_and, false_or] at hb
    have h1 := (PyBool.falsy_iff v hv o).2 c
    have h2 := key yes hy hb
    simp [PyBool.boolean, h1, PyBool.item, h2, PyBool.ofTruth]

theorem C122_pair_refused (o : Option Bool) (rest : Bytes → Bool) (v x : Py) (hv : v ≠ .other) :
    PyBool.boolean o rest v (some (.tuple [])) = .error .index ∧ (¬ PyFalsy v → PyBool.boolean o rest v (some (.tuple [x])) = .error .index) ∧
    PyBool.boolean o rest v (some .none) = .error .type ∧ ∀ ms, PyBool.boolean o rest v (some (.dict ms)) = .error .type := by
  have h := PyBool.falsy_iff v hv o
  by_cases c : PyFalsy v
  · have h1 := h.1 c
    simp [PyBool.boolean, h1, PyBool.item, c]
  · have h1 := h.2 c
    simp [PyBool.boolean, h1, PyBool.item, c]

/-- **C122 (comparing).** With another one, and with the language's own truth values on either side, all six operators are those of the values, false before true; with anything else it is different,
and `<`, `<=`, `>`, `>=` are a `TypeError`. -/
theorem C122_compare (a b : Bool) (op : Op) (r : Bool) (hr : r = true ↔ Op.holds (if a then 1 else 0) (if b then 1 else 0) op) :
    PyBool.compare (.boolean a) (.boolean b) op = .ok r ∧ PyBool.compare (.boolean a) (.bool b) op = .ok r ∧ PyBool.compare (.bool a) (.boolean b) op = .ok r := by
  have : op.apply (if a then 1 else 0) (if b then 1 else 0) = r := by
    have := PyDate.apply_holds (if a then 1 else 0) (if b then 1 else 0) op
    rw [← hr] at this
    cases r <;> simp_all
  simp [PyBool.compare, PyBool.asBool, this]

/-- Also with numbers, although `True` is one: `Boolean(True) == 1` is false, while `Boolean(True) == True` and `True == 1`: equality is not transitive. -/
theorem C122_foreign (a : Bool) (v : Py) (h1 : ∀ b, v ≠ .boolean b) (h2 : ∀ b, v ≠ .bool b) (op : Op) :
    PyBool.compare (.boolean a) v op = (match op with | .eq => .ok false | .ne => .ok true | _ => .error .type) := by
  have : PyBool.asBool v = none := by
    cases v <;> first
      | rfl
      | exact absurd rfl (h1 _)
      | exact absurd rfl (h2 _)
  simp only [PyBool.compare, PyBool.asBool, this]
  cases op <;> rfl

/-- **C122 (texts, number).** The text and the number say which one it is; a truth value made of its number is the same one; one made of its text is always true. -/
theorem C122_text_violated (o : Option Bool) (b : Bool) : PyBool.str b = (if b then asc "1" else asc "0") ∧ PyBool.int b = (if b then 1 else 0) ∧
    (∀ c, PyBool.repr b = PyBool.repr c → b = c) ∧ PyBool.new o [.int (PyBool.int b)] = .ok (.boolean b) ∧ PyBool.new o [.str (PyBool.str b)] = .ok (.boolean true) := by
  refine ⟨rfl, rfl, fun c => ?_, ?_, ?_⟩
  · cases b <;> cases c <;> decide +kernel
  · cases b <;> rfl
  · cases b <;> rfl

/-- **C122 is violated for `del`.** Deleting the value reads a null pointer. All other names are an exception. -/
theorem C122_del_violated (o : Option Bool) (b : Bool) : PyBool.setattr o b (asc "value") none = .crash ∧
    ∀ name v, name ≠ asc "value" → PyBool.setattr o b name v = .raised .attribute ∧ PyBool.getattr b name = .error .attribute := by
  refine ⟨by simp [PyBool.setattr], fun name v h => ?_⟩
  simp [PyBool.setattr, PyBool.getattr, h]

/-! ### Witnesses -/

example : PyFalsy (.int 0) ∧ ¬ PyFalsy (.str (asc "0")) ∧ ¬ PyFalsy (.list [.none]) := ⟨rfl, fun h => absurd (show asc "0" = [] from h) (by decide +kernel), fun h => nomatch (show [Py.none] = [] from h)⟩
example : PyBool.boolean none (fun _ => true) (.int 5) (some (.tuple [.bool true, .bool false])) = .ok (.boolean false) := rfl
example : (false = true ↔ (PyFalsy (.int 5) ∧ ¬ PyFalsy (.bool true)) ∨ (¬ PyFalsy (.int 5) ∧ ¬ PyFalsy (.bool false))) := by simp [PyFalsy]
example : PyBool.compare (.boolean false) (.bool true) .lt = .ok true ∧ PyBool.compare (.boolean true) (.int 1) .eq = .ok false := ⟨rfl, rfl⟩

end Frpc
