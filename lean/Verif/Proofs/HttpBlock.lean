import Verif.Proofs.HttpBody
import Verif.Proofs.HttpText
import Verif.Props.HttpHeader
/-! # Header blocks -/
namespace Frpc
namespace HttpIO
open Spec

/-- Fields as the store keeps them. -/
def stored (fs : List (Bytes × Bytes)) : HttpHeader.Fields := fs.map (fun f => (HttpHeader.polishName f.1, f.2))

theorem getList_stored (name : Bytes) (fs : List (Bytes × Bytes)) : HttpHeader.getList (stored fs) name = fieldValues name fs := by
  unfold HttpHeader.getList
  induction fs with
  | nil => rfl
  | cons f fs ih =>
    simp only [stored, List.map_cons, HttpHeader.getListLoop] at ih ⊢
    simp only [HttpHeader.polish_iff, ih, fieldValues, List.filter_cons]
    by_cases h : lower f.1 = lower name
    · have h' : f.1.map toLower = name.map toLower := h
      simp [h', h]
    · have h' : ¬ f.1.map toLower = name.map toLower := h
      simp [h', Ne.symm h]

theorem get_stored (name : Bytes) (fs : List (Bytes × Bytes)) (i : Nat) : HttpHeader.get (stored fs) name i = (fieldValues name fs)[i]? := by
  rw [← getList_stored]
  exact HttpHeader.getLoop_eq _ i _ 0 (by omega)

/-- What `readHeader` does with a line. -/
theorem line_step (l : HLine) (hok : l.Ok) (acc : List (Bytes × Bytes)) :
    ∃ name value, getHeaderValue l.text = some (name, value) ∧
      ((name ≠ [] ∧ addLine acc l = some (acc ++ [(name, value)])) ∨
       (name = [] ∧ acc = [] ∧ addLine acc l = none) ∨
       (name = [] ∧ ∃ acc', addLine acc l = some acc' ∧ HttpHeader.appendValue (stored acc) value = .ok (stored acc'))) := by
  cases l with
  | field n v =>
    obtain ⟨-, -, h1, h2, h3⟩ := hok
    refine ⟨n, trim v, ?_, .inl ⟨h1, rfl⟩⟩
    have := getHeaderValue_field (value := v) h2 h3
    simpa [HLine.text] using this
  | more c t =>
    obtain ⟨-, -, h1⟩ := hok
    refine ⟨[], [32] ++ (c :: t).dropWhile isSpace, getHeaderValue_continued (line := c :: t) rfl h1, .inr ?_⟩
    cases hl : acc.getLast? with
    | none =>
      left
      exact ⟨rfl, List.getLast?_eq_none_iff.1 hl, by simp [addLine, hl]⟩
    | some f =>
      obtain ⟨n, v⟩ := f
      right
      refine ⟨rfl, acc.dropLast ++ [(n, v ++ [32] ++ (c :: t).dropWhile isSpace)], ?_, ?_⟩
      · simp only [addLine, hl]
      · have : (stored acc).getLast? = some (HttpHeader.polishName n, v) := by simp [stored, hl]
        unfold HttpHeader.appendValue
        rw [this]
        simp [stored, List.map_dropLast]

theorem readHeaderLoop_found (cfg : Cfg) (opt : Bool) : ∀ (ls : List HLine) (f : Nat) (nl : Bool) (acc : List (Bytes × Bytes)) (s : Conn) (rest : Bytes),
    Calm s.sched → s.data = blockText ls ++ rest → (∀ l ∈ ls, l.Ok) → ls.length < f →
    (∀ fs, collectFields acc ls = some fs → ∃ sc, Calm sc ∧ readHeaderLoop cfg opt f nl (stored acc) s = (.ok (stored fs), ⟨rest, sc, s.out⟩)) ∧
    (collectFields acc ls = none → ∃ s', readHeaderLoop cfg opt f nl (stored acc) s = (.error .value, s')) := by
  intro ls
  induction ls with
  | nil =>
    intro f nl acc s rest hc hd _ hf
    obtain ⟨f, rfl⟩ : ∃ g, f = g + 1 := ⟨f - 1, by simp at hf; omega⟩
    obtain ⟨sc, h1, h2⟩ := readLineOpt_crlf cfg (nl && opt) s [] rest hc (by rw [hd]; rfl) (by simp) (by simp)
    refine ⟨?_, by simp [collectFields]⟩
    rintro fs ⟨⟩
    refine ⟨sc, h1, ?_⟩
    unfold readHeaderLoop
    rw [h2]
  | cons l ls ih =>
    intro f nl acc s rest hc hd hok hf
    obtain ⟨f, rfl⟩ : ∃ g, f = g + 1 := ⟨f - 1, by simp at hf; omega⟩
    have hl := hok l (by simp)
    obtain ⟨sc, h1, h2⟩ := readLineOpt_crlf cfg (nl && opt) s l.text (blockText ls ++ rest) hc
      (by rw [hd]; simp [blockText, crlf]) hl.1 hl.2.1
    have hne : ∃ a t, l.text = a :: t := by
      cases l with
      | field n v =>
        obtain ⟨-, -, h, -⟩ := hl
        cases n with
        | nil => exact absurd rfl h
        | cons a n => exact ⟨a, n ++ [58] ++ v, by simp [HLine.text]⟩
      | more c t => exact ⟨c, t, rfl⟩
    obtain ⟨a, t, hat⟩ := hne
    obtain ⟨name, value, g1, g2⟩ := line_step l hl acc
    unfold readHeaderLoop
    rw [h2]
    rw [hat] at g1 ⊢
    simp only [g1]
    rcases g2 with ⟨g2, g3⟩ | ⟨rfl, rfl, g3⟩ | ⟨rfl, acc', g3, g4⟩
    · rw [if_neg g2]
      have : HttpHeader.add (stored acc) name value = stored (acc ++ [(name, value)]) := by simp [HttpHeader.add, stored]
      rw [this]
      simp only [collectFields, g3]
      exact ih f false _ ⟨blockText ls ++ rest, sc, s.out⟩ rest h1 rfl (fun l hl => hok l (by simp [hl])) (by simp at hf; omega)
    · simp only [collectFields, g3, if_true]
      refine ⟨by simp, fun _ => ⟨_, rfl⟩⟩
    · simp only [collectFields, g3, if_true, g4]
      exact ih f false _ ⟨blockText ls ++ rest, sc, s.out⟩ rest h1 rfl (fun l hl => hok l (by simp [hl])) (by simp at hf; omega)

theorem blockText_length (ls : List HLine) : ls.length < (blockText ls).length := by
  unfold blockText
  induction ls with
  | nil => simp [crlf]
  | cons l ls ih =>
    have hcr : crlf.length = 2 := rfl
    simp only [List.flatMap_cons, List.length_append, List.length_cons, hcr] at ih ⊢; omega

theorem readHeader_found (cfg : Cfg) (opt : Bool) (ls : List HLine) (acc : List (Bytes × Bytes)) (s : Conn) (rest : Bytes)
    (hc : Calm s.sched) (hd : s.data = blockText ls ++ rest) (hok : ∀ l ∈ ls, l.Ok) :
    (∀ fs, collectFields acc ls = some fs → ∃ sc, Calm sc ∧ readHeader cfg opt (stored acc) s = (.ok (stored fs), ⟨rest, sc, s.out⟩)) ∧
    (collectFields acc ls = none → ∃ s', readHeader cfg opt (stored acc) s = (.error .value, s')) := by
  unfold readHeader
  refine readHeaderLoop_found cfg opt ls _ true acc s rest hc hd hok ?_
  have := blockText_length ls
  rw [hd, List.length_append]; omega

end HttpIO
end Frpc
