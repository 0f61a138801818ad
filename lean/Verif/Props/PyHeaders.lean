import Verif.Model.PyHeaders
import Verif.Props.HttpHeader
import Verif.Proofs.Utf8
/-!
# The header functions of `fastrpc.Server`: C133
-/
namespace Frpc
open PyHeaders HttpHeader Spec
open Python (Py)

/-- A field that Python can show: an ASCII name and a UTF-8 value, no NUL. -/
def PyTextField (f : Bytes × Bytes) : Prop := (∀ c ∈ f.1, c.toNat < 128 ∧ c ≠ 0) ∧ isUtf8 f.2 = true ∧ (0 : UInt8) ∉ f.2

/-- The events in which no further request is read. -/
def NoRequest : Ev → Prop
  | .request _ => False
  | _ => True

/-- The fields that the calls of user functions add: those whose name and value are proper strings, not empty. -/
inductive Adds : List Ev → Fields → Prop
  | nil : Adds [] []
  | add {k v evs fs} : (0 : UInt8) ∉ k → (0 : UInt8) ∉ v → k ≠ [] → v ≠ [] → Adds evs fs → Adds (.call (.add (.str k) (.str v)) :: evs) ((k, v) :: fs)
  | request {fs0 evs fs} : Adds evs fs → Adds (.request fs0 :: evs) fs
  | getIn {evs fs} : Adds evs fs → Adds (.call .getIn :: evs) fs
  | getOut {evs fs} : Adds evs fs → Adds (.call .getOut :: evs) fs
  | getInFor {n evs fs} : Adds evs fs → Adds (.call (.getInFor n) :: evs) fs
  | getOutFor {n evs fs} : Adds evs fs → Adds (.call (.getOutFor n) :: evs) fs

/-- The list shows the fields: one pair for each, in order, names up to case, values as they are. -/
def ShowsFields (g : Got) (fs : Fields) : Prop := ∃ l, g = .list l ∧ l.map (fun i => (lower i.name, i.value)) = fs.map (fun f => (lower f.1, f.2))

namespace PyHeaders

theorem stored (fs : Fields) : ∀ h : Fields, fs.foldl (fun h f => HttpHeader.add h f.1 f.2) h = h ++ fs.map (fun f => (polishName f.1, f.2)) := by
  induction fs with
  | nil => intro h; simp
  | cons f fs ih =>
    intro h
    rw [List.foldl_cons, ih, List.map_cons]
    show (h ++ [(polishName f.1, f.2)]) ++ _ = _
    rw [List.append_assoc]
    rfl

theorem cstr_id {s : Bytes} (h : (0 : UInt8) ∉ s) : cstr s = s := by
  unfold cstr
  induction s with
  | nil => rfl
  | cons c s ih =>
    have hc : c ≠ 0 := fun e => h (by simp [e])
    rw [List.takeWhile_cons, if_pos (by simpa using hc), ih (fun hm => h (by simp [hm]))]

theorem polish_ascii : ∀ (s : Bytes) (b : Bool), (∀ c ∈ s, c.toNat < 128 ∧ c ≠ 0) → ∀ c ∈ polishLoop b s, c.toNat < 128 ∧ c ≠ 0
  | [], _, _, c, hc => by cases hc
  | a :: s, b, h, c, hc => by
    have key : ∀ a : UInt8, a.toNat < 128 ∧ a ≠ 0 → (toLower a).toNat < 128 ∧ toLower a ≠ 0 ∧ (toUpper a).toNat < 128 ∧ toUpper a ≠ 0 := by
      intro a
      have := forall_byte (fun a => !decide (a.toNat < 128 ∧ a ≠ 0) || decide ((toLower a).toNat < 128 ∧ toLower a ≠ 0 ∧ (toUpper a).toNat < 128 ∧ toUpper a ≠ 0)) (by decide +kernel) a
      intro h
      simpa [h] using this
    have ha := h a (by simp)
    have hk := key a ha
    simp only [polishLoop, List.mem_cons] at hc
    rcases hc with rfl | hc
    · split
      · split
        · exact ⟨hk.1, hk.2.1⟩
        · exact ⟨hk.2.2.1, hk.2.2.2⟩
      · exact ha
    · exact polish_ascii s _ (fun c hm => h c (by simp [hm])) c hc

/-- The list of stored fields, those that can be shown. -/
theorem listLoop_ok (name : Bytes) : ∀ fs : Fields, (∀ f ∈ fs, name = [] ∨ name = polishName f.1 → PyTextField f) →
    listLoop name (fs.map (fun f => (polishName f.1, f.2))) =
      .ok ((fs.filter (fun f => name.isEmpty || name == polishName f.1)).map (fun f => ⟨polishName f.1, f.2, 2⟩))
  | [], _ => rfl
  | f :: fs, h => by
    have ih := listLoop_ok name fs (fun g hg => h g (by simp [hg]))
    rw [List.map_cons]
    unfold listLoop
    by_cases hn : (name.isEmpty || name == polishName f.1) = true
    · obtain ⟨h1, h2, h3⟩ := h f (by simp) (by simpa using hn)
      have hp := polish_ascii f.1 false h1
      have hp0 : (0 : UInt8) ∉ polishName f.1 := fun hm => (hp 0 hm).2 rfl
      rw [if_pos hn, cstr_id hp0, cstr_id h3, if_pos (by rw [h2, isUtf8_ascii (polishName f.1) (fun c hc => (hp c hc).1)]; rfl), ih, List.filter_cons, if_pos hn]
      rfl
    · rw [if_neg hn, ih, List.filter_cons, if_neg hn]

theorem after_in {evs : List Ev} : (∀ e ∈ evs, NoRequest e) → ∀ s : State, (evs.foldl step s).hin = s.hin := by
  induction evs with
  | nil => intro _ s; rfl
  | cons e evs ih =>
    intro h s
    rw [List.foldl_cons, ih (fun e he => h e (by simp [he]))]
    cases e with
    | request fs => exact absurd (h (.request fs) (by simp)) id
    | sent => rfl
    | call c =>
      cases c with
      | add n v =>
        show (addOut s n v).2.hin = s.hin
        unfold addOut
        split
        · split <;> rfl
        · rfl
      | _ => rfl

theorem after_out {evs : List Ev} {fs : Fields} (h : Adds evs fs) : ∀ s : State, (evs.foldl step s).hout = s.hout ++ fs.map (fun f => (polishName f.1, f.2)) := by
  induction h with
  | nil => intro s; simp
  | @add k v evs fs h1 h2 h3 h4 _ ih =>
    intro s
    rw [List.foldl_cons, ih]
    have : step s (.call (.add (.str k) (.str v))) = { s with hout := HttpHeader.add s.hout k v } := by
      show (addOut s (.str k) (.str v)).2 = _
      simp [addOut, argS, h1, h2, h3, h4]
    rw [this]
    simp [HttpHeader.add, List.append_assoc]
  | request _ ih => intro s; rw [List.foldl_cons, ih]; rfl
  | getIn _ ih => intro s; rw [List.foldl_cons, ih]; rfl
  | getOut _ ih => intro s; rw [List.foldl_cons, ih]; rfl
  | getInFor _ ih => intro s; rw [List.foldl_cons, ih]; rfl
  | getOutFor _ ih => intro s; rw [List.foldl_cons, ih]; rfl

theorem after_request (evs : List Ev) (fs : Fields) (es : List Ev) (h : ∀ e ∈ es, NoRequest e) :
    (after (evs ++ .request fs :: es)).hin = fs.map (fun f => (polishName f.1, f.2)) := by
  unfold after
  rw [List.foldl_append, List.foldl_cons, after_in h]
  show fs.foldl (fun h f => HttpHeader.add h f.1 f.2) [] = _
  rw [stored, List.nil_append]

theorem after_sent (evs : List Ev) (es : List Ev) (fs : Fields) (h : Adds es fs) :
    (after (evs ++ .sent :: es)).hout = fs.map (fun f => (polishName f.1, f.2)) := by
  unfold after
  rw [List.foldl_append, List.foldl_cons, after_out h]
  show [] ++ _ = _
  rw [List.nil_append]

theorem shows_map (fs : Fields) : (fs.map (fun f => (⟨polishName f.1, f.2, 2⟩ : Item))).map (fun i => (lower i.name, i.value)) = fs.map (fun f => (lower f.1, f.2)) := by
  rw [List.map_map]
  apply List.map_congr_left
  intro f _
  show (lower (polishName f.1), f.2) = _
  unfold polishName
  rw [lower_polishLoop]

theorem filter_all (fs : Fields) : fs.filter (fun f => ([] : Bytes).isEmpty || ([] : Bytes) == polishName f.1) = fs := List.filter_eq_self.2 (fun _ _ => rfl)

theorem filter_name (fs : Fields) {name : Bytes} (hne : name ≠ []) (hp : polishName name = name) :
    fs.filter (fun f => name.isEmpty || name == polishName f.1) = fs.filter (fun f => decide (lower f.1 = lower name)) := by
  congr 1
  funext f
  have h1 : name.isEmpty = false := by cases name with | nil => exact absurd rfl hne | cons => rfl
  rw [h1, Bool.false_or]
  by_cases h : lower f.1 = lower name
  · have := (polish_iff f.1 name).2 h
    rw [hp] at this
    simp [h, this]
  · have : ¬ name = polishName f.1 := fun e => h ((polish_iff f.1 name).1 (by rw [hp]; exact e.symm))
    simp [h, this]

end PyHeaders

/-- **C133 (the header of the request).** Whatever has happened to the server object, after it has read a request whose header fields Python can show, and whatever user functions have
called since: `getInHeaders` gives its fields, in their order; `getInHeadersFor`, asked with a name in the usual capitals, gives those of that name, however the client wrote it. -/
theorem C133_in_partial (evs : List Ev) (fs : Fields) (hfs : ∀ f ∈ fs, PyTextField f) (es : List Ev) (hes : ∀ e ∈ es, NoRequest e) :
    ShowsFields (call (after (evs ++ .request fs :: es)) .getIn).1 fs ∧
    ∀ name : Bytes, name ≠ [] → (0 : UInt8) ∉ name → polishName name = name →
      ShowsFields (call (after (evs ++ .request fs :: es)) (.getInFor (.str name))).1 (fs.filter (fun f => decide (lower f.1 = lower name))) := by
  have hin := after_request evs fs es hes
  constructor
  · refine ⟨_, ?_, shows_map fs⟩
    show gotList (listLoop [] _) = _
    rw [hin, listLoop_ok [] fs (fun f hf _ => hfs f hf), filter_all]
    rfl
  · intro name hne h0 hp
    refine ⟨_, ?_, shows_map _⟩
    show getFor _ _ = _
    unfold getFor argS
    simp only [if_neg h0, List.isEmpty_iff, if_neg hne]
    rw [hin, listLoop_ok name fs (fun f hf _ => hfs f hf)]
    rw [filter_name fs hne hp]
    rfl

/-- **C133 (the header of the response).** `getOutHeaders` gives what user functions have added since the last response, in their order. -/
theorem C133_out_partial (evs es : List Ev) (fs : Fields) (h : Adds es fs) (hfs : ∀ f ∈ fs, PyTextField f) :
    ShowsFields (call (after (evs ++ .sent :: es)) .getOut).1 fs ∧
    ∀ name : Bytes, name ≠ [] → (0 : UInt8) ∉ name → polishName name = name →
      ShowsFields (call (after (evs ++ .sent :: es)) (.getOutFor (.str name))).1 (fs.filter (fun f => decide (lower f.1 = lower name))) := by
  have hout := after_sent evs es fs h
  constructor
  · refine ⟨_, ?_, shows_map fs⟩
    show gotList (listLoop [] _) = _
    rw [hout, listLoop_ok [] fs (fun f hf _ => hfs f hf), filter_all]
    rfl
  · intro name hne h0 hp
    refine ⟨_, ?_, shows_map _⟩
    show getFor _ _ = _
    unfold getFor argS
    simp only [if_neg h0, List.isEmpty_iff, if_neg hne]
    rw [hout, listLoop_ok name fs (fun f hf _ => hfs f hf)]
    rw [filter_name fs hne hp]
    rfl

/-- **C133 (only the asked side changes).** The four functions that ask change nothing, and `addOutHeader` changes only the header of the response, or raises `ValueError` and changes
nothing. -/
theorem C133_asking (s : State) (c : Call) :
    (call s c).2.hin = s.hin ∧ ((call s c).2.hout = s.hout ∨ ∃ k v, c = .add (.str k) (.str v) ∧ (call s c).1 = .none ∧ (call s c).2.hout = s.hout ++ [(polishName k, v)]) := by
  cases c with
  | add n v =>
    show (addOut s n v).2.hin = _ ∧ ((addOut s n v).2.hout = _ ∨ ∃ k w, _ ∧ (addOut s n v).1 = _ ∧ (addOut s n v).2.hout = _)
    have key : ∀ (p : Py) t, argS p = some t → p = .str t := by
      intro p t h
      cases p with
      | str s =>
        unfold argS at h
        simp only at h
        split at h
        · cases h
        · cases h; rfl
      | _ => cases h
    unfold addOut
    cases hk : argS n with
    | none => exact ⟨rfl, .inl rfl⟩
    | some k =>
      cases hw : argS v with
      | none => exact ⟨rfl, .inl rfl⟩
      | some w =>
        simp only
        split
        · exact ⟨rfl, .inl rfl⟩
        · exact ⟨rfl, .inr ⟨k, w, by rw [key _ _ hk, key _ _ hw], rfl, rfl⟩⟩
  | _ => exact ⟨rfl, .inl rfl⟩

/-- **C133 is false (names).** A field that has been added is not found under the very name it was added with. -/
theorem C133_name_violated : ¬ ∀ k v : Bytes, (addOut new (.str k) (.str v)).1 = .none →
    ∃ l, (call (addOut new (.str k) (.str v)).2 (.getOutFor (.str k))).1 = .list l ∧ l ≠ [] := by
  intro h
  obtain ⟨l, h1, h2⟩ := h (asc "X-ID") (asc "1") (by decide +kernel)
  have : (call (addOut new (.str (asc "X-ID")) (.str (asc "1"))).2 (.getOutFor (.str (asc "X-ID")))).1 = .list [] := by decide +kernel
  rw [this] at h1
  cases h1
  exact h2 rfl

/-- **C133 is false (texts).** One field that is not UTF-8, sent by any client, and `getInHeaders` raises `MemoryError`. -/
theorem C133_text_violated : ¬ ∀ fs : Fields, ∃ l, (call (after [.request fs]) .getIn).1 = .list l := by
  intro h
  obtain ⟨l, hl⟩ := h [(asc "Host", asc "h"), (asc "X-Name", [0xE9])]
  have : (call (after [.request [(asc "Host", asc "h"), (asc "X-Name", [0xE9])]]) .getIn).1 = .raised .memory := by decide +kernel
  rw [this] at hl
  cases hl

/-- **C133 is false (before the request).** The hook that runs before a request is read sees the header of the request before it, also if that came from another client on another
connection. -/
theorem C133_stale_violated : ¬ ∀ fs : Fields, (call (after [.request fs, .sent]) .getIn).1 = .list [] := by
  intro h
  have := h [(asc "Cookie", asc "secret")]
  have h2 : (call (after [.request [(asc "Cookie", asc "secret")], .sent]) .getIn).1 = .list [⟨asc "Cookie", asc "secret", 2⟩] := by decide +kernel
  rw [h2] at this
  exact absurd this (by decide)

/-- **C133 is false (garbage).** Every pair of a list that these functions give has one reference too many: only the list holds it, and it is never freed. -/
theorem C133_leak_violated (s : State) (c : Call) (l : List Item) (h : (call s c).1 = .list l) : ∀ i ∈ l, i.refs = 2 := by
  have key : ∀ name (fs : Fields) l, listLoop name fs = .ok l → ∀ i ∈ l, i.refs = 2 := by
    intro name fs
    induction fs with
    | nil => intro l h i hi; cases h; cases hi
    | cons f fs ih =>
      intro l h i hi
      obtain ⟨k, v⟩ := f
      unfold listLoop at h
      split at h
      · split at h
        · cases hr : listLoop name fs with
          | error e => rw [hr] at h; cases h
          | ok l' =>
            rw [hr] at h
            cases h
            rcases List.mem_cons.1 hi with rfl | hi
            · rfl
            · exact ih l' hr i hi
        · cases h
      · exact ih l h i hi
  have key2 : ∀ name (fs : Fields), gotList (listLoop name fs) = .list l → ∀ i ∈ l, i.refs = 2 := by
    intro name fs h
    cases hr : listLoop name fs with
    | error e => rw [hr] at h; cases h
    | ok l' => rw [hr] at h; cases h; exact key _ _ _ hr
  have key3 : ∀ (fs : Fields) n, getFor fs n = .list l → ∀ i ∈ l, i.refs = 2 := by
    intro fs n h
    unfold getFor at h
    split at h
    · split at h
      · cases h
      · exact key2 _ _ h
    · cases h
  cases c with
  | getIn => exact key2 _ _ h
  | getOut => exact key2 _ _ h
  | getInFor n => exact key3 _ _ h
  | getOutFor n => exact key3 _ _ h
  | add n v =>
    have h : (addOut s n v).1 = .list l := h
    unfold addOut at h
    split at h
    · split at h <;> cases h
    · cases h

/-! ## Witnesses -/

/-- Two requests; in the second a function asks and adds. -/
def headerStory : List Ev :=
  [.request [(asc "host", asc "h"), (asc "X-A", asc "1"), (asc "x-a", asc "2")], .call .getIn, .call (.add (.str (asc "X-B")) (.str (asc "3")))]

example : (call (after ([.request [], .sent] ++ headerStory)) .getIn).1 = .list [⟨asc "Host", asc "h", 2⟩, ⟨asc "X-A", asc "1", 2⟩, ⟨asc "X-A", asc "2", 2⟩] := by decide +kernel
example : (call (after ([.request [], .sent] ++ headerStory)) (.getInFor (.str (asc "X-A")))).1 = .list [⟨asc "X-A", asc "1", 2⟩, ⟨asc "X-A", asc "2", 2⟩] := by decide +kernel
example : (call (after ([.request [], .sent] ++ headerStory)) (.getOutFor (.str (asc "X-B")))).1 = .list [⟨asc "X-B", asc "3", 2⟩] := by decide +kernel
example : ∀ f ∈ ([(asc "host", asc "h"), (asc "X-A", asc "1"), (asc "x-a", asc "2")] : Fields), PyTextField f := by unfold PyTextField; decide +kernel
example : Adds headerStory [(asc "X-B", asc "3")] := .request (.getIn (.add (by decide +kernel) (by decide +kernel) (by decide +kernel) (by decide +kernel) .nil))
example : polishName (asc "X-A") = asc "X-A" := by decide +kernel

end Frpc
