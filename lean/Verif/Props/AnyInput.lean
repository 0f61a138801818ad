import Verif.Proofs.AnyBuilder
import Verif.Props.RoundTrip
/-!
# C12: what the tree builder does with any input

`C12_no_undefined_behaviour` speaks of the decoder; here it runs the tree builder that receivers use.
-/
namespace Frpc
open BinUnMarshaller
open TreeBuilder (Cfg TB addTo place openC close build getData)
open Spec (Open nest item Limited)

/-- `k` containers are open besides those of the stream; the name of a member fits. -/
def TreeOk (k : Nat) (s : List Open) (tb : TB) : Prop := tb.frames.length = s.length + k ∧ tb.memberName.length ≤ 255

/-- The exceptions of the tree builder: a value too many, a text that validation refuses. -/
def TreeErr (cfg : Cfg) (T : List Event) (e : Err) : Prop := e = .stream ∨ (e = .type ∧ ∃ s, Event.string s ∈ T ∧ cfg.strOk s = false)

theorem item_length {s s' : List Open} (h : item s = some s') : s'.length = s.length := by
  unfold item at h
  split at h <;> simp at h <;> subst h <;> rfl

theorem addTo_ok {k : Bytes} {v : Value} {c : TreeBuilder.Cont} (h : k.length ≤ 255) : ∃ c', addTo k v c = .ok c' := by
  cases c with
  | arr vs => exact ⟨_, rfl⟩
  | str ms =>
    exact ⟨.str (SMap.append k v ms), by simp only [addTo, SMap.appendChecked, if_neg (show ¬ k.length > 255 by omega)]; rfl⟩

theorem place_tree_ok {cfg : Cfg} {T : List Event} {n : Nat} {s s' : List Open} {tb : TB} {v : Value} (h : item s = some s') (hi : TreeOk n s tb) :
    (∃ tb', place tb v = .ok tb' ∧ TreeOk n s' tb') ∨ ∃ x, place tb v = .error x ∧ TreeErr cfg T x := by
  obtain ⟨h1, h2⟩ := hi
  unfold place
  cases hf : tb.frames with
  | nil =>
    by_cases hb : tb.first = true
    · refine .inl ⟨_, if_pos hb, ?_, h2⟩
      rw [item_length h, ← h1, hf]
    · exact .inr ⟨_, if_neg hb, .inl rfl⟩
  | cons f fs =>
    obtain ⟨sl, c⟩ := f
    obtain ⟨c', hc⟩ := addTo_ok (v := v) (c := c) h2
    refine .inl ⟨{ tb with frames := (sl, c') :: fs }, by simp only [hc, bind, Except.bind, pure, Except.pure], ?_, h2⟩
    rw [item_length h, ← h1, hf]; rfl

theorem open_ok {cfg : Cfg} {T : List Event} {n : Nat} {s s' : List Open} {tb : TB} {c : TreeBuilder.Cont} {q : Open} (h : item s = some s') (hi : TreeOk n s tb) :
    (∃ tb', openC tb c = .ok tb' ∧ TreeOk n (q :: s') tb') ∨ ∃ x, openC tb c = .error x ∧ TreeErr cfg T x := by
  obtain ⟨h1, h2⟩ := hi
  have hl := item_length h
  unfold openC
  split
  · next hf => exact .inl ⟨_, rfl, by simp only [List.length_cons]; omega, h2⟩
  · next hf =>
    rw [if_neg (by omega)]
    exact .inl ⟨_, rfl, by simp only [List.length_cons]; omega, h2⟩
  · next hf =>
    by_cases hb : tb.first = true
    · refine .inl ⟨_, if_pos hb, ?_, h2⟩
      rw [hf] at h1
      simp only [List.length_cons, List.length_nil] at h1 ⊢; omega
    · exact .inr ⟨_, if_neg hb, .inl rfl⟩

theorem attach_length (v : Value) (sl : TreeBuilder.Slot) (r : Option Value) (fs : List (TreeBuilder.Slot × TreeBuilder.Cont)) :
    (TreeBuilder.attach v sl r fs).2.length = fs.length := by
  unfold TreeBuilder.attach
  split <;> rfl

theorem close_tree_ok {n : Nat} {q : Open} {s : List Open} {tb : TB} (hi : TreeOk n (q :: s) tb) : ∃ tb', close tb = .ok tb' ∧ TreeOk n s tb' := by
  obtain ⟨h1, h2⟩ := hi
  unfold close
  split
  · next hf => rw [hf] at h1; simp only [List.length_nil, List.length_cons] at h1; omega
  · next sl c fs hf =>
    rw [hf] at h1
    refine ⟨_, rfl, ?_, h2⟩
    simp only [attach_length, List.length_cons] at h1 ⊢
    omega

theorem tree_step (cfg : Cfg) (T : List Event) (n : Nat) (s : List Open) (e : Event) (s' : List Open) (tb : TB) (h : nest s e = some s') (hl : Limited e ∧ e ∈ T) (hi : TreeOk n s tb) :
    (∃ tb', (TreeBuilder.builder cfg).build tb e = .ok tb' ∧ TreeOk n s' tb') ∨ ∃ x, (TreeBuilder.builder cfg).build tb e = .error x ∧ TreeErr cfg T x := by
  unfold TreeBuilder.builder
  cases e with
  | int a => exact place_tree_ok h hi
  | bool a => exact place_tree_ok h hi
  | double a => exact place_tree_ok h hi
  | null => exact place_tree_ok h hi
  | binary a => exact place_tree_ok h hi
  | dateTime a => exact place_tree_ok h hi
  | string a =>
    simp only [build]
    by_cases ha : cfg.strOk a = true
    · simp only [ha, if_true]; exact place_tree_ok h hi
    · simp only [ha]
      exact .inr ⟨.type, rfl, .inr ⟨rfl, a, hl.2, by simpa using ha⟩⟩
  | member k =>
    simp only [nest] at h
    split at h
    · cases h
      refine .inl ⟨{ tb with memberName := k }, rfl, ?_, hl.1.2⟩
      have := hi.1
      simpa using this
    · cases h
  | openArray k =>
    simp only [nest] at h
    cases hs : item s with
    | none => rw [hs] at h; cases h
    | some s1 => rw [hs] at h; cases h; exact open_ok hs hi
  | openStruct k =>
    simp only [nest] at h
    cases hs : item s with
    | none => rw [hs] at h; cases h
    | some s1 => rw [hs] at h; cases h; exact open_ok hs hi
  | closeArray =>
    simp only [nest] at h
    split at h
    · cases h; exact .inl (close_tree_ok hi)
    · cases h
  | closeStruct =>
    simp only [nest] at h
    split at h
    · cases h; exact .inl (close_tree_ok hi)
    · cases h
  | methodCall a => simp [nest] at h
  | methodResponse => simp [nest] at h
  | fault a b => simp [nest] at h

/-- **C12 (the whole receiver).** Whatever bytes arrive, in whatever pieces, a receiver with the tree builder gets a stream error, or a type error if a text of the
message is refused by the validation of texts, or a tree: nothing else can happen, undefined behaviour included. -/
theorem C12_receiver (cfg : Cfg) (req : Req) (ps : List Bytes) (e : Err) (h : receive cfg req ps = .error e) :
    e = .stream ∨ (e = .type ∧ ∃ s, Event.string s ∈ trace req ps ∧ cfg.strOk s = false) := by
  unfold receive at h
  cases hx : unMarshallAll (TreeBuilder.builder cfg) req BinUnMarshaller.init TreeBuilder.init ps with
  | mk o r =>
    obtain ⟨tb, err⟩ := r
    rw [hx] at h
    have hany := any_input (E := TreeErr cfg (trace req ps)) (P := fun e => Limited e ∧ e ∈ trace req ps) (Ic := fun _ => TreeOk 1) (Ir := TreeOk 0)
      (fun e he => ⟨C18_limited req ps e he, he⟩) (fun name => .inl ⟨_, rfl, rfl, by simp [TreeBuilder.init]⟩) (.inl ⟨_, rfl, rfl, by simp [TreeBuilder.init]⟩)
      (fun _ s e s' b => tree_step cfg _ 1 s e s' b) (fun s e s' b => tree_step cfg _ 0 s e s' b) hx
    rcases hany with ⟨x, rfl, hE⟩ | ⟨c, m, x, _, hb, rfl⟩ | ⟨rfl, _⟩
    · simp only [Except.error.injEq] at h
      subst h
      rcases hE with h | h | h
      · exact .inl h
      · exact .inl h
      · exact .inr h
    · simp [TreeBuilder.builder, build] at hb
    · simp only [finish, bind, Except.bind] at h
      split at h
      · next he =>
        split at he
        · cases he; cases h; exact .inl rfl
        · cases he
      · cases h

/-- Both kinds are there: a cut message, and a text that the validation refuses. -/
example : receive plainCfg .response [[0xCA, 0x11, 2, 1, 0x70, 0x58, 2, 0x38, 5]] = .error .stream ∧
    receive ⟨fun _ => false, none⟩ .response [[0xCA, 0x11, 2, 1, 0x70, 0x20, 1, 97]] = .error .type := ⟨rfl, rfl⟩

end Frpc
