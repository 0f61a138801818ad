import Verif.Proofs.Codec
import Verif.Model.TreeBuilder
/-! # Rebuilding the tree from the builder calls -/
namespace Frpc
open BinMarshaller BinUnMarshaller TreeBuilder

/-- Appending members one after another to a struct. -/
def collect (acc ms : List (Bytes × Value)) : List (Bytes × Value) :=
  ms.foldl (fun a m => SMap.append m.1 m.2 a) acc

mutual
/-- The tree the receiver builds. -/
def received (cfg : Cfg) (ver : Version) : Value → Value
  | .stringView s => .string s
  | .binaryRef cs => .binary cs.flatten
  | .secret v => received cfg ver v
  | .dateTime d => .dateTime (cfg.date (receivedDate ver d))
  | .array vs => .array (receivedItems cfg ver vs)
  | .struct ms => .struct (collect [] (receivedMembers cfg ver ms))
  | v => v
/-- Elements. -/
def receivedItems (cfg : Cfg) (ver : Version) : List Value → List Value
  | [] => []
  | v :: vs => received cfg ver v :: receivedItems cfg ver vs
/-- Members as sent (before a struct is made of them). -/
def receivedMembers (cfg : Cfg) (ver : Version) : List (Bytes × Value) → List (Bytes × Value)
  | [] => []
  | (k, v) :: ms => (k, received cfg ver v) :: receivedMembers cfg ver ms
end

theorem applyEvents_one {β} {B : Builder β} {b b' : β} {e : Event} (h : B.build b e = .ok b') :
    applyEvents B b [e] = (b', none) := by simp [applyEvents, h]

theorem applyEvents_cons {β} {B : Builder β} {b b' : β} {e : Event} {es} (h : B.build b e = .ok b') :
    applyEvents B b (e :: es) = applyEvents B b' es := by simp [applyEvents, h]

variable {cfg : Cfg} {ver : Version}

theorem self_name (tb : TB) : ∃ m, (tb, (none : Option Err)) = ({ tb with memberName := m }, none) := ⟨tb.memberName, rfl⟩

/-- Opening, filling and closing a container is placing the finished value. -/
theorem container {tb tb' : TB} {c c' : Cont} {body : List Event} {eo ec : Event}
    (ho : ∀ t, build cfg t eo = openC t c) (hc : ∀ t, build cfg t ec = close t)
    (hb : ∀ (t : TB) s fs, t.frames = (s, c) :: fs → ∃ m, applyEvents (builder cfg) t body =
      ({ t with frames := (s, c') :: fs, memberName := m }, none))
    (hp : place tb c'.val = .ok tb') :
    ∃ m, applyEvents (builder cfg) tb (eo :: (body ++ [ec])) = ({ tb' with memberName := m }, none) := by
  have fin : ∀ t1, openC tb c = .ok t1 → ∀ s fs, t1.frames = (s, c) :: fs →
      (∀ m, ∃ m', close { t1 with frames := (s, c') :: fs, memberName := m } = .ok { tb' with memberName := m' }) →
      ∃ m, applyEvents (builder cfg) tb (eo :: (body ++ [ec])) = ({ tb' with memberName := m }, none) := by
    intro t1 h1 s fs hf hcl
    have e1 : (builder cfg).build tb eo = .ok t1 := by
      change build cfg tb eo = _; rw [ho]; exact h1
    rw [applyEvents_cons e1, applyEvents_append]
    obtain ⟨m, hm⟩ := hb t1 s fs hf
    rw [hm]
    obtain ⟨m', hm'⟩ := hcl m
    refine ⟨m', ?_⟩
    refine applyEvents_one ?_
    change build cfg _ ec = _
    rw [hc]; exact hm'
  unfold place at hp
  cases hfr : tb.frames with
  | nil =>
    rw [hfr] at hp
    simp only at hp
    split at hp
    · rename_i h1
      cases hp
      refine fin _ (by unfold openC; rw [hfr]; simp only [h1, if_true]; rfl) .root [] rfl ?_
      intro m
      exact ⟨m, rfl⟩
    · cases hp
  | cons f fs =>
    obtain ⟨s0, c0⟩ := f
    rw [hfr] at hp
    cases c0 with
    | arr vs =>
      simp only [addTo, bind, Except.bind, pure, Except.pure] at hp
      cases hp
      refine fin _ (by unfold openC; rw [hfr]) .item ((s0, .arr vs) :: fs) rfl ?_
      intro m
      exact ⟨m, rfl⟩
    | str ms =>
      simp only [addTo, SMap.appendChecked, bind, Except.bind, pure, Except.pure] at hp
      by_cases hl : tb.memberName.length > 255
      · simp [hl] at hp
      · simp only [hl, if_false] at hp
        cases hp
        refine fin _ (by unfold openC; rw [hfr]; simp only [hl, if_false]; rfl) (.key tb.memberName) ((s0, .str ms) :: fs) rfl ?_
        intro m
        exact ⟨m, rfl⟩

mutual
theorem build_value : ∀ (v : Value), WireOk cfg.strOk ver v → ∀ tb tb', place tb (received cfg ver v) = .ok tb' →
    ∃ m, applyEvents (builder cfg) tb (evs ver v) = ({ tb' with memberName := m }, none)
  | .int n, _, tb, tb', hp => ⟨tb'.memberName, by simpa [evs, received] using applyEvents_one hp⟩
  | .bool n, _, tb, tb', hp => ⟨tb'.memberName, by simpa [evs, received] using applyEvents_one hp⟩
  | .double n, _, tb, tb', hp => ⟨tb'.memberName, by simpa [evs, received] using applyEvents_one hp⟩
  | .null, _, tb, tb', hp => ⟨tb'.memberName, by simpa [evs, received] using applyEvents_one hp⟩
  | .binary n, _, tb, tb', hp => ⟨tb'.memberName, by simpa [evs, received] using applyEvents_one hp⟩
  | .binaryRef n, _, tb, tb', hp => ⟨tb'.memberName, by
      simp only [received] at hp
      simpa only [evs] using applyEvents_one (B := builder cfg) (e := .binary n.flatten) hp⟩
  | .dateTime d, _, tb, tb', hp => ⟨tb'.memberName, by
      simp only [received] at hp
      simpa only [evs] using applyEvents_one (B := builder cfg) (e := .dateTime (receivedDate ver d)) hp⟩
  | .string s, h, tb, tb', hp => ⟨tb'.memberName, by
      unfold WireOk at h
      simp only [received] at hp
      simp only [evs]
      exact applyEvents_one (B := builder cfg) (e := .string s) (by simp only [builder, build, h.2, if_true]; exact hp)⟩
  | .stringView s, h, tb, tb', hp => ⟨tb'.memberName, by
      unfold WireOk at h
      simp only [received] at hp
      simp only [evs]
      exact applyEvents_one (B := builder cfg) (e := .string s) (by simp only [builder, build, h.2, if_true]; exact hp)⟩
  | .secret v, h, tb, tb', hp => by
      unfold WireOk at h
      simp only [received] at hp
      simpa only [evs] using build_value v h tb tb' hp
  | .array vs, h, tb, tb', hp => by
      unfold WireOk at h
      simp only [received] at hp
      simp only [evs]
      refine container (c := .arr []) (c' := .arr (receivedItems cfg ver vs)) (fun _ => rfl) (fun _ => rfl) ?_ hp
      intro t s fs hf
      simpa using build_items vs h.2 t s [] fs hf
  | .struct ms, h, tb, tb', hp => by
      unfold WireOk at h
      simp only [received] at hp
      simp only [evs]
      refine container (c := .str []) (c' := .str (collect [] (receivedMembers cfg ver ms))) (fun _ => rfl) (fun _ => rfl) ?_ hp
      intro t s fs hf
      exact build_members ms h.2 t s [] fs hf
theorem build_items : ∀ (vs : List Value), WireOkItems cfg.strOk ver vs → ∀ (tb : TB) s acc fs, tb.frames = (s, .arr acc) :: fs →
    ∃ m, applyEvents (builder cfg) tb (evsItems ver vs) =
      ({ tb with frames := (s, .arr (acc ++ receivedItems cfg ver vs)) :: fs, memberName := m }, none)
  | [], _, tb, s, acc, fs, hf => ⟨tb.memberName, by simp [evsItems, applyEvents, receivedItems, ← hf]⟩
  | v :: vs, h, tb, s, acc, fs, hf => by
      unfold WireOkItems at h
      have hp : place tb (received cfg ver v) = .ok { tb with frames := (s, .arr (acc ++ [received cfg ver v])) :: fs } := by
        unfold place; rw [hf]; rfl
      obtain ⟨m, hm⟩ := build_value v h.1 tb _ hp
      obtain ⟨m2, hm2⟩ := build_items vs h.2 { tb with frames := (s, .arr (acc ++ [received cfg ver v])) :: fs, memberName := m } s _ fs rfl
      refine ⟨m2, ?_⟩
      simp only [evsItems]
      rw [applyEvents_append, hm]
      simp only
      rw [hm2]
      simp [receivedItems]
theorem build_members : ∀ (ms : List (Bytes × Value)), WireOkMembers cfg.strOk ver ms → ∀ (tb : TB) s acc fs, tb.frames = (s, .str acc) :: fs →
    ∃ m, applyEvents (builder cfg) tb (evsMembers ver ms) =
      ({ tb with frames := (s, .str (collect acc (receivedMembers cfg ver ms))) :: fs, memberName := m }, none)
  | [], _, tb, s, acc, fs, hf => ⟨tb.memberName, by simp [evsMembers, applyEvents, receivedMembers, collect, ← hf]⟩
  | (k, v) :: ms, h, tb, s, acc, fs, hf => by
      unfold WireOkMembers at h
      have hp : place { tb with memberName := k } (received cfg ver v) =
          .ok { tb with frames := (s, .str (SMap.append k (received cfg ver v) acc)) :: fs, memberName := k } := by
        unfold place
        simp only [hf]
        simp only [addTo, SMap.appendChecked, if_neg (show ¬ k.length > 255 by have := h.1; omega)]
        rfl
      obtain ⟨m, hm⟩ := build_value v h.2.1 _ _ hp
      obtain ⟨m2, hm2⟩ := build_members ms h.2.2 { tb with frames := (s, .str (SMap.append k (received cfg ver v) acc)) :: fs, memberName := m } s _ fs rfl
      refine ⟨m2, ?_⟩
      simp only [evsMembers]
      rw [applyEvents_cons (b' := { tb with memberName := k }) rfl, applyEvents_append, hm]
      simp only
      rw [hm2]
      simp [receivedMembers, collect]
end

end Frpc
