import Verif.Spec.XmlRpc
import Verif.Proofs.Message
/-! # The tree from the builder calls of the XML reader -/
namespace Frpc
namespace XmlBuild
open BinUnMarshaller TreeBuilder Spec.XmlRpc
open Spec (Held HeldItems HeldMembers plainWith plainItemsWith plainMembersWith StringsAll StringsAllItems StringsAllMembers)

mutual
/-- The tree that is built. -/
def made (cfg : Cfg) : Value → Value
  | .stringView s => .string s
  | .binaryRef cs => .binary cs.flatten
  | .secret v => made cfg v
  | .dateTime d => .dateTime (cfg.date (undated d))
  | .array vs => .array (madeItems cfg vs)
  | .struct ms => .struct (collect [] (madeMembers cfg ms))
  | v => v
/-- Elements. -/
def madeItems (cfg : Cfg) : List Value → List Value
  | [] => []
  | v :: vs => made cfg v :: madeItems cfg vs
/-- Members as told. -/
def madeMembers (cfg : Cfg) : List (Bytes × Value) → List (Bytes × Value)
  | [] => []
  | (k, v) :: ms => (k, made cfg v) :: madeMembers cfg ms
end

variable {cfg : Cfg}

mutual
/-- The receiver accepts the strings; names fit. -/
def Ok (cfg : Cfg) : Value → Prop
  | .string s | .stringView s => cfg.strOk s = true
  | .secret v => Ok cfg v
  | .array vs => OkItems cfg vs
  | .struct ms => OkMembers cfg ms
  | _ => True
/-- Elements. -/
def OkItems (cfg : Cfg) : List Value → Prop
  | [] => True
  | v :: vs => Ok cfg v ∧ OkItems cfg vs
/-- Members. -/
def OkMembers (cfg : Cfg) : List (Bytes × Value) → Prop
  | [] => True
  | (k, v) :: ms => k.length ≤ 255 ∧ Ok cfg v ∧ OkMembers cfg ms
end

mutual
theorem build_value : ∀ (v : Value), Ok cfg v → ∀ tb tb', place tb (made cfg v) = .ok tb' →
    ∃ m, applyEvents (builder cfg) tb (calls v) = ({ tb' with memberName := m }, none)
  | .int n, _, tb, tb', hp => ⟨tb'.memberName, by simpa [calls, made] using applyEvents_one hp⟩
  | .bool n, _, tb, tb', hp => ⟨tb'.memberName, by simpa [calls, made] using applyEvents_one hp⟩
  | .double n, _, tb, tb', hp => ⟨tb'.memberName, by simpa [calls, made] using applyEvents_one hp⟩
  | .null, _, tb, tb', hp => ⟨tb'.memberName, by simpa [calls, made] using applyEvents_one hp⟩
  | .binary n, _, tb, tb', hp => ⟨tb'.memberName, by simpa [calls, made] using applyEvents_one hp⟩
  | .binaryRef n, _, tb, tb', hp => ⟨tb'.memberName, by
      simp only [made] at hp
      simpa only [calls] using applyEvents_one (B := builder cfg) (e := .binary n.flatten) hp⟩
  | .dateTime d, _, tb, tb', hp => ⟨tb'.memberName, by
      simp only [made] at hp
      simpa only [calls] using applyEvents_one (B := builder cfg) (e := .dateTime (undated d)) hp⟩
  | .string s, h, tb, tb', hp => ⟨tb'.memberName, by
      unfold Ok at h
      simp only [made] at hp
      simp only [calls]
      exact applyEvents_one (B := builder cfg) (e := .string s) (by simp only [builder, build, h, if_true]; exact hp)⟩
  | .stringView s, h, tb, tb', hp => ⟨tb'.memberName, by
      unfold Ok at h
      simp only [made] at hp
      simp only [calls]
      exact applyEvents_one (B := builder cfg) (e := .string s) (by simp only [builder, build, h, if_true]; exact hp)⟩
  | .secret v, h, tb, tb', hp => by
      unfold Ok at h
      simp only [made] at hp
      simpa only [calls] using build_value v h tb tb' hp
  | .array vs, h, tb, tb', hp => by
      unfold Ok at h
      simp only [made] at hp
      simp only [calls]
      refine container (c := .arr []) (c' := .arr (madeItems cfg vs)) (fun _ => rfl) (fun _ => rfl) ?_ hp
      intro t s fs hf
      simpa using build_items vs h t s [] fs hf
  | .struct ms, h, tb, tb', hp => by
      unfold Ok at h
      simp only [made] at hp
      simp only [calls]
      refine container (c := .str []) (c' := .str (collect [] (madeMembers cfg ms))) (fun _ => rfl) (fun _ => rfl) ?_ hp
      intro t s fs hf
      exact build_members ms h t s [] fs hf
theorem build_items : ∀ (vs : List Value), OkItems cfg vs → ∀ (tb : TB) s acc fs, tb.frames = (s, .arr acc) :: fs →
    ∃ m, applyEvents (builder cfg) tb (callsItems vs) =
      ({ tb with frames := (s, .arr (acc ++ madeItems cfg vs)) :: fs, memberName := m }, none)
  | [], _, tb, s, acc, fs, hf => ⟨tb.memberName, by simp [callsItems, applyEvents, madeItems, ← hf]⟩
  | v :: vs, h, tb, s, acc, fs, hf => by
      unfold OkItems at h
      have hp : place tb (made cfg v) = .ok { tb with frames := (s, .arr (acc ++ [made cfg v])) :: fs } := by
        unfold place; rw [hf]; rfl
      obtain ⟨m, hm⟩ := build_value v h.1 tb _ hp
      obtain ⟨m2, hm2⟩ := build_items vs h.2 { tb with frames := (s, .arr (acc ++ [made cfg v])) :: fs, memberName := m } s _ fs rfl
      refine ⟨m2, ?_⟩
      simp only [callsItems]
      rw [applyEvents_append, hm]
      simp only
      rw [hm2]
      simp [madeItems]
theorem build_members : ∀ (ms : List (Bytes × Value)), OkMembers cfg ms → ∀ (tb : TB) s acc fs, tb.frames = (s, .str acc) :: fs →
    ∃ m, applyEvents (builder cfg) tb (callsMembers ms) =
      ({ tb with frames := (s, .str (collect acc (madeMembers cfg ms))) :: fs, memberName := m }, none)
  | [], _, tb, s, acc, fs, hf => ⟨tb.memberName, by simp [callsMembers, applyEvents, madeMembers, collect, ← hf]⟩
  | (k, v) :: ms, h, tb, s, acc, fs, hf => by
      unfold OkMembers at h
      have hp : place { tb with memberName := k } (made cfg v) =
          .ok { tb with frames := (s, .str (SMap.append k (made cfg v) acc)) :: fs, memberName := k } := by
        unfold place
        simp only [hf]
        simp only [addTo, SMap.appendChecked, if_neg (show ¬ k.length > 255 by have := h.1; omega)]
        rfl
      obtain ⟨m, hm⟩ := build_value v h.2.1 _ _ hp
      obtain ⟨m2, hm2⟩ := build_members ms h.2.2 { tb with frames := (s, .str (SMap.append k (made cfg v) acc)) :: fs, memberName := m } s _ fs rfl
      refine ⟨m2, ?_⟩
      simp only [callsMembers]
      rw [applyEvents_cons (b' := { tb with memberName := k }) rfl, applyEvents_append, hm]
      simp only
      rw [hm2]
      simp [madeMembers, collect]
end

theorem madeMembers_keys (ms : List (Bytes × Value)) : (madeMembers cfg ms).map (·.1) = ms.map (·.1) := by
  induction ms with
  | nil => simp [madeMembers]
  | cons m ms ih => obtain ⟨k, v⟩ := m; simp [madeMembers, ih]

mutual
theorem made_plain : ∀ v, Held v → made cfg v = plainWith (fun d => cfg.date (undated d)) v
  | .int _, _ | .bool _, _ | .double _, _ | .string _, _ | .dateTime _, _ | .binary _, _ | .null, _ | .binaryRef _, _ | .stringView _, _ => by
    simp [made, plainWith]
  | .secret v, h => by
    unfold Held at h; simp only [made, plainWith]; exact made_plain v h
  | .array vs, h => by
    unfold Held at h; simp only [made, plainWith]; rw [made_plainItems vs h]
  | .struct ms, h => by
    unfold Held at h; simp only [made, plainWith]
    rw [collect_sorted _ _ (by rw [List.nil_append]; exact pairwise_keys (madeMembers_keys ms).symm h.1), List.nil_append,
      made_plainMembers ms h.2]
theorem made_plainItems : ∀ vs, HeldItems vs → madeItems cfg vs = plainItemsWith (fun d => cfg.date (undated d)) vs
  | [], _ => by simp [madeItems, plainItemsWith]
  | v :: vs, h => by
    unfold HeldItems at h
    simp only [madeItems, plainItemsWith]
    rw [made_plain v h.1, made_plainItems vs h.2]
theorem made_plainMembers : ∀ ms, HeldMembers ms → madeMembers cfg ms = plainMembersWith (fun d => cfg.date (undated d)) ms
  | [], _ => by simp [madeMembers, plainMembersWith]
  | (k, v) :: vs, h => by
    unfold HeldMembers at h
    simp only [madeMembers, plainMembersWith]
    rw [made_plain v h.1, made_plainMembers vs h.2]
end

end XmlBuild
end Frpc
