import Verif.Proofs.PyWeb
/-! # The Python builder on what the XML unmarshaller makes of a document -/
namespace Frpc
namespace Python
open BinUnMarshaller
open Spec (plainWith plainItemsWith plainMembersWith isUtf8)
open Spec.Python (shows showsItems showsMembers Loadable LoadableItems LoadableMembers)
open Spec.XmlRpc (undated calls callsItems callsMembers)

/-- What Python makes of a date-time of a document. -/
def xmlDate (o : Opts) (d : DateTime) : DateTime := newDateTime o.L (undated d)

variable {o : Opts}

mutual
theorem xml_value (hp : Plain o) : ∀ (v : Value), Loadable v → ∀ (pb : PB), Good pb →
    ∃ m, applyEvents (builder o) pb (calls v) = ({ place pb (shows (plainWith (xmlDate o) v)) with memberName := m }, none)
  | .int n, _, pb, _ => by simpa [calls, plainWith, shows] using one (o := o) (pb := pb) (e := .int n) (x := .int n) rfl
  | .bool b, _, pb, _ => by
    simpa [calls, plainWith, shows] using one (o := o) (pb := pb) (e := .bool b) (x := .bool b) (by simp only [build, hp.bool, if_true])
  | .double n, _, pb, _ => by simpa [calls, plainWith, shows] using one (o := o) (pb := pb) (e := .double n) (x := .float n) rfl
  | .null, _, pb, _ => by simpa [calls, plainWith, shows] using one (o := o) (pb := pb) (e := .null) (x := .none) rfl
  | .binary n, _, pb, _ => by simpa [calls, plainWith, shows] using one (o := o) (pb := pb) (e := .binary n) (x := .bytes n) rfl
  | .binaryRef n, _, pb, _ => by
    simpa [calls, plainWith, shows] using one (o := o) (pb := pb) (e := .binary n.flatten) (x := .bytes n.flatten) rfl
  | .dateTime d, _, pb, hg => by
    simpa [calls, plainWith, shows] using one (o := o) (pb := pb) (e := .dateTime (undated d)) (x := .dateTime (xmlDate o d)) (by
      simp only [build, hg.1, Option.isSome_none, Bool.false_eq_true, if_false, makeDate, hp.date, xmlDate])
  | .string s, h, pb, hg => by
    unfold Loadable at h
    simpa [calls, plainWith, shows] using one (o := o) (pb := pb) (e := .string s) (x := .str s) (by
      simp only [build, hg.1, Option.isSome_none, Bool.false_eq_true, if_false, decodes, h, if_true])
  | .stringView s, h, pb, hg => by
    unfold Loadable at h
    simpa [calls, plainWith, shows] using one (o := o) (pb := pb) (e := .string s) (x := .str s) (by
      simp only [build, hg.1, Option.isSome_none, Bool.false_eq_true, if_false, decodes, h, if_true])
  | .secret v, h, pb, hg => by
    unfold Loadable at h
    simpa only [calls, plainWith] using xml_value hp v h pb hg
  | .array vs, h, pb, hg => by
    unfold Loadable at h
    simp only [calls]
    have := container (o := o) (c := .list []) (c' := .list (showsItems (plainItemsWith (xmlDate o) vs))) (eo := .openArray 0) (ec := .closeArray)
      (body := callsItems vs) hg (fun _ => rfl) (fun _ => rfl) (by
        intro t s fs he hf
        simpa using xml_items hp vs h t s [] fs he hf)
    simpa only [plainWith, shows, Cont.val] using this
  | .struct ms, h, pb, hg => by
    unfold Loadable at h
    simp only [calls]
    have := container (o := o) (c := .dict []) (c' := .dict (showsMembers (plainMembersWith (xmlDate o) ms))) (eo := .openStruct 0) (ec := .closeStruct)
      (body := callsMembers ms) hg (fun _ => rfl) (fun _ => rfl) (by
        intro t s fs he hf
        simpa using xml_members hp ms h.2 t s [] fs he hf (by simpa using nodup_keys h.1))
    simpa only [plainWith, shows, Cont.val] using this
theorem xml_items (hp : Plain o) : ∀ (vs : List Value), LoadableItems vs → ∀ (pb : PB) s acc fs, pb.error = none → pb.frames = (s, .list acc) :: fs →
    ∃ m, applyEvents (builder o) pb (callsItems vs) =
      ({ pb with frames := (s, .list (acc ++ showsItems (plainItemsWith (xmlDate o) vs))) :: fs, memberName := m }, none)
  | [], _, pb, s, acc, fs, he, hf => ⟨pb.memberName, by simp [callsItems, applyEvents, plainItemsWith, showsItems, ← hf]⟩
  | v :: vs, h, pb, s, acc, fs, he, hf => by
    unfold LoadableItems at h
    obtain ⟨m, hm⟩ := xml_value hp v h.1 pb ⟨he, by rw [hf]; intro s ms fs h; simp at h⟩
    have hpl : place pb (shows (plainWith (xmlDate o) v)) = { pb with frames := (s, .list (acc ++ [shows (plainWith (xmlDate o) v)])) :: fs } := by
      unfold place; rw [he]; simp only [hf]
    rw [hpl] at hm
    obtain ⟨m2, hm2⟩ := xml_items hp vs h.2 { pb with frames := (s, .list (acc ++ [shows (plainWith (xmlDate o) v)])) :: fs, memberName := m } s _ fs he rfl
    refine ⟨m2, ?_⟩
    simp only [callsItems]
    rw [applyEvents_append, hm]
    simp only
    rw [hm2]
    simp [plainItemsWith, showsItems]
theorem xml_members (hp : Plain o) : ∀ (ms : List (Bytes × Value)), LoadableMembers ms → ∀ (pb : PB) s acc fs, pb.error = none → pb.frames = (s, .dict acc) :: fs →
    (acc.map Prod.fst ++ ms.map (fun m => Key.str m.1)).Nodup →
    ∃ m, applyEvents (builder o) pb (callsMembers ms) =
      ({ pb with frames := (s, .dict (acc ++ showsMembers (plainMembersWith (xmlDate o) ms))) :: fs, memberName := m }, none)
  | [], _, pb, s, acc, fs, he, hf, _ => ⟨pb.memberName, by simp [callsMembers, applyEvents, plainMembersWith, showsMembers, ← hf]⟩
  | (k, v) :: ms, h, pb, s, acc, fs, he, hf, hnd => by
    unfold LoadableMembers at h
    have hk := keyOf_name h.1.1 h.1.2
    obtain ⟨m, hm⟩ := xml_value hp v h.2.1 { pb with memberName := k } ⟨he, by intro s ms fs _; simp only [hk]; rfl⟩
    have hnew : Key.str k ∉ acc.map Prod.fst := by
      intro hmem
      simp only [List.map_cons] at hnd
      have := (List.nodup_append.1 hnd).2.2 _ hmem (.str k) (by simp)
      exact this rfl
    have hpl : place { pb with memberName := k } (shows (plainWith (xmlDate o) v)) =
        { pb with memberName := k, frames := (s, .dict (acc ++ [(.str k, shows (plainWith (xmlDate o) v))])) :: fs } := by
      unfold place
      simp only [he, hf, hk, setItem_new hnew]
    rw [hpl] at hm
    obtain ⟨m2, hm2⟩ := xml_members hp ms h.2.2 { pb with frames := (s, .dict (acc ++ [(.str k, shows (plainWith (xmlDate o) v))])) :: fs, memberName := m } s _ fs he rfl
      (by simpa [List.append_assoc] using hnd)
    refine ⟨m2, ?_⟩
    simp only [callsMembers]
    rw [applyEvents_cons (b' := { pb with memberName := k }) (by simp only [builder, build, he]; rfl), applyEvents_append, hm]
    simp only
    rw [hm2]
    simp [plainMembersWith, showsMembers]
end

/-- The builder after a call in XML. -/
theorem xml_call (hp : Plain o) (name : Bytes) (vs : List Value) (hl : LoadableItems vs) :
    ∃ pb, applyEvents (builder o) init (Spec.XmlRpc.Message.call name vs).calls = (pb, none) ∧ pb.error = none ∧ pb.methodName = some name ∧
      seen pb = .list (showsItems (plainItemsWith (xmlDate o) vs)) := by
  obtain ⟨m, hm⟩ := xml_items hp vs hl { init with methodName := some name, first := false, frames := [(.root, .list [])] } .root [] [] rfl rfl
  refine ⟨{ init with methodName := some name, first := false, memberName := m, frames := [(.root, .list (showsItems (plainItemsWith (xmlDate o) vs)))] }, ?_, rfl, rfl, ?_⟩
  · simp only [Spec.XmlRpc.Message.calls]
    rw [applyEvents_cons (b' := { init with methodName := some name, first := false, frames := [(.root, .list [])] }) rfl, hm]
    rfl
  · simp [seen, collapse, attach, Cont.val, init]

end Python
end Frpc
