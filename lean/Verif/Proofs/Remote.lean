import Verif.Model.Remote
import Verif.Props.HttpMessages
import Verif.Props.RegistryStream
import Verif.Props.XmlRead
import Verif.Props.Rpc
import Verif.Proofs.Proxy
/-!
# Facts for remote calls in both protocols
-/
namespace Frpc
namespace Remote
open HttpIO HttpOut HttpServer Registry Spec.Registry Spec.XmlRpc
open TreeBuilder (getData TB)
open Spec (Held Small DatesAll plain HeldItems SmallItems DatesAllItems plainItemsWith plainWith StringsAll StringsAllItems)
open BinUnMarshaller (Req)

theorem xml_prefix {β : Type} (env : XmlUnMarshaller.Env) (P : XmlUnMarshaller.Parser) (B : BinUnMarshaller.Builder β) (want : Req) (l' : List Bytes) :
    ∀ (l prev : List Bytes) (u : XmlUnMarshaller.X) (b : β), (XmlUnMarshaller.unMarshallAll env P B want prev u b (l ++ l')).2.2 = none →
      (XmlUnMarshaller.unMarshallAll env P B want prev u b l).2.2 = none
  | [], _, _, _, _ => rfl
  | d :: l, prev, u, b, h => by
    simp only [List.cons_append, XmlUnMarshaller.unMarshallAll] at h ⊢
    generalize XmlUnMarshaller.unMarshall env P B (some want) prev u b d = q at h ⊢
    obtain ⟨u1, b1, e⟩ := q
    cases e with
    | none => exact xml_prefix env P B want l' l _ _ _ h
    | some e => simp at h

/-- The unmarshaller of the kind accepts the bytes in whatever pieces, and what it makes of them satisfies `Q`. -/
structure Decodes (s : Side) (req : Req) (path : Bytes) (k : HttpServer.Kind) (bs : Bytes) (Q : TB → Version → Prop) : Prop where
  feed : ∀ l : List Bytes, (∀ p ∈ l, p ≠ []) → l.flatten <+: bs → Remote.feed s req path k l = none
  finish : ∀ l : List Bytes, (∀ p ∈ l, p ≠ []) → l.flatten = bs → Remote.finish s req path k l = none
  built : ∀ l : List Bytes, (∀ p ∈ l, p ≠ []) → l.flatten = bs → Q (Remote.built s req path k l) (version s req k l)

theorem decodes_binary (s : Side) (req : Req) (path : Bytes) (ds : List Bytes) (G : TB → Prop)
    (h : ∀ ps : List Bytes, ps.flatten = ds.flatten → ∃ tb, receive s.cfg req ps = .ok tb ∧ G tb) :
    Decodes s req path .binary ds.flatten (fun tb v => G tb ∧ v = versionSeen ds.flatten) := by
  obtain ⟨hf, hfin⟩ := HttpServer.receive_ok (cfg := s.cfg) (req := req) (ds := ds) (fun ps hps => (h ps hps).imp (fun _ h => h.1))
  refine ⟨fun l _ => hf l, fun l _ => hfin l, fun l _ hl => ?_⟩
  obtain ⟨tb, t1, t2⟩ := h l hl
  obtain ⟨o, h6⟩ := Registry.receive_ok t1
  refine ⟨?_, ?_⟩
  · show G (BinUnMarshaller.unMarshallAll _ _ _ _ l).2.1
    rw [h6]; exact t2
  · show versionSeen l.flatten = _
    rw [hl]

theorem decodes_xml (s : Side) (req : Req) (path : Bytes) (bs : Bytes) (hbs : bs ≠ []) (Q : TB → Version → Prop)
    (h : ∀ d ds, (d :: ds).flatten = bs → (∀ p ∈ d :: ds, p ≠ []) → ∃ u tb, XmlUnMarshaller.run s.xml s.parser (TreeBuilder.builder s.cfg) req TreeBuilder.init (d :: ds) = (u, tb, none) ∧
      Q tb u.ver) : Decodes s req path .xml bs Q := by
  have h' : ∀ l : List Bytes, (∀ p ∈ l, p ≠ []) → l.flatten = bs → ∃ u tb, xmlDone s req l = (u, tb, none) ∧ Q tb u.ver := by
    intro l hne hl
    cases l with
    | nil => exact absurd hl.symm hbs
    | cons d ds => exact h d ds hl hne
  refine ⟨fun l hne hl => ?_, fun l hne hl => ?_, fun l hne hl => ?_⟩
  · obtain ⟨t, ht⟩ := hl
    show (xmlRead s req l).2.2 = none
    have key : ∀ l : List Bytes, (∀ p ∈ l, p ≠ []) → l.flatten = bs → (xmlRead s req l).2.2 = none := by
      intro l hne hl
      obtain ⟨u, tb, h1, -⟩ := h' l hne hl
      unfold xmlDone XmlUnMarshaller.run at h1
      unfold xmlRead
      generalize XmlUnMarshaller.unMarshallAll s.xml s.parser (TreeBuilder.builder s.cfg) req [] XmlUnMarshaller.init TreeBuilder.init l = q at h1 ⊢
      obtain ⟨u1, b1, e⟩ := q
      cases e with
      | none => rfl
      | some e => simp at h1
    by_cases h0 : t = []
    · exact key l hne (by rw [← ht, h0, List.append_nil])
    · have := key (l ++ [t]) (by
        intro p hp
        rcases List.mem_append.1 hp with hp | hp
        · exact hne p hp
        · rw [List.mem_singleton.1 hp]; exact h0) (by simp [ht])
      exact xml_prefix _ _ _ _ [t] l _ _ _ this
  · obtain ⟨u, tb, h1, -⟩ := h' l hne hl
    show (xmlDone s req l).2.2 = none
    rw [h1]
  · obtain ⟨u, tb, h1, h2⟩ := h' l hne hl
    show Q (xmlDone s req l).2.1 (xmlDone s req l).1.ver
    rw [h1]; exact h2

theorem Decodes.mono {s : Side} {req : Req} {path : Bytes} {k : HttpServer.Kind} {bs : Bytes} {Q Q' : TB → Version → Prop} (h : Decodes s req path k bs Q)
    (hq : ∀ tb v, Q tb v → Q' tb v) : Decodes s req path k bs Q' := ⟨h.feed, h.finish, fun l hne hl => hq _ _ (h.built l hne hl)⟩

/-- The first write of an XML message. -/
theorem xml_firstWrite (dbl : BitVec 64 → Bytes) (ver : Version) (msg : Message) (ws : List Bytes) (h : XmlMarshaller.run dbl ver (XmlMarshaller.ops msg) = (ws, none)) :
    FirstWrite ws := by
  have hm : ∀ v : Version, XmlMarshaller.packMagic v ≠ [] ∧ (XmlMarshaller.packMagic v).length ≤ 64512 := by
    intro v
    unfold XmlMarshaller.packMagic
    split
    · decide +kernel
    · split <;> decide +kernel
  unfold XmlMarshaller.run at h
  split at h
  · cases msg with
    | call name args =>
      simp only [XmlMarshaller.ops, XmlMarshaller.packAll, XmlMarshaller.pack] at h
      by_cases hk : name.length > 255 ∨ name.length = 0
      · rw [if_pos hk] at h; simp at h
      · rw [if_neg hk] at h
        simp only at h
        split at h
        · simp at h
        · next heq =>
          simp only [Prod.mk.injEq] at heq h
          exact ⟨XmlMarshaller.packMagic ver, _, (by rw [← h.1, ← heq.1]; rfl), hm ver⟩
    | response v =>
      simp only [XmlMarshaller.ops, XmlMarshaller.packAll, XmlMarshaller.pack] at h
      split at h
      · simp at h
      · next heq =>
        simp only [Prod.mk.injEq] at heq h
        exact ⟨XmlMarshaller.packMagic ver, _, (by rw [← h.1, ← heq.1]; rfl), hm ver⟩
    | fault c m =>
      simp only [XmlMarshaller.ops, XmlMarshaller.packAll, XmlMarshaller.pack, XmlMarshaller.packFault] at h
      split at h
      · simp at h
      · next heq =>
        split at heq
        · simp at heq
        · next heq2 =>
          split at heq2
          · simp at heq2
          · simp only [Prod.mk.injEq] at heq heq2 h
            exact ⟨XmlMarshaller.packMagic ver, _, (by rw [← h.1, ← heq.1, ← heq2.1]; rfl), hm ver⟩
  · simp at h

theorem firstWrite_ne {ws : List Bytes} (h : FirstWrite ws) : ws.flatten ≠ [] := by
  obtain ⟨d, ds, rfl, hd, -⟩ := h
  simp [hd]

end Remote
end Frpc
