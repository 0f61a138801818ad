import Verif.Proofs.XmlParse
/-! # The XML unmarshaller and a conforming parser, chunk by chunk -/
namespace Frpc
namespace XmlUnMarshaller
open Spec.Xml Spec.XmlRpc BinUnMarshaller

variable {β : Type} {env : Env} {B : Builder β} {want : Option Req}

/-- Version and check are as they were. -/
def Same (q : X × β × Option Err) (u : X) : Prop := q.1.ver = u.ver ∧ q.1.check = u.check

theorem same_begin (u : X) (b : β) : Same (beginResponse B u b) u := by
  unfold beginResponse Same
  split
  · split <;> exact ⟨rfl, rfl⟩
  · exact ⟨rfl, rfl⟩

theorem same_callNone (u : X) (b : β) (e : Event) : Same (callNone B u b e) u := by
  unfold callNone Same
  split <;> exact ⟨rfl, rfl⟩

theorem same_type (n : Bytes) (u : X) (b : β) : Same (setValueType B want n u b) u := by
  have hb := same_begin (B := B) u b
  generalize hq : beginResponse B u b = q at hb
  obtain ⟨u1, b1, o⟩ := q
  unfold setValueType
  split
  · rw [hq]
    cases o with
    | some e => exact hb
    | none =>
      simp only
      split
      · exact hb
      · generalize call B b1 (.openStruct 0) = r
        obtain ⟨b2, o2⟩ := r
        cases o2 <;> exact hb
  · rw [hq]
    cases o with
    | some e => exact hb
    | none =>
      simp only
      generalize call B b1 (.openArray 0) = r
      obtain ⟨b2, o2⟩ := r
      cases o2 <;> exact hb
  · split <;> exact ⟨rfl, rfl⟩
  · split <;> exact ⟨rfl, rfl⟩
  · split <;> exact ⟨rfl, rfl⟩
  · rw [hq]
    cases o <;> exact hb

theorem same_int (u : X) (b : β) (s : Bytes) : Same (setInt env B u b s) u := by
  unfold setInt
  split
  · exact ⟨rfl, rfl⟩
  · split
    · exact ⟨rfl, rfl⟩
    · split
      · exact ⟨rfl, rfl⟩
      · exact same_callNone _ _ _

theorem same_data (u : X) (b : β) (s : Bytes) : Same (setValueData env B u b s) u := by
  unfold setValueData
  split
  · split <;> exact ⟨rfl, rfl⟩
  · split
    · exact ⟨rfl, rfl⟩
    · exact same_callNone _ _ _
  · simp only
    split
    · exact same_callNone _ _ _
    · exact ⟨rfl, rfl⟩
  · exact same_int _ _ _
  · split
    · exact ⟨rfl, rfl⟩
    · exact same_callNone _ _ _
  · exact same_callNone _ _ _
  · exact same_callNone _ _ _
  · exact same_callNone _ _ _
  · split
    · exact ⟨rfl, rfl⟩
    · exact same_callNone _ _ _
  · exact ⟨rfl, rfl⟩

theorem same_close (n : Bytes) (u : X) (b : β) : Same (closeEntity B n u b) u := by
  unfold closeEntity
  simp only
  split
  · split
    · split <;> exact ⟨rfl, rfl⟩
    · exact ⟨rfl, rfl⟩
  · split <;> exact ⟨rfl, rfl⟩

theorem same_caught {q : X × β × Option Err} {u : X} (h : Same q u) : (caught q).1.ver = u.ver ∧ (caught q).1.check = u.check := by
  obtain ⟨v, b, o⟩ := q
  cases o <;> exact h

theorem sax_same (u : X) (b : β) (e : Sax) : (sax env B want u b e).1.ver = u.ver ∧ (sax env B want u b e).1.check = u.check := by
  unfold sax
  split
  · exact ⟨rfl, rfl⟩
  · cases e with
    | start n =>
      apply same_caught
      unfold onStart
      have h := same_type (B := B) (want := want) n u b
      generalize setValueType B want n u b = q at h
      obtain ⟨v, b, o⟩ := q
      cases o <;> exact h
    | stop n =>
      apply same_caught
      unfold onStop
      have h := same_data (env := env) (B := B) u b u.buf
      generalize setValueData env B u b u.buf = q at h
      obtain ⟨v, b, o⟩ := q
      cases o with
      | some e => exact h
      | none => exact ⟨(same_close n v b).1.trans h.1, (same_close n v b).2.trans h.2⟩
    | text s => exact ⟨rfl, rfl⟩

theorem saxAll_same : ∀ (evs : List Sax) (u : X) (b : β), (saxAll env B want u b evs).1.ver = u.ver ∧ (saxAll env B want u b evs).1.check = u.check
  | [], _, _ => ⟨rfl, rfl⟩
  | e :: evs, u, b => by
    simp only [saxAll]
    have h1 := sax_same (env := env) (B := B) (want := want) u b e
    have h2 := saxAll_same evs (sax env B want u b e).1 (sax env B want u b e).2
    exact ⟨h2.1.trans h1.1, h2.2.trans h1.2⟩

theorem saxAll_sticky : ∀ (evs : List Sax) (u : X) (b : β) {e : Err}, u.exc = some e → saxAll env B want u b evs = (u, b)
  | [], _, _, _, _ => rfl
  | ev :: evs, u, b, e, h => by
    simp only [saxAll]
    have : sax env B want u b ev = (u, b) := by simp only [sax, h]
    rw [this]
    exact saxAll_sticky evs u b h

theorem saxAll_want : ∀ (evs : List Sax) (u : X) (b : β), (∀ n, Sax.start n ∉ evs) → saxAll env B none u b evs = saxAll env B want u b evs
  | [], _, _, _ => rfl
  | ev :: evs, u, b, h => by
    simp only [saxAll]
    have : sax env B none u b ev = sax env B want u b ev := by
      cases ev with
      | start n => exact absurd List.mem_cons_self (h n)
      | stop n => rfl
      | text s => rfl
    rw [this]
    exact saxAll_want evs _ _ (fun n hn => h n (List.mem_cons_of_mem _ hn))

theorem sniff_off {u : X} (h : u.check = false) (d : Bytes) : sniff d u = (u, none) := by
  unfold sniff
  rw [if_neg (by simp [h])]

theorem sniff_nil (u : X) : sniff [] u = (u, none) := by
  unfold sniff
  rw [if_neg (by simp)]

theorem exc_prefix {u : X} {b : β} {a c : List Sax} (h : (saxAll env B want u b (a ++ c)).1.exc = none) : (saxAll env B want u b a).1.exc = none := by
  rw [saxAll_append] at h
  generalize saxAll env B want u b a = q at h ⊢
  obtain ⟨v, b1⟩ := q
  cases he : v.exc with
  | none => rfl
  | some e => rw [saxAll_sticky _ _ _ he] at h; simp only at h ⊢; rw [he] at h; cases h

theorem unMarshallAll_sax {P : Parser} {req : Req} : ∀ (ds prev : List Bytes) (u : X) (b : β), fine P prev ds → u.check = false →
    (saxAll env B (some req) u b (events P prev ds)).1.exc = none → unMarshallAll env P B req prev u b ds =
      ((saxAll env B (some req) u b (events P prev ds)).1, (saxAll env B (some req) u b (events P prev ds)).2, none)
  | [], prev, u, b, _, _, _ => rfl
  | d :: ds, prev, u, b, hf, hc, he => by
    simp only [events] at he ⊢
    have h1 := exc_prefix he
    rw [saxAll_append] at he ⊢
    unfold unMarshallAll unMarshall
    rw [sniff_off hc]
    simp only [hf.1, h1]
    exact unMarshallAll_sax ds (prev ++ [d]) _ _ hf.2 ((saxAll_same _ _ _).2.trans hc) he

/-- The whole run, when the parser finds no error and the handlers none. -/
theorem run_sax {P : Parser} {req : Req} {d : Bytes} {ds : List Bytes} {u0 x : X} {b b' : β} (hf : fine P [] (d :: ds)) (hl : (P (d :: ds) []).2 = false)
    (hn : ∀ n, Sax.start n ∉ (P (d :: ds) []).1) (hs : sniff d init = (u0, none)) (hc : u0.check = false)
    (h : saxAll env B (some req) u0 b (events P [] (d :: ds) ++ (P (d :: ds) []).1) = (x, b')) (hx : x.exc = none) (ht : x.ty = .none) :
    run env P B req b (d :: ds) = (x, b', none) := by
  have h1 : unMarshallAll env P B req [] init b (d :: ds) = unMarshallAll env P B req [] u0 b (d :: ds) := by
    unfold unMarshallAll unMarshall
    rw [hs, sniff_off hc]
  have he : (saxAll env B (some req) u0 b (events P [] (d :: ds))).1.exc = none := by
    apply exc_prefix (c := (P (d :: ds) []).1)
    rw [h]
    exact hx
  unfold run
  rw [h1, unMarshallAll_sax _ _ _ _ hf hc he]
  simp only [finish, unMarshall, sniff_nil]
  rw [saxAll_want (want := some req) _ _ _ hn, ← saxAll_append, h]
  simp [hl, hx, ht]

theorem findSub_some {pat : Bytes} : ∀ {s : Bytes} {i : Nat}, findSub pat s = some i → ∃ a r, s = a ++ (pat ++ r) ∧ a.length = i
  | [], i, h => by
    simp only [findSub] at h
    split at h
    · rename_i hp
      cases h
      exact ⟨[], [], by simp at hp; simp [hp], rfl⟩
    · cases h
  | c :: s, i, h => by
    simp only [findSub] at h
    split at h
    · rename_i hp
      cases h
      obtain ⟨r, hr⟩ := List.isPrefixOf_iff_prefix.1 hp
      exact ⟨[], r, by simpa using hr.symm, rfl⟩
    · cases hf : findSub pat s with
      | none => rw [hf] at h; cases h
      | some j =>
        rw [hf] at h
        simp only [Option.map_some, Option.some.injEq] at h
        obtain ⟨a, r, rfl, h2⟩ := findSub_some hf
        exact ⟨c :: a, r, rfl, by simp [h2, h]⟩

/-- The mark of the protocol version does not begin late in the first 80 bytes. -/
def versionEarly (d : Bytes) : Prop := ¬ asc "protocolVersion=\"" <:+: (d.take 80).drop 61

theorem sniff_early {d : Bytes} (h : versionEarly d) (hd : d ≠ []) : ∃ v, sniff d init = ({ init with ver := v, check := false }, none) := by
  unfold sniff
  rw [if_pos ⟨hd, rfl⟩]
  simp only
  have hlen : (asc "protocolVersion=\"").length = 17 := by decide +kernel
  cases hf : findSub (asc "protocolVersion=\"") (d.take 80) with
  | none => exact ⟨_, rfl⟩
  | some i =>
    simp only
    split
    · rename_i hi
      obtain ⟨a, r, h1, h2⟩ := findSub_some hf
      have hi2 : i < 61 := by
        apply Classical.byContradiction
        intro hge
        apply h
        rw [h1, List.drop_append_of_le_length (by omega)]
        exact ⟨a.drop 61, r, by simp⟩
      rw [hlen] at hi ⊢
      have hl : (d.take 80).length = min 80 d.length := by simp
      have g : ∀ k, k < 80 → k < d.length → ∃ c, digitAt (d.take 80) k = .ok c := by
        intro k h1 h2
        unfold digitAt
        rw [List.getElem?_eq_getElem (by omega)]
        exact ⟨_, rfl⟩
      obtain ⟨c1, hc1⟩ := g (i + 17) (by omega) (by omega)
      obtain ⟨c2, hc2⟩ := g (i + 17 + 2) (by omega) (by omega)
      rw [hc1, hc2]
      exact ⟨_, rfl⟩
    · exact ⟨_, rfl⟩

theorem read_nil : Spec.Xml.read xmlChar [] = none := by decide +kernel

/-- A document given to a conforming parser in pieces. -/
theorem run_document {P : Parser} (hP : Conforms P) {req : Req} {msg : Message} (hreq : asked req msg) {doc : Bytes} {root : Node} (hdoc : IsDocument xmlChar doc root)
    (his : msg.Is (understood env.strtod) root) (hi : msg.IntsAll (readable env.erange)) {d : Bytes} {ds : List Bytes} (hds : (d :: ds).flatten = doc)
    (hne : ∀ p ∈ d :: ds, p ≠ []) {v : Version} (hs : sniff d init = ({ init with ver := v, check := false }, none)) {b b' : β} (ha : applyEvents B b msg.calls = (b', none)) :
    ∃ x, run env P B req b (d :: ds) = (x, b', none) ∧ x.ver = v := by
  obtain ⟨evs, h1, h2⟩ := hdoc
  obtain ⟨h3, h4, h5, h6⟩ := hP doc evs h1 (d :: ds) hds hne
  obtain ⟨x, h7, h8, h9, h10, h11⟩ := sax_message (x := { init with ver := v, check := false }) hreq his hi rfl rfl ha
  rw [← saxAll_canon, ← h2, ← h5, saxAll_canon] at h7
  exact ⟨x, run_sax h3 h4 h6 hs rfl h7 h8 h9, h10⟩

end XmlUnMarshaller
end Frpc
