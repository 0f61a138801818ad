import Verif.Proofs.SecretsBuild
import Verif.Props.RoundTrip
import Verif.Props.XmlRead
/-!
# Secret values on the way (C53, C54)

`TreeFeeder_t::feedValueAndGatherSecrets` feeds a value and gives pointers to its secret values; the receiver gives pointers to the constructor
of `ExtTreeBuilder_t`. The pointers of the arguments of a call are those of the single arguments, each behind a slash and the number of its
argument: `callPointers`.
-/
namespace Frpc
open Spec (SecretAt InnerZero Flat HeldItems SmallItems Held Small plainItemsWith plainWith)
open BinMarshaller BinUnMarshaller
open TreeBuilder (Cfg)
open Secrets (Seg XB)

/-- **C54.** Every key is got back from its escaped form, and the escaped form has neither a slash nor a comma. -/
theorem C54_escape (k : Bytes) : Secrets.unescapeSegment (Secrets.escapeSegment k) = .ok k ∧ (asc "/").head! ∉ Secrets.escapeSegment k ∧ (asc ",").head! ∉ Secrets.escapeSegment k :=
  ⟨Secrets.unescape_escape k, Secrets.escape_clean k⟩

example : Secrets.escapeSegment (asc "a/b,c~d~1") = asc "a~1b~2c~0d~01" := by decide

/-- **C54.** So different keys have different escaped forms. -/
theorem C54_escape_injective (k k' : Bytes) (h : Secrets.escapeSegment k = Secrets.escapeSegment k') : k = k' := by
  have := (C54_escape k).1
  rw [h, (C54_escape k').1] at this
  injection this with this
  exact this.symm

/-- **C54.** A tilde that is not followed by 0, 1 or 2 is refused. -/
theorem C54_bad_escape (a b : Bytes) (ha : (126 : UInt8) ∉ a) (hb : ∀ c s, b = c :: s → c ≠ 48 ∧ c ≠ 49 ∧ c ≠ 50) : Secrets.unescapeSegment (a ++ 126 :: b) = .error .other := by
  induction a with
  | nil =>
    cases b with
    | nil => rfl
    | cons c s =>
      obtain ⟨h0, h1, h2⟩ := hb c s rfl
      rw [List.nil_append, Secrets.unescapeSegment]
      · intro s h; injection h with h; exact h0 h
      · intro s h; injection h with h; exact h1 h
      · intro s h; injection h with h; exact h2 h
  | cons c a ih =>
    have hc : c ≠ 126 := by rintro rfl; simp at ha
    rw [List.cons_append, Secrets.unescape_plain hc, ih (fun h => ha (by simp [h]))]
    rfl

example : Secrets.unescapeSegment (asc "ab~3") = .error .other := by decide

/-- The pointers of the arguments of a call, from the argument with number `i` on. -/
def pointersFrom (i : Nat) : List Value → List Bytes
  | [] => []
  | v :: vs => (Secrets.gatherSecrets v).map (fun p => asc "/" ++ dec i ++ p) ++ pointersFrom (i + 1) vs

/-- The pointers of the arguments of a call. -/
def callPointers (args : List Value) : List Bytes := pointersFrom 0 args

/-- A receiver with an `ExtTreeBuilder_t`: unmarshals the pieces and calls `finish`. -/
def receiveExt (cfg : Cfg) (secrets : List Bytes) (req : Req) (ps : List Bytes) : Except Err XB := do
  let b ← Secrets.new secrets
  match unMarshallAll (Secrets.builder cfg) req BinUnMarshaller.init b ps with
  | (_, _, some e) => .error e
  | (o, b, none) => do finish o; return b

namespace Secrets
open XmlBuild (Ok OkItems OkMembers)

mutual
theorem evs_with (ver : Version) : ∀ v, evs ver v = evsWith id (receivedDate ver) v
  | .int _ | .bool _ | .double _ | .null | .string _ | .stringView _ | .binary _ | .binaryRef _ | .dateTime _ => by simp [evs, evsWith]
  | .secret v => by simp only [evs, evsWith, evs_with ver v]
  | .array vs => by simp only [evs, evsWith, evsItems_with ver vs, id]
  | .struct ms => by simp only [evs, evsWith, evsMembers_with ver ms, id]
theorem evsItems_with (ver : Version) : ∀ vs, evsItems ver vs = evsWithItems id (receivedDate ver) vs
  | [] => rfl
  | v :: vs => by simp only [evsItems, evsWithItems, evs_with ver v, evsItems_with ver vs]
theorem evsMembers_with (ver : Version) : ∀ ms, evsMembers ver ms = evsWithMembers id (receivedDate ver) ms
  | [] => rfl
  | (k, v) :: ms => by simp only [evsMembers, evsWithMembers, evs_with ver v, evsMembers_with ver ms]
end

open Spec.XmlRpc (calls callsItems callsMembers undated) in
mutual
theorem calls_with : ∀ v, calls v = evsWith (fun _ => 0) undated v
  | .int _ | .bool _ | .double _ | .null | .string _ | .stringView _ | .binary _ | .binaryRef _ | .dateTime _ => by simp [calls, evsWith]
  | .secret v => by simp only [calls, evsWith, calls_with v]
  | .array vs => by simp only [calls, evsWith, callsItems_with vs]
  | .struct ms => by simp only [calls, evsWith, callsMembers_with ms]
theorem callsItems_with : ∀ vs, callsItems vs = evsWithItems (fun _ => 0) undated vs
  | [] => rfl
  | v :: vs => by simp only [callsItems, evsWithItems, calls_with v, callsItems_with vs]
theorem callsMembers_with : ∀ ms, callsMembers ms = evsWithMembers (fun _ => 0) undated ms
  | [] => rfl
  | (k, v) :: ms => by simp only [callsMembers, evsWithMembers, calls_with v, callsMembers_with ms]
end

mutual
theorem ok_wire {cfg : Cfg} {ver : Version} : ∀ v, WireOk cfg.strOk ver v → Ok cfg v
  | .string _, h | .stringView _, h => by simp only [WireOk] at h; simp only [XmlBuild.Ok]; exact h.2
  | .secret v, h => by simp only [WireOk] at h; simp only [XmlBuild.Ok]; exact ok_wire v h
  | .array vs, h => by simp only [WireOk] at h; simp only [XmlBuild.Ok]; exact ok_wireItems vs h.2
  | .struct ms, h => by simp only [WireOk] at h; simp only [XmlBuild.Ok]; exact ok_wireMembers ms h.2
  | .int _, _ | .bool _, _ | .double _, _ | .null, _ | .binary _, _ | .binaryRef _, _ | .dateTime _, _ => by simp [XmlBuild.Ok]
theorem ok_wireItems {cfg : Cfg} {ver : Version} : ∀ vs, WireOkItems cfg.strOk ver vs → OkItems cfg vs
  | [], _ => by simp [OkItems]
  | v :: vs, h => by simp only [WireOkItems] at h; simp only [OkItems]; exact ⟨ok_wire v h.1, ok_wireItems vs h.2⟩
theorem ok_wireMembers {cfg : Cfg} {ver : Version} : ∀ ms, WireOkMembers cfg.strOk ver ms → OkMembers cfg ms
  | [], _ => by simp [OkMembers]
  | (k, v) :: ms, h => by simp only [WireOkMembers] at h; simp only [OkMembers]; exact ⟨h.1.2, ok_wire v h.2.1, ok_wireMembers ms h.2.2⟩
end

theorem plain_index {i : Nat} (h : i < 2 ^ 32) : Spec.Seg.Plain (.index i) := h

/-- A pointer behind the number of its argument. -/
theorem buildTree_prefix {i : Nat} {p : List Seg} (h : ∀ x ∈ Seg.index i :: p, Spec.Seg.Plain x) (es : Edges) (ps : List Bytes) :
    buildTree es ((asc "/" ++ dec i ++ str p) :: ps) = buildTree es (str (.index i :: p) :: ps) := by
  cases p with
  | nil =>
    have e1 : asc "/" ++ dec i ++ str [] = 47 :: (dec i ++ [47]) := by simp [str, show asc "/" = [47] from rfl]
    have e2 : str [Seg.index i] = 47 :: dec i := by simp [str, Seg.text]
    have hn : dec i ≠ [] := text_ne_nil (h (.index i) (by simp))
    have hs : ∀ (s seg : Bytes), (47 : UInt8) ∉ s → segments seg (s ++ [47]) = [seg ++ s] := by
      intro s
      induction s with
      | nil => intro seg _; simp [segments]
      | cons c s ih =>
        intro seg hh
        have hc : c ≠ 47 := by rintro rfl; simp at hh
        rw [List.cons_append, segments]
        · rw [ih _ (fun hc => hh (by simp [hc]))]; simp
        · rintro h1; exact absurd h1 hc
        · exact fun _ _ h1 => absurd h1 hc
    have e3 : pointerKeys (dec i ++ [47]) = pointerKeys (dec i) := by
      unfold pointerKeys
      rw [if_neg (by simp), if_neg hn, hs _ _ (show (47 : UInt8) ∉ dec i from text_noslash (.index i)), segments_noslash _ _ (show (47 : UInt8) ∉ dec i from text_noslash (.index i))]
    rw [e1, e2]
    simp only [buildTree, e3]
  | cons s p =>
    have : asc "/" ++ dec i ++ str (s :: p) = str (.index i :: s :: p) := by simp [str, Seg.text, show asc "/" = [47] from rfl]
    rw [this]

theorem buildTree_pointers : ∀ (args : List Value) (i : Nat), (∀ p ∈ placesItems i args, ∀ x ∈ p, Spec.Seg.Plain x) → ∀ es ps, buildTree es (pointersFrom i args ++ ps) = buildTree es ((placesItems i args).map str ++ ps)
  | [], _, _, _, _ => rfl
  | v :: vs, i, h, es, ps => by
    simp only [placesItems, List.mem_append] at h
    have one : ∀ (L : List (List Seg)), (∀ p ∈ L, ∀ x ∈ Seg.index i :: p, Spec.Seg.Plain x) → ∀ es ps ps', (∀ es, buildTree es ps = buildTree es ps') →
        buildTree es ((L.map fun p => asc "/" ++ dec i ++ str p) ++ ps) = buildTree es ((L.map fun p => str (.index i :: p)) ++ ps') := by
      intro L
      induction L with
      | nil => intro _ es ps ps' hq; exact hq es
      | cons p L ih =>
        intro hL es ps ps' hq
        rw [List.map_cons, List.cons_append, buildTree_prefix (hL p (by simp)), List.map_cons, List.cons_append]
        have e : str (.index i :: p) = 47 :: (dec i ++ p.flatMap fun s => 47 :: s.text) := by simp [str, Seg.text]
        simp only [e, buildTree]
        cases pointerKeys (dec i ++ p.flatMap fun s => 47 :: s.text) with
        | error _ => rfl
        | ok ks => 
          have := ih (fun q hq => hL q (by simp [hq])) (addPointer ks es) ps ps' hq
          simpa only [bind, Except.bind, e] using this
    simp only [pointersFrom, placesItems, gatherSecrets, gather_places, List.map_append, List.map_map, List.append_assoc]
    exact one (places v) (fun p hp x hx => h (.index i :: p) (.inl (List.mem_map.2 ⟨p, hp, rfl⟩)) x hx) es _ _ (fun es => buildTree_pointers vs (i + 1) (fun p hp => h p (.inr hp)) es ps)

theorem mem_wire {strOk : Bytes → Bool} {ver : Version} : ∀ {ms : List (Bytes × Value)} {k : Bytes} {v : Value}, (k, v) ∈ ms → WireOkMembers strOk ver ms → k ≠ [] ∧ WireOk strOk ver v
  | (k', v') :: ms, k, v, h, hw => by
    simp only [WireOkMembers] at hw
    rcases List.mem_cons.1 h with h | h
    · injection h with h1 h2; subst h1 h2
      refine ⟨?_, hw.2.1⟩
      rintro rfl
      simp at hw
    · exact mem_wire h hw.2.2

theorem get_wire {strOk : Bytes → Bool} {ver : Version} : ∀ {vs : List Value} {i : Nat} {v : Value}, vs[i]? = some v → WireOkItems strOk ver vs → WireOk strOk ver v
  | v :: vs, 0, w, h, hw => by simp only [List.getElem?_cons_zero, Option.some.injEq] at h; subst h; simp only [WireOkItems] at hw; exact hw.1
  | v :: vs, i + 1, w, h, hw => by simp only [List.getElem?_cons_succ] at h; simp only [WireOkItems] at hw; exact get_wire h hw.2

/-- In what can be sent, only long numbers as names are a problem. -/
theorem plain_wire {strOk : Bytes → Bool} {ver : Version} {v : Value} {p : List Seg} (h : SecretAt v p) : WireOk strOk ver v →
    (∀ k, .key k ∈ p → (k.takeWhile isDigit).length ≤ 18) → ∀ x ∈ p, Spec.Seg.Plain x := by
  induction h with
  | here v => intro _ _ x hx; simp at hx
  | inside v p h ih => intro hw hk; simp only [WireOk] at hw; exact ih hw hk
  | item vs i v hi p h ih =>
    intro hw hk x hx
    simp only [WireOk] at hw
    rcases List.mem_cons.1 hx with rfl | hx
    · have := (List.getElem?_eq_some_iff.1 hi).1
      simp only [Spec.Seg.Plain]; omega
    · exact ih (get_wire hi hw.2) (fun k hm => hk k (by simp [hm])) x hx
  | member ms k v hm p h ih =>
    intro hw hk x hx
    simp only [WireOk] at hw
    rcases List.mem_cons.1 hx with rfl | hx
    · exact ⟨(mem_wire hm hw.2).1, hk k (by simp)⟩
    · exact ih (mem_wire hm hw.2).2 (fun k hm => hk k (by simp [hm])) x hx

theorem plain_wireItems {strOk : Bytes → Bool} {ver : Version} {vs : List Value} (hl : vs.length < 2 ^ 32) (hw : WireOkItems strOk ver vs)
    (hk : ∀ p, SecretAt (.array vs) p → ∀ k, .key k ∈ p → (k.takeWhile isDigit).length ≤ 18) : ∀ p, SecretAt (.array vs) p → ∀ x ∈ p, Spec.Seg.Plain x := by
  intro p hp x hx
  obtain ⟨i, v, q, rfl, hi, hs⟩ := secretAt_array.1 hp
  rcases List.mem_cons.1 hx with rfl | hx
  · have := (List.getElem?_eq_some_iff.1 hi).1
    simp only [Spec.Seg.Plain]; omega
  · exact plain_wire hs (get_wire hi hw) (fun k hm => hk _ hp k (by simp [hm])) x hx

/-- The whole call, with any marshalling whose builder calls are `evsWithItems`. -/
theorem rebuilt {cfg : Cfg} {sz : Nat → Nat} {g : DateTime → DateTime} (name : Bytes) (args : List Value) (hok : OkItems cfg args) (hheld : HeldItems args)
    (hplain : ∀ p, SecretAt (.array args) p → ∀ x ∈ p, Spec.Seg.Plain x) :
    ∃ b0 b, Secrets.new (callPointers args) = .ok b0 ∧ applyEvents (Secrets.builder cfg) b0 (.methodCall name :: evsWithItems sz g args) = (b, none) ∧
      ∃ rebuilt, getMethodCall b = .ok (name, rebuilt) ∧ plainItemsWith id rebuilt = plainItemsWith (fun d => cfg.date (g d)) args ∧
        ∀ p, SecretAt (.array rebuilt) p ↔
          SecretAt (.array args) p ∧ (∀ q, q ≠ [] → ¬ SecretAt (.array args) (p ++ q)) ∧ ∀ i, .index i ∈ p → ¬ InnerZero i := by
  have hpl : ∀ p ∈ placesItems 0 args, ∀ x ∈ p, Spec.Seg.Plain x := fun p hp => hplain p ((mem_places (.array args) p).1 (by simpa only [places] using hp))
  have htree : buildTree [] (callPointers args) = .ok (treeOf (keys (placesItems 0 args))) := by
    have := buildTree_pointers args 0 hpl [] []
    rw [List.append_nil, List.append_nil] at this
    rw [callPointers, this, buildTree_places _ hpl]
    rfl
  refine ⟨⟨treeOf (keys (placesItems 0 args)), []⟩, ⟨treeOf (keys (placesItems 0 args)), [⟨.call name (paintItems (fun d => cfg.date (g d)) (some (treeOf (keys (placesItems 0 args)))) 0 args), some (treeOf (keys (placesItems 0 args)))⟩]⟩,
    by simp only [Secrets.new, htree]; rfl, ?_, paintItems (fun d => cfg.date (g d)) (some (treeOf (keys (placesItems 0 args)))) 0 args, ?_, plain_paintItems _ _ _ _, fun p => ?_⟩
  · rw [applyEvents_cons (b' := ⟨treeOf (keys (placesItems 0 args)), [⟨.call name [], some (treeOf (keys (placesItems 0 args)))⟩]⟩) rfl]
    rw [xb_items args hok hheld _ [] (.call name) (some (treeOf (keys (placesItems 0 args)))) (.inr ⟨_, rfl⟩) [] rfl]
    rfl
  · rfl
  · have hmem : ∀ q, q ∈ placesItems 0 args ↔ SecretAt (.array args) q := fun q => by simpa only [places] using mem_places (.array args) q
    have hk : Kept (placesItems 0 args) p ↔ SecretAt (.array args) p ∧ (∀ q, q ≠ [] → ¬ SecretAt (.array args) (p ++ q)) ∧ ∀ i, .index i ∈ p → ¬ InnerZero i := by
      simp only [Kept, hmem]
    rw [← hk]
    have hheads : ∀ p ∈ placesItems 0 args, ∀ s q, p = s :: q → ∃ j, s = .index j := by
      rintro p hp s q rfl
      obtain ⟨j, v, q', -, h, -⟩ := (mem_placesItems args 0 _).1 hp
      injection h with h _
      exact ⟨_, h⟩
    have hmarks := paintItems_marks (fun d => cfg.date (g d)) args hheld (placesItems 0 args) 0 (fun i v hi => by simpa using below_items args 0 i v hi) hpl hheads
    rw [secretAt_array]
    constructor
    · rintro ⟨i, w, q, rfl, hi, hs⟩
      simpa using (hmarks i w hi q).1 hs
    · intro hk
      obtain ⟨i, v, q, hq, hp, hs⟩ := (mem_placesItems args 0 p).1 hk.1
      refine ⟨i, paint (fun d => cfg.date (g d)) ((some (treeOf (keys (placesItems 0 args)))).bind (findIndex (0 + i))) v, q, by simpa using hp, ?_, ?_⟩
      · rw [items_get, hq]; rfl
      · refine (hmarks i _ (by rw [items_get, hq]; rfl) q).2 ?_
        have hp' : p = .index i :: q := by simpa using hp
        simpa [← hp'] using hk

end Secrets

/-- **C53 (exactly which marks survive, binary).** Of every call the binary marshaller accepts, whose secrets are not inside members with more
than 18 digits at the beginning of their names, the name and the values arrive however the bytes are divided, and a value is secret in the
rebuilt arguments if and only if it was secret, nothing inside it was secret too, and no index on the way to it has a 0 behind its first digit. -/
theorem C53_marks (cfg : Cfg) (ver : Version) (hv : ver.Known) (h2 : 2 ≤ ver.major) (name : Bytes) (args : List Value) (hheld : HeldItems args) (hsmall : SmallItems args)
    (hcount : args.length < 2 ^ 32) (hdigits : ∀ p, SecretAt (.array args) p → ∀ k, .key k ∈ p → (k.takeWhile isDigit).length ≤ 18) (ws : List Bytes)
    (hsent : sendCall cfg.strOk ver name args = (ws, none)) (ps : List Bytes) (hps : ps.flatten = ws.flatten) :
    ∃ b rebuilt, receiveExt cfg (callPointers args) .call ps = .ok b ∧ Secrets.getMethodCall b = .ok (name, rebuilt) ∧
      plainItemsWith id rebuilt = plainItemsWith (fun d => cfg.date (receivedDate ver d)) args ∧
      ∀ p, SecretAt (.array rebuilt) p ↔
        SecretAt (.array args) p ∧ (∀ q, q ≠ [] → ¬ SecretAt (.array args) (p ++ q)) ∧ ∀ i, .index i ∈ p → ¬ InnerZero i := by
  have hrun : (BinMarshaller.run cfg.strOk ver (.packMethodCall name :: feedItems args)).2 = none := by
    have : (sendCall cfg.strOk ver name args).2 = none := by rw [hsent]
    exact this
  have hacc := run_one_none _ _ hrun
  have hw := acceptedItems h2 args hheld hsmall hacc.2
  have hname : 1 ≤ name.length ∧ name.length ≤ 255 := by
    have h2 := hacc.1
    simp only [pack] at h2
    by_cases hk : (decide (name.length > 255) || name.length == 0) = true
    · rw [if_pos hk] at h2; simp at h2
    · simp only [Bool.or_eq_true, decide_eq_true_eq, beq_iff_eq, not_or] at hk
      omega
  obtain ⟨wa, hr, hd⟩ := codecTop (req := .call) (stop := false) hv 0 args hw
  have hp : pack cfg.strOk ver (.packMethodCall name) =
      ([packMagic ver, [dataType T_CALL 0], [UInt8.ofNat name.length], name], none) := by
    have hc : (decide (name.length > 255) || name.length == 0) = false := by
      rw [Bool.or_eq_false_iff]; exact ⟨decide_eq_false (by omega), beq_eq_false_iff_ne.2 (by omega)⟩
    simp only [pack, hc]; rfl
  unfold sendCall at hsent
  rw [run_cons _ _ _ _ _ hp, hr] at hsent
  simp only [Prod.mk.injEq, and_true] at hsent
  subst hsent
  have s1 := dec_call (req := .call) (stop := false) hv (.inl rfl) name wa.flatten hname.1 hname.2
  have s2 := hd []
  rw [List.append_nil] at s2
  have s3 := s1.trans s2
  obtain ⟨b0, b, h0, ha, rebuilt, h3⟩ := Secrets.rebuilt (cfg := cfg) (sz := id) (g := receivedDate ver) name args (Secrets.ok_wireItems args hw) hheld (Secrets.plain_wireItems hcount hw hdigits)
  rw [← Secrets.evsItems_with, ← List.singleton_append] at ha
  have h := s3.all (by simp [top]) ha ps (by rw [hps]; simp)
  refine ⟨b, rebuilt, ?_, h3⟩
  unfold receiveExt
  rw [h0]
  simp only [bind, Except.bind, h]
  rfl

/-- **C53 (XML).** The same with the XML marshaller and the XML unmarshaller, with any conforming parser and whatever the pieces. -/
theorem C53_marks_xml (P : Spec.Xml.Parser) (hP : Spec.Xml.Conforms P) (env : XmlUnMarshaller.Env) (cfg : Cfg) (dbl : BitVec 64 → Bytes) (ver : Version)
    (hv : XmlMarshaller.accepts ver = true) (name : Bytes) (args : List Value) (hheld : HeldItems args) (hsmall : SmallItems args)
    (hleaves : (Spec.XmlRpc.Message.call name args).Leaves (xmlNeed ver env dbl)) (hstr : Spec.StringsAllItems (fun s => cfg.strOk s = true) args)
    (hplain : ∀ p, SecretAt (.array args) p → ∀ x ∈ p, Spec.Seg.Plain x) :
    ∃ ws, XmlMarshaller.run dbl ver (XmlMarshaller.ops (.call name args)) = (ws, none) ∧ ∀ d ds, (d :: ds).flatten = ws.flatten → (∀ p ∈ d :: ds, p ≠ []) →
      ∃ b0 u b rebuilt, Secrets.new (callPointers args) = .ok b0 ∧ XmlUnMarshaller.run env P (Secrets.builder cfg) .call b0 (d :: ds) = (u, b, none) ∧ Secrets.getMethodCall b = .ok (name, rebuilt) ∧
        plainItemsWith id rebuilt = plainItemsWith (fun t => cfg.date (Spec.XmlRpc.undated t)) args ∧
        ∀ p, SecretAt (.array rebuilt) p ↔
          SecretAt (.array args) p ∧ (∀ q, q ≠ [] → ¬ SecretAt (.array args) (p ++ q)) ∧ ∀ i, .index i ∈ p → ¬ InnerZero i := by
  obtain ⟨b0, b, h0, ha, rebuilt, h3⟩ := Secrets.rebuilt (cfg := cfg) (sz := fun _ => 0) (g := Spec.XmlRpc.undated) name args (XmlMarshaller.ok_of_items args hleaves.2.2 hstr) hheld hplain
  rw [← Secrets.callsItems_with] at ha
  obtain ⟨ws, h1, h2⟩ := XmlMarshaller.own_run (req := .call) (msg := .call name args) hP (.inl rfl) hv hsmall hleaves (XmlMarshaller.ints_of_items (N := xmlNeed ver env dbl) (fun n h => h.2) args hleaves.2.2) ha
  refine ⟨ws, h1, fun d ds hds hne => ?_⟩
  obtain ⟨u, h4, -⟩ := h2 d ds hds hne
  exact ⟨b0, u, b, rebuilt, h0, h4, h3⟩
/-- Two secrets: an element of an argument, and a member with a slash in its name. -/
def sampleArgs : List Value :=
  [.array [.int 1, .secret (.stringView (asc "pw"))], .struct [(asc "a/b", .secret (.array [.null])), (asc "c", .bool true)]]

example : callPointers sampleArgs = [asc "/0/1", asc "/1/a~1b"] := by decide +kernel
example : (sendCall plainCfg.strOk ⟨2, 1⟩ (asc "login") sampleArgs).2 = none := by rfl
example : HeldItems sampleArgs ∧ SmallItems sampleArgs := by
  simp only [sampleArgs, HeldItems, Held, Spec.HeldMembers, SmallItems, Small, Spec.SmallMembers, asc]; decide
theorem sampleArgs_marks (p : List Seg) : SecretAt (.array sampleArgs) p ↔ p = [.index 0, .index 1] ∨ p = [.index 1, .key (asc "a/b")] := by
  rw [← Secrets.mem_places]
  have : Secrets.places (.array sampleArgs) = [[.index 0, .index 1], [.index 1, .key (asc "a/b")]] := by rfl
  simp [this]
example : ∀ p, SecretAt (.array sampleArgs) p → ∀ k, .key k ∈ p → (k.takeWhile isDigit).length ≤ 18 := by
  intro p hp k hk
  rcases (sampleArgs_marks p).1 hp with rfl | rfl
  · simp at hk
  · simp only [List.mem_cons, reduceCtorEq, List.not_mem_nil, or_false, false_or, Seg.key.injEq] at hk
    subst hk; decide

/-- **C53, `_partial`: if no secret is inside a secret and no index on the way to one has a 0 behind its first digit.** Then exactly the values
that were secret are secret in the rebuilt arguments, and the values are the same. (The property asks for it for all trees, see the
violations below.) -/
theorem C53_secrets_partial (cfg : Cfg) (ver : Version) (hv : ver.Known) (h2 : 2 ≤ ver.major) (name : Bytes) (args : List Value) (hheld : HeldItems args) (hsmall : SmallItems args)
    (hcount : args.length < 2 ^ 32) (hdigits : ∀ p, SecretAt (.array args) p → ∀ k, .key k ∈ p → (k.takeWhile isDigit).length ≤ 18)
    (hflat : Flat (.array args)) (hzero : ∀ p, SecretAt (.array args) p → ∀ i, .index i ∈ p → ¬ InnerZero i) (ws : List Bytes)
    (hsent : sendCall cfg.strOk ver name args = (ws, none)) (ps : List Bytes) (hps : ps.flatten = ws.flatten) :
    ∃ b rebuilt, receiveExt cfg (callPointers args) .call ps = .ok b ∧ Secrets.getMethodCall b = .ok (name, rebuilt) ∧
      plainItemsWith id rebuilt = plainItemsWith (fun d => cfg.date (receivedDate ver d)) args ∧
      ∀ p, SecretAt (.array rebuilt) p ↔ SecretAt (.array args) p := by
  obtain ⟨b, rebuilt, h1, h3, h4, h5⟩ := C53_marks cfg ver hv h2 name args hheld hsmall hcount hdigits ws hsent ps hps
  refine ⟨b, rebuilt, h1, h3, h4, fun p => (h5 p).trans ⟨And.left, fun h => ⟨h, fun q hq hn => hq (hflat p q h hn), hzero p h⟩⟩⟩

example : Flat (.array sampleArgs) := by
  intro p q hp hq
  rcases (sampleArgs_marks p).1 hp with rfl | rfl <;> rcases (sampleArgs_marks _).1 hq with h | h <;> simp_all
example : ∀ p, SecretAt (.array sampleArgs) p → ∀ i, .index i ∈ p → ¬ InnerZero i := by
  intro p hp i hi
  rcases (sampleArgs_marks p).1 hp with rfl | rfl
  · simp only [List.mem_cons, Seg.index.injEq, List.not_mem_nil, or_false] at hi
    rcases hi with rfl | rfl
    · exact (by decide +kernel : ¬ (48 : UInt8) ∈ (dec 0).tail)
    · exact (by decide +kernel : ¬ (48 : UInt8) ∈ (dec 1).tail)
  · simp only [List.mem_cons, Seg.index.injEq, reduceCtorEq, List.not_mem_nil, or_false] at hi
    subst hi; exact (by decide +kernel : ¬ (48 : UInt8) ∈ (dec 1).tail)

/-- **C53.** Nothing becomes secret that was not. -/
theorem C53_never_more (cfg : Cfg) (ver : Version) (hv : ver.Known) (h2 : 2 ≤ ver.major) (name : Bytes) (args : List Value) (hheld : HeldItems args) (hsmall : SmallItems args)
    (hcount : args.length < 2 ^ 32) (hdigits : ∀ p, SecretAt (.array args) p → ∀ k, .key k ∈ p → (k.takeWhile isDigit).length ≤ 18) (ws : List Bytes)
    (hsent : sendCall cfg.strOk ver name args = (ws, none)) (ps : List Bytes) (hps : ps.flatten = ws.flatten) :
    ∃ b rebuilt, receiveExt cfg (callPointers args) .call ps = .ok b ∧ Secrets.getMethodCall b = .ok (name, rebuilt) ∧
      ∀ p, SecretAt (.array rebuilt) p → SecretAt (.array args) p := by
  obtain ⟨b, rebuilt, h1, h3, h4, h5⟩ := C53_marks cfg ver hv h2 name args hheld hsmall hcount hdigits ws hsent ps hps
  exact ⟨b, rebuilt, h1, h3, fun p h => ((h5 p).1 h).1⟩

/-- A struct that is secret, with a secret member. -/
def nestedArgs : List Value := [.secret (.struct [(asc "a", .int 1), (asc "b", .secret (.int 2))])]

/-- **C53 is false for a secret inside a secret:** the outer mark is lost, and so the other members are no longer hidden. -/
theorem C53_nested_violated : ∃ ws b, sendCall plainCfg.strOk ⟨2, 1⟩ (asc "m") nestedArgs = (ws, none) ∧ receiveExt plainCfg (callPointers nestedArgs) .call ws = .ok b ∧
    SecretAt (.array nestedArgs) [.index 0] ∧
    Secrets.getMethodCall b = .ok (asc "m", [.struct [(asc "a", .int 1), (asc "b", .secret (.int 2))]]) := by
  rw [show callPointers nestedArgs = [asc "/0/", asc "/0/b"] by decide +kernel]
  exact ⟨_, ⟨_, _⟩, rfl, rfl, .item _ 0 _ rfl _ (.here _), rfl⟩

/-- **C53 is false for the element with index 10:** its mark is lost. -/
theorem C53_index_violated : ∃ args ws b rebuilt, sendCall plainCfg.strOk ⟨2, 1⟩ (asc "m") args = (ws, none) ∧ receiveExt plainCfg (callPointers args) .call ws = .ok b ∧
    Secrets.getMethodCall b = .ok (asc "m", rebuilt) ∧ SecretAt (.array args) [.index 10] ∧ ∀ p, ¬ SecretAt (.array rebuilt) p := by
  have hp : callPointers (List.replicate 10 .null ++ [.secret (.string (asc "pw"))]) = [asc "/10/"] := by decide +kernel
  refine ⟨List.replicate 10 .null ++ [.secret (.string (asc "pw"))], _, ⟨_, _⟩, List.replicate 10 .null ++ [.string (asc "pw")], rfl, by rw [hp]; rfl, rfl, .item _ 10 _ rfl _ (.here _), fun p h => ?_⟩
  have := (Secrets.mem_places _ _).2 h
  have e : Secrets.places (.array (List.replicate 10 .null ++ [.string (asc "pw")])) = [] := by rfl
  rw [e] at this
  simp at this

/-- **C53 is false for responses:** whatever pointers are given, no value of a rebuilt response is secret. -/
theorem C53_response_violated (cfg : Cfg) (ver : Version) (hv : ver.Known) (h2 : 2 ≤ ver.major) (v : Value) (hheld : Held v) (hsmall : Small v)
    (secrets : List Bytes) (hnew : ∃ b0, Secrets.new secrets = .ok b0) (ws : List Bytes)
    (hsent : sendResponse cfg.strOk ver v = (ws, none)) (ps : List Bytes) (hps : ps.flatten = ws.flatten) :
    ∃ b r, receiveExt cfg secrets .response ps = .ok b ∧ Secrets.getMethodResponse b = .ok (some r) ∧
      plainWith id r = plainWith (fun d => cfg.date (receivedDate ver d)) v ∧ ∀ p, ¬ SecretAt r p := by
  have hacc : (BinMarshaller.run cfg.strOk ver (feed v)).2 = none := by
    have : (sendResponse cfg.strOk ver v).2 = none := by rw [hsent]
    exact (run_one_none _ _ this).2
  have hw := accepted h2 v hheld hsmall hacc
  obtain ⟨wv, hr, hd⟩ := codec (req := .response) (stop := false) hv v hw
  obtain ⟨b0, h0⟩ := hnew
  have hpath : b0.path = [] := by
    simp only [Secrets.new, bind, Except.bind, pure, Except.pure] at h0
    split at h0
    · cases h0
    · injection h0 with h0; subst h0; rfl
  unfold sendResponse at hsent
  rw [run_cons _ _ _ _ _ rfl, hr] at hsent
  simp only [Prod.mk.injEq, and_true] at hsent
  subst hsent
  have s1 := dec_response (stop := false) hv (.inl rfl : Req.response = .response ∨ _) wv.flatten
  have s2 := hd (top ver 0 0) [] (top_ready ver 0)
  rw [List.append_nil, after_top] at s2
  have s3 := s1.trans s2
  have ha : applyEvents (Secrets.builder cfg) b0 ([.methodResponse] ++ (evs ver v ++ (closeUp (top ver 0 0).stack).2)) =
      ({ b0 with path := [⟨.response (some (Secrets.paint (fun d => cfg.date (receivedDate ver d)) none v)), some b0.tree⟩] }, none) := by
    rw [List.singleton_append, applyEvents_cons (b' := { b0 with path := [⟨.response none, some b0.tree⟩] }) (by simp [Secrets.builder, Secrets.build, hpath])]
    rw [show evs ver v ++ (closeUp (top ver 0 0).stack).2 = evs ver v by simp [top, closeUp], Secrets.evs_with]
    exact Secrets.xb_value v (Secrets.ok_wire v hw) hheld _ none _ rfl rfl
  have h := s3.all (by simp [top]) ha ps (by rw [hps]; simp)
  refine ⟨{ b0 with path := [⟨.response (some (Secrets.paint (fun d => cfg.date (receivedDate ver d)) none v)), some b0.tree⟩] }, _, ?_, rfl, Secrets.plain_paint _ _ _, Secrets.paint_none _ v⟩
  unfold receiveExt
  rw [h0]
  simp only [bind, Except.bind, h]
  rfl

example : ∃ b0, Secrets.new (callPointers sampleArgs) = .ok b0 := by
  rw [show callPointers sampleArgs = [asc "/0/1", asc "/1/a~1b"] by decide +kernel]
  exact ⟨_, rfl⟩

/-- **C53:** a secret inside a member whose name begins with 20 digits: the receiver's arithmetic overflows, which C++ leaves undefined. -/
theorem C53_overflow_violated : ∃ ws, sendCall plainCfg.strOk ⟨2, 1⟩ (asc "m") [.struct [(asc "11111111111111111111", .secret .null)]] = (ws, none) ∧
    receiveExt plainCfg (callPointers [.struct [(asc "11111111111111111111", .secret .null)]]) .call ws = .error .ub := by
  rw [show callPointers [.struct [(asc "11111111111111111111", .secret .null)]] = [asc "/0/11111111111111111111"] by decide +kernel]
  exact ⟨_, rfl, rfl⟩

/-- **C53:** pointers that do not begin with a slash are passed over, wherever they are in the list. -/
theorem C53_pointer_ignored (ps : List Bytes) : Secrets.new ps = Secrets.new (ps.filter (fun p => p.head? = some 47)) := by
  have key : ∀ (ps : List Bytes) (es : Secrets.Edges), Secrets.buildTree es ps = Secrets.buildTree es (ps.filter (fun p => p.head? = some 47)) := by
    intro ps
    induction ps with
    | nil => intro es; rfl
    | cons p ps ih =>
      intro es
      by_cases h : p.head? = some 47
      · obtain ⟨q, rfl⟩ : ∃ q, p = 47 :: q := by
          cases p with
          | nil => cases h
          | cons c q => exact ⟨q, by simpa using h⟩
        rw [List.filter_cons_of_pos (by simpa using h)]
        simp only [Secrets.buildTree]
        cases Secrets.pointerKeys q with
        | error e => rfl
        | ok ks => exact ih _
      · rw [List.filter_cons_of_neg (by simpa using h)]
        rw [← ih]
        cases p with
        | nil => rfl
        | cons c p =>
          have hc : c ≠ 47 := by simpa using h
          rw [Secrets.buildTree]
          intro q hq
          cases hq
          exact hc rfl
  unfold Secrets.new
  rw [key]

example : (Secrets.new [asc "x", asc "/a", [], asc "b/"]).toOption.map (·.tree.map (·.1)) = some [asc "a"] := by decide +kernel

/-- **C03 with the extended builder (late faults).** A fault that comes after anything is what is found, and there is no value. -/
theorem C03_late_fault_extended (cfg : TreeBuilder.Cfg) (b b' : Secrets.XB) (code : Int) (msg : Bytes) (h : Secrets.build cfg b (.fault code msg) = .ok b') :
    Secrets.getFault b' = some (code, msg) ∧ Secrets.getMethodResponse b' = .error .other ∧ Secrets.getMethodCall b' = .error .other := by
  simp only [Secrets.build, Except.ok.injEq] at h
  subst h
  exact ⟨rfl, rfl, rfl⟩

/-- **C53:** pointers are refused only if they have a bad escape sequence or overflow: of a pointer without tilde whose keys begin with at most
18 digits nothing throws. -/
theorem C53_pointer_accepted (es : Secrets.Edges) (p : Bytes) (h : (126 : UInt8) ∉ p) (hd : ∀ k ∈ Secrets.segments [] p, (k.takeWhile isDigit).length ≤ 18) (ps : List Bytes) :
    ∃ ks, Secrets.buildTree es ((47 :: p) :: ps) = Secrets.buildTree (Secrets.addPointer ks es) ps := by
  have hseg : ∀ (s seg : Bytes), (126 : UInt8) ∉ seg → (126 : UInt8) ∉ s → ∀ k ∈ Secrets.segments seg s, (126 : UInt8) ∉ k := by
    intro s seg
    fun_induction Secrets.segments seg s <;> intro h1 h2 k hk
    · simp at hk; subst hk; exact h1
    · simp at hk; subst hk; exact h1
    · rename_i ih
      rcases List.mem_cons.1 hk with rfl | hk
      · exact h1
      · exact ih (by simp) (by simp at h2 ⊢; exact h2) k hk
    · rename_i ih
      exact ih (by simp at h2 ⊢; exact ⟨h1, h2.1⟩) (by simp at h2 ⊢; exact h2.2) k hk
  have hkeys : ∀ (ss : List Bytes), (∀ k ∈ ss, (126 : UInt8) ∉ k ∧ (k.takeWhile isDigit).length ≤ 18) → ∃ ks, Secrets.keysOf ss = .ok ks := by
    intro ss
    induction ss with
    | nil => exact fun _ => ⟨[], rfl⟩
    | cons k ss ih =>
      intro h
      obtain ⟨ks, hks⟩ := ih (fun k hk => h k (by simp [hk]))
      obtain ⟨n, hn⟩ := Secrets.toIntAt_some k 0 0 0 (by decide) (by have := (h k (by simp)).2; omega)
      exact ⟨k :: ks, by simp [Secrets.keysOf, Secrets.unescape_same k (h k (by simp)).1, Secrets.toInt, show Secrets.toIntAt 0 0 k = .ok n from hn, hks, bind, Except.bind, pure, Except.pure]⟩
  simp only [Secrets.buildTree, Secrets.pointerKeys]
  split
  · exact ⟨[], rfl⟩
  · obtain ⟨ks, hks⟩ := hkeys _ (fun k hk => ⟨hseg p [] (by simp) h k hk, hd k hk⟩)
    exact ⟨ks, by rw [hks]; rfl⟩
end Frpc
