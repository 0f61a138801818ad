import Verif.Proofs.XmlRefuse
import Verif.Props.IsoDate
import Verif.Props.XmlRead
/-!
# XML that is not understood: C81

`XmlUnMarshaller.run env P B req b ds` is a fresh unmarshaller for messages of type `req` with the builder `B` in state `b`, given the pieces
`ds`, then `finish`; the third part of the result is the error. Where nothing else is said, the parser is any function, conforming or not:
`reported P ds` are the events it reports.
-/
namespace Frpc
open Spec.Xml Spec.XmlRpc BinUnMarshaller XmlMarshaller XmlUnMarshaller
open TreeBuilder (builder getData TB)

namespace Spec.XmlRpc

/-- Root elements, and `fault`, that are not what is wanted. -/
def Unwanted : Req → Bytes → Prop
  | .call, n => n = asc "methodResponse" ∨ n = asc "fault"
  | .response, n => n = asc "methodCall"
  | .fault, n => n = asc "methodCall"
  | .any, _ => False

/-- An integer in text: blanks, a sign or none, digits. -/
def IntText (t : Bytes) (v : Int) : Prop :=
  ∃ ws sg ds, t = ws ++ (sg ++ ds) ∧ (∀ c ∈ ws, isSpace c = true) ∧ ds ≠ [] ∧ (∀ c ∈ ds, isDigit c = true) ∧
    (((sg = [] ∨ sg = asc "+") ∧ v = atoi ds) ∨ (sg = asc "-" ∧ v = -(atoi ds : Int)))

/-- The texts `ts`, put together the content of an element `n`, are among the events. -/
def Says (evs : List Sax) (n : Bytes) (ts : List Bytes) : Prop := .start n :: (ts.map .text ++ [.stop n]) <:+: evs

end Spec.XmlRpc

/-- **C81 (success).** When nothing is thrown, the parser found no error in any piece nor at the end, and the builder got where it is by calls
that all succeeded. -/
theorem C81_success {β : Type} (P : Spec.Xml.Parser) (env : Env) (B : Builder β) (req : Req) (b b' : β) (ds : List Bytes) (u : X)
    (h : XmlUnMarshaller.run env P B req b ds = (u, b', none)) :
    fine P [] ds ∧ (P ds []).2 = false ∧ ∃ calls, applyEvents B b calls = (b', none) := by
  obtain ⟨h1, h2, -⟩ := run_ok h
  obtain ⟨x, h3, -⟩ := run_all h
  refine ⟨h1, h2, ?_⟩
  have := built_all (env := env) (B := B) (want := some req) (reported P ds) XmlUnMarshaller.init b
  rw [h3] at this
  exact this

theorem getValueType_main : getValueType (asc "methodCall") = .call ∧ getValueType (asc "methodResponse") = .response ∧ getValueType (asc "fault") = .fault := by
  decide +kernel

theorem unwanted_type {β : Type} {B : Builder β} {req : Req} {n : Bytes} (hn : Unwanted req n) (u : X) (b : β) :
    ∃ w, setValueType B (some req) n u b = (w, b, some .stream) := by
  obtain ⟨h1, h2, h3⟩ := getValueType_main
  unfold setValueType
  cases req <;> simp only [Unwanted] at hn
  · rcases hn with rfl | rfl
    · rw [h2]; exact ⟨_, rfl⟩
    · rw [h3]; exact ⟨_, rfl⟩
  · subst hn; rw [h1]; exact ⟨_, rfl⟩
  · subst hn; rw [h1]; exact ⟨_, rfl⟩

theorem run_parts {β : Type} {P : Spec.Xml.Parser} {env : Env} {B : Builder β} {req : Req} {b : β} {ds : List Bytes} (h : (XmlUnMarshaller.run env P B req b ds).2.2 = none) :
    XmlUnMarshaller.run env P B req b ds = ((XmlUnMarshaller.run env P B req b ds).1, (XmlUnMarshaller.run env P B req b ds).2.1, none) := by
  generalize XmlUnMarshaller.run env P B req b ds = q at *
  obtain ⟨u, b1, o⟩ := q
  simp only at h
  rw [h]

/-- **C81 (wrong message).** A message of another type than the wanted one is refused. -/
theorem C81_unwanted {β : Type} (P : Spec.Xml.Parser) (env : Env) (B : Builder β) (req : Req) (b : β) (ds : List Bytes) (n : Bytes) (hn : Unwanted req n)
    (hin : .start n ∈ reported P ds) : (XmlUnMarshaller.run env P B req b ds).2.2 ≠ none := by
  intro h
  obtain ⟨x, h3, h4, -⟩ := run_all (run_parts h)
  obtain ⟨a, c, hac⟩ := List.append_of_mem hin
  rw [hac] at h3
  obtain ⟨w, b1, -, -, h5⟩ := start_fine (by rw [h3]; exact h4)
  obtain ⟨w', h6⟩ := unwanted_type (B := B) hn w b1
  rw [h6] at h5
  cases h5

/-- **C81 (wrong message, builder).** When it is the root element, the builder is not called at all. -/
theorem C81_unwanted_root {β : Type} (P : Spec.Xml.Parser) (env : Env) (B : Builder β) (req : Req) (b : β) (ds : List Bytes) (n : Bytes) (hn : Unwanted req n)
    (ts : List Bytes) (r : List Sax) (hin : events P [] ds = ts.map .text ++ .start n :: r) :
    ∃ u e, XmlUnMarshaller.run env P B req b ds = (u, b, some e) := by
  have hstop : ∀ k, (saxAll env B (some req) XmlUnMarshaller.init b ((events P [] ds).take k)).2 = b := by
    intro k
    rw [hin]
    have ht : ∀ ts : List Bytes, saxAll env B (some req) XmlUnMarshaller.init b (ts.map .text) = ({ XmlUnMarshaller.init with buf := ts.flatten }, b) := by
      intro ts
      exact saxAll_texts (env := env) (B := B) (want := some req) (u := XmlUnMarshaller.init) (b := b) rfl ts []
    by_cases hk : k ≤ ts.length
    · rw [List.take_append_of_le_length (by simpa using hk), ← List.map_take, ht]
    · obtain ⟨j, rfl⟩ : ∃ j, k = (ts.map Sax.text).length + (j + 1) := ⟨k - ts.length - 1, by simp; omega⟩
      rw [List.take_length_add_append, saxAll_append, ht]
      simp only [List.take_succ_cons, saxAll]
      obtain ⟨w, h6⟩ := unwanted_type (B := B) hn ({ XmlUnMarshaller.init with buf := ts.flatten }) b
      rw [sax_start rfl]
      simp only [onStart, h6, caught]
      rw [saxAll_sticky (e := .stream) _ _ _ rfl]
  have hno := C81_unwanted P env B req b ds n hn (by unfold reported; rw [hin]; simp)
  obtain ⟨k, hk⟩ := unMarshallAll_prefix (env := env) (B := B) (P := P) (req := req) ds [] XmlUnMarshaller.init b
  unfold XmlUnMarshaller.run at hno ⊢
  generalize hr : unMarshallAll env P B req [] XmlUnMarshaller.init b ds = q at *
  obtain ⟨w, b1, o⟩ := q
  cases o with
  | some e =>
    simp only at hk
    rw [hstop k] at hk
    subst hk
    exact ⟨w, e, rfl⟩
  | none =>
    exfalso
    obtain ⟨-, h2, -, -⟩ := unMarshallAll_ok _ _ _ _ _ _ rfl hr
    rw [hin] at h2
    obtain ⟨w, b1, -, -, h5⟩ := start_fine h2
    obtain ⟨w', h6⟩ := unwanted_type (B := B) hn w b1
    rw [h6] at h5
    cases h5

theorem leaf_said {β : Type} {P : Spec.Xml.Parser} {env : Env} {B : Builder β} {req : Req} {b b' : β} {ds : List Bytes} {u : X}
    (h : XmlUnMarshaller.run env P B req b ds = (u, b', none)) {n : Bytes} {ts : List Bytes} (hs : Says (reported P ds) n ts) (hl : (getValueType n).leaf = true) :
    ∃ w b1, w.ty = getValueType n ∧ (setValueData env B w b1 ts.flatten).2.2 = none := by
  obtain ⟨x, h3, h4, -⟩ := run_all h
  exact leaf_fine hl (by rw [h3]; exact h4) hs

theorem sign_cases (s : Bytes) : ∃ sg, s = sg ++ (sign s).2 ∧ ((sg = asc "-" ∧ (sign s).1 = true) ∨ ((sg = [] ∨ sg = asc "+") ∧ (sign s).1 = false)) := by
  unfold sign
  split
  · exact ⟨[45], rfl, .inl ⟨by decide, rfl⟩⟩
  · exact ⟨[43], rfl, .inr ⟨.inr (by decide), rfl⟩⟩
  · exact ⟨[], rfl, .inr ⟨.inl rfl, rfl⟩⟩

theorem mem_takeWhile_true {p : UInt8 → Bool} {c : UInt8} : ∀ {s : Bytes}, c ∈ s.takeWhile p → p c = true
  | [], h => by cases h
  | d :: s, h => by
    simp only [List.takeWhile_cons] at h
    split at h
    · rcases List.mem_cons.1 h with rfl | h
      · assumption
      · exact mem_takeWhile_true h
    · cases h

/-- What `strtol` takes. -/
theorem strtol_takes {t : Bytes} (h0 : (0 : UInt8) ∉ t) {v : Int} {range : Bool} (h : strtol t = (v, true, range)) :
    t = [] ∨ ∃ w, IntText t w ∧ (range = false → v = w ∧ IsI64 v) ∧ (range = true → v = -2 ^ 63 ∨ v = 2 ^ 63 - 1) := by
  unfold strtol at h
  rw [cstr_eq h0] at h
  simp only at h
  generalize hs : sign (t.dropWhile isSpace) = q at h
  obtain ⟨sg, h1, h2⟩ := sign_cases (t.dropWhile isSpace)
  rw [hs] at h1 h2
  split at h
  · left
    simp only [Prod.mk.injEq] at h
    simpa using h.2.1
  · rename_i hne
    right
    generalize hd : q.2.takeWhile isDigit = dg at h hne
    have hrest : q.2.drop dg.length = [] → q.2 = dg := by
      intro hr
      have e1 := List.takeWhile_append_dropWhile (p := isDigit) (l := q.2)
      have : dg.length ≤ q.2.length := by
        have := congrArg List.length e1
        rw [List.length_append, hd] at this
        omega
      have : q.2.length ≤ dg.length := by simpa using hr
      rw [← e1, hd]
      have : (q.2.dropWhile isDigit).length = 0 := by
        have := congrArg List.length e1
        rw [List.length_append, hd] at this
        omega
      simp [List.eq_nil_of_length_eq_zero this]
    have hint : q.2.drop dg.length = [] → IntText t (if q.1 then -(atoi dg : Int) else atoi dg) := by
      intro hr
      refine ⟨t.takeWhile isSpace, sg, dg, ?_, fun c hc => mem_takeWhile_true hc, hne, fun c hc => mem_takeWhile_true (hd ▸ hc), ?_⟩
      · rw [← hrest hr, ← h1, List.takeWhile_append_dropWhile]
      · rcases h2 with ⟨rfl, h2⟩ | ⟨h3, h2⟩
        · exact .inr ⟨rfl, by simp [h2]⟩
        · exact .inl ⟨h3, by simp [h2]⟩
    generalize (if q.1 then -(atoi dg : Int) else (atoi dg : Int)) = w at *
    refine ⟨w, ?_⟩
    split at h
    · simp only [Prod.mk.injEq] at h
      exact ⟨hint (by simpa using h.2.1), by simp [← h.2.2], fun _ => .inr h.1.symm⟩
    · split at h
      · simp only [Prod.mk.injEq] at h
        exact ⟨hint (by simpa using h.2.1), by simp [← h.2.2], fun _ => .inl h.1.symm⟩
      · simp only [Prod.mk.injEq] at h
        refine ⟨hint (by simpa using h.2.1), fun _ => ⟨h.1.symm, ?_⟩, by simp [← h.2.2]⟩
        unfold IsI64
        omega

/-- **C81 (integers).** An integer is taken only when its text is that of a number of 64 bits. Or empty, see `C81_lenient_violated`. -/
theorem C81_integer {β : Type} (P : Spec.Xml.Parser) (env : Env) (B : Builder β) (req : Req) (b b' : β) (ds : List Bytes) (u : X)
    (h : XmlUnMarshaller.run env P B req b ds = (u, b', none)) (n : Bytes) (hn : n = asc "int" ∨ n = asc "i4" ∨ n = asc "i8") (ts : List Bytes)
    (hs : Says (reported P ds) n ts) (h0 : (0 : UInt8) ∉ ts.flatten) :
    ts.flatten = [] ∨ ∃ v, IntText ts.flatten v ∧ IsI64 v := by
  have ht : getValueType n = .int := by rcases hn with rfl | rfl | rfl <;> decide +kernel
  obtain ⟨w, b1, h1, h2⟩ := leaf_said h hs (by rw [ht]; rfl)
  generalize ts.flatten = t at *
  unfold setValueData at h2
  rw [h1, ht] at h2
  simp only [setInt] at h2
  generalize hq : strtol t = q at h2
  obtain ⟨v, e, r⟩ := q
  cases e with
  | false => cases h2
  | true =>
    simp only at h2
    rcases strtol_takes h0 hq with hz | ⟨y, h3, h4, h5⟩
    · exact .inl hz
    · right
      cases r with
      | false =>
        obtain ⟨rfl, h6⟩ := h4 rfl
        exact ⟨v, h3, h6⟩
      | true =>
        rw [if_pos ⟨h5 rfl, .inl rfl⟩] at h2
        cases h2

/-- **C81 (doubles).** A double is taken only when `strtod` uses all of its text. -/
theorem C81_double {β : Type} (P : Spec.Xml.Parser) (env : Env) (B : Builder β) (req : Req) (b b' : β) (ds : List Bytes) (u : X)
    (h : XmlUnMarshaller.run env P B req b ds = (u, b', none)) (ts : List Bytes) (hs : Says (reported P ds) (asc "double") ts) (h0 : (0 : UInt8) ∉ ts.flatten) :
    (env.strtod ts.flatten).2 = ts.flatten.length := by
  have ht : getValueType (asc "double") = .double := by decide +kernel
  obtain ⟨w, b1, h1, h2⟩ := leaf_said h hs (by rw [ht]; rfl)
  generalize ts.flatten = t at *
  unfold setValueData at h2
  rw [h1, ht] at h2
  simp only [cstr_eq h0] at h2
  by_cases he : (env.strtod t).2 = t.length
  · exact he
  · rw [if_neg he] at h2
    cases h2

/-- **C81 (date-times).** A date-time is taken only when its text has digits for year, month and day. -/
theorem C81_dateTime {β : Type} (P : Spec.Xml.Parser) (env : Env) (B : Builder β) (req : Req) (b b' : β) (ds : List Bytes) (u : X)
    (h : XmlUnMarshaller.run env P B req b ds = (u, b', none)) (ts : List Bytes) (hs : Says (reported P ds) (asc "dateTime.iso8601") ts) :
    (Spec.isoDay ts.flatten).isSome := by
  have ht : getValueType (asc "dateTime.iso8601") = .dateTime := by decide +kernel
  obtain ⟨w, b1, h1, h2⟩ := leaf_said h hs (by rw [ht]; rfl)
  generalize ts.flatten = t at *
  unfold setValueData at h2
  rw [h1, ht] at h2
  simp only at h2
  cases hd : Spec.isoDay t with
  | some _ => rfl
  | none =>
    rw [(C32_iso_total t).1.2 hd] at h2
    cases h2

/-- Elements whose text is a value or a name. -/
def textElements : List Bytes := [asc "int", asc "i4", asc "i8", asc "boolean", asc "double", asc "string", asc "dateTime.iso8601", asc "base64", asc "nil", asc "value",
  asc "name", asc "methodName"]

/-- **C81 (unfinished).** An element with text that is not closed is refused, even when the parser says nothing. -/
theorem C81_unfinished {β : Type} (P : Spec.Xml.Parser) (env : Env) (B : Builder β) (req : Req) (b : β) (ds : List Bytes) (n : Bytes) (hn : n ∈ textElements)
    (a : List Sax) (ts : List Bytes) (hr : reported P ds = a ++ .start n :: ts.map .text) : (XmlUnMarshaller.run env P B req b ds).2.2 ≠ none := by
  intro h
  obtain ⟨x, h3, h4, h5⟩ := run_all (run_parts h)
  have hl : (getValueType n).leaf = true := by
    have : ∀ n ∈ textElements, (getValueType n).leaf = true := by decide +kernel
    exact this n hn
  rw [hr] at h3
  obtain ⟨w, b1, h6, -, h7, -⟩ := leaf_open hl (by rw [h3]; exact h4)
  rw [h3] at h6
  cases h6
  rw [h7] at h5
  rw [h5] at hl
  cases hl

/-- **C81 (builder).** An exception of the builder comes out of the unmarshaller: a stream error as it is, any other as an error without type.
The builder is left as after the calls before. -/
theorem C81_builder {β : Type} (P : Spec.Xml.Parser) (hP : Conforms P) (env : Env) (B : Builder β) (req : Req) (msg : Message) (hreq : asked req msg)
    (doc : Bytes) (root : Node) (hdoc : IsDocument xmlChar doc root) (his : msg.Is (understood env.strtod) root) (hints : msg.IntsAll (readable env.erange))
    (ds : List Bytes) (hds : ds.flatten = doc) (hne : ∀ d ∈ ds, d ≠ []) (hearly : ∀ d, ds.head? = some d → versionEarly d)
    (b b' : β) (e : Err) (hb : applyEvents B b msg.calls = (b', some e)) :
    ∃ u e', XmlUnMarshaller.run env P B req b ds = (u, b', some e') ∧ (e = .stream → e' = .stream) ∧ (e ≠ .stream → e' ≠ .stream) := by
  cases ds with
  | nil =>
    obtain ⟨evs, h1, -⟩ := hdoc
    simp only [List.flatten_nil] at hds
    subst hds
    rw [read_nil] at h1
    cases h1
  | cons d ds =>
    obtain ⟨v, hs⟩ := sniff_early (hearly d rfl) (hne d (by simp))
    obtain ⟨x, h1⟩ := run_failing hP hreq hdoc his hints hds hne hs hb
    refine ⟨x, _, h1, by rintro rfl; rfl, ?_⟩
    intro he
    cases e <;> simp_all [remember]

/-! ## Witnesses -/

/-- A response with the value `inner`. -/
def responseDoc (inner : String) : Bytes :=
  asc ("<methodResponse><params><param><value>" ++ inner ++ "</value></param></params></methodResponse>")

/-- With the eager parser, into a tree. -/
def readOne (req : Req) (ds : List Bytes) : Option Err :=
  (XmlUnMarshaller.run xmlExampleEnv XmlParser.eager (builder ⟨fun _ => true, none⟩) req TreeBuilder.init ds).2.2

/-- A builder that takes no array. -/
def arrayless : Builder Nat := ⟨fun n e => match e with | .openArray _ => .error .type | _ => .ok (n + 1)⟩

example : readOne .response [responseDoc "<int> +12</int>"] = none := by decide +kernel
example : Says (reported XmlParser.eager [responseDoc "<int> +12</int>"]) (asc "int") [asc " ", asc "+", asc "1", asc "2"] := by
  refine ⟨[.start (asc "methodResponse"), .start (asc "params"), .start (asc "param"), .start (asc "value")],
    [.stop (asc "value"), .stop (asc "param"), .stop (asc "params"), .stop (asc "methodResponse")], by decide +kernel⟩
example : IntText (asc " +12") 12 := ⟨asc " ", asc "+", asc "12", by decide, by decide, by decide, by decide, .inl ⟨.inr rfl, by decide⟩⟩
example : readOne .response [responseDoc "<i8>9223372036854775808</i8>"] = some .stream := by decide +kernel
example : readOne .response [responseDoc "<i8>12x</i8>"] = some .stream := by decide +kernel
example : readOne .response [responseDoc "<dateTime.iso8601>2020</dateTime.iso8601>"] = some .stream := by decide +kernel
example : readOne .call [responseDoc "<i8>1</i8>"] = some .stream := by decide +kernel
example : Unwanted .call (asc "methodResponse") := .inl rfl
example : ∃ r, events XmlParser.eager [] [responseDoc "<i8>1</i8>"] = [].map .text ++ .start (asc "methodResponse") :: r := by
  exact ⟨[.start (asc "params"), .start (asc "param"), .start (asc "value"), .start (asc "i8"), .text (asc "1"), .stop (asc "i8"), .stop (asc "value"), .stop (asc "param"), .stop (asc "params"),
    .stop (asc "methodResponse")], by decide +kernel⟩
/-- A parser that does not see that the document ends too early. -/
def sloppy : Spec.Xml.Parser := fun _ d => if d = [] then ([], false) else ([.start (asc "methodCall"), .start (asc "methodName"), .text d], false)
example : reported sloppy [asc "m"] = [.start (asc "methodCall")] ++ .start (asc "methodName") :: [asc "m"].map .text := by decide +kernel
example : (XmlUnMarshaller.run xmlExampleEnv sloppy arrayless .call 0 [asc "m"]).2 = (0, some .stream) := by decide +kernel
example : applyEvents arrayless 0 (Message.response (.array [.int 1])).calls = (1, some .type) := by decide +kernel
example : (XmlUnMarshaller.run xmlExampleEnv XmlParser.eager arrayless .response 0 [responseDoc "<array><data><value><i4>1</i4></value></data></array>"]).2 = (1, some .other) := by
  decide +kernel

/-! ## Where it fails -/

/-- A document, by its events. -/
theorem run_read {β : Type} {P : Spec.Xml.Parser} (hP : Conforms P) {env : Env} {B : Builder β} {req : Req} {doc : Bytes} {evs : List Sax} (hr : Spec.Xml.read xmlChar doc = some evs)
    (he : versionEarly doc) (hd : doc ≠ []) {b b' : β}
    (h : ∀ v, ∃ x, saxAll env B (some req) { XmlUnMarshaller.init with ver := v, check := false } b evs = (x, b') ∧ x.exc = none ∧ x.ty = .none) :
    ∃ u, XmlUnMarshaller.run env P B req b [doc] = (u, b', none) := by
  obtain ⟨v, hs⟩ := sniff_early he hd
  obtain ⟨h3, h4, h5, h6⟩ := hP doc evs hr [doc] (by simp) (by simpa using hd)
  obtain ⟨x, h7, h8, h9⟩ := h v
  rw [← saxAll_canon, ← h5, saxAll_canon] at h7
  exact ⟨x, run_sax h3 h4 h6 hs rfl h7 h8 h9⟩

theorem getValueType_plain : getValueType (asc "params") = .none ∧ getValueType (asc "param") = .none ∧ getValueType (asc "value") = .string ∧ getValueType (asc "boolean") = .bool ∧
    getValueType (asc "int") = .int := by
  decide +kernel

/-- **C81 is violated** by texts that are no values: `true` for a boolean is read as false, an empty integer as 0. -/
theorem C81_lenient_violated (P : Spec.Xml.Parser) (hP : Conforms P) (env : Env) (cfg : TreeBuilder.Cfg) :
    (∃ u tb, XmlUnMarshaller.run env P (builder cfg) .response TreeBuilder.init [responseDoc "<boolean>true</boolean>"] = (u, tb, none) ∧ getData tb = .ok (.bool false)) ∧
    (∃ u tb, XmlUnMarshaller.run env P (builder cfg) .response TreeBuilder.init [responseDoc "<int></int>"] = (u, tb, none) ∧ getData tb = .ok (.int 0)) := by
  constructor
  · obtain ⟨u, h⟩ := run_read (env := env) (B := builder cfg) (req := .response) (b := TreeBuilder.init) (b' := { TreeBuilder.init with ret := some (.bool false), first := false }) hP
      (doc := responseDoc "<boolean>true</boolean>")
      (evs := [.start (asc "methodResponse"), .start (asc "params"), .start (asc "param"), .start (asc "value"), .start (asc "boolean"), .text [116], .text [114], .text [117],
        .text [101], .stop (asc "boolean"), .stop (asc "value"), .stop (asc "param"), .stop (asc "params"), .stop (asc "methodResponse")])
      (by decide +kernel) (by unfold versionEarly; decide +kernel) (by decide +kernel) (fun v => by
        obtain ⟨-, g1, -⟩ := getValueType_main
        obtain ⟨g2, g3, g4, g5, g6⟩ := getValueType_plain
        simp [saxAll, sax, onStart, onStop, caught, setValueType, beginResponse, setValueData, setInt, callNone, closeEntity, wanted, call, builder, TreeBuilder.build, XmlUnMarshaller.init, TreeBuilder.place, TreeBuilder.init, show strtol [] = (0, true, false) by decide, g1, g2, g3, g4, g5, g6])
    exact ⟨u, _, h, rfl⟩
  · obtain ⟨u, h⟩ := run_read (env := env) (B := builder cfg) (req := .response) (b := TreeBuilder.init) (b' := { TreeBuilder.init with ret := some (.int 0), first := false }) hP
      (doc := responseDoc "<int></int>")
      (evs := [.start (asc "methodResponse"), .start (asc "params"), .start (asc "param"), .start (asc "value"), .start (asc "int"), .stop (asc "int"), .stop (asc "value"), .stop (asc "param"),
        .stop (asc "params"), .stop (asc "methodResponse")])
      (by decide +kernel) (by unfold versionEarly; decide +kernel) (by decide +kernel) (fun v => by
        obtain ⟨-, g1, -⟩ := getValueType_main
        obtain ⟨g2, g3, g4, g5, g6⟩ := getValueType_plain
        simp [saxAll, sax, onStart, onStop, caught, setValueType, beginResponse, setValueData, setInt, callNone, closeEntity, wanted, call, builder, TreeBuilder.build, XmlUnMarshaller.init, TreeBuilder.place, TreeBuilder.init, show strtol [] = (0, true, false) by decide, g1, g2, g3, g4, g5, g6])
    exact ⟨u, _, h, rfl⟩

/-- **C81 is violated** by documents that are no message at all: nothing is thrown, the builder is not called. -/
theorem C81_stranger_violated {β : Type} (P : Spec.Xml.Parser) (hP : Conforms P) (env : Env) (B : Builder β) (req : Req) (b : β) :
    ∃ u, XmlUnMarshaller.run env P B req b [asc "<html><body>404</body></html>"] = (u, b, none) :=
  run_read hP (evs := [.start (asc "html"), .start (asc "body"), .text (asc "4"), .text (asc "0"), .text (asc "4"), .stop (asc "body"), .stop (asc "html")])
    (by decide +kernel) (by unfold versionEarly; decide +kernel) (by decide +kernel) (fun v => ⟨_, rfl, rfl, rfl⟩)

/-- **A fault is refused where a fault is wanted**: its root element is `methodResponse`. -/
theorem C81_fault_violated {β : Type} (P : Spec.Xml.Parser) (env : Env) (B : Builder β) (b : β) (ds : List Bytes) (hin : .start (asc "methodResponse") ∈ reported P ds) :
    (XmlUnMarshaller.run env P B .fault b ds).2.2 ≠ none := by
  intro h
  obtain ⟨x, h3, h4, -⟩ := run_all (run_parts h)
  obtain ⟨a, c, hac⟩ := List.append_of_mem hin
  rw [hac] at h3
  obtain ⟨w, b1, -, -, h5⟩ := start_fine (by rw [h3]; exact h4)
  unfold setValueType at h5
  rw [getValueType_main.2.1] at h5
  cases h5

end Frpc
