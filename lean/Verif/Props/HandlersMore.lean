import Verif.Props.Handlers
/-!
# C150, C151: who is served, the status of structs, and calls in XML through Tornado
-/
namespace Frpc
open Python (Py Key Exn Params Opts dumpsBinary dumpsXml loadsBinary)
open Handlers WebHandlerSpec
open Spec (isUtf8)
open Spec.Python (Proper ProperItems Small SmallItems Each EachItems back backItems Carried CarriedItems)

/-- **C150 (nobody is refused without a reason, partial).** A request of an allowed type by a client that accepts an allowed type, among whatever others, is not refused. Missing: clients of Flask that say nothing
(`C150_silent_violated`), `*/*` and types with parameters (`C150_any_violated`). -/
theorem C150_served_partial (lib : Lib) (A : App) (uwsgi : Option (Request → Option Bytes)) (allowed : List Bytes) (ms : Methods) (r : Request) {t ct : Bytes} (ht : t ∈ bothTypes) (hct : r.contentType = some ct) :
    (t ∈ allowed → ct ∈ allowed → Accepts r t → ∀ s, (aiohttp lib A allowed ms r).answer ≠ .refused s) ∧
    (t ∈ allowed → ct ∈ allowed → (∃ a, r.accept = some a ∧ Listed a t) → ∀ s, (flask lib A uwsgi allowed ms r).answer ≠ .refused s) ∧
    (ct ∈ bothTypes → (∃ a, r.accept = some a ∧ Listed a t) ∨ (r.accept = none ∧ ct = t) → ∀ s, (tornado lib A ms r).answer ≠ .refused s) := by
  have hT : IsType t := by
    simp only [bothTypes, List.mem_cons, List.not_mem_nil, or_false] at ht
    rcases ht with rfl | rfl
    · exact frpc_isType
    · exact xml_isType
  have hr : ∀ u c p s, respond lib u c p ≠ .refused s := by
    intro u c p s
    unfold respond
    split <;> simp
  refine ⟨fun h1 h2 h3 s => ?_, fun h1 h2 h3 s => ?_, fun h1 h2 s => ?_⟩
  · obtain ⟨as, e, hm⟩ := accepts_aiohttp hT h3
    unfold aiohttp
    rw [e]
    simp only [(meet_iff _ _).2 ⟨t, hm, h1⟩, Bool.not_true, Bool.false_eq_true, if_false, hct]
    rw [if_neg (by simpa using h2)]
    cases lib.loads r.body with
    | error e => simp [aiohttpCall]
    | ok x =>
      simp only [aiohttpCall, aiohttpAnswer]
      split <;> apply hr
  · obtain ⟨a, e, hl⟩ := h3
    have hm : t ∈ flaskAccepts r := by unfold flaskAccepts; rw [e]; exact (listed_iff hT).1 hl
    unfold flask
    simp only [(meet_iff _ _).2 ⟨t, hm, h1⟩, Bool.not_true, Bool.false_eq_true, if_false, hct]
    rw [if_neg (by simpa using h2)]
    cases flaskData uwsgi r ct with
    | none => simp [flaskLoad]
    | some data =>
      simp only [flaskLoad]
      cases lib.loads data with
      | error e => simp [flaskCall]
      | ok x =>
        simp only [flaskCall, flaskAnswer]
        split <;> apply hr
  · have hm : t ∈ tornadoAccepts r ct := accepts_tornado hT hct h2
    rw [tornado_go h1 hct ht hm]
    cases lib.loads r.body with
    | error e => simp [tornadoCall]
    | ok x =>
      obtain ⟨args, name⟩ := x
      simp only [tornadoCall]
      split
      · simp
      · simp only [tornadoAnswer]
        split <;> apply hr

/-- Such a client: it accepts XML among other things. -/
example : Listed (asc "text/html, text/xml ,*/*") xmlType := (listed_iff xml_isType).2 (by decide)

/-- **C151 (Flask, the message of a status).** A struct that says its status, which is a whole number, and no message, gets the message OK if the status is 200, and otherwise is sent as it is. -/
theorem C151_status_message (ms : List (Key × Py)) (n : Int) (h : (Key.str (asc "status"), Py.int n) ∈ ms) (hone : ∀ w, (Key.str (asc "status"), w) ∈ ms → w = .int n)
    (hno : ∀ w, (Key.str (asc "statusMessage"), w) ∉ ms) :
    autostatus (.dict ms) = .dict (if n = 200 then ms ++ [(.str (asc "statusMessage"), .str (asc "OK"))] else ms) := by
  have h1 : hasKey (asc "status") ms = true := by
    unfold hasKey
    exact List.any_eq_true.2 ⟨_, h, by simp⟩
  have h2 : hasKey (asc "statusMessage") ms = false := by
    unfold hasKey
    rw [List.any_eq_false]
    rintro ⟨k, w⟩ hm he
    simp only [beq_iff_eq] at he
    exact hno w (he ▸ hm)
  have h3 : item (asc "status") ms = some (.int n) := by
    unfold item
    cases hf : ms.find? fun m => m.1 == Key.str (asc "status") with
    | none =>
      have := List.find?_eq_none.1 hf _ h
      simp at this
    | some m =>
      obtain ⟨k, w⟩ := m
      have hk := List.find?_some hf
      simp only [beq_iff_eq] at hk
      subst hk
      rw [Option.map_some, hone w (List.mem_of_find?_eq_some hf)]
  simp only [autostatus, withStatus, h1, if_true, withMessage, h2, h3, is200, Bool.not_false, Bool.true_and]
  by_cases hn : n = 200
  · subst hn; rfl
  · rw [if_neg (by simpa using hn), if_neg hn]

example : autostatus (.dict [(.str (asc "status"), .int 200)]) = .dict [(.str (asc "status"), .int 200), (.str (asc "statusMessage"), .str (asc "OK"))] ∧
    autostatus (.dict [(.str (asc "status"), .int 404)]) = .dict [(.str (asc "status"), .int 404)] := ⟨rfl, rfl⟩

/-- **C151 (Tornado, partial).** A call in XML, answered in XML. -/
theorem C151_tornado_xml_partial {lib : Lib} (hp : Python.Plain lib.o) (hP : Spec.Xml.Prompt lib.P) {A : App} {ms : Methods} {r : Request}
    (major minor : Int) (hmaj : 0 ≤ major ∧ major ≤ 3) (hmin : 0 ≤ minor) {name : Bytes} (hn : 1 ≤ name.length ∧ name.length ≤ 255) (hnt : Spec.Xml.IsXmlText name ∧ (13 : UInt8) ∉ name)
    {xs : List Py} (hmany : xs.length < 2 ^ 30) (hx : ProperItems xs) (hs : SmallItems xs) (hcar : CarriedItems (Python.textNeed lib.o (Python.versionOf major minor) lib.env lib.dbl) xs)
    (hd : dumpsXml lib.L lib.dbl major minor (some name) (.seq xs) = .ok r.body) (hlen : r.body.length < 2 ^ 32)
    (ht : r.contentType = some xmlType) (ha : (∃ a, r.accept = some a ∧ Listed a xmlType ∧ ¬ Listed a frpcType) ∨ r.accept = none) {f : Fn} (hf : lookup name ms = some f) {v : Py}
    (hv : tornadoInvoke A ms f (backItems xs) = .ok v)
    (hvp : Proper v) (hvs : Small v) (hvc : Carried (Python.textNeed lib.o (Python.versionOf 2 1) lib.env lib.dbl) v) :
    ∃ n body, tornado lib A ms r = ⟨[(name, backItems xs)], .message xmlType n body⟩ ∧ (body.length < 2 ^ 32 → lib.loads body = .ok (back v, none)) := by
  have hm : xmlType ∈ tornadoAccepts r xmlType := accepts_tornado xml_isType ht (ha.imp (fun ⟨a, e, h, _⟩ => ⟨a, e, h⟩) fun h => ⟨h, rfl⟩)
  have hnm : ¬ (tornadoAccepts r xmlType).contains frpcType = true := by
    intro h
    have hmem : frpcType ∈ tornadoAccepts r xmlType := by simpa using h
    rcases ha with ⟨a, e, hl, hnl⟩ | e
    · unfold tornadoAccepts at hmem
      rw [e] at hmem
      by_cases h0 : (some a).getD [] = []
      · rw [if_pos h0] at hmem
        exact absurd (List.mem_singleton.1 hmem) (by decide)
      · rw [if_neg h0] at hmem
        exact hnl ((listed_iff frpc_isType).2 hmem)
    · unfold tornadoAccepts at hmem
      rw [e] at hmem
      exact absurd (List.mem_singleton.1 hmem) (by decide)
  obtain ⟨data, hd', hld⟩ := Python.C124_call_partial (o := lib.o) (L := lib.L) (env := lib.env) (P := lib.P) (dbl := lib.dbl) hp hP major minor hmaj hmin name hn hnt xs hmany hx hs hcar
  rw [hd] at hd'; cases hd'
  obtain ⟨body, hb, hlb⟩ := Python.C124_response_partial (o := lib.o) (L := lib.L) (env := lib.env) (P := lib.P) (dbl := lib.dbl) hp hP 2 1 (by decide) (by decide) v hvp hvs hvc
  refine ⟨(Data.str body).len, body, ?_, fun h => hlb h none (by simp)⟩
  have hl2 : lib.loads r.body = .ok (.tuple (backItems xs), some name) := hld hlen none (by simp)
  rw [tornado_go (by simp [bothTypes]) ht (by simp [bothTypes]) hm, hl2]
  simp only [tornadoCall, Option.bind_some, hf, Option.getD_some, argsOf, hv, tornadoParams, tornadoAnswer]
  rw [if_neg hnm, respond_text_of hb]

/-- A library that reads XML. -/
def textLib : Lib := ⟨Python.noLibc, fun _ => true, xmlExampleDbl, Python.noonOpts, Python.textEnv, XmlParser.eager⟩

set_option maxRecDepth 100000 in
/-- A call in XML of a function that returns its arguments meets the hypotheses of both theorems. -/
example : ∃ r : Request, r.contentType = some xmlType ∧ (∃ n body, tornado textLib sampleApp sampleMethods r = ⟨[(asc "f", [.int 3])], .message xmlType n body⟩ ∧ (body.length < 2 ^ 32 → textLib.loads body = .ok (.list [.int 3], none))) ∧
    (∃ n body, flask textLib sampleApp none bothTypes sampleMethods r = ⟨[(asc "f", [.int 3])], .message xmlType n body⟩ ∧ (body.length < 2 ^ 32 → textLib.loads body = .ok (.list [.int 3], none))) := by
  obtain ⟨data, hd, hl⟩ : ∃ data, dumpsXml textLib.L textLib.dbl 2 1 (some (asc "f")) (.seq [.int 3]) = .ok data ∧ data.length < 2 ^ 32 := by
    have hk : (match dumpsXml textLib.L textLib.dbl 2 1 (some (asc "f")) (.seq [.int 3]) with | .ok d => decide (d.length < 2 ^ 32) | .error _ => false) = true := by decide +kernel
    cases hd : dumpsXml textLib.L textLib.dbl 2 1 (some (asc "f")) (.seq [.int 3]) with
    | error e => rw [hd] at hk; cases hk
    | ok d => rw [hd] at hk; exact ⟨d, rfl, by simpa using hk⟩
  have hcar : CarriedItems (Python.textNeed textLib.o (Python.versionOf 2 1) textLib.env textLib.dbl) [.int 3] := by
    simp only [Carried, CarriedItems, Python.textNeed, xmlNeed, and_true]
    exact ⟨⟨by decide, by decide⟩, by unfold IsI64; decide, by decide⟩
  have hcar' : Carried (Python.textNeed textLib.o (Python.versionOf 2 1) textLib.env textLib.dbl) (.list [.int 3]) := by
    simp only [Carried]
    exact hcar
  have hx : Listed xmlType xmlType := (listed_iff xml_isType).2 (by decide)
  have hnx : ¬ Listed xmlType frpcType := fun h => absurd ((listed_iff frpc_isType).1 h) (by decide)
  refine ⟨⟨some xmlType, some xmlType, data⟩, rfl, ?_, ?_⟩
  · exact C151_tornado_xml_partial (lib := textLib) ⟨rfl, rfl⟩ Python.eager_prompt 2 1 (by decide) (by decide) (by decide) ⟨XmlMarshaller.xmlText_ascii (by decide +kernel), by decide⟩ (by decide)
      (by simp [ProperItems, Proper]) (by simp [SmallItems, Small]) hcar hd hl rfl (.inl ⟨_, rfl, hx, hnx⟩) (f := .user 0) rfl rfl
      (by simp [ProperItems, Proper]) (by simp [SmallItems, Small]) hcar'
  · exact C151_flask_xml_partial (lib := textLib) ⟨rfl, rfl⟩ Python.eager_prompt 2 1 (by decide) (by decide) (by decide) ⟨XmlMarshaller.xmlText_ascii (by decide +kernel), by decide⟩ (by decide)
      (by simp [ProperItems, Proper]) (by simp [SmallItems, Small]) hcar hd hl rfl ⟨_, rfl, hx, hnx⟩ (f := .user 0) rfl (v := .list [.int 3]) (.inl rfl)
      (by simp [autostatus, ProperItems, Proper]) (by simp [autostatus, SmallItems, Small]) hcar'

end Frpc
