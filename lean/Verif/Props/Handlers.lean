import Verif.Model.Handlers
import Verif.Props.Python
import Verif.Props.PyText
/-!
# C150, C151, C152: the handlers for web frameworks
-/
namespace Frpc
open Python (Py Key Exn Params Opts dumpsBinary dumpsXml loadsBinary)
open Handlers

namespace WebHandlerSpec

/-- A list of elements with commas between them. -/
def commas : List Bytes → Bytes
  | [] => []
  | [e] => e
  | e :: es => e ++ 44 :: commas es

/-- A field lists a type: one of its elements, without the white space around it, is the type. -/
def Listed (a t : Bytes) : Prop :=
  ∃ es : List Bytes, a = commas es ∧ (∀ e ∈ es, (44 : UInt8) ∉ e) ∧ ∃ e ∈ es, ∃ l r, e = l ++ t ++ r ∧ (∀ c ∈ l, isSpace c = true) ∧ (∀ c ∈ r, isSpace c = true)

/-- The client accepts a type: it lists it, or it says nothing and sends that type itself. -/
def Accepts (r : Request) (t : Bytes) : Prop :=
  (∃ a, r.accept = some a ∧ Listed a t) ∨ ((∀ c ∈ r.accept.getD [], c = 44) ∧ r.contentType = some t)

/-- A message of the library in the format that a type names. -/
def InFormat (lib : Lib) (t body : Bytes) : Prop :=
  (t = frpcType ∧ ∃ p, dumpsBinary lib.L lib.strOk 2 1 none p = .ok body) ∨ (t = xmlType ∧ ∃ p, dumpsXml lib.L lib.dbl 2 1 none p = .ok body)

end WebHandlerSpec
open WebHandlerSpec

namespace Handlers

theorem splitComma_ne (a : Bytes) : splitComma a ≠ [] := by
  cases a with
  | nil => simp [splitComma]
  | cons c cs => rw [splitComma]; split <;> simp

theorem commas_cons (c : UInt8) : ∀ es : List Bytes, es ≠ [] → commas ((c :: es.headD []) :: es.tail) = c :: commas es
  | [], h => absurd rfl h
  | [e], _ => by simp [commas]
  | e :: e' :: es, _ => by simp [commas]

theorem commas_split : ∀ a : Bytes, commas (splitComma a) = a
  | [] => by simp [splitComma, commas]
  | c :: cs => by
    rw [splitComma]
    split
    · next h =>
      cases hs : splitComma cs with
      | nil => exact absurd hs (splitComma_ne cs)
      | cons e es => rw [commas, ← hs, commas_split cs, h]; · rfl
                     · simp
    · rw [commas_cons _ _ (splitComma_ne cs), commas_split cs]

theorem split_no : ∀ (a e : Bytes), e ∈ splitComma a → (44 : UInt8) ∉ e
  | [], e, h => by simp [splitComma] at h; subst h; simp
  | c :: cs, e, h => by
    rw [splitComma] at h
    split at h
    · rcases List.mem_cons.1 h with rfl | h
      · simp
      · exact split_no cs e h
    · next hc =>
      cases hs : splitComma cs with
      | nil => exact absurd hs (splitComma_ne cs)
      | cons x xs =>
        rw [hs] at h
        simp only [List.headD_cons, List.tail_cons, List.mem_cons] at h
        rcases h with rfl | h
        · have := split_no cs x (by rw [hs]; simp)
          simp only [List.mem_cons, not_or]
          exact ⟨fun e => hc e.symm, this⟩
        · exact split_no cs e (by rw [hs]; simp [h])

theorem split_elem : ∀ (e : Bytes), (44 : UInt8) ∉ e → splitComma e = [e]
  | [], _ => rfl
  | c :: cs, h => by
    simp only [List.mem_cons, not_or] at h
    rw [splitComma, if_neg (fun hh => h.1 hh.symm), split_elem cs h.2]
    rfl

theorem split_append : ∀ (e q : Bytes), (44 : UInt8) ∉ e → splitComma (e ++ 44 :: q) = e :: splitComma q
  | [], q, _ => by simp [splitComma]
  | c :: cs, q, h => by
    simp only [List.mem_cons, not_or] at h
    rw [List.cons_append, splitComma, if_neg (fun hh => h.1 hh.symm), split_append cs q h.2]
    rfl

theorem split_commas : ∀ es : List Bytes, es ≠ [] → (∀ e ∈ es, (44 : UInt8) ∉ e) → splitComma (commas es) = es
  | [], h, _ => absurd rfl h
  | [e], _, h => by rw [commas]; exact split_elem e (h e (by simp))
  | e :: e' :: es, _, h => by
    rw [commas, split_append _ _ (h e (by simp)), split_commas (e' :: es) (by simp) (fun x hx => h x (List.mem_cons_of_mem _ hx))]
    simp

/-- A type: it has bytes and no white space. -/
def IsType (t : Bytes) : Prop := t ≠ [] ∧ ∀ c ∈ t, isSpace c = false

theorem frpc_isType : IsType frpcType := ⟨by decide, by decide⟩
theorem xml_isType : IsType xmlType := ⟨by decide, by decide⟩

theorem dropSpaces {l t : Bytes} (hl : ∀ c ∈ l, isSpace c = true) (ht : IsType t) (q : Bytes) : (l ++ t ++ q).dropWhile isSpace = t ++ q := by
  rw [List.append_assoc, List.dropWhile_append_of_pos hl]
  cases t with
  | nil => exact absurd rfl ht.1
  | cons c t => rw [List.cons_append, List.dropWhile_cons_of_neg (by rw [ht.2 c (by simp)]; simp)]

theorem strip_of {l t r : Bytes} (hl : ∀ c ∈ l, isSpace c = true) (hr : ∀ c ∈ r, isSpace c = true) (ht : IsType t) : strip (l ++ t ++ r) = t := by
  unfold strip
  rw [dropSpaces hl ht, List.reverse_append]
  have := dropSpaces (l := r.reverse) (t := t.reverse) (by simpa using hr) ⟨by simpa using ht.1, by simpa using ht.2⟩ []
  simp only [List.append_nil] at this
  rw [this, List.reverse_reverse]

theorem takeWhile_all (p : UInt8 → Bool) : ∀ (s : Bytes), ∀ c ∈ s.takeWhile p, p c = true
  | [], c, h => by simp at h
  | x :: s, c, h => by
    by_cases hp : p x = true
    · rw [List.takeWhile_cons_of_pos hp] at h
      rcases List.mem_cons.1 h with rfl | h
      · exact hp
      · exact takeWhile_all p s c h
    · rw [List.takeWhile_cons_of_neg hp] at h; simp at h

theorem of_strip (e : Bytes) : ∃ l r, e = l ++ strip e ++ r ∧ (∀ c ∈ l, isSpace c = true) ∧ (∀ c ∈ r, isSpace c = true) := by
  refine ⟨e.takeWhile isSpace, (((e.dropWhile isSpace).reverse).takeWhile isSpace).reverse, ?_, takeWhile_all _ _, ?_⟩
  · unfold strip
    rw [List.append_assoc, ← List.reverse_append, List.takeWhile_append_dropWhile, List.reverse_reverse, List.takeWhile_append_dropWhile]
  · intro c hc
    exact takeWhile_all _ _ c (List.mem_reverse.1 hc)

theorem listed_iff {a t : Bytes} (ht : IsType t) : Listed a t ↔ t ∈ (splitComma a).map strip := by
  constructor
  · rintro ⟨es, rfl, h44, e, he, l, r, rfl, hl, hr⟩
    rw [split_commas es (fun h => by simp [h] at he) h44]
    exact List.mem_map.2 ⟨_, he, strip_of hl hr ht⟩
  · intro h
    obtain ⟨e, he, rfl⟩ := List.mem_map.1 h
    obtain ⟨l, r, h1, h2, h3⟩ := of_strip e
    exact ⟨splitComma a, (commas_split a).symm, split_no a, e, he, l, r, h1, h2, h3⟩

theorem accepted_mem {a t : Bytes} (ht : IsType t) : t ∈ accepted a ↔ t ∈ (splitComma a).map strip := by
  unfold accepted
  constructor
  · intro h
    obtain ⟨e, he, rfl⟩ := List.mem_map.1 h
    exact List.mem_map.2 ⟨e, (List.mem_filter.1 he).1, rfl⟩
  · intro h
    obtain ⟨e, he, rfl⟩ := List.mem_map.1 h
    refine List.mem_map.2 ⟨e, List.mem_filter.2 ⟨he, ?_⟩, rfl⟩
    cases e with
    | nil => exact absurd rfl ht.1
    | cons c cs => rfl

theorem only_commas {a : Bytes} (h : accepted a = []) : ∀ c ∈ a, c = 44 := by
  have hall : ∀ e ∈ splitComma a, e = [] := by
    intro e he
    unfold accepted at h
    rw [List.map_eq_nil_iff, List.filter_eq_nil_iff] at h
    have := h e he
    cases e with
    | nil => rfl
    | cons c cs => exact absurd rfl this
  have hc : ∀ es : List Bytes, (∀ e ∈ es, e = []) → ∀ c ∈ commas es, c = 44 := by
    intro es
    induction es with
    | nil => intro _ c hc; simp [commas] at hc
    | cons e es ih =>
      intro he c hc
      have h0 := he e (by simp)
      subst h0
      cases es with
      | nil => simp [commas] at hc
      | cons e' es =>
        rw [commas] at hc
        · rcases List.mem_cons.1 hc with rfl | hc
          · rfl
          · exact ih (fun x hx => he x (List.mem_cons_of_mem _ hx)) c hc
        · simp
  rw [← commas_split a]
  exact hc _ hall

theorem commas_only {a : Bytes} (h : ∀ c ∈ a, c = 44) : accepted a = [] := by
  have hall : ∀ (a : Bytes), (∀ c ∈ a, c = 44) → ∀ e ∈ splitComma a, e = [] := by
    intro a
    induction a with
    | nil => intro _ e he; simpa [splitComma] using he
    | cons c cs ih =>
      intro h e he
      rw [splitComma, if_pos (h c (by simp))] at he
      rcases List.mem_cons.1 he with rfl | he
      · rfl
      · exact ih (fun x hx => h x (by simp [hx])) e he
  unfold accepted
  rw [List.map_eq_nil_iff, List.filter_eq_nil_iff]
  intro e he
  rw [hall a h e he]
  simp

theorem aiohttp_accepts {r : Request} {as : List Bytes} {t : Bytes} (ht : IsType t) (h : aiohttpAccepts r = some as) (hm : t ∈ as) : Accepts r t := by
  unfold aiohttpAccepts at h
  by_cases he : accepted (r.accept.getD []) = []
  · rw [if_pos he] at h
    cases hc : r.contentType with
    | none => rw [hc] at h; cases h
    | some c =>
      rw [hc] at h
      cases h
      simp only [List.mem_singleton] at hm
      exact .inr ⟨only_commas he, by rw [hc, hm]⟩
  · rw [if_neg he] at h
    cases h
    cases ha : r.accept with
    | none => rw [ha] at he; exact absurd (by decide) he
    | some a =>
      rw [ha] at hm
      exact .inl ⟨a, ha, (listed_iff ht).2 ((accepted_mem ht).1 hm)⟩

theorem accepts_aiohttp {r : Request} {t : Bytes} (ht : IsType t) (h : Accepts r t) : ∃ as, aiohttpAccepts r = some as ∧ t ∈ as := by
  unfold aiohttpAccepts
  rcases h with ⟨a, ha, hl⟩ | ⟨hc, hct⟩
  · have hm : t ∈ accepted (r.accept.getD []) := by rw [ha]; exact (accepted_mem ht).2 ((listed_iff ht).1 hl)
    rw [if_neg (fun he => by rw [he] at hm; simp at hm)]
    exact ⟨_, rfl, hm⟩
  · rw [if_pos (commas_only hc), hct]
    exact ⟨_, rfl, by simp⟩

theorem flask_accepts {r : Request} {t : Bytes} (ht : IsType t) (hm : t ∈ flaskAccepts r) : ∃ a, r.accept = some a ∧ Listed a t := by
  unfold flaskAccepts at hm
  cases ha : r.accept with
  | none =>
    rw [ha] at hm
    have : (splitComma (Option.getD none [])).map strip = [[]] := rfl
    rw [this] at hm
    exact absurd (List.mem_singleton.1 hm) ht.1
  | some a => rw [ha] at hm; exact ⟨a, rfl, (listed_iff ht).2 hm⟩

theorem tornado_accepts {r : Request} {c t : Bytes} (ht : IsType t) (hc : r.contentType = some c) (hm : t ∈ tornadoAccepts r c) : Accepts r t := by
  unfold tornadoAccepts at hm
  by_cases he : r.accept.getD [] = []
  · rw [if_pos he] at hm
    exact .inr ⟨by rw [he]; simp, by rw [hc, List.mem_singleton.1 hm]⟩
  · rw [if_neg he] at hm
    cases ha : r.accept with
    | none => rw [ha] at he; exact absurd rfl he
    | some a => rw [ha] at hm; exact .inl ⟨a, ha, (listed_iff ht).2 hm⟩

/-- The client lists the type, or has no field `Accept` and sends the type. -/
theorem accepts_tornado {r : Request} {c t : Bytes} (ht : IsType t) (_ : r.contentType = some c) (h : (∃ a, r.accept = some a ∧ Listed a t) ∨ (r.accept = none ∧ c = t)) :
    t ∈ tornadoAccepts r c := by
  unfold tornadoAccepts
  rcases h with ⟨a, ha, hl⟩ | ⟨ha, rfl⟩
  · have hm := (listed_iff ht).1 hl
    rw [ha]
    by_cases he : a = []
    · subst he
      have : (splitComma []).map strip = [[]] := rfl
      rw [this] at hm
      exact absurd (List.mem_singleton.1 hm) ht.1
    · show t ∈ if a = [] then _ else _
      rw [if_neg he]; exact hm
  · rw [ha]; simp

theorem meet_iff (a b : List Bytes) : meet a b = true ↔ ∃ t, t ∈ a ∧ t ∈ b := by
  unfold meet; simp

theorem respond_binary {lib : Lib} {n : Int} (hn : n ≠ 0) {t ct body : Bytes} {len : Nat} {p : Params} (h : respond lib n t p = .message ct len body) :
    ct = t ∧ len = body.length ∧ dumpsBinary lib.L lib.strOk 2 1 none p = .ok body := by
  unfold respond Lib.dumps at h
  rw [if_pos hn] at h
  cases hd : dumpsBinary lib.L lib.strOk 2 1 none p with
  | error e => rw [hd] at h; cases h
  | ok d => rw [hd] at h; cases h; exact ⟨rfl, rfl, rfl⟩

theorem respond_text {lib : Lib} {t ct body : Bytes} {len : Nat} {p : Params} (h : respond lib 0 t p = .message ct len body) :
    ct = t ∧ len = (Data.str body).len ∧ dumpsXml lib.L lib.dbl 2 1 none p = .ok body := by
  unfold respond Lib.dumps at h
  rw [if_neg (by simp)] at h
  cases hd : dumpsXml lib.L lib.dbl 2 1 none p with
  | error e => rw [hd] at h; cases h
  | ok d => rw [hd] at h; cases h; exact ⟨rfl, rfl, rfl⟩

theorem respond_binary_of {lib : Lib} {n : Int} (hn : n ≠ 0) {t body : Bytes} {p : Params} (h : dumpsBinary lib.L lib.strOk 2 1 none p = .ok body) :
    respond lib n t p = .message t body.length body := by
  unfold respond Lib.dumps
  rw [if_pos hn, h]; rfl

theorem respond_text_of {lib : Lib} {t body : Bytes} {p : Params} (h : dumpsXml lib.L lib.dbl 2 1 none p = .ok body) :
    respond lib 0 t p = .message t (Data.str body).len body := by
  unfold respond Lib.dumps
  rw [if_neg (by simp), h]; rfl

/-- The length of a `str` is that of its bytes if they are ASCII; it is less if a character has several. -/
theorem strLen_ascii {b : Bytes} (h : ∀ c ∈ b, c.toNat < 128) : (Data.str b).len = b.length := by
  show (b.filter fun c => decide (c.toNat < 128 ∨ 192 ≤ c.toNat)).length = b.length
  rw [List.filter_eq_self.2]
  intro c hc
  have := h c hc
  simp [this]

theorem strLen_less {b : Bytes} {c : UInt8} (hc : c ∈ b) (h : 128 ≤ c.toNat ∧ c.toNat < 192) : (Data.str b).len < b.length := by
  show (b.filter fun c => decide (c.toNat < 128 ∨ 192 ≤ c.toNat)).length < b.length
  refine Nat.lt_of_le_of_ne (List.length_filter_le _ _) (fun e => ?_)
  have := List.length_filter_eq_length_iff.1 e c hc
  simp only [decide_eq_true_eq] at this
  omega

theorem xml_of_meet {as allowed : List Bytes} (hsub : ∀ t ∈ allowed, t ∈ bothTypes) (hm : meet as allowed = true) (hf : ¬ as.contains frpcType = true) : xmlType ∈ as ∧ xmlType ∈ allowed := by
  obtain ⟨t, h1, h2⟩ := (meet_iff _ _).1 hm
  have := hsub t h2
  simp only [bothTypes, List.mem_cons, List.not_mem_nil, or_false] at this
  rcases this with rfl | rfl
  · exact absurd (by simpa using h1) hf
  · exact ⟨h1, h2⟩

/-- What a message of the aiohttp handler comes from. -/
theorem aiohttp_message {lib : Lib} {A : App} {allowed : List Bytes} {ms : Methods} {r : Request} {ct body : Bytes} {n : Nat}
    (h : (aiohttp lib A allowed ms r).answer = .message ct n body) :
    ∃ as v, aiohttpAccepts r = some as ∧ meet as allowed = true ∧ aiohttpAnswer lib as v = .message ct n body := by
  unfold aiohttp at h
  cases ha : aiohttpAccepts r with
  | none => rw [ha] at h; cases h
  | some as =>
    rw [ha] at h
    by_cases hm : meet as allowed = true
    · simp only [hm, Bool.not_true, Bool.false_eq_true, if_false] at h
      cases hc : r.contentType with
      | none => rw [hc] at h; cases h
      | some t =>
        rw [hc] at h
        by_cases ht : allowed.contains t = true
        · simp only [ht, Bool.not_true, Bool.false_eq_true, if_false] at h
          unfold aiohttpCall at h
          split at h
          · cases h
          · exact ⟨as, _, rfl, hm, h⟩
        · simp only [ht, Bool.not_false, if_true] at h; cases h
    · simp only [hm, Bool.not_false, if_true] at h; cases h

theorem flask_message {lib : Lib} {A : App} {uwsgi : Option (Request → Option Bytes)} {allowed : List Bytes} {ms : Methods} {r : Request} {ct body : Bytes} {n : Nat}
    (h : (flask lib A uwsgi allowed ms r).answer = .message ct n body) :
    ∃ v, meet (flaskAccepts r) allowed = true ∧ flaskAnswer lib (flaskAccepts r) v = .message ct n body := by
  unfold flask at h
  by_cases hm : meet (flaskAccepts r) allowed = true
  · simp only [hm, Bool.not_true, Bool.false_eq_true, if_false] at h
    cases hc : r.contentType with
    | none => rw [hc] at h; cases h
    | some t =>
      rw [hc] at h
      by_cases ht : allowed.contains t = true
      · simp only [ht, Bool.not_true, Bool.false_eq_true, if_false] at h
        unfold flaskLoad flaskCall at h
        split at h
        · cases h
        · split at h
          · cases h
          · exact ⟨_, hm, h⟩
      · simp only [ht, Bool.not_false, if_true] at h; cases h
  · simp only [hm, Bool.not_false, if_true] at h; cases h

theorem tornado_message {lib : Lib} {A : App} {ms : Methods} {r : Request} {ct body : Bytes} {n : Nat}
    (h : (tornado lib A ms r).answer = .message ct n body) :
    ∃ t q, r.contentType = some t ∧ meet (tornadoAccepts r t) bothTypes = true ∧ tornadoAnswer lib (tornadoAccepts r t) (tornadoParams q) = .message ct n body := by
  unfold tornado at h
  cases hc : r.contentType with
  | none => rw [hc] at h; cases h
  | some t =>
    rw [hc] at h
    by_cases ht : bothTypes.contains t = true
    · simp only [ht, Bool.not_true, Bool.false_eq_true, if_false] at h
      by_cases hm : meet (tornadoAccepts r t) bothTypes = true
      · simp only [hm, Bool.not_true, Bool.false_eq_true, if_false] at h
        unfold tornadoCall at h
        split at h
        · cases h
        · split at h
          · cases h
          · exact ⟨t, _, rfl, hm, h⟩
      · simp only [hm, Bool.not_false, if_true] at h; cases h
    · simp only [ht, Bool.not_false, if_true] at h; cases h

end Handlers

/-- **C150 (Tornado, partial).** Whenever the Tornado handler answers with a message, its type is one that the client accepts, the message is in the format of that type, and
`Content-Length` is its length, provided that it is binary or all of it is ASCII. Missing: XML with other characters (`C150_length_violated`). -/
theorem C150_tornado_partial (lib : Lib) (A : App) (ms : Methods) (r : Request) {ct body : Bytes} {n : Nat} (h : (tornado lib A ms r).answer = .message ct n body) :
    Accepts r ct ∧ InFormat lib ct body ∧ (ct = frpcType ∨ (∀ c ∈ body, c.toNat < 128) → n = body.length) := by
  obtain ⟨t, q, hc, hm, ha⟩ := tornado_message h
  unfold tornadoAnswer at ha
  by_cases hf : (tornadoAccepts r t).contains frpcType = true
  · rw [if_pos hf] at ha
    obtain ⟨rfl, rfl, hd⟩ := respond_binary (by decide) ha
    exact ⟨tornado_accepts frpc_isType hc (by simpa using hf), .inl ⟨rfl, _, hd⟩, fun _ => rfl⟩
  · rw [if_neg hf] at ha
    obtain ⟨rfl, rfl, hd⟩ := respond_text ha
    refine ⟨tornado_accepts xml_isType hc (xml_of_meet (fun _ h => h) hm hf).1, .inr ⟨rfl, _, hd⟩, ?_⟩
    rintro (e | e)
    · exact absurd e (by decide)
    · exact strLen_ascii e

/-- **C150 (Flask, partial).** The same for Flask, with any set of allowed types out of the two; if binary is allowed, or the client does not accept it, the type is an allowed one. Missing: XML with
characters that are not ASCII (`C150_length_violated`), clients that say nothing (`C150_silent_violated`), allowing XML only (`C150_allowed_violated`). -/
theorem C150_flask_partial (lib : Lib) (A : App) (uwsgi : Option (Request → Option Bytes)) (allowed : List Bytes) (hsub : ∀ t ∈ allowed, t ∈ bothTypes) (ms : Methods) (r : Request)
    {ct body : Bytes} {n : Nat} (h : (flask lib A uwsgi allowed ms r).answer = .message ct n body) :
    Accepts r ct ∧ InFormat lib ct body ∧ (ct = frpcType ∨ (∀ c ∈ body, c.toNat < 128) → n = body.length) ∧ (frpcType ∈ allowed ∨ ¬ Accepts r frpcType → ct ∈ allowed) := by
  obtain ⟨v, hm, ha⟩ := flask_message h
  unfold flaskAnswer at ha
  by_cases hf : (flaskAccepts r).contains frpcType = true
  · rw [if_pos hf] at ha
    obtain ⟨rfl, rfl, hd⟩ := respond_binary (by decide) ha
    have hacc : Accepts r frpcType := .inl (flask_accepts frpc_isType (by simpa using hf))
    exact ⟨hacc, .inl ⟨rfl, _, hd⟩, fun _ => rfl, fun h => h.elim id fun h => absurd hacc h⟩
  · rw [if_neg hf] at ha
    obtain ⟨rfl, rfl, hd⟩ := respond_text ha
    refine ⟨.inl (flask_accepts xml_isType (xml_of_meet hsub hm hf).1), .inr ⟨rfl, _, hd⟩, ?_, fun _ => (xml_of_meet hsub hm hf).2⟩
    rintro (e | e)
    · exact absurd e (by decide)
    · exact strLen_ascii e

/-- **C150 (aiohttp, partial).** The same for aiohttp, for clients that accept binary messages. Missing: all the others, which get a binary message under the name of XML (`C150_never_violated`). -/
theorem C150_aiohttp_partial (lib : Lib) (A : App) (allowed : List Bytes) (hsub : ∀ t ∈ allowed, t ∈ bothTypes) (ms : Methods) (r : Request)
    {ct body : Bytes} {n : Nat} (h : (aiohttp lib A allowed ms r).answer = .message ct n body) :
    Accepts r ct ∧ n = body.length ∧ (Accepts r frpcType → InFormat lib ct body) ∧ (frpcType ∈ allowed ∨ ¬ Accepts r frpcType → ct ∈ allowed) := by
  obtain ⟨as, v, has, hm, ha⟩ := aiohttp_message h
  unfold aiohttpAnswer at ha
  by_cases hf : as.contains frpcType = true
  · rw [if_pos hf] at ha
    obtain ⟨rfl, rfl, hd⟩ := respond_binary (by decide) ha
    have hacc : Accepts r frpcType := aiohttp_accepts frpc_isType has (by simpa using hf)
    exact ⟨hacc, rfl, fun _ => .inl ⟨rfl, _, hd⟩, fun h => h.elim id fun h => absurd hacc h⟩
  · rw [if_neg hf] at ha
    obtain ⟨rfl, rfl, hd⟩ := respond_binary (by decide) ha
    refine ⟨aiohttp_accepts xml_isType has (xml_of_meet hsub hm hf).1, rfl, fun hacc => ?_, fun _ => (xml_of_meet hsub hm hf).2⟩
    obtain ⟨as', e, hmem⟩ := accepts_aiohttp frpc_isType hacc
    rw [has] at e; cases e
    exact absurd (by simpa using hmem) hf

namespace Handlers

theorem binary_first {L : DateTimeMake.Libc} {strOk : Bytes → Bool} {v : Py} {data : Bytes} (hd : dumpsBinary L strOk 2 1 none (.seq [v]) = .ok data) :
    data.take 2 = [0xCA, 0x11] := by
  obtain ⟨h1, h2, h3, h4⟩ := Python.dumps_ok hd
  have hx : ∃ t, data = BinMarshaller.packMagic (Python.versionOf 2 1) ++ t := by
    rw [h4]
    simp only [Python.script, Python.andThen, List.cons_append, List.nil_append]
    exact Python.magic_first (r := [[BinMarshaller.dataType T_RESPONSE 0]]) rfl
  obtain ⟨t, ht⟩ := hx
  rw [ht]; simp [BinMarshaller.packMagic]

/-- A library for the examples. -/
def sampleLib : Lib := ⟨Python.noLibc, fun _ => true, fun _ => [], Python.plainOpts, Python.textEnv, Python.shortParser⟩
/-- An application: a function that returns its arguments, one that returns a text that is not ASCII, one that raises a fault. -/
def sampleApp : App :=
  ⟨fun i xs => if i = 0 then .ok (.list xs) else if i = 1 then .ok (.str [0xC3, 0xA9]) else .error (asc "Fault", asc "no"), fun _ _ => (asc "TypeError", asc "arguments"), fun _ => none, fun _ => none⟩
/-- Its methods. -/
def sampleMethods : Methods := registerAll (aiohttpInit true) [(asc "f", .user 0), (asc "e", .user 1), (asc "g", .user 2)]
/-- `f()`, `e()`, `g()` and `f(1, 2)`. -/
def sampleCall (c : UInt8) (args : Bytes) : Bytes := [0xCA, 0x11, 2, 1, 0x68, 1, c] ++ args

end Handlers

/-- **C150 is false of the aiohttp handler**: a client that does not accept binary messages gets a binary message that is called XML, whatever it asks: `fastrpc.NEVER` is not 0, and `dumps` takes anything but 0
for yes. -/
theorem C150_never_violated (lib : Lib) (A : App) (allowed : List Bytes) (ms : Methods) (r : Request) (hr : ¬ Accepts r frpcType)
    {ct body : Bytes} {n : Nat} (h : (aiohttp lib A allowed ms r).answer = .message ct n body) : ct = xmlType ∧ body.take 2 = [0xCA, 0x11] := by
  obtain ⟨as, v, has, hm, ha⟩ := aiohttp_message h
  unfold aiohttpAnswer at ha
  by_cases hf : as.contains frpcType = true
  · exact absurd (aiohttp_accepts frpc_isType has (by simpa using hf)) hr
  · rw [if_neg hf] at ha
    obtain ⟨rfl, rfl, hd⟩ := respond_binary (by decide) ha
    exact ⟨rfl, binary_first hd⟩

/-- Such a request is answered. -/
example : (aiohttp sampleLib sampleApp bothTypes sampleMethods ⟨some (asc "text/xml"), some frpcType, sampleCall 102 [0x38, 7]⟩).answer =
    .message xmlType 9 [0xCA, 0x11, 2, 1, 0x70, 0x58, 1, 0x38, 7] := rfl

/-- **C150 is false of handlers that allow XML only**: a client that accepts both gets a type that is not allowed. -/
theorem C150_allowed_violated (lib : Lib) (A : App) (uwsgi : Option (Request → Option Bytes)) (ms : Methods) (r : Request) (hr : ∃ a, r.accept = some a ∧ Listed a frpcType)
    {ct body : Bytes} {n : Nat} (h : (aiohttp lib A [xmlType] ms r).answer = .message ct n body ∨ (flask lib A uwsgi [xmlType] ms r).answer = .message ct n body) : ct ∉ [xmlType] := by
  have : ct = frpcType := by
    rcases h with h | h
    · obtain ⟨as, v, has, hm, ha⟩ := aiohttp_message h
      obtain ⟨as', e, hmem⟩ := accepts_aiohttp frpc_isType (.inl hr)
      rw [has] at e; cases e
      unfold aiohttpAnswer at ha
      rw [if_pos (by simpa using hmem)] at ha
      exact (respond_binary (by decide) ha).1
    · obtain ⟨v, hm, ha⟩ := flask_message h
      obtain ⟨a, e, hl⟩ := hr
      have hmem : frpcType ∈ flaskAccepts r := by unfold flaskAccepts; rw [e]; exact (listed_iff frpc_isType).1 hl
      unfold flaskAnswer at ha
      rw [if_pos (by simpa using hmem)] at ha
      exact (respond_binary (by decide) ha).1
  rw [this]; decide

/-- **C150 is false of the Flask handler for clients without a field `Accept`**: they are refused, for splitting nothing gives one empty element. -/
theorem C150_silent_violated (lib : Lib) (A : App) (uwsgi : Option (Request → Option Bytes)) (allowed : List Bytes) (hne : [] ∉ allowed) (ms : Methods) (r : Request) (hr : r.accept = none) :
    flask lib A uwsgi allowed ms r = ⟨[], .refused 400⟩ := by
  unfold flask
  have hm : meet (flaskAccepts r) allowed = false := by
    have e : flaskAccepts r = [[]] := by unfold flaskAccepts; rw [hr]; rfl
    rw [e, Bool.eq_false_iff]
    intro h
    obtain ⟨t, h1, h2⟩ := (meet_iff _ _).1 h
    rw [List.mem_singleton.1 h1] at h2
    exact hne h2
  rw [hm]; rfl

/-- **C150 is false for clients that accept anything, and for XML whose character set is named**: all three handlers refuse them. -/
theorem C150_any_violated (lib : Lib) (A : App) (uwsgi : Option (Request → Option Bytes)) (ms : Methods) (body : Bytes) :
    (∀ t ∈ bothTypes, aiohttp lib A bothTypes ms ⟨some (asc "*/*"), some t, body⟩ = ⟨[], .refused 400⟩ ∧ flask lib A uwsgi bothTypes ms ⟨some (asc "*/*"), some t, body⟩ = ⟨[], .refused 400⟩ ∧
      tornado lib A ms ⟨some (asc "*/*"), some t, body⟩ = ⟨[], .refused 406⟩) ∧
    (aiohttp lib A bothTypes ms ⟨some (asc "text/xml"), some (asc "text/xml; charset=utf-8"), body⟩ = ⟨[], .refused 400⟩ ∧
      flask lib A uwsgi bothTypes ms ⟨some (asc "text/xml"), some (asc "text/xml; charset=utf-8"), body⟩ = ⟨[], .refused 400⟩ ∧
      tornado lib A ms ⟨some (asc "text/xml"), some (asc "text/xml; charset=utf-8"), body⟩ = ⟨[], .refused 400⟩) := by
  refine ⟨fun t ht => ?_, rfl, rfl, rfl⟩
  simp only [bothTypes, List.mem_cons, List.not_mem_nil, or_false] at ht
  rcases ht with rfl | rfl <;> exact ⟨rfl, rfl, rfl⟩

/-- **C150 is false of the length of XML in Flask and Tornado**: `len` counts the characters of a `str`, so an answer in XML with a character that is not ASCII is announced shorter than it is. -/
theorem C150_length_violated (lib : Lib) (A : App) (uwsgi : Option (Request → Option Bytes)) (allowed : List Bytes) (ms : Methods) (r : Request) {body : Bytes} {n : Nat}
    (h : (flask lib A uwsgi allowed ms r).answer = .message xmlType n body ∨ (tornado lib A ms r).answer = .message xmlType n body)
    (c : UInt8) (hc : c ∈ body) (h8 : 128 ≤ c.toNat ∧ c.toNat < 192) : n < body.length := by
  have hne : frpcType ≠ xmlType := by decide
  rcases h with h | h
  · obtain ⟨v, hm, ha⟩ := flask_message h
    unfold flaskAnswer at ha
    by_cases hf : (flaskAccepts r).contains frpcType = true
    · rw [if_pos hf] at ha; exact absurd (respond_binary (by decide) ha).1.symm hne
    · rw [if_neg hf] at ha
      obtain ⟨_, rfl, _⟩ := respond_text ha
      exact strLen_less hc h8
  · obtain ⟨t, q, hct, hm, ha⟩ := tornado_message h
    unfold tornadoAnswer at ha
    by_cases hf : (tornadoAccepts r t).contains frpcType = true
    · rw [if_pos hf] at ha; exact absurd (respond_binary (by decide) ha).1.symm hne
    · rw [if_neg hf] at ha
      obtain ⟨_, rfl, _⟩ := respond_text ha
      exact strLen_less hc h8

set_option maxRecDepth 100000 in
/-- Such an answer. -/
example : ∃ n body, (tornado sampleLib sampleApp sampleMethods ⟨some (asc "text/xml"), some frpcType, sampleCall 101 []⟩).answer = .message xmlType n body ∧ (0xA9 : UInt8) ∈ body := by
  refine ⟨_, _, rfl, ?_⟩
  decide +kernel

/-! ## C151 -/

/-- **C151.** A request runs one method at most; a refused one runs none. -/
theorem C151_once (lib : Lib) (A : App) (uwsgi : Option (Request → Option Bytes)) (allowed : List Bytes) (ms : Methods) (r : Request) (d : Done)
    (h : d = aiohttp lib A allowed ms r ∨ d = flask lib A uwsgi allowed ms r ∨ d = tornado lib A ms r) :
    d.runs.length ≤ 1 ∧ ((∃ s, d.answer = .refused s) → d.runs = []) := by
  have hd : ∀ args name, (dispatch A ms args name).1.length ≤ 1 := by
    intro args name
    unfold dispatch
    split
    · simp
    · split <;> simp
  have hresp : ∀ n t p s, respond lib n t p ≠ .refused s := by
    intro n t p s
    unfold respond
    split <;> simp
  rcases h with rfl | rfl | rfl
  · unfold aiohttp
    split
    · exact ⟨by simp, fun _ => rfl⟩
    · split
      · exact ⟨by simp, fun _ => rfl⟩
      · split
        · exact ⟨by simp, fun _ => rfl⟩
        · split
          · exact ⟨by simp, fun _ => rfl⟩
          · unfold aiohttpCall
            split
            · exact ⟨by simp, fun _ => rfl⟩
            · refine ⟨hd _ _, ?_⟩
              rintro ⟨s, hs⟩
              unfold aiohttpAnswer at hs
              split at hs <;> exact absurd hs (hresp _ _ _ _)
  · unfold flask
    split
    · exact ⟨by simp, fun _ => rfl⟩
    · split
      · exact ⟨by simp, fun _ => rfl⟩
      · split
        · exact ⟨by simp, fun _ => rfl⟩
        · unfold flaskLoad flaskCall
          split
          · exact ⟨by simp, fun _ => rfl⟩
          · split
            · exact ⟨by simp, fun _ => rfl⟩
            · refine ⟨hd _ _, ?_⟩
              rintro ⟨s, hs⟩
              unfold flaskAnswer at hs
              split at hs <;> exact absurd hs (hresp _ _ _ _)
  · unfold tornado
    split
    · exact ⟨by simp, fun _ => rfl⟩
    · split
      · exact ⟨by simp, fun _ => rfl⟩
      · split
        · exact ⟨by simp, fun _ => rfl⟩
        · unfold tornadoCall
          split
          · exact ⟨by simp, fun _ => rfl⟩
          · split
            · exact ⟨by simp, fun _ => rfl⟩
            · refine ⟨by simp, ?_⟩
              rintro ⟨s, hs⟩
              unfold tornadoAnswer at hs
              split at hs <;> exact absurd hs (hresp _ _ _ _)

namespace Handlers
open Spec (isUtf8)
open Spec.Python (Proper ProperItems Small SmallItems Each EachItems back backItems Carried CarriedItems)

theorem aiohttp_go {lib : Lib} {A : App} {ms : Methods} {r : Request} {t : Bytes} (hb : t ∈ bothTypes) (ht : r.contentType = some t) {as : List Bytes} (ha : aiohttpAccepts r = some as)
    {u : Bytes} (hu : u ∈ bothTypes) (hm : u ∈ as) : aiohttp lib A bothTypes ms r = aiohttpCall lib A ms as (lib.loads r.body) := by
  unfold aiohttp
  rw [ha]
  simp only [(meet_iff _ _).2 ⟨u, hm, hu⟩, Bool.not_true, Bool.false_eq_true, if_false, ht]
  rw [if_neg (by simpa using hb)]

theorem flask_go {lib : Lib} {A : App} {uwsgi : Option (Request → Option Bytes)} {ms : Methods} {r : Request} {t : Bytes} (hb : t ∈ bothTypes) (ht : r.contentType = some t)
    {u : Bytes} (hu : u ∈ bothTypes) (hm : u ∈ flaskAccepts r) : flask lib A uwsgi bothTypes ms r = flaskLoad lib A ms (flaskAccepts r) (flaskData uwsgi r t) := by
  unfold flask
  simp only [(meet_iff _ _).2 ⟨u, hm, hu⟩, Bool.not_true, Bool.false_eq_true, if_false, ht]
  rw [if_neg (by simpa using hb)]

theorem tornado_go {lib : Lib} {A : App} {ms : Methods} {r : Request} {t : Bytes} (hb : t ∈ bothTypes) (ht : r.contentType = some t)
    {u : Bytes} (hu : u ∈ bothTypes) (hm : u ∈ tornadoAccepts r t) : tornado lib A ms r = tornadoCall lib A ms (tornadoAccepts r t) (lib.loads r.body) := by
  unfold tornado
  rw [ht]
  simp only [(meet_iff _ _).2 ⟨u, hm, hu⟩, Bool.not_true, Bool.false_eq_true, if_false]
  rw [if_neg (by simpa using hb)]

theorem dispatch_known {A : App} {ms : Methods} {name : Bytes} {f : Fn} (h : lookup name ms = some f) (xs : List Py) :
    dispatch A ms (.tuple xs) (some name) = ([(name, xs)], resultOf (invoke A ms f xs)) := by
  unfold dispatch
  simp only [h, argsOf]

theorem dispatch_unknown {A : App} {ms : Methods} {name : Bytes} (h : lookup name ms = none) (args : Py) :
    dispatch A ms args (some name) = ([], missing (some name)) := by
  unfold dispatch
  simp only [h]

end Handlers
open Spec (isUtf8)
open Spec.Python (Proper ProperItems Small SmallItems Each EachItems back backItems Carried CarriedItems)

/-- A binary call of the library that arrives as it is. -/
structure BinaryCall (lib : Lib) (name : Bytes) (xs : List Py) (data : Bytes) : Prop where
  plain : Python.Plain lib.o
  named : isUtf8 name = true
  many : xs.length < 2 ^ 30
  proper : ProperItems xs
  small : SmallItems xs
  dumped : ∃ major minor, (major = 2 ∨ major = 3) ∧ EachItems (Python.backNeed (Python.versionOf major minor)) xs ∧ dumpsBinary lib.L lib.strOk major minor (some name) (.seq xs) = .ok data
  size : data.length < 2 ^ 32

/-- An object that a binary answer carries as it is. -/
structure BinaryResult (lib : Lib) (v : Py) (body : Bytes) : Prop where
  proper : Proper v
  small : Small v
  each : Each (Python.backNeed (Python.versionOf 2 1)) v
  dumped : dumpsBinary lib.L lib.strOk 2 1 none (.seq [v]) = .ok body
  size : body.length < 2 ^ 32

theorem BinaryCall.loads {lib : Lib} {name : Bytes} {xs : List Py} {data : Bytes} (h : BinaryCall lib name xs data) : lib.loads data = .ok (.tuple (backItems xs), some name) := by
  obtain ⟨major, minor, hmaj, he, hd⟩ := h.dumped
  unfold Lib.loads
  rw [Python.C124_binary_known lib.strOk major minor (some name) (.seq xs) data h.size hd]
  exact Python.C93_call_partial h.plain major minor hmaj name h.named xs h.many h.proper h.small he data h.size hd

theorem BinaryResult.loads {lib : Lib} {v : Py} {body : Bytes} (hp : Python.Plain lib.o) (h : BinaryResult lib v body) : lib.loads body = .ok (back v, none) := by
  unfold Lib.loads
  rw [Python.C124_binary_known lib.strOk 2 1 none (.seq [v]) body h.size h.dumped]
  exact Python.C93_response_partial hp 2 1 (.inl rfl) v h.proper h.small h.each body h.size h.dumped

/-- **C151 (aiohttp, partial).** A binary call of a registered method by a client that accepts binary messages runs that method once, with the arguments that were sent, and the answer is loaded as its result, or as the
struct that tells of its exception. Missing: clients of XML (`C150_never_violated`), faults (`C151_fault_violated`), and what the library does not carry (C93). -/
theorem C151_aiohttp_partial {lib : Lib} {A : App} {ms : Methods} {r : Request} {name : Bytes} {xs : List Py} (hc : BinaryCall lib name xs r.body) (ht : r.contentType = some frpcType) (ha : Accepts r frpcType)
    {f : Fn} (hf : lookup name ms = some f) {v : Py} (hv : invoke A ms f (backItems xs) = .ok v ∨ ∃ cls text, invoke A ms f (backItems xs) = .error (cls, text) ∧
      v = .dict [(.str (asc "status"), .int 500), (.str (asc "statusMessage"), .str text)]) {body : Bytes} (hb : BinaryResult lib v body) :
    aiohttp lib A bothTypes ms r = ⟨[(name, backItems xs)], .message frpcType body.length body⟩ ∧ lib.loads body = .ok (back v, none) := by
  obtain ⟨as, has, hm⟩ := accepts_aiohttp frpc_isType ha
  refine ⟨?_, hb.loads hc.plain⟩
  have hr : resultOf (invoke A ms f (backItems xs)) = v := by
    rcases hv with hv | ⟨cls, text, hv, rfl⟩ <;> rw [hv] <;> rfl
  rw [aiohttp_go (by simp [bothTypes]) ht has (by simp [bothTypes]) hm, hc.loads]
  simp only [aiohttpCall, dispatch_known hf, hr, aiohttpAnswer]
  rw [if_pos (by simpa using hm), respond_binary_of (by decide) hb.dumped]

/-- **C151 (aiohttp, partial).** A call of a method that is not registered runs nothing, and the answer is a struct with status 501. -/
theorem C151_aiohttp_unknown_partial {lib : Lib} {A : App} {ms : Methods} {r : Request} {name : Bytes} {xs : List Py} (hc : BinaryCall lib name xs r.body) (ht : r.contentType = some frpcType) (ha : Accepts r frpcType)
    (hf : lookup name ms = none) {body : Bytes}
    (hb : BinaryResult lib (.dict [(.str (asc "status"), .int 501), (.str (asc "statusMessage"), .str (asc "Method '" ++ name ++ asc "' not found."))]) body) :
    aiohttp lib A bothTypes ms r = ⟨[], .message frpcType body.length body⟩ ∧
      lib.loads body = .ok (.dict [(.str (asc "status"), .int 501), (.str (asc "statusMessage"), .str (asc "Method '" ++ name ++ asc "' not found."))], none) := by
  obtain ⟨as, has, hm⟩ := accepts_aiohttp frpc_isType ha
  refine ⟨?_, hb.loads hc.plain⟩
  rw [aiohttp_go (by simp [bothTypes]) ht has (by simp [bothTypes]) hm, hc.loads]
  simp only [aiohttpCall, dispatch_unknown hf, aiohttpAnswer]
  rw [if_pos (by simpa using hm), respond_binary_of (by decide) (show dumpsBinary lib.L lib.strOk 2 1 none (.seq [missing (some name)]) = .ok body from hb.dumped)]

/-- **C151 (Flask, partial).** The same for Flask, under uWSGI when `chunked_read` gives the whole message; the result is completed by its status. Missing: as for aiohttp, other servers (`C151_uwsgi_violated`), and messages in
several chunks (`C151_chunk_violated`). -/
theorem C151_flask_partial {lib : Lib} {A : App} {read : Request → Option Bytes} {ms : Methods} {r : Request} {name : Bytes} {xs : List Py} {data : Bytes} (hread : read r = some data)
    (hc : BinaryCall lib name xs data) (ht : r.contentType = some frpcType) (ha : ∃ a, r.accept = some a ∧ Listed a frpcType) {f : Fn} (hf : lookup name ms = some f) {v : Py}
    (hv : invoke A ms f (backItems xs) = .ok v ∨ ∃ cls text, invoke A ms f (backItems xs) = .error (cls, text) ∧
      v = .dict [(.str (asc "status"), .int 500), (.str (asc "statusMessage"), .str text)]) {body : Bytes} (hb : BinaryResult lib (autostatus v) body) :
    flask lib A (some read) bothTypes ms r = ⟨[(name, backItems xs)], .message frpcType body.length body⟩ ∧ lib.loads body = .ok (back (autostatus v), none) := by
  obtain ⟨a, e, hl⟩ := ha
  have hm : frpcType ∈ flaskAccepts r := by unfold flaskAccepts; rw [e]; exact (listed_iff frpc_isType).1 hl
  refine ⟨?_, hb.loads hc.plain⟩
  have hr : resultOf (invoke A ms f (backItems xs)) = v := by
    rcases hv with hv | ⟨cls, text, hv, rfl⟩ <;> rw [hv] <;> rfl
  have hdata : flaskData (some read) r frpcType = some data := by unfold flaskData; rw [if_pos rfl]; exact hread
  rw [flask_go (by simp [bothTypes]) ht (by simp [bothTypes]) hm, hdata]
  simp only [flaskLoad, hc.loads, flaskCall, dispatch_known hf, hr, flaskAnswer]
  rw [if_pos (by simpa using hm), respond_binary_of (by decide) hb.dumped]

/-- **C151 (Flask, partial).** A call in XML, answered in XML. -/
theorem C151_flask_xml_partial {lib : Lib} (hp : Python.Plain lib.o) (hP : Spec.Xml.Prompt lib.P) {A : App} {uwsgi : Option (Request → Option Bytes)} {ms : Methods} {r : Request}
    (major minor : Int) (hmaj : 0 ≤ major ∧ major ≤ 3) (hmin : 0 ≤ minor) {name : Bytes} (hn : 1 ≤ name.length ∧ name.length ≤ 255) (hnt : Spec.Xml.IsXmlText name ∧ (13 : UInt8) ∉ name)
    {xs : List Py} (hmany : xs.length < 2 ^ 30) (hx : ProperItems xs) (hs : SmallItems xs) (hcar : CarriedItems (Python.textNeed lib.o (Python.versionOf major minor) lib.env lib.dbl) xs)
    (hd : dumpsXml lib.L lib.dbl major minor (some name) (.seq xs) = .ok r.body) (hlen : r.body.length < 2 ^ 32)
    (ht : r.contentType = some xmlType) (ha : ∃ a, r.accept = some a ∧ Listed a xmlType ∧ ¬ Listed a frpcType) {f : Fn} (hf : lookup name ms = some f) {v : Py}
    (hv : invoke A ms f (backItems xs) = .ok v ∨ ∃ cls text, invoke A ms f (backItems xs) = .error (cls, text) ∧
      v = .dict [(.str (asc "status"), .int 500), (.str (asc "statusMessage"), .str text)])
    (hvp : Proper (autostatus v)) (hvs : Small (autostatus v)) (hvc : Carried (Python.textNeed lib.o (Python.versionOf 2 1) lib.env lib.dbl) (autostatus v)) :
    ∃ n body, flask lib A uwsgi bothTypes ms r = ⟨[(name, backItems xs)], .message xmlType n body⟩ ∧ (body.length < 2 ^ 32 → lib.loads body = .ok (back (autostatus v), none)) := by
  obtain ⟨a, e, hl, hnl⟩ := ha
  have hm : xmlType ∈ flaskAccepts r := by unfold flaskAccepts; rw [e]; exact (listed_iff xml_isType).1 hl
  have hnm : ¬ (flaskAccepts r).contains frpcType = true := by
    intro h
    unfold flaskAccepts at h; rw [e] at h
    exact hnl ((listed_iff frpc_isType).2 (by simpa using h))
  have hr : resultOf (invoke A ms f (backItems xs)) = v := by
    rcases hv with hv | ⟨cls, text, hv, rfl⟩ <;> rw [hv] <;> rfl
  obtain ⟨data, hd', hld⟩ := Python.C124_call_partial (o := lib.o) (L := lib.L) (env := lib.env) (P := lib.P) (dbl := lib.dbl) hp hP major minor hmaj hmin name hn hnt xs hmany hx hs hcar
  rw [hd] at hd'; cases hd'
  obtain ⟨body, hb, hlb⟩ := Python.C124_response_partial (o := lib.o) (L := lib.L) (env := lib.env) (P := lib.P) (dbl := lib.dbl) hp hP 2 1 (by decide) (by decide) (autostatus v) hvp hvs hvc
  refine ⟨(Data.str body).len, body, ?_, fun h => hlb h none (by simp)⟩
  have hdata : flaskData uwsgi r xmlType = some r.body := by unfold flaskData; rw [if_neg (by decide)]
  have hl2 : lib.loads r.body = .ok (.tuple (backItems xs), some name) := hld hlen none (by simp)
  rw [flask_go (by simp [bothTypes]) ht (by simp [bothTypes]) hm, hdata]
  simp only [flaskLoad, hl2, flaskCall, dispatch_known hf, hr, flaskAnswer]
  rw [if_neg hnm, respond_text_of hb]

/-- **C151 (Tornado, partial).** The same for Tornado; a method that raises is answered with a fault. Missing: names that are not known (`C151_unknown_violated`), faults that a method raises (`C151_fault_violated`). -/
theorem C151_tornado_partial {lib : Lib} {A : App} {ms : Methods} {r : Request} {name : Bytes} {xs : List Py} (hc : BinaryCall lib name xs r.body) (ht : r.contentType = some frpcType)
    (ha : (∃ a, r.accept = some a ∧ Listed a frpcType) ∨ r.accept = none) {f : Fn} (hf : lookup name ms = some f) :
    (∀ v body, tornadoInvoke A ms f (backItems xs) = .ok v → BinaryResult lib v body →
      tornado lib A ms r = ⟨[(name, backItems xs)], .message frpcType body.length body⟩ ∧ lib.loads body = .ok (back v, none)) ∧
    (∀ cls text body, tornadoInvoke A ms f (backItems xs) = .error (cls, text) → isUtf8 (cls ++ asc ": " ++ text) = true → (cls ++ asc ": " ++ text).length < 2 ^ 30 → body.length < 2 ^ 32 →
      dumpsBinary lib.L lib.strOk 2 1 none (.fault (some (-500)) (some (cls ++ asc ": " ++ text))) = .ok body →
      tornado lib A ms r = ⟨[(name, backItems xs)], .message frpcType body.length body⟩ ∧ lib.loads body = .error (.fault (-500) (cls ++ asc ": " ++ text))) := by
  have hm : frpcType ∈ tornadoAccepts r frpcType := accepts_tornado frpc_isType ht (ha.imp id fun h => ⟨h, rfl⟩)
  have hgo := tornado_go (lib := lib) (A := A) (ms := ms) (by simp [bothTypes]) ht (by simp [bothTypes]) hm
  constructor
  · intro v body hv hb
    refine ⟨?_, hb.loads hc.plain⟩
    rw [hgo, hc.loads]
    simp only [tornadoCall, Option.bind_some, hf, Option.getD_some, argsOf, hv, tornadoParams, tornadoAnswer]
    rw [if_pos (by simpa using hm), respond_binary_of (by decide) hb.dumped]
  · intro cls text body hv hu hl hbl hd
    constructor
    · rw [hgo, hc.loads]
      simp only [tornadoCall, Option.bind_some, hf, Option.getD_some, argsOf, hv, tornadoParams, tornadoAnswer]
      rw [if_pos (by simpa using hm), respond_binary_of (by decide) hd]
    · unfold Lib.loads
      rw [Python.C124_binary_known lib.strOk 2 1 none _ body hbl hd]
      exact Python.C93_fault_partial 2 1 (.inl rfl) (-500) (by unfold IsI32; decide) _ hu hl none body hbl hd

/-- **C151 (Flask).** What is sent of a result: a struct with all its members as they were, completed by `status` 200 if it has no status, and by `statusMessage` OK if it has none and its status is 200; any other result as it is. -/
theorem C151_status (ms : List (Key × Py)) :
    ∃ more, autostatus (.dict ms) = .dict (ms ++ more) ∧
      (more = [] ∨ more = [(.str (asc "status"), .int 200)] ∨ more = [(.str (asc "statusMessage"), .str (asc "OK"))] ∨
        more = [(.str (asc "status"), .int 200), (.str (asc "statusMessage"), .str (asc "OK"))]) ∧
      ((∃ w, (Key.str (asc "status"), w) ∈ ms) ↔ ∀ w, (Key.str (asc "status"), w) ∉ more) ∧
      ((∃ w, (Key.str (asc "statusMessage"), w) ∈ ms) → ∀ w, (Key.str (asc "statusMessage"), w) ∉ more) ∧
      ((∀ w, (Key.str (asc "statusMessage"), w) ∉ ms) → (∀ w, (Key.str (asc "status"), w) ∉ ms) → more = [(.str (asc "status"), .int 200), (.str (asc "statusMessage"), .str (asc "OK"))]) := by
  have hk : ∀ k (l : List (Key × Py)), hasKey k l = true ↔ ∃ w, (Key.str k, w) ∈ l := by
    intro k l
    unfold hasKey
    rw [List.any_eq_true]
    constructor
    · rintro ⟨⟨k', w⟩, h1, h2⟩
      simp only [beq_iff_eq] at h2
      exact ⟨w, h2 ▸ h1⟩
    · rintro ⟨w, h⟩; exact ⟨_, h, by simp⟩
  have hne : Key.str (asc "statusMessage") ≠ Key.str (asc "status") := by decide
  have hne' : Key.str (asc "status") ≠ Key.str (asc "statusMessage") := by decide
  by_cases h1 : hasKey (asc "status") ms = true
  · have e1 : withStatus ms = ms := by unfold withStatus; rw [if_pos h1]
    by_cases h2 : (!hasKey (asc "statusMessage") ms && is200 (item (asc "status") ms)) = true
    · refine ⟨[(.str (asc "statusMessage"), .str (asc "OK"))], ?_, by simp, ?_, ?_, ?_⟩
      · simp only [autostatus, e1, withMessage]; rw [if_pos h2]
      · exact ⟨fun _ w h => by simp only [List.mem_singleton, Prod.mk.injEq] at h; exact hne' h.1, fun _ => (hk _ _).1 h1⟩
      · intro hm
        rw [(hk _ _).2 hm] at h2
        simp at h2
      · intro _ hs
        obtain ⟨w, hw⟩ := (hk _ _).1 h1
        exact absurd hw (hs w)
    · refine ⟨[], ?_, by simp, ?_, by simp, ?_⟩
      · simp only [autostatus, e1, withMessage, List.append_nil]; rw [if_neg h2]
      · exact ⟨fun _ w h => by simp at h, fun _ => (hk _ _).1 h1⟩
      · intro _ hs
        obtain ⟨w, hw⟩ := (hk _ _).1 h1
        exact absurd hw (hs w)
  · have e1 : withStatus ms = ms ++ [(.str (asc "status"), .int 200)] := by unfold withStatus; rw [if_neg h1]
    have hitem : item (asc "status") (ms ++ [(.str (asc "status"), .int 200)]) = some (.int 200) := by
      unfold item
      rw [List.find?_append, List.find?_eq_none.2]
      · rfl
      · intro m hm hh
        simp only [beq_iff_eq] at hh
        exact h1 ((hk _ _).2 ⟨m.2, hh ▸ hm⟩)
    have hmsg : hasKey (asc "statusMessage") (ms ++ [(.str (asc "status"), .int 200)]) = hasKey (asc "statusMessage") ms := by
      unfold hasKey
      rw [List.any_append]
      have : ([((Key.str (asc "status"), Py.int 200) : Key × Py)].any fun m => m.1 == Key.str (asc "statusMessage")) = false := by decide
      rw [this, Bool.or_false]
    have hno : ¬ ∃ w, (Key.str (asc "status"), w) ∈ ms := fun h => h1 ((hk _ _).2 h)
    by_cases h2 : hasKey (asc "statusMessage") ms = true
    · refine ⟨[(.str (asc "status"), .int 200)], ?_, by simp, ?_, ?_, ?_⟩
      · simp only [autostatus, e1, withMessage, hmsg, h2]; rfl
      · exact ⟨fun h => absurd h hno, fun h => absurd (by simp) (h (.int 200))⟩
      · intro _ w h
        simp only [List.mem_singleton, Prod.mk.injEq] at h
        exact hne h.1
      · intro hm
        obtain ⟨w, hw⟩ := (hk _ _).1 h2
        exact absurd hw (hm w)
    · refine ⟨[(.str (asc "status"), .int 200), (.str (asc "statusMessage"), .str (asc "OK"))], ?_, by simp, ?_, ?_, fun _ _ => rfl⟩
      · simp only [autostatus, e1, withMessage, hmsg, hitem, h2, Bool.not_false, Bool.true_and, is200]
        rw [if_pos (by decide), List.append_assoc]; rfl
      · exact ⟨fun h => absurd h hno, fun h => absurd (by simp) (h (.int 200))⟩
      · intro h; exact absurd ((hk _ _).2 h) h2

/-- **C151 is false of faults**: whatever a method raises, the aiohttp and Flask handlers answer with a response and never with a fault, and the only fault of the Tornado handler has the code -500. -/
theorem C151_fault_violated (lib : Lib) (A : App) (uwsgi : Option (Request → Option Bytes)) (allowed : List Bytes) (ms : Methods) (r : Request) {ct body : Bytes} {n : Nat} :
    ((aiohttp lib A allowed ms r).answer = .message ct n body ∨ (flask lib A uwsgi allowed ms r).answer = .message ct n body →
      ∃ v, dumpsBinary lib.L lib.strOk 2 1 none (.seq [v]) = .ok body ∨ dumpsXml lib.L lib.dbl 2 1 none (.seq [v]) = .ok body) ∧
    ((tornado lib A ms r).answer = .message ct n body →
      ∃ p, (dumpsBinary lib.L lib.strOk 2 1 none p = .ok body ∨ dumpsXml lib.L lib.dbl 2 1 none p = .ok body) ∧ ((∃ v, p = .seq [v]) ∨ ∃ text, p = .fault (some (-500)) (some text))) := by
  constructor
  · rintro (h | h)
    · obtain ⟨as, v, _, _, ha⟩ := aiohttp_message h
      unfold aiohttpAnswer at ha
      split at ha
      · exact ⟨v, .inl (respond_binary (by decide) ha).2.2⟩
      · exact ⟨v, .inl (respond_binary (by decide) ha).2.2⟩
    · obtain ⟨v, _, ha⟩ := flask_message h
      unfold flaskAnswer at ha
      split at ha
      · exact ⟨_, .inl (respond_binary (by decide) ha).2.2⟩
      · exact ⟨_, .inr (respond_text ha).2.2⟩
  · intro h
    obtain ⟨t, q, _, _, ha⟩ := tornado_message h
    have hp : (∃ v, tornadoParams q = .seq [v]) ∨ ∃ text, tornadoParams q = .fault (some (-500)) (some text) := by
      cases q with
      | ok v => exact .inl ⟨v, rfl⟩
      | error e => exact .inr ⟨_, rfl⟩
    unfold tornadoAnswer at ha
    split at ha
    · exact ⟨_, .inl (respond_binary (by decide) ha).2.2, hp⟩
    · exact ⟨_, .inr (respond_text ha).2.2, hp⟩

/-- A method that raises a fault is answered by aiohttp with a struct, by Tornado with another fault. -/
example : (aiohttp sampleLib sampleApp bothTypes sampleMethods ⟨none, some frpcType, sampleCall 103 []⟩).runs.length = 1 ∧
    (∃ n b, (aiohttp sampleLib sampleApp bothTypes sampleMethods ⟨none, some frpcType, sampleCall 103 []⟩).answer = .message frpcType n ([0xCA, 0x11, 2, 1, 0x70, 0x50] ++ b)) ∧
    (∃ n b, (tornado sampleLib sampleApp sampleMethods ⟨none, some frpcType, sampleCall 103 []⟩).answer = .message frpcType n ([0xCA, 0x11, 2, 1, 0x78] ++ b)) :=
  ⟨rfl, ⟨_, _, rfl⟩, _, _, rfl⟩

/-- **C151 is false of unknown methods in Tornado**: an exception leaves the handler, and the client gets no message. -/
theorem C151_unknown_violated {lib : Lib} {A : App} {ms : Methods} {r : Request} {name : Bytes} {xs : List Py} (hc : BinaryCall lib name xs r.body) (ht : r.contentType = some frpcType)
    (ha : (∃ a, r.accept = some a ∧ Listed a frpcType) ∨ r.accept = none) (hf : lookup name ms = none) : tornado lib A ms r = ⟨[], .error .raised⟩ := by
  have hm : frpcType ∈ tornadoAccepts r frpcType := accepts_tornado frpc_isType ht (ha.imp id fun h => ⟨h, rfl⟩)
  rw [tornado_go (by simp [bothTypes]) ht (by simp [bothTypes]) hm, hc.loads]
  simp only [tornadoCall, Option.bind_some, hf]

/-- **C151 is false of Flask outside uWSGI**: no binary call is ever run. -/
theorem C151_uwsgi_violated (lib : Lib) (A : App) (allowed : List Bytes) (ms : Methods) (r : Request) (ht : r.contentType = some frpcType) : (flask lib A none allowed ms r).runs = [] := by
  unfold flask
  split
  · rfl
  · rw [ht]
    show (if _ then _ else _ : Done).runs = []
    split
    · rfl
    · have : flaskData none r frpcType = none := by unfold flaskData; rw [if_pos rfl]; rfl
      rw [this]; rfl

/-- **C151 is false of Flask for binary calls in several chunks**: `uwsgi.chunked_read()` gives one chunk, and the method is run with the arguments that are in it. -/
theorem C151_chunk_violated (a : Bytes) (ha : a = asc "application/x-frpc") :
    (flask sampleLib sampleApp (some fun _ => some (sampleCall 102 [0x38, 1])) bothTypes sampleMethods ⟨some a, some frpcType, sampleCall 102 [0x38, 1] ++ [0x38, 2]⟩).runs.map Prod.fst = [asc "f"] ∧
    (flask sampleLib sampleApp (some fun _ => some (sampleCall 102 [0x38, 1])) bothTypes sampleMethods ⟨some a, some frpcType, sampleCall 102 [0x38, 1] ++ [0x38, 2]⟩).answer =
      .message frpcType 9 [0xCA, 0x11, 2, 1, 0x70, 0x58, 1, 0x38, 1] := by
  subst ha; exact ⟨rfl, rfl⟩

/-- A call that arrives and its answer. -/
example : BinaryCall sampleLib (asc "f") [.int 1, .int 2] (sampleCall 102 [0x38, 1, 0x38, 2]) ∧ BinaryResult sampleLib (.list [.int 1, .int 2]) [0xCA, 0x11, 2, 1, 0x70, 0x58, 2, 0x38, 1, 0x38, 2] ∧
    Accepts ⟨none, some frpcType, sampleCall 102 [0x38, 1, 0x38, 2]⟩ frpcType := by
  refine ⟨⟨⟨rfl, rfl⟩, by decide, by decide, by simp [ProperItems, Proper], by simp [SmallItems, Small], ⟨2, 1, .inl rfl, ?_, rfl⟩, by decide⟩, ⟨by simp [ProperItems, Proper], by simp [SmallItems, Small], ?_, rfl, by decide⟩, .inr ⟨by simp, rfl⟩⟩
  · simp [EachItems, Each, Python.backNeed]
  · simp [EachItems, Each, Python.backNeed]

/-! ## C152 -/

namespace Handlers

theorem lookup_register (name : Bytes) (f : Fn) (n : Bytes) : ∀ ms : Methods, lookup n (register name f ms) = if n = name then some f else lookup n ms
  | [] => by
    simp only [register, lookup]
    by_cases h : name = n
    · rw [if_pos h, if_pos h.symm]
    · rw [if_neg h, if_neg (fun e => h e.symm)]
  | (k, g) :: ms => by
    rw [register]
    by_cases h : k = name
    · subst h
      rw [if_pos rfl]
      simp only [lookup]
      by_cases e : k = n
      · rw [if_pos e, if_pos e.symm]
      · rw [if_neg e, if_neg e, if_neg (fun x => e x.symm)]
    · rw [if_neg h]
      simp only [lookup]
      by_cases e : k = n
      · rw [if_pos e, if_pos e, if_neg (fun x => h (e.trans x))]
      · rw [if_neg e, if_neg e, lookup_register name f n ms]

theorem lookup_mem (n : Bytes) : ∀ ms : Methods, (lookup n ms).isSome = true ↔ n ∈ ms.map Prod.fst
  | [] => by simp [lookup]
  | (k, g) :: ms => by
    simp only [lookup, List.map_cons, List.mem_cons]
    by_cases e : k = n
    · rw [if_pos e]; simp [e]
    · rw [if_neg e, lookup_mem n ms]
      exact ⟨.inr, fun h => h.elim (fun x => absurd x.symm e) id⟩

theorem register_names (name : Bytes) (f : Fn) : ∀ ms : Methods, (register name f ms).map Prod.fst = if name ∈ ms.map Prod.fst then ms.map Prod.fst else ms.map Prod.fst ++ [name]
  | [] => by simp [register]
  | (k, g) :: ms => by
    rw [register]
    by_cases h : k = name
    · rw [if_pos h]
      simp [h]
    · rw [if_neg h]
      simp only [List.map_cons, register_names name f ms, List.mem_cons]
      by_cases e : name ∈ ms.map Prod.fst
      · rw [if_pos e, if_pos (.inr e)]
      · rw [if_neg e, if_neg (fun x => x.elim (fun y => h y.symm) e)]; rfl

end Handlers

/-- **C152.** A registered name calls the function that was registered last under it, and what was not registered is not known. -/
theorem C152_last (ms : Methods) (rs : List (Bytes × Fn)) (name : Bytes) :
    lookup name (registerAll ms rs) = ((rs.reverse.find? fun m => m.1 == name).map Prod.snd).or (lookup name ms) := by
  induction rs generalizing ms with
  | nil => simp [registerAll]
  | cons m rs ih =>
    obtain ⟨n, f⟩ := m
    rw [registerAll, ih, lookup_register, List.reverse_cons, List.find?_append]
    cases hf : rs.reverse.find? fun m => m.1 == name with
    | some m => rfl
    | none =>
      by_cases e : n = name
      · subst e
        simp
      · have : (n == name) = false := by simpa using e
        have e' : ¬ name = n := fun h => e h.symm
        simp [this, e']

/-- **C152.** `system.listMethods` of all three handlers lists exactly the registered names, each once, in the order in which they came. -/
theorem C152_lists (A : App) (introspection : Bool) (rs : List (Bytes × Fn)) :
    (∀ ms ∈ [aiohttpInit introspection, flaskInit introspection, []],
      invoke A (registerAll ms rs) .listMethods [] = .ok (.list ((registerAll ms rs).map fun m => .str m.1)) ∧
      tornadoInvoke A (registerAll ms rs) .listMethods [] = .ok (.list ((registerAll ms rs).map fun m => .str m.1)) ∧
      ((registerAll ms rs).map Prod.fst).Nodup ∧
      (∀ n, n ∈ (registerAll ms rs).map Prod.fst ↔ n ∈ ms.map Prod.fst ∨ n ∈ rs.map Prod.fst) ∧
      ∃ more, (registerAll ms rs).map Prod.fst = ms.map Prod.fst ++ more ∧ more.Sublist (rs.map Prod.fst)) := by
  have key : ∀ (rs : List (Bytes × Fn)) (ms : Methods), (ms.map Prod.fst).Nodup → ((registerAll ms rs).map Prod.fst).Nodup ∧
      (∀ n, n ∈ (registerAll ms rs).map Prod.fst ↔ n ∈ ms.map Prod.fst ∨ n ∈ rs.map Prod.fst) ∧
      ∃ more, (registerAll ms rs).map Prod.fst = ms.map Prod.fst ++ more ∧ more.Sublist (rs.map Prod.fst) := by
    intro rs
    induction rs with
    | nil => intro ms h; exact ⟨h, by simp [registerAll], [], by simp [registerAll], by simp⟩
    | cons m rs ih =>
      intro ms h
      obtain ⟨n, f⟩ := m
      rw [registerAll]
      have hn := register_names n f ms
      by_cases e : n ∈ ms.map Prod.fst
      · rw [if_pos e] at hn
        obtain ⟨h1, h2, more, h3, h4⟩ := ih (register n f ms) (by rw [hn]; exact h)
        rw [hn] at h2 h3
        refine ⟨h1, fun k => ?_, more, h3, h4.trans (List.sublist_cons_self _ _)⟩
        rw [h2 k]
        simp only [List.map_cons, List.mem_cons]
        constructor
        · rintro (h | h)
          · exact .inl h
          · exact .inr (.inr h)
        · rintro (h | rfl | h)
          · exact .inl h
          · exact .inl e
          · exact .inr h
      · rw [if_neg e] at hn
        obtain ⟨h1, h2, more, h3, h4⟩ := ih (register n f ms) (by
          rw [hn, List.nodup_append]
          exact ⟨h, by simp, fun a ha b hb => by rw [List.mem_singleton.1 hb]; rintro rfl; exact e ha⟩)
        rw [hn] at h2 h3
        refine ⟨h1, fun k => ?_, n :: more, by rw [h3]; simp, h4.cons_cons _⟩
        rw [h2 k]
        simp only [List.map_cons, List.mem_cons, List.mem_append, List.not_mem_nil, or_false, or_assoc]
  intro ms hms
  have hnd : (ms.map Prod.fst).Nodup := by
    simp only [List.mem_cons, List.not_mem_nil, or_false] at hms
    rcases hms with rfl | rfl | rfl
    · cases introspection <;> decide
    · cases introspection <;> decide
    · decide
  obtain ⟨h1, h2, h3⟩ := key rs ms hnd
  exact ⟨rfl, rfl, h1, h2, h3⟩

/-- **C152.** `system.methodHelp` of a registered name is the documentation of the function called by it; of any other name it is an exception. -/
theorem C152_help (A : App) (ms : Methods) (name : Bytes) :
    (∀ f, lookup name ms = some f → invoke A ms .methodHelp [.str name] = .ok (.str ((A.doc f).getD [])) ∧ (∀ d, A.doc f = some d → tornadoInvoke A ms .methodHelp [.str name] = .ok (.str d)) ∧
      tornadoInvoke A ms .methodSignature [.str name] = .ok (.str ((A.signature f).getD []))) ∧
    (name ∉ ms.map Prod.fst → ∀ g ∈ [Fn.methodHelp, Fn.methodSignature], (∃ e, invoke A ms g [.str name] = .error e) ∧ (∃ e, tornadoInvoke A ms g [.str name] = .error e)) := by
  constructor
  · intro f hf
    refine ⟨?_, fun d hd => ?_, ?_⟩
    · simp only [invoke, helpOf, hf]
    · simp only [tornadoInvoke, tornadoHelp, hf, hd]; rfl
    · simp only [tornadoInvoke, tornadoSignature, hf]
  · intro hn g hg
    have hl : lookup name ms = none := by
      cases h : lookup name ms with
      | none => rfl
      | some f => exact absurd ((lookup_mem name ms).1 (by rw [h]; rfl)) hn
    simp only [List.mem_cons, List.not_mem_nil, or_false] at hg
    rcases hg with rfl | rfl
    · simp only [invoke, tornadoInvoke, helpOf, tornadoHelp, hl]; exact ⟨⟨_, rfl⟩, _, rfl⟩
    · simp only [invoke, tornadoInvoke, tornadoSignature, hl]; exact ⟨⟨_, rfl⟩, _, rfl⟩

/-- **C152 is false of methods without documentation in Tornado**: their help is `None`, which is no text. -/
theorem C152_none_violated (A : App) (ms : Methods) (name : Bytes) (f : Fn) (hf : lookup name ms = some f) (hd : A.doc f = none) :
    tornadoInvoke A ms .methodHelp [.str name] = .ok .none := by
  simp only [tornadoInvoke, tornadoHelp, hf, hd]; rfl

example : (sampleMethods.map Prod.fst) = [asc "system.listMethods", asc "system.methodHelp", asc "f", asc "e", asc "g"] ∧ lookup (asc "f") sampleMethods = some (.user 0) := ⟨rfl, rfl⟩

end Frpc
