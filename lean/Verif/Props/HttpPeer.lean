import Verif.Spec.HttpPeer
import Verif.Props.HttpMessages
import Verif.Props.Url
import Verif.Props.UrlForm
/-!
# Requests and responses of any peer: C73, C74

`readRequest env srv s` reads one request from the connection `s` (the bytes to come `data`, the way they come `sched`); what it leaves in
the server (`Srv`) decides how the answer is sent. `readResponse` is the client's.
-/
namespace Frpc
open Spec HttpIO HttpOut HttpServer Spec.Http

namespace HttpServer

theorem hasSub_iff (pat : Bytes) : ∀ s : Bytes, hasSub pat s = true ↔ Contains pat s
  | [] => by
    unfold hasSub Contains
    constructor
    · intro h; exact ⟨[], [], by simpa using h.symm⟩
    · rintro ⟨a, b, h⟩
      have := congrArg List.length h
      simp only [List.length_nil, List.length_append] at this
      rw [List.isEmpty_iff]; exact List.length_eq_zero_iff.1 (by omega)
  | c :: s => by
    unfold hasSub
    rw [Bool.or_eq_true, hasSub_iff pat s, List.isPrefixOf_iff_prefix]
    constructor
    · rintro (⟨b, h⟩ | ⟨a, b, h⟩)
      · exact ⟨[], b, by simpa using h.symm⟩
      · exact ⟨c :: a, b, by simp [h]⟩
    · rintro ⟨a, b, h⟩
      cases a with
      | nil => exact .inl ⟨b, by simpa using h.symm⟩
      | cons x a => exact .inr ⟨a, b, by simpa using (List.cons.inj h).2⟩

theorem chooseKind_iff (ct : Bytes) (k : Kind) : chooseKind ct = some k ↔ BodyIn ct k := by
  unfold chooseKind
  cases h1 : hasSub (asc "application/x-frpc") ct <;> cases h2 : hasSub (asc "text/xml") ct <;>
    cases h3 : hasSub (asc "application/x-www-form-urlencoded") ct <;> cases h4 : hasSub (asc "application/x-base64-frpc") ct <;>
    cases k <;> simp [BodyIn, ← hasSub_iff, h1, h2, h3, h4]

theorem chooseKind_none (ct : Bytes) : chooseKind ct = none ↔ ∀ k, ¬ BodyIn ct k := by
  constructor
  · intro h k hk
    rw [(chooseKind_iff ct k).2 hk] at h
    cases h
  · intro h
    cases hk : chooseKind ct with
    | none => rfl
    | some k => exact absurd ((chooseKind_iff ct k).1 hk) (h k)

theorem chooseOut_in (useBinary : Bool) (accept : Option Bytes) : AnsweredIn useBinary accept (chooseOut useBinary accept).1 ∧
    ((chooseOut useBinary accept).2 = true ↔ (chooseOut useBinary accept).1 = .binary) := by
  unfold chooseOut
  cases accept with
  | none => simp [AnsweredIn]
  | some a =>
    cases h1 : hasSub (asc "application/x-frpc") a <;> cases h2 : hasSub (asc "application/json") a <;>
      cases h3 : hasSub (asc "application/x-base64-frpc") a <;> cases useBinary <;> simp [AnsweredIn, ← hasSub_iff, h1, h2, h3]

theorem toLower_toUpper (c : UInt8) : toLower (toUpper c) = toLower c := by
  have := forall_byte (fun c => decide (toLower (toUpper c) = toLower c)) (by decide +kernel) c
  simpa using this

theorem upper_eq {v w l : Bytes} (hw : l.map toUpper = w) (hl : lower w = l) : v.map toUpper = w ↔ lower v = l := by
  constructor
  · intro h
    rw [← hl, ← h]
    simp [lower, toLower_toUpper]
  · intro h
    rw [← hw, ← h]
    simp [lower, toUpper_toLower]

theorem mustClose_iff (http11 : Bool) (c : Option Bytes) : mustClose http11 (c.getD []) = false ↔ Persists http11 c := by
  unfold mustClose Persists
  have e1 := fun v => @upper_eq v (asc "CLOSE") (asc "close") (by decide) (by decide)
  have e2 := fun v => @upper_eq v (asc "KEEP-ALIVE") (asc "keep-alive") (by decide) (by decide)
  cases http11 <;> cases c <;> first | (simp [e1, e2]; done) | (simp; decide)

theorem getOr_stored (fs : List (Bytes × Bytes)) (name : Bytes) : getOr (stored fs) name = (field name fs).getD [] := by
  unfold getOr field; rw [get_stored]

/-- The request line of a well-formed request. -/
theorem requestLine_words {method path : Bytes} (hm : IsWord method) (hp : IsWord path) (http11 : Bool) :
    requestLine (method ++ 32 :: (path ++ 32 :: versionText http11)) = .ok (method, path, http11) := by
  have h32 : isSpace 32 = true := by decide
  unfold requestLine
  rw [splitBySpace_eq _ 2 (by omega), words_word hm.1 hm.2 h32, words_word hp.1 hp.2 h32]
  cases http11
  · have h1 : words 0 (versionText false) = [asc "HTTP/1.0"] := by decide +kernel
    have h2 : asc "HTTP/1.0" ≠ asc "HTTP/1.1" := by decide +kernel
    rw [h1]; simp [h2]
  · have h1 : words 0 (versionText true) = [asc "HTTP/1.1"] := by decide +kernel
    rw [h1]; simp

theorem word_lf {w : Bytes} (h : IsWord w) : (10 : UInt8) ∉ w := by
  intro hm; have := h.2 _ hm; revert this; decide

theorem word_last {a w : Bytes} (h : IsWord w) : (a ++ w).getLast? ≠ some 13 := by
  intro hm
  rw [List.getLast?_append] at hm
  cases hv : w.getLast? with
  | none => exact absurd (List.getLast?_eq_none_iff.1 hv) h.1
  | some x =>
    rw [hv] at hm
    simp at hm
    have := h.2 x (List.mem_of_getLast? hv)
    rw [hm] at this
    revert this; decide

theorem version_word (http11 : Bool) : IsWord (versionText http11) := by
  unfold IsWord
  cases http11 <;> decide +kernel

/-- `readRequest` up to the end of the header. -/
theorem readRequest_head_read (env : Env) (srv : Srv) {method path : Bytes} (hm : IsWord method) (hp : IsWord path) (http11 : Bool) (ls : List HLine)
    (hls : ∀ l ∈ ls, l.Ok) (fs : List (Bytes × Bytes)) (hfs : collectFields [] ls = some fs) (after : Bytes) (s : Conn) (hc : Calm s.sched)
    (hd : s.data = requestText method path http11 ls ++ after) :
    ∃ sc, Calm sc ∧ readRequest env srv s = readBody env { srv with close := false, head := false } (method, path, http11) (stored fs) ⟨after, sc, []⟩ := by
  have hsp : asc " " = [32] := by decide +kernel
  obtain ⟨sc1, hc1, hr1⟩ := readLineOpt_crlf_any (srvCfg (fun _ => none)) true true { s with out := [] }
    (method ++ 32 :: (path ++ 32 :: versionText http11)) (blockText ls ++ after) hc
    (by show s.data = _; rw [hd]; unfold requestText; rw [hsp]; simp)
    (by
      have := word_lf hm; have := word_lf hp; have := word_lf (version_word http11)
      simp_all)
    (by
      have e : method ++ 32 :: (path ++ 32 :: versionText http11) = (method ++ 32 :: (path ++ [32])) ++ versionText http11 := by simp
      rw [e]; exact word_last (version_word http11))
    (.inl (by show (-1 : Int) < 0; omega))
  obtain ⟨h1, -⟩ := readHeader_found (srvCfg (fun _ => none)) false ls [] ⟨blockText ls ++ after, sc1, []⟩ after hc1 rfl hls
  obtain ⟨sc2, hc2, hr2⟩ := h1 fs hfs
  refine ⟨sc2, hc2, ?_⟩
  unfold readRequest
  simp only [hr1]
  have hne : method ++ 32 :: (path ++ 32 :: versionText http11) ≠ [] := by simp
  split
  · next heq => simp at heq
  · next heq => simp only [Prod.mk.injEq, Except.ok.injEq] at heq; exact absurd heq.1 hne
  · next line s' heq =>
    simp only [Prod.mk.injEq, Except.ok.injEq] at heq
    obtain ⟨rfl, rfl⟩ := heq
    rw [requestLine_words hm hp]
    simp only
    have hnil : (stored [] : HttpHeader.Fields) = [] := rfl
    rw [hnil] at hr2
    rw [hr2]

theorem framed_stored {fs : List (Bytes × Bytes)} {data body : Bytes} (h : Framed fs data body) :
    (HttpHeader.get (stored fs) (asc "Content-Length") 0 = some (dec [data].flatten.length) ∧ body = [data].flatten) ∨
      (HttpHeader.get (stored fs) (asc "Content-Length") 0 = none ∧
        (∃ v, HttpHeader.get (stored fs) (asc "Transfer-Encoding") 0 = some v ∧ v.map toUpper = asc "CHUNKED") ∧
        ∃ ps, body = chunked ps ∧ (∀ p ∈ ps, p ≠ []) ∧ ps.flatten = [data].flatten) := by
  simp only [get_stored]
  rcases h with ⟨a, b⟩ | ⟨a, ⟨v, b, hv⟩, ps, c, d, e⟩
  · exact .inl ⟨by simpa [field] using a, by simpa using b⟩
  · exact .inr ⟨a, ⟨v, b, (upper_eq (by decide) (by decide)).2 hv⟩, ps, c, d, by simpa using e⟩

end HttpServer

/-- **C73 (any request).** A request of any client – any path, either version of HTTP, any header lines including folded ones, the body by
length or in chunks, delivered in pieces of any size and followed by anything: the server takes the body for what its content type says,
reads it as it is and no byte more, keeps the connection exactly when the client lets it, and will answer in what the client accepts,
in chunks exactly to a client of HTTP/1.1 that gets the binary protocol. -/
theorem C73_any_request (env : Env) (srv : Srv) (path : Bytes) (hp : IsWord path) (http11 : Bool) (ls : List HLine) (hls : ∀ l ∈ ls, l.Ok)
    (fs : List (Bytes × Bytes)) (hfs : collectFields [] ls = some fs) (data body rest : Bytes) (hbody : Framed fs data body) (hlen : data.length < 2 ^ 63)
    (s : Conn) (hc : Calm s.sched) (hd : s.data = requestText (asc "POST") path http11 ls ++ (body ++ rest))
    (kind : HttpServer.Kind) (hkind : BodyIn ((field (asc "Content-Type") fs).getD []) kind)
    (hfeed : ∀ l : List Bytes, (∀ p ∈ l, p ≠ []) → l.flatten <+: data → env.feed kind path l = none) (hfinish : ∀ l : List Bytes, (∀ p ∈ l, p ≠ []) → l.flatten = data → env.finish kind path l = none) :
    ∃ qs srv' s', readRequest env srv s = (.ok (some ⟨kind, path, qs⟩), srv', s') ∧ qs.flatten = data ∧ (∀ q ∈ qs, q ≠ []) ∧ s'.data = rest ∧ Calm s'.sched ∧
      (srv'.close = false ↔ Persists http11 (field (asc "Connection") fs)) ∧ AnsweredIn env.useBinary (field (asc "Accept") fs) srv'.outType ∧
      (srv'.chunks = true ↔ http11 = true ∧ srv'.outType = .binary) ∧ srv'.head = false := by
  obtain ⟨sc, hc1, hr⟩ := readRequest_head_read env srv (method := asc "POST") (by unfold IsWord; decide +kernel) hp http11 ls hls fs hfs (body ++ rest) s hc hd
  obtain ⟨qs, sc2, hc2, hq, hqne, hr2⟩ := readContent_sent (srvCfg (env.feed kind path)) true (stored fs) ⟨body ++ rest, sc, []⟩ [data]
    (fun l hl0 hl => hfeed l hl0 (by simpa using hl)) body rest hc1 rfl rfl (.inl (by show (-1 : Int) < 0; omega)) (by simpa using hlen) (framed_stored hbody)
  have hq : qs.flatten = data := by simpa using hq
  obtain ⟨o1, o2⟩ := chooseOut_in env.useBinary (field (asc "Accept") fs)
  refine ⟨qs, ⟨(chooseOut env.useBinary (field (asc "Accept") fs)).1, (chooseOut env.useBinary (field (asc "Accept") fs)).2 && http11,
    mustClose http11 ((field (asc "Connection") fs).getD []), false⟩, ⟨rest, sc2, qs⟩, ?_, hq, hqne, rfl, hc2, mustClose_iff _ _, o1, ?_, rfl⟩
  · rw [hr]
    unfold readBody
    rw [if_neg (by simp)]
    rw [getOr_stored, (chooseKind_iff _ _).2 hkind]
    simp only
    rw [hr2]
    simp only
    rw [hfinish qs hqne hq]
    simp only [getOr_stored, get_stored, field]
  · simp only [Bool.and_eq_true, o2]
    exact And.comm

/-- **C73 (refused: content type).** A body in anything else is refused before a byte of it is read. -/
theorem C73_unknown_type (env : Env) (srv : Srv) (path : Bytes) (hp : IsWord path) (http11 : Bool) (ls : List HLine) (hls : ∀ l ∈ ls, l.Ok)
    (fs : List (Bytes × Bytes)) (hfs : collectFields [] ls = some fs) (after : Bytes) (s : Conn) (hc : Calm s.sched)
    (hd : s.data = requestText (asc "POST") path http11 ls ++ after) (hkind : ∀ k, ¬ BodyIn ((field (asc "Content-Type") fs).getD []) k) :
    ∃ srv' s', readRequest env srv s = (.error .stream, srv', s') ∧ s'.data = after := by
  obtain ⟨sc, hc1, hr⟩ := readRequest_head_read env srv (method := asc "POST") (by unfold IsWord; decide +kernel) hp http11 ls hls fs hfs after s hc hd
  rw [hr]
  unfold readBody
  rw [if_neg (by simp), getOr_stored, (chooseKind_none _).2 hkind]
  exact ⟨_, _, rfl, rfl⟩

/-- **C73 (other methods).** `HEAD` is answered with a header and the connection is closed; any other method is refused with 405. -/
theorem C73_other_method (env : Env) (srv : Srv) (method path : Bytes) (hm : IsWord method) (hpost : method ≠ asc "POST") (hp : IsWord path) (http11 : Bool)
    (ls : List HLine) (hls : ∀ l ∈ ls, l.Ok) (fs : List (Bytes × Bytes)) (hfs : collectFields [] ls = some fs) (after : Bytes) (s : Conn) (hc : Calm s.sched)
    (hd : s.data = requestText method path http11 ls ++ after) :
    ∃ srv' s', readRequest env srv s = (if method = asc "HEAD" then .ok none else .error (.http 405), srv', s') ∧ s'.data = after ∧
      (srv'.head = true ↔ method = asc "HEAD") ∧ (srv'.close = true ↔ method = asc "HEAD") := by
  obtain ⟨sc, hc1, hr⟩ := readRequest_head_read env srv hm hp http11 ls hls fs hfs after s hc hd
  rw [hr]
  unfold readBody
  rw [if_pos hpost]
  by_cases hh : method = asc "HEAD"
  · rw [if_pos hh, if_pos hh]; exact ⟨_, _, rfl, rfl, ⟨fun _ => hh, fun _ => rfl⟩, ⟨fun _ => hh, fun _ => rfl⟩⟩
  · rw [if_neg hh, if_neg hh]; exact ⟨_, _, rfl, rfl, ⟨fun h => absurd h (by simp), fun h => absurd h hh⟩, ⟨fun h => absurd h (by simp), fun h => absurd h hh⟩⟩

namespace HttpServer

theorem readRequest_line (env : Env) (srv : Srv) (line : Bytes) (hne : line ≠ []) (h10 : (10 : UInt8) ∉ line) (h13 : line.getLast? ≠ some 13) (after : Bytes)
    (s : Conn) (hc : Calm s.sched) (hd : s.data = line ++ (crlf ++ after)) (e : ReqErr) (he : requestLine line = .error e) :
    (readRequest env srv s).1 = .error e := by
  obtain ⟨sc1, hc1, hr1⟩ := readLineOpt_crlf_any (srvCfg (fun _ => none)) true true { s with out := [] } line after hc hd h10 h13
    (.inl (by show (-1 : Int) < 0; omega))
  unfold readRequest
  simp only [hr1]
  cases line with
  | nil => exact absurd rfl hne
  | cons a l => simp only [he]

end HttpServer

/-- **C73 (other versions).** Whatever the third part of the request line is, but the two versions, it is refused with 505. -/
theorem C73_other_version (env : Env) (srv : Srv) (method path version : Bytes) (hm : IsWord method) (hp : IsWord path) (hv : version ≠ [])
    (h10 : (10 : UInt8) ∉ version) (h13 : version.getLast? ≠ some 13) (hno : ∀ http11, version ≠ versionText http11) (after : Bytes) (s : Conn)
    (hc : Calm s.sched) (hd : s.data = method ++ asc " " ++ path ++ asc " " ++ version ++ crlf ++ after) :
    (readRequest env srv s).1 = .error (.http 505) := by
  have hsp : asc " " = [32] := by decide +kernel
  have h32 : isSpace 32 = true := by decide
  refine readRequest_line env srv (method ++ 32 :: (path ++ 32 :: version)) (by simp) ?_ ?_ after s hc (by rw [hd, hsp]; simp) _ ?_
  · have := word_lf hm; have := word_lf hp
    simp_all
  · have e : method ++ 32 :: (path ++ 32 :: version) = (method ++ 32 :: (path ++ [32])) ++ version := by simp
    rw [e, List.getLast?_append]
    cases hl : version.getLast? with
    | none => exact absurd (List.getLast?_eq_none_iff.1 hl) hv
    | some x => rw [hl] at h13; simpa using h13
  · have h1 := hno true
    have h0 := hno false
    unfold versionText at h1 h0
    unfold requestLine
    rw [splitBySpace_eq _ 2 (by omega), words_word hm.1 hm.2 h32, words_word hp.1 hp.2 h32]
    simp_all [words]

/-- **C73 (bad request line).** A line that has not three parts is refused with 400. -/
theorem C73_bad_line (env : Env) (srv : Srv) (line : Bytes) (hne : line ≠ []) (h10 : (10 : UInt8) ∉ line) (h13 : line.getLast? ≠ some 13)
    (hw : (words 2 line).length ≠ 3) (after : Bytes) (s : Conn) (hc : Calm s.sched) (hd : s.data = line ++ crlf ++ after) :
    (readRequest env srv s).1 = .error (.http 400) := by
  refine readRequest_line env srv line hne h10 h13 after s hc (by rw [hd]; simp) _ ?_
  unfold requestLine
  rw [splitBySpace_eq _ 2 (by omega)]
  split
  · next heq => cases heq
  · next heq =>
    simp only [Except.ok.injEq] at heq
    rw [heq] at hw
    exact absurd rfl hw
  · rfl

/-! ## Responses -/

namespace HttpServer

theorem readInt_dec {n : Nat} (h : n < 2 ^ 31) : readInt (dec n) = n := by
  obtain ⟨h1, h2⟩ := dec_digits' n
  have plain : ∀ c ∈ dec n, isSpace c = false ∧ c ≠ 45 ∧ c ≠ 43 ∧ c ≠ 120 ∧ c ≠ 88 := by
    intro c hc; obtain ⟨d, h1, -⟩ := h1 c hc; exact hexDigit_plain h1
  have hl : 0 < (dec n).length := List.length_pos_iff.2 (dec_ne_nil n)
  have hx := readDigits_exact 10 (dec n) h1
  rw [h2] at hx
  clear h1 h2
  revert plain hx hl
  generalize dec n = s
  intro plain hl hx
  have hdw : s.dropWhile isSpace = s := by
    cases s with
    | nil => rfl
    | cons c s => simp [(plain c (by simp)).1]
  have hsg : takeSign s = (false, s) := by
    unfold takeSign
    split
    · exact absurd rfl (plain 45 (by simp)).2.1
    · exact absurd rfl (plain 43 (by simp)).2.2.1
    · rfl
  unfold readInt
  simp only [hdw, hsg, hx]
  rw [if_neg (by omega), if_neg (by simp; omega), if_neg (by simp)]
  simp

theorem statusLine_blank (cfg : Cfg) (hl : cfg.lineLimit < 0 ∨ 2 ≤ cfg.lineLimit) (after : Bytes) : ∀ (blank f : Nat) (s : Conn), Calm s.sched →
    s.data = (List.replicate blank crlf).flatten ++ after →
    ∃ sc, Calm sc ∧ statusLine cfg (blank + f) s = statusLine cfg f ⟨after, sc, s.out⟩
  | 0, f, s, hc, hd => ⟨s.sched, hc, by
    have : s = ⟨after, s.sched, s.out⟩ := by cases s; simp_all
    rw [Nat.zero_add, ← this]⟩
  | b + 1, f, s, hc, hd => by
    obtain ⟨sc, hc1, hr⟩ := readLineOpt_crlf_any cfg true false s [] ((List.replicate b crlf).flatten ++ after) hc
      (by rw [hd]; simp [List.replicate_succ]) (by simp) (by simp) (by simpa using hl)
    obtain ⟨sc2, hc2, hr2⟩ := statusLine_blank cfg hl after b f ⟨(List.replicate b crlf).flatten ++ after, sc, s.out⟩ hc1 rfl
    refine ⟨sc2, hc2, ?_⟩
    rw [show b + 1 + f = (b + f) + 1 by omega]
    rw [statusLine]
    unfold readLine
    rw [hr]
    exact hr2

theorem dec_word (n : Nat) : IsWord (dec n) := by
  refine ⟨dec_ne_nil n, fun c hc => ?_⟩
  obtain ⟨d, h, -⟩ := (dec_digits' n).1 c hc
  exact (hexDigit_plain h).1

theorem statusLine_words (cfg : Cfg) (http11 : Bool) (n : Nat) (hn : n < 2 ^ 31) (reason : Bytes) (hr : reason ≠ []) (h10 : (10 : UInt8) ∉ reason)
    (h13 : reason.getLast? ≠ some 13) (f : Nat) (s : Conn) (hc : Calm s.sched) (after : Bytes)
    (hl : cfg.lineLimit < 0 ∨ ((dec n).length + reason.length + 12 : Int) ≤ cfg.lineLimit)
    (hd : s.data = versionText http11 ++ asc " " ++ dec n ++ asc " " ++ reason ++ crlf ++ after) :
    ∃ sc, Calm sc ∧ statusLine cfg (f + 1) s = (if n = 200 then .ok http11 else .error (.http n reason), ⟨after, sc, s.out⟩) := by
  have hsp : asc " " = [32] := by decide +kernel
  have h32 : isSpace 32 = true := by decide
  have hv := version_word http11
  obtain ⟨sc1, hc1, hr1⟩ := readLineOpt_crlf_any cfg true false s (versionText http11 ++ 32 :: (dec n ++ 32 :: reason)) after hc
    (by rw [hd, hsp]; simp)
    (by have := word_lf hv; have := word_lf (dec_word n); simp_all)
    (by
      have e : versionText http11 ++ 32 :: (dec n ++ 32 :: reason) = (versionText http11 ++ 32 :: (dec n ++ [32])) ++ reason := by simp
      rw [e, List.getLast?_append]
      cases hl : reason.getLast? with
      | none => exact absurd (List.getLast?_eq_none_iff.1 hl) hr
      | some x => rw [hl] at h13; simpa using h13)
    (by
      have : (versionText http11).length = 8 := by cases http11 <;> decide
      simp only [List.length_append, List.length_cons, this]
      omega)
  refine ⟨sc1, hc1, ?_⟩
  rw [statusLine]
  unfold readLine
  rw [hr1]
  split
  · next heq => simp at heq
  · next heq => simp at heq
  · next line s' heq =>
    simp only [Prod.mk.injEq, Except.ok.injEq] at heq
    obtain ⟨rfl, rfl⟩ := heq
    rw [splitBySpace_eq _ 2 (by omega), words_word hv.1 hv.2 h32, words_word (dec_word n).1 (dec_word n).2 h32]
    have : words 0 reason = [reason] := by simp [words, hr]
    rw [this]
    simp only [readInt_dec hn]
    have hd' : ¬ asc "HTTP/1.0" = asc "HTTP/1.1" := by decide +kernel
    by_cases h2 : n = 200
    · subst h2
      cases http11 <;> simp [versionText, hd']
    · have : (n : Int) ≠ 200 := by omega
      cases http11 <;> simp [versionText, h2, this]

theorem response_status (limits : Int × Int) (blank : Nat) (http11 : Bool) (n : Nat) (hn : n < 2 ^ 31) (reason : Bytes) (hr : reason ≠ [])
    (h10 : (10 : UInt8) ∉ reason) (h13 : reason.getLast? ≠ some 13) (hl : limits.1 < 0 ∨ ((dec n).length + reason.length + 12 : Int) ≤ limits.1)
    (after : Bytes) (s : Conn) (hc : Calm s.sched)
    (hd : s.data = (List.replicate blank crlf).flatten ++ (versionText http11 ++ asc " " ++ dec n ++ asc " " ++ reason ++ crlf ++ after)) :
    ∃ sc, Calm sc ∧ statusLine ⟨limits.1, limits.2, fun _ => none⟩ (s.data.length + 1) { s with out := [] } =
      (if n = 200 then .ok http11 else .error (.http n reason), ⟨after, sc, []⟩) := by
  have hlen : ∃ f, s.data.length + 1 = blank + (f + 1) := by
    refine ⟨s.data.length - blank, ?_⟩
    have : (List.replicate blank crlf).flatten.length = 2 * blank := by simp [crlf, Nat.mul_comm]
    have : blank ≤ s.data.length := by rw [hd, List.length_append, this]; omega
    omega
  obtain ⟨f, hf⟩ := hlen
  obtain ⟨sc, h1, h2⟩ := statusLine_blank ⟨limits.1, limits.2, fun _ => none⟩ (by simp only; omega) _ blank (f + 1) { s with out := [] } hc hd
  obtain ⟨sc', h3, h4⟩ := statusLine_words ⟨limits.1, limits.2, fun _ => none⟩ http11 n hn reason hr h10 h13 f
    ⟨versionText http11 ++ asc " " ++ dec n ++ asc " " ++ reason ++ crlf ++ after, sc, []⟩ h1 after hl rfl
  exact ⟨sc', h3, by rw [hf, h2, h4]⟩

end HttpServer

/-- **C74 (any response).** A response of any server with status 200 – after any number of empty lines, either version of HTTP, any reason,
any header lines, the body by length or in chunks, in pieces of any size and followed by anything: the client takes the body for what its
content type says, reads it as it is and no byte more, and keeps the connection exactly when it wants to and the server lets it. -/
theorem C74_any_response (limits : Int × Int) (feed finish : HttpServer.Kind → List Bytes → Option Err) (keepAlive : Bool) (blank : Nat) (http11 : Bool)
    (reason : Bytes) (hr : reason ≠ []) (h10 : (10 : UInt8) ∉ reason) (h13 : reason.getLast? ≠ some 13) (ls : List HLine) (hls : ∀ l ∈ ls, l.Ok)
    (fs : List (Bytes × Bytes)) (hfs : collectFields [] ls = some fs) (data body rest : Bytes) (hbody : Framed fs data body) (hlen : data.length < 2 ^ 63)
    (hline : limits.1 < 0 ∨ (reason.length + 15 : Int) ≤ limits.1) (hfit : limits.2 < 0 ∨ (data.length : Int) ≤ limits.2 ∧ limits.2 < 2 ^ 31)
    (s : Conn) (hc : Calm s.sched) (hd : s.data = responseText blank http11 (dec 200) reason ls ++ (body ++ rest))
    (kind : HttpServer.Kind) (hkind : ResponseIn ((field (asc "Content-Type") fs).getD []) kind)
    (hfeed : ∀ l : List Bytes, (∀ p ∈ l, p ≠ []) → l.flatten <+: data → feed kind l = none) (hfinish : ∀ l : List Bytes, (∀ p ∈ l, p ≠ []) → l.flatten = data → finish kind l = none) :
    ∃ r s', readResponse limits feed finish keepAlive s = (.ok r, s') ∧ r.kind = kind ∧ r.body.flatten = data ∧ (∀ p ∈ r.body, p ≠ []) ∧ s'.data = rest ∧ Calm s'.sched ∧
      (r.close = false ↔ keepAlive = true ∧ Persists http11 (field (asc "Connection") fs)) ∧
      (r.accepts = none ↔ field (asc "Accept") fs = none) ∧
      ∀ x b, r.accepts = some (x, b) → ∃ a, field (asc "Accept") fs = some a ∧ (x = true ↔ Contains (asc "text/xml") a) ∧
        (b = true ↔ Contains (asc "application/x-frpc") a) := by
  obtain ⟨sc1, hc1, hr1⟩ := response_status limits blank http11 200 (by decide) reason hr h10 h13
    (by have : (dec 200).length = 3 := by decide +kernel
        rw [this]; omega) (blockText ls ++ (body ++ rest)) s hc (by rw [hd]; unfold responseText; simp)
  obtain ⟨h1, -⟩ := readHeader_found ⟨limits.1, limits.2, fun _ => none⟩ false ls [] ⟨blockText ls ++ (body ++ rest), sc1, []⟩ (body ++ rest) hc1 rfl hls
  obtain ⟨sc2, hc2, hr2⟩ := h1 fs hfs
  obtain ⟨qs, sc3, hc3, hq, hqne, hr3⟩ := readContent_sent ⟨limits.1, limits.2, feed kind⟩ false (stored fs) ⟨body ++ rest, sc2, []⟩ [data]
    (fun l hl0 hl => hfeed l hl0 (by simpa using hl)) body rest hc2 rfl rfl (by simpa using hfit) (by simpa using hlen) (framed_stored hbody)
  have hq : qs.flatten = data := by simpa using hq
  have hk : (if hasSub (asc "text/xml") ((field (asc "Content-Type") fs).getD []) = true then some Kind.xml
      else if hasSub (asc "application/x-frpc") ((field (asc "Content-Type") fs).getD []) = true then some .binary else none) = some kind := by
    cases kind <;> simp [ResponseIn, ← hasSub_iff] at hkind <;> simp [hkind]
  refine ⟨⟨kind, qs, (field (asc "Accept") fs).map (fun a => (hasSub (asc "text/xml") a, hasSub (asc "application/x-frpc") a)),
    !keepAlive || mustClose http11 ((field (asc "Connection") fs).getD [])⟩, ⟨rest, sc3, qs⟩, ?_, rfl, hq, hqne, rfl, hc3, ?_, ?_, ?_⟩
  · unfold readResponse
    simp only
    rw [hr1, if_pos rfl]
    simp only
    have hnil : (stored [] : HttpHeader.Fields) = [] := rfl
    rw [hnil] at hr2
    rw [hr2]
    simp only [readAnswer, getOr_stored]
    rw [hk]
    simp only
    rw [hr3]
    simp only
    rw [hfinish qs hqne hq]
    simp only [get_stored, getOr_stored, field]
  · simp only [Bool.or_eq_false_iff, mustClose_iff]; simp
  · simp
  · intro x b h
    simp only [Option.map_eq_some_iff, Prod.mk.injEq] at h
    obtain ⟨a, h1, rfl, rfl⟩ := h
    exact ⟨a, h1, hasSub_iff _ _, hasSub_iff _ _⟩

/-- **C74 (errors).** With any other status the call fails with that number and the reason the server gave; nothing after the line is
taken for an answer. -/
theorem C74_other_status (limits : Int × Int) (feed finish : HttpServer.Kind → List Bytes → Option Err) (keepAlive : Bool) (blank : Nat) (http11 : Bool)
    (n : Nat) (hn : n < 2 ^ 31) (hno : n ≠ 200) (reason : Bytes) (hr : reason ≠ []) (h10 : (10 : UInt8) ∉ reason) (h13 : reason.getLast? ≠ some 13)
    (hline : limits.1 < 0 ∨ ((dec n).length + reason.length + 12 : Int) ≤ limits.1)
    (ls : List HLine) (after : Bytes) (s : Conn) (hc : Calm s.sched) (hd : s.data = responseText blank http11 (dec n) reason ls ++ after) :
    (readResponse limits feed finish keepAlive s).1 = .error (.http n reason) := by
  obtain ⟨sc1, hc1, hr1⟩ := response_status limits blank http11 n hn reason hr h10 h13 hline (blockText ls ++ after) s hc
    (by rw [hd]; unfold responseText; simp)
  unfold readResponse
  simp only
  rw [hr1, if_neg hno]

/-- **C74 is violated** by an empty reason, which RFC 7230 (3.1.2) allows: the response is refused. -/
theorem C74_empty_reason_violated (limits : Int × Int) (hline : limits.1 < 0 ∨ 15 ≤ limits.1) (feed finish : HttpServer.Kind → List Bytes → Option Err) (keepAlive : Bool) (after : Bytes)
    (s : Conn) (hc : Calm s.sched) (hd : s.data = asc "HTTP/1.1 200 " ++ crlf ++ after) :
    (readResponse limits feed finish keepAlive s).1 = .error (.http 0 []) := by
  obtain ⟨sc1, hc1, hr1⟩ := readLineOpt_crlf_any ⟨limits.1, limits.2, fun _ => none⟩ true false { s with out := [] } (asc "HTTP/1.1 200 ") after hc
    (by show s.data = _; rw [hd]; simp) (by decide) (by decide) (by rw [show (asc "HTTP/1.1 200 ").length = 13 by decide]; simpa using hline)
  have h : splitBySpace (asc "HTTP/1.1 200 ") 3 = .ok [asc "HTTP/1.1", asc "200"] := by decide +kernel
  have hs : statusLine ⟨limits.1, limits.2, fun _ => none⟩ (s.data.length + 1) { s with out := [] } = (.error (.http 0 []), ⟨after, sc1, []⟩) := by
    rw [statusLine]
    unfold readLine
    rw [hr1]
    split
    · next heq => simp at heq
    · next heq =>
      simp only [Prod.mk.injEq, Except.ok.injEq] at heq
      exact absurd heq.1 (by decide)
    · next line s' heq =>
      simp only [Prod.mk.injEq, Except.ok.injEq] at heq
      obtain ⟨rfl, rfl⟩ := heq
      rw [h]
  unfold readResponse
  simp only
  rw [hs]

/-! ## The target of a request -/

/-- **C75.** The request to the URL `scheme://host[:port]path` names its path in the request line (`/` if it has none), and with HTTP/1.1 its host and
port in the `Host` field. (Missing: port 0, which the code takes for a unix socket; a `]` in the path, as in C56.) -/
theorem C75_target_partial (ssl : Bool) (scheme host path : Bytes) (port : Option Nat)
    (hs : IsScheme ssl scheme) (hh : HostOk host) (hp : path = [] ∨ path.head? = some 47)
    (hport : ∀ p, port = some p → 0 < p ∧ p ≤ 65535) (hb : port ≠ none → 93 ∉ host → 93 ∉ path) :
    ∃ u, Url.make (scheme ++ host ++ portText port ++ path) [] = .ok u ∧ ∀ binary keepAlive chunks custom total,
      (∃ fs, clientHead (clientFor u false binary keepAlive chunks custom) total =
        asc "POST " ++ (if path = [] then asc "/" else path) ++ asc " HTTP/1.1\r\nHost: " ++ host ++ asc ":" ++ dec (portOf ssl port) ++ asc "\r\n" ++ fs) ∧
      ∃ fs, clientHead (clientFor u true binary keepAlive chunks custom) total = asc "POST " ++ (if path = [] then asc "/" else path) ++ asc " HTTP/1.0\r\n" ++ fs := by
  have hpp : portOf ssl port ≠ 0 := by
    cases port with
    | none => cases ssl <;> simp [portOf]
    | some p => have := hport p rfl; simp [portOf]; omega
  refine ⟨_, by unfold Url.make; rw [if_pos rfl]; exact C56_parse_partial ssl scheme host path port hs hh hp (fun p h => (hport p h).2) hb, ?_⟩
  intro binary keepAlive chunks custom total
  have e1 : asc " HTTP/1.1\r\nHost: " = asc " " ++ asc "HTTP/1.1" ++ asc "\r\n" ++ asc "Host" ++ asc ": " := by decide
  have e2 : asc ":" = [58] := by decide
  have e3 : asc " HTTP/1.0\r\n" = asc " " ++ asc "HTTP/1.0" ++ asc "\r\n" := by decide
  rw [e1, e2, e3]
  unfold clientHead clientFor clientTarget clientFields
  rw [if_neg hpp]
  constructor
  · simp only [Bool.false_eq_true, if_false, List.cons_append, List.nil_append, List.flatMap_cons, headLine, List.append_assoc]
    exact ⟨_, rfl⟩
  · simp only [if_true, List.append_assoc]
    exact ⟨_, rfl⟩

/-- **C75 (through a proxy).** The request line names the whole URL. -/
theorem C75_proxy (url proxy : Bytes) (h : proxy ≠ []) (u : Url.Url) (hu : Url.make url proxy = .ok u) (hport : u.port ≠ 0)
    (binary keepAlive chunks http10 : Bool) (custom : List (Bytes × Bytes)) (total : Nat) :
    ∃ fs, clientHead (clientFor u http10 binary keepAlive chunks custom) total = asc "POST " ++ url ++ asc " " ++ fs := by
  have hx : u.path = url := by
    unfold Url.make at hu
    rw [if_neg h] at hu
    split at hu
    · cases hu
    · cases hu; rfl
  unfold clientHead clientFor clientTarget
  rw [if_neg hport]
  simp only [hx, List.append_assoc]
  exact ⟨_, rfl⟩

/-- **C75 is violated** through a proxy: `Host` must be the host of the target (RFC 7230, 5.4), and is that of the proxy. -/
theorem C75_proxy_host_violated : ∃ u, Url.make (asc "http://target/x") (asc "http://proxy:3128") = .ok u ∧
    clientHead (clientFor u false true true true []) 0 = asc "POST http://target/x HTTP/1.1\r\nHost: proxy:3128\r\nContent-Type: application/x-frpc\r\n" ++
      asc "Accept: text/xml, application/x-frpc\r\nConnection: keep-alive\r\nTransfer-Encoding: chunked\r\n\r\n" :=
  ⟨⟨asc "proxy", 3128, asc "http://target/x", true, false⟩, by decide +kernel, by decide +kernel⟩

/-- **C34 (the method).** The path `/a/b/c` of a URL-encoded request names the method `a.b.c`; without a path it is `RPC2`. -/
theorem C34_method_name (env : UrlForm.Env) (segs : List Bytes) (hne : segs ≠ []) (hs : ∀ s ∈ segs, 47 ∉ s) (ds : List Bytes) :
    (UrlForm.run env (segs.flatMap (47 :: ·)) ds).1.head? = some (.methodCall (List.intercalate [46] segs)) ∧
    (UrlForm.run env [] ds).1.head? = some (.methodCall (asc "RPC2")) := by
  have hm : ∀ path, (UrlForm.run env path ds).1.head? = some (.methodCall (UrlForm.methodOf path)) := by
    intro path
    unfold UrlForm.run UrlForm.finish UrlForm.andThen
    simp
  have hmap : ∀ s : Bytes, 47 ∉ s → s.map (fun c => if c = 47 then 46 else c) = s := by
    intro s h
    conv => rhs; rw [← List.map_id s]
    refine List.map_congr_left (fun c hc => ?_)
    rw [if_neg (by rintro rfl; exact h hc)]; rfl
  have hrest : ∀ ss : List Bytes, (∀ s ∈ ss, 47 ∉ s) →
      (ss.flatMap (47 :: ·)).map (fun c => if c = 47 then 46 else c) = ss.flatMap (46 :: ·) := by
    intro ss
    induction ss with
    | nil => intro _; rfl
    | cons a ss ih =>
      intro h
      simp only [List.flatMap_cons, List.map_append, List.map_cons, if_true]
      rw [ih (fun s hs => h s (by simp [hs])), hmap a (h a (by simp))]
  have hic : ∀ (ss : List Bytes) (a : Bytes), List.intercalate [46] (a :: ss) = a ++ ss.flatMap (46 :: ·) := by
    intro ss
    induction ss with
    | nil => intro a; simp [List.intercalate]
    | cons b ss ih =>
      intro a
      have := ih b
      simp only [List.intercalate, List.intersperse, List.flatten_cons, List.flatMap_cons] at this ⊢
      rw [this]; simp
  refine ⟨?_, by rw [hm]; rfl⟩
  rw [hm]
  congr 2
  cases segs with
  | nil => exact absurd rfl hne
  | cons a ss =>
    unfold UrlForm.methodOf
    rw [if_neg (by simp), hic]
    simp only [List.flatMap_cons, List.cons_append, List.drop_succ_cons, List.drop_zero, List.map_append]
    rw [hmap a (hs a (by simp)), hrest ss (fun s h => hs s (by simp [h]))]

/-! ## Examples -/

example : collectFields [] [.field (asc "Content-Type") (asc " text/xml"), .field (asc "CONNECTION") (asc " Keep-Alive "), .field (asc "Accept") (asc " a,"), .more 32 (asc "application/x-frpc"),
    .field (asc "Content-Length") (asc " 3")] =
    some [(asc "Content-Type", asc "text/xml"), (asc "CONNECTION", asc "Keep-Alive"), (asc "Accept", asc "a, application/x-frpc"), (asc "Content-Length", asc "3")] := by decide +kernel

/-- The fields of that block. -/
def peerFields : List (Bytes × Bytes) :=
  [(asc "Content-Type", asc "text/xml"), (asc "CONNECTION", asc "Keep-Alive"), (asc "Accept", asc "a, application/x-frpc"), (asc "Content-Length", asc "3")]

example : Framed peerFields [1, 2, 3] [1, 2, 3] := .inl ⟨by decide +kernel, rfl⟩
example : Persists false (field (asc "Connection") peerFields) := ⟨asc "Keep-Alive", by decide +kernel, by decide⟩
example : BodyIn ((field (asc "Content-Type") peerFields).getD []) .xml := (chooseKind_iff _ _).1 (by decide +kernel)
example : AnsweredIn true (field (asc "Accept") peerFields) .binary := ⟨rfl, _, rfl, asc "a, ", [], by decide +kernel⟩
example : [asc "math", asc "add"].flatMap (47 :: ·) = asc "/math/add" ∧ List.intercalate [46] [asc "math", asc "add"] = asc "math.add" := by decide
example : (words 2 (asc "GET /")).length ≠ 3 := by decide

end Frpc
