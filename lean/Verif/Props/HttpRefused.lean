import Verif.Props.HttpPeer
/-!
# C73 and C142: content that the unmarshaller refuses, and the answers to `HEAD`
-/
namespace Frpc
open HttpIO HttpServer Spec Spec.Http

namespace HttpServer

theorem readBlockLoop_refused (cfg : Cfg) (hlim : cfg.bodyLimit = -1) (D : Bytes) (e : Err) (hbad : ∀ l : List Bytes, (∀ p ∈ l, p ≠ []) → l.flatten = D → cfg.sink l ≠ none)
    (honly : ∀ l x, cfg.sink l = some x → x = e) : ∀ (f n : Nat) (s : Conn), 0 < n → Calm s.sched → n ≤ s.data.length → s.data.length < f →
    s.out.flatten ++ s.data.take n = D → (∀ p ∈ s.out, p ≠ []) → (readBlockLoop cfg f (some n) s).1 = .error (.sink e) := by
  intro f
  induction f with
  | zero => intro n s _ _ _ h; omega
  | succ f ih =>
    intro n s hn hc hd hf hT hout
    obtain ⟨a, sc, h1, h2, h3⟩ := hc.poll
    have ha : 0 < a := by
      rcases h3 with h3 | h3
      · exact h3
      · rw [h3] at hd; simp at hd; omega
    unfold readBlockLoop
    rw [h1]
    simp only [Option.map_some, Option.some.injEq]
    have htr : (if n > BUFF then BUFF else n) ≤ n ∧ 0 < (if n > BUFF then BUFF else n) := by unfold BUFF; split <;> omega
    generalize (if n > BUFF then BUFF else n) = tr at htr
    have hlen : (s.data.take (min a tr)).length = min a tr := by simp; omega
    have hne : s.data.take (min a tr) ≠ [] := by
      intro h; rw [h] at hlen; simp at hlen; omega
    rw [if_neg hne]
    have hbuf : ∀ m, s.data.take (min a tr + m) = s.data.take (min a tr) ++ (s.data.drop (min a tr)).take m := by
      intro m; rw [List.take_add]
    rw [if_neg (by rw [hlim]; simp [over])]
    have hout1 : ∀ p ∈ s.out ++ [s.data.take (min a tr)], p ≠ [] := by
      intro p hp
      rcases List.mem_append.1 hp with hp | hp
      · exact hout p hp
      · rw [List.mem_singleton.1 hp]; exact hne
    cases hs : cfg.sink (s.out ++ [s.data.take (min a tr)]) with
    | some x => simp only [sinkWrite, hs, honly _ _ hs]
    | none =>
      simp only [sinkWrite, hs, hlen]
      by_cases hz : n - min a tr = 0
      · have : min a tr = n := by omega
        rw [this] at hs
        rw [this] at hout1
        exact absurd hs (hbad _ hout1 (by simpa using hT))
      · rw [if_neg hz]
        refine ih (n - min a tr) _ (by omega) h2 (by simp; omega) (by simp; omega) ?_ hout1
        have e : n = min a tr + (n - min a tr) := by omega
        rw [← hT]
        conv => rhs; rw [e, hbuf]
        simp

end HttpServer

/-- **C73 (refused content).** A request whose body the unmarshaller refuses, wherever the stream is cut: if what it throws is a stream error, the request is answered as malformed; any other exception
leaves `readRequest` as it is, and `serve` with it. -/
theorem C73_refused_content (env : Env) (srv : Srv) (path : Bytes) (hp : IsWord path) (http11 : Bool) (ls : List HLine) (hls : ∀ l ∈ ls, l.Ok)
    (fs : List (Bytes × Bytes)) (hfs : collectFields [] ls = some fs) (data rest : Bytes) (hne : data ≠ []) (hbody : field (asc "Content-Length") fs = some (dec data.length)) (hlen : data.length < 2 ^ 63)
    (s : Conn) (hc : Calm s.sched) (hd : s.data = requestText (asc "POST") path http11 ls ++ (data ++ rest))
    (kind : HttpServer.Kind) (hkind : BodyIn ((field (asc "Content-Type") fs).getD []) kind) (e : Err)
    (hfeed : ∀ l : List Bytes, (∀ p ∈ l, p ≠ []) → l.flatten = data → env.feed kind path l ≠ none) (honly : ∀ l x, env.feed kind path l = some x → x = e) :
    (readRequest env srv s).1 = .error (if e = .stream then .stream else .other e) ∧
    (e ≠ .stream → ∀ reg, serve env reg srv s = ([], some (.other e))) := by
  have key : ∀ srv, (readRequest env srv s).1 = .error (if e = .stream then .stream else .other e) := by
    intro srv
    obtain ⟨sc, hc1, hr⟩ := readRequest_head_read env srv (method := asc "POST") (by unfold IsWord; decide +kernel) hp http11 ls hls fs hfs (data ++ rest) s hc hd
    have hcl : HttpHeader.get (stored fs) (asc "Content-Length") 0 = some (dec data.length) := by rw [get_stored]; exact hbody
    have hpos : 0 < data.length := List.length_pos_iff.2 hne
    have hcont : (readContent (srvCfg (env.feed kind path)) true (stored fs) ⟨data ++ rest, sc, []⟩).1 = .error (.sink e) := by
      have hb : (readBlock (srvCfg (env.feed kind path)) data.length ⟨data ++ rest, sc, []⟩).1 = .error (.sink e) := by
        unfold readBlock
        rw [if_neg (by omega), if_neg (by simp [srvCfg, over])]
        exact readBlockLoop_refused _ rfl data e hfeed honly _ _ _ hpos hc1 (by simp) (by simp) (by simp) (by simp)
      unfold readContent
      rw [hcl]
      simp only
      rw [readLong_dec hlen]
      simp only
      rw [if_neg (by omega), if_neg (by simp [srvCfg, over]), Int.toNat_natCast]
      cases hx : readBlock (srvCfg (env.feed kind path)) data.length ⟨data ++ rest, sc, []⟩ with
      | mk r s' => rw [hx] at hb; cases hb; rfl
    rw [hr]
    unfold readBody
    rw [if_neg (by simp)]
    rw [getOr_stored, (chooseKind_iff _ _).2 hkind]
    simp only
    cases hx : readContent (srvCfg (env.feed kind path)) true (stored fs) ⟨data ++ rest, sc, []⟩ with
    | mk r s' =>
      rw [hx] at hcont; cases hcont
      simp only
      cases e <;> rfl
  refine ⟨key srv, fun hns reg => ?_⟩
  unfold serve
  show serveLoop env reg (s.data.length + 1 + 1) 0 _ s = _
  unfold serveLoop
  have := key { srv with close := false, head := false }
  rw [if_neg hns] at this
  cases hx : readRequest env { srv with close := false, head := false } s with
  | mk r s' => rw [hx] at this; cases this; rfl

example : (readRequest ⟨true, true, 10, fun _ _ _ => some .other, fun _ _ _ => none, fun _ _ _ => true⟩ ⟨.xml, false, false, false⟩
    ⟨asc "POST / HTTP/1.1\r\nContent-Type: text/xml\r\nContent-Length: 1\r\n\r\nx", [], []⟩).1 = .error (.other .other) := by decide +kernel

/-- **C73 (`HEAD`).** A request by `HEAD` is answered as the application says, whatever its header: with a header if it says 0, with the HTTP error 405 if it says a negative number (the default), with 503 if it says a
positive one; nothing else is served on that connection. -/
theorem C73_head (env : Env) (reg : Registry) (srv : Srv) (path : Bytes) (hp : IsWord path) (http11 : Bool)
    (ls : List HLine) (hls : ∀ l ∈ ls, l.Ok) (fs : List (Bytes × Bytes)) (hfs : collectFields [] ls = some fs) (after : Bytes) (s : Conn) (hc : Calm s.sched)
    (hd : s.data = requestText (asc "HEAD") path http11 ls ++ after) :
    ∃ a, serve env reg srv s = ([a], none) ∧ (reg.headCall = 0 → a = .head) ∧ (reg.headCall < 0 → a = .httpError 405) ∧ (0 < reg.headCall → a = .httpError 503) := by
  have hw : IsWord (asc "HEAD") := by unfold IsWord; decide +kernel
  obtain ⟨srv', s', hr, -, -, hcl⟩ := C73_other_method env { srv with close := false, head := false } (asc "HEAD") path hw (by decide) hp http11 ls hls fs hfs after s hc hd
  rw [if_pos rfl] at hr
  have hclose : srv'.close = true := hcl.2 rfl
  unfold serve
  show ∃ a, serveLoop env reg (s.data.length + 1 + 1) 0 _ s = _ ∧ _
  unfold serveLoop
  rw [hr]
  simp only [handle]
  by_cases h0 : reg.headCall = 0
  · rw [if_pos h0]
    simp only [stop, hclose, Bool.true_or, if_true]
    exact ⟨_, rfl, fun _ => rfl, fun h => by omega, fun h => by omega⟩
  · rw [if_neg h0]
    by_cases h1 : reg.headCall < 0
    · rw [if_pos h1]
      exact ⟨_, rfl, fun h => absurd h h0, fun _ => rfl, fun h => by omega⟩
    · rw [if_neg h1]
      exact ⟨_, rfl, fun h => absurd h h0, fun h => absurd h h1, fun _ => rfl⟩

end Frpc
