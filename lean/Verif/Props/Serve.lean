import Verif.Proofs.HttpTerm
import Verif.Props.HttpMessages
/-!
# The server's loop: C46, C67, C68, C69
-/
namespace Frpc
open HttpIO HttpOut HttpServer

namespace HttpServer

theorem readBody_step (env : Env) (srv : Srv) (l : Bytes × Bytes × Bool) (h : HttpHeader.Fields) (s : Conn) :
    (readBody env srv l h s).1 ≠ .error (.io .fuel) ∧ (readBody env srv l h s).2.2.data <:+ s.data := by
  unfold readBody
  split
  · split <;> simp
  · simp only
    split
    · simp
    · next kind _ =>
      have hb := readContent_step (srvCfg (env.feed kind l.2.1)) true h s
      generalize readContent (srvCfg (env.feed kind l.2.1)) true h s = q at hb
      obtain ⟨q, s1⟩ := q
      cases q with
      | error e =>
        refine ⟨?_, hb.2⟩
        have := hb.1
        simp only [ne_eq, Except.error.injEq] at this ⊢
        unfold ofHErr
        split <;> simp_all
      | ok h =>
        simp only
        split
        · next e _ => refine ⟨?_, hb.2⟩; cases e <;> simp [ofErr]
        · exact ⟨by simp, hb.2⟩

theorem readRequest_step (env : Env) (srv : Srv) (s : Conn) :
    (readRequest env srv s).1 ≠ .error (.io .fuel) ∧ (readRequest env srv s).2.2.data <:+ s.data ∧
    (((readRequest env srv s).1 = .error .stream ∨ ∃ q, (readRequest env srv s).1 = .ok q) → (readRequest env srv s).2.2.data.length < s.data.length) := by
  unfold readRequest
  simp only
  have hl := readLineOpt_step (srvCfg (fun _ => none)) true true { s with out := [] }
  generalize hq : readLineOpt (srvCfg (fun _ => none)) true true { s with out := [] } = q at hl
  obtain ⟨q, s1⟩ := q
  cases q with
  | error e =>
    have h1 := hl.1
    simp only [ne_eq, Except.error.injEq] at h1 ⊢
    refine ⟨?_, hl.2, ?_⟩
    · unfold ofHErr; split <;> simp_all
    · rintro (h | ⟨q, h⟩)
      · exfalso
        -- a line reader does not meet the sink
        have := readLineOpt_noSink (srvCfg (fun _ => none)) true true { s with out := [] } e
        rw [hq] at this
        have := this rfl
        unfold ofHErr at h
        split at h <;> simp_all
      · simp at h
  | ok line =>
    cases line with
    | nil => exact ⟨by simp, hl.2, by simp⟩
    | cons a line =>
      have hlt := readLineOpt_less hq (.inr (by simp))
      simp only at hlt ⊢
      split
      · next e he =>
        refine ⟨?_, hl.2, fun _ => hlt⟩
        unfold requestLine at he
        rw [splitBySpace_eq _ 2 (by omega)] at he
        split at he
        · simp at he; subst he; simp
        · split at he
          · simp at he
          · split at he <;> simp at he
            subst he; simp
        · simp at he; subst he; simp
      · next l _ =>
        have hh := readHeader_step (srvCfg (fun _ => none)) false [] s1
        generalize readHeader (srvCfg (fun _ => none)) false [] s1 = q at hh
        obtain ⟨q, s2⟩ := q
        have hh' := hh.len
        cases q with
        | error e =>
          refine ⟨?_, hh.2.trans hl.2, fun _ => by simp only; omega⟩
          have := hh.1
          simp only [ne_eq, Except.error.injEq] at this ⊢
          unfold ofHErr; split <;> simp_all
        | ok h =>
          obtain ⟨b1, b2⟩ := readBody_step env { srv with close := false, head := false } l h s2
          refine ⟨b1, b2.trans (hh.2.trans hl.2), fun _ => ?_⟩
          have := b2.length_le
          simp only
          omega

/-- Turns of the loop that handled a request: a call or a `HEAD`. -/
def handled (t : List Served) : Nat := (t.filter (fun x => match x with
  | .call .. => true
  | .head => true
  | _ => false)).length

/-- All the requests that were answered, those that could not be parsed included. -/
def answered (t : List Served) : Nat := (t.filter (fun x => match x with
  | .httpError _ => false
  | _ => true)).length

theorem handled_append (a b : List Served) : handled (a ++ b) = handled a + handled b := by simp [handled]

theorem handle_handled (env : Env) (reg : Registry) (srv : Srv) (q : Option Request) : handled (handle env reg srv q).1 ≤ 1 := by
  unfold handle
  cases q with
  | none => simp only; split <;> (try split) <;> simp [handled]
  | some r => simp only; split <;> (try split) <;> simp [handled]

/-- What `serveLoop` does, in three cases: it ends; it goes on after a request it could not parse; it
goes on after a request it handled. -/
theorem serveLoop_cases (env : Env) (reg : Registry) (f count : Nat) (srv : Srv) (s : Conn) :
    (∃ t e, serveLoop env reg (f + 1) count srv s = (t, e) ∧ handled t ≤ 1 ∧
      ((readRequest env srv s).1 ≠ .error (.io .fuel) → e ≠ some (.io .fuel)) ∧
      (t = [] ∨ (∃ o, t = [.fault o]) ∨ (∃ c, t = [.httpError c]) ∨ (∃ q, (readRequest env srv s).1 = .ok q ∧ t = (handle env reg (readRequest env srv s).2.1 q).1))) ∨
    ((readRequest env srv s).1 = .error .stream ∧ stop env (readRequest env srv s).2.1 count = false ∧
      serveLoop env reg (f + 1) count srv s = (.fault (readRequest env srv s).2.1.outType :: (serveLoop env reg f count (readRequest env srv s).2.1 (readRequest env srv s).2.2).1,
        (serveLoop env reg f count (readRequest env srv s).2.1 (readRequest env srv s).2.2).2)) ∨
    (∃ q, (readRequest env srv s).1 = .ok q ∧ (handle env reg (readRequest env srv s).2.1 q).2 = none ∧ stop env (readRequest env srv s).2.1 (count + 1) = false ∧
      serveLoop env reg (f + 1) count srv s = ((handle env reg (readRequest env srv s).2.1 q).1 ++ (serveLoop env reg f (count + 1) (readRequest env srv s).2.1 (readRequest env srv s).2.2).1,
        (serveLoop env reg f (count + 1) (readRequest env srv s).2.1 (readRequest env srv s).2.2).2)) := by
  rw [serveLoop.eq_def]
  simp only
  generalize readRequest env srv s = r
  obtain ⟨r, srv1, s1⟩ := r
  cases r with
  | error e =>
    cases e with
    | stream =>
      simp only
      cases hst : stop env srv1 count with
      | true => left; exact ⟨_, _, rfl, by simp [handled], by simp, .inr (.inl ⟨_, rfl⟩)⟩
      | false => right; left; exact ⟨trivial, rfl, rfl⟩
    | http c => left; exact ⟨_, _, rfl, by simp [handled], by simp, .inr (.inr (.inl ⟨_, rfl⟩))⟩
    | noRequest => left; exact ⟨_, _, rfl, by simp [handled], by simp, .inl rfl⟩
    | io e => left; exact ⟨_, _, rfl, by simp [handled], by simp, .inl rfl⟩
    | other e => left; exact ⟨_, _, rfl, by simp [handled], by simp, .inl rfl⟩
  | ok q =>
    simp only
    have hh := handle_handled env reg srv1 q
    have hfu : ∀ e, (handle env reg srv1 q).2 = some e → e ≠ some (.io .fuel) := by
      intro e he
      unfold handle at he
      cases q with
      | none =>
        simp only at he
        split at he
        · simp at he
        · split at he <;> simp at he <;> subst he <;> simp
      | some r =>
        simp only at he
        split at he
        · simp at he; subst he; simp
        · split at he <;> simp at he <;> subst he <;> simp
    generalize hd : handle env reg srv1 q = d at hh hfu
    obtain ⟨t, e⟩ := d
    cases e with
    | some e => left; exact ⟨t, e, rfl, hh, fun _ => hfu e rfl, .inr (.inr (.inr ⟨q, rfl, by rw [hd]⟩))⟩
    | none =>
      simp only
      cases hst : stop env srv1 (count + 1) with
      | true => left; exact ⟨t, none, rfl, hh, by simp, .inr (.inr (.inr ⟨q, rfl, by rw [hd]⟩))⟩
      | false => right; right; exact ⟨q, rfl, by rw [hd], rfl, by rw [hd]; rfl⟩

theorem serveLoop_handled (env : Env) (reg : Registry) : ∀ (f count : Nat) (srv : Srv) (s : Conn),
    handled (serveLoop env reg f count srv s).1 ≤ max 1 (env.maxKeepalive - count)
  | 0, _, _, _ => by simp [serveLoop, handled]
  | f + 1, count, srv, s => by
    rcases serveLoop_cases env reg f count srv s with ⟨t, e, h1, h2, -⟩ | ⟨-, -, h3⟩ | ⟨q, -, -, h2, h3⟩
    · rw [h1]; exact Nat.le_trans h2 (by omega)
    · rw [h3]
      have := serveLoop_handled env reg f count (readRequest env srv s).2.1 (readRequest env srv s).2.2
      simpa [handled] using this
    · rw [h3]
      have := serveLoop_handled env reg f (count + 1) (readRequest env srv s).2.1 (readRequest env srv s).2.2
      have hh := handle_handled env reg (readRequest env srv s).2.1 q
      simp only [stop, Bool.or_eq_false_iff, decide_eq_false_iff_not] at h2
      simp only [handled_append]
      omega

theorem serveLoop_fuel (env : Env) (reg : Registry) : ∀ (f count : Nat) (srv : Srv) (s : Conn), s.data.length < f →
    (serveLoop env reg f count srv s).2 ≠ some (.io .fuel)
  | 0, _, _, _, h => by omega
  | f + 1, count, srv, s, h => by
    obtain ⟨r1, -, r3⟩ := readRequest_step env srv s
    rcases serveLoop_cases env reg f count srv s with ⟨t, e, h1, -, h2, -⟩ | ⟨h1, -, h3⟩ | ⟨q, h1, -, -, h3⟩
    · rw [h1]; exact h2 r1
    · rw [h3]
      exact serveLoop_fuel env reg f _ _ _ (by have := r3 (.inl h1); omega)
    · rw [h3]
      exact serveLoop_fuel env reg f _ _ _ (by have := r3 (.inr ⟨q, h1⟩); omega)

theorem serveLoop_off (env : Env) (reg : Registry) (hoff : env.keepAlive = false) (f count : Nat) (srv : Srv) (s : Conn) :
    answered (serveLoop env reg (f + 1) count srv s).1 ≤ 1 := by
  have hstop : ∀ srv n, stop env srv n = true := by intro srv n; simp [stop, hoff]
  rcases serveLoop_cases env reg f count srv s with ⟨t, e, h1, -, -, h2⟩ | ⟨-, h2, -⟩ | ⟨q, -, -, h2, -⟩
  · rw [h1]
    rcases h2 with rfl | ⟨o, rfl⟩ | ⟨c, rfl⟩ | ⟨q, -, rfl⟩
    · simp [answered]
    · simp [answered]
    · simp [answered]
    · unfold handle
      cases q with
      | none => simp only; split <;> (try split) <;> simp [answered]
      | some r => simp only; split <;> (try split) <;> simp [answered]
  · rw [hstop] at h2; simp at h2
  · rw [hstop] at h2; simp at h2

/-- A turn after which the connection is over: a call whose client asked to close, a `HEAD`, an HTTP
error. -/
def Served.final : Served → Bool
  | .call _ _ close => close
  | .head => true
  | .httpError _ => true
  | .fault _ => false

theorem readRequest_head {env : Env} {srv srv' : Srv} {s s' : Conn} (h : readRequest env srv s = (.ok none, srv', s')) : srv'.close = true := by
  unfold readRequest at h
  simp only at h
  split at h
  · simp at h
  · simp at h
  · split at h
    · simp at h
    · split at h
      · simp at h
      · unfold readBody at h
        split at h
        · split at h
          · simp at h; rw [← h.1]
          · simp at h
        · simp only at h
          split at h
          · simp at h
          · split at h
            · simp at h
            · split at h <;> simp at h

theorem handle_final (env : Env) (reg : Registry) (srv : Srv) (q : Option Request) (a b : List Served) (x : Served) (hx : x.final = true)
    (h : (handle env reg srv q).1 = a ++ x :: b) : b = [] ∨ ∃ c, b = [.httpError c] := by
  have two : ∀ l : List Served, (∃ y, l = [y]) ∨ (∃ y c, l = [y, .httpError c]) → l = a ++ x :: b → b = [] ∨ ∃ c, b = [.httpError c] := by
    rintro l (⟨y, rfl⟩ | ⟨y, c, rfl⟩) hl
    · cases a with
      | nil => simp at hl; exact .inl hl.2
      | cons _ a => simp at hl
    · cases a with
      | nil => simp at hl; exact .inr ⟨c, hl.2.symm⟩
      | cons _ a =>
        cases a with
        | nil => simp at hl; exact .inl hl.2.2
        | cons _ a => simp at hl
  refine two _ ?_ h
  unfold handle
  cases q with
  | none => simp only; split <;> (try split) <;> simp
  | some r => simp only; split <;> (try split) <;> simp

theorem handle_more {env : Env} {reg : Registry} {srv : Srv} {q : Option Request} (h : (handle env reg srv q).2 = none) :
    (q = none ∧ (handle env reg srv q).1 = [.head]) ∨ ∃ r, q = some r ∧ (handle env reg srv q).1 = [.call r srv.outType srv.close] := by
  unfold handle at h ⊢
  cases q with
  | none =>
    simp only at h ⊢
    split at h
    · left; next e => simp [e]
    · split at h <;> simp at h
  | some r =>
    simp only at h ⊢
    split at h
    · simp at h
    · next hb =>
      split at h
      · next hc => right; exact ⟨r, rfl, by simp [hb, hc]⟩
      · simp at h
      · simp at h

theorem serveLoop_final (env : Env) (reg : Registry) : ∀ (f count : Nat) (srv : Srv) (s : Conn) (a b : List Served) (x : Served), x.final = true →
    (serveLoop env reg f count srv s).1 = a ++ x :: b → b = [] ∨ ∃ c, b = [.httpError c]
  | 0, _, _, _, a, b, x, _, h => by simp [serveLoop] at h
  | f + 1, count, srv, s, a, b, x, hx, h => by
    rcases serveLoop_cases env reg f count srv s with ⟨t, e, h1, -, -, h2⟩ | ⟨h1, -, h3⟩ | ⟨q, h1, h2, hst, h3⟩
    · rw [h1] at h
      simp only at h
      rcases h2 with rfl | ⟨o, rfl⟩ | ⟨c, rfl⟩ | ⟨q, -, rfl⟩
      · simp at h
      · cases a <;> simp_all
      · cases a <;> simp_all
      · exact handle_final env reg _ q a b x hx h
    · rw [h3] at h
      cases a with
      | nil => simp only [List.nil_append, List.cons.injEq] at h; rw [← h.1] at hx; simp [Served.final] at hx
      | cons y a =>
        simp only [List.cons_append, List.cons.injEq] at h
        exact serveLoop_final env reg f _ _ _ a b x hx h.2
    · rw [h3] at h
      simp only [stop, Bool.or_eq_false_iff] at hst
      rcases handle_more h2 with ⟨rfl, -⟩ | ⟨r, rfl, h4⟩
      · have := readRequest_head (show readRequest env srv s = (.ok none, (readRequest env srv s).2.1, (readRequest env srv s).2.2) by rw [← h1])
        rw [hst.1.1] at this; simp at this
      · simp only [h4, hst.1.1] at h
        cases a with
        | nil => simp only [List.cons_append, List.nil_append, List.cons.injEq] at h; rw [← h.1] at hx; simp [Served.final] at hx
        | cons y a =>
          simp only [List.cons_append, List.nil_append, List.cons.injEq] at h
          exact serveLoop_final env reg f _ _ _ a b x hx h.2

/-- A request of an unknown content type. -/
def badRequest : Bytes := asc "POST / HTTP/1.1\r\nContent-Type: x\r\n\r\n"

theorem readRequest_bad (env : Env) (srv : Srv) (s : Conn) (rest : Bytes) (hc : Calm s.sched) (hd : s.data = badRequest ++ rest) :
    ∃ sc, Calm sc ∧ readRequest env srv s = (.error .stream, ⟨.xml, false, false, false⟩, ⟨rest, sc, []⟩) := by
  have e : badRequest = asc "POST / HTTP/1.1" ++ (Spec.crlf ++ Spec.blockText ([(asc "Content-Type", asc "x")].map asLine)) := by decide +kernel
  obtain ⟨sc1, hc1, hr1⟩ := readLineOpt_crlf_any (srvCfg (fun _ => none)) true true { s with out := [] }
    (asc "POST / HTTP/1.1") (Spec.blockText ([(asc "Content-Type", asc "x")].map asLine) ++ rest) hc
    (by show s.data = _; rw [hd, e]; simp) (by decide +kernel) (by decide +kernel) (.inl (by show (-1 : Int) < 0; omega))
  obtain ⟨h, sc2, hc2, hr2, hget⟩ := readHeader_fields (srvCfg (fun _ => none)) [(asc "Content-Type", asc "x")]
    (by
      intro f hf
      simp only [List.mem_cons, List.not_mem_nil, or_false] at hf
      subst hf
      unfold FieldOk; decide +kernel)
    ⟨Spec.blockText ([(asc "Content-Type", asc "x")].map asLine) ++ rest, sc1, []⟩ rest hc1 rfl
  have hl : requestLine (asc "POST / HTTP/1.1") = .ok (asc "POST", asc "/", true) := by decide +kernel
  refine ⟨sc2, hc2, ?_⟩
  have hne : asc "POST / HTTP/1.1" ≠ [] := by decide +kernel
  generalize asc "POST / HTTP/1.1" = line at hr1 hl hne
  unfold readRequest
  simp only [hr1]
  cases line with
  | nil => exact absurd rfl hne
  | cons a line =>
    simp only [hl, hr2, readBody]
    rw [if_neg (by simp)]
    have h1 : HttpHeader.get h (asc "Accept") 0 = none := by rw [hget]; decide +kernel
    have h2 : getOr h (asc "Content-Type") = asc "x" := by unfold getOr; rw [hget]; decide +kernel
    have h3 : chooseKind (asc "x") = none := by decide +kernel
    simp only [h1, h2, h3, chooseOut]

theorem serve_end (env : Env) (reg : Registry) (f count : Nat) (srv : Srv) (s : Conn) (hc : Calm s.sched) (hd : s.data = []) :
    serveLoop env reg (f + 1) count srv s = ([], none) := by
  have : ∃ srv' s', readRequest env srv s = (.error .noRequest, srv', s') := by
    unfold readRequest
    obtain ⟨d, sc, o⟩ := s
    simp only at hd hc
    subst hd
    have hp : ∃ a s', poll ⟨[], sc, []⟩ = (.ready a, s') ∧ s'.data = [] := by
      unfold poll
      cases sc with
      | nil => exact ⟨_, _, rfl, rfl⟩
      | cons e sc =>
        obtain ⟨k, rfl⟩ := hc e (by simp)
        exact ⟨_, _, rfl, rfl⟩
    obtain ⟨a, s', h1, h2⟩ := hp
    have : readLineOpt (srvCfg (fun _ => none)) true true ⟨[], sc, []⟩ = (.ok [], s') := by
      unfold readLineOpt readLineLoop
      simp [h1, h2]
    simp only [this]
    exact ⟨_, _, rfl⟩
  obtain ⟨srv', s', h⟩ := this
  rw [serveLoop.eq_def]
  simp only [h]

theorem serveLoop_bad (env : Env) (reg : Registry) (hk : env.keepAlive = true) (hmax : 0 < env.maxKeepalive) : ∀ (n f : Nat) (srv : Srv) (s : Conn), n < f → Calm s.sched →
    s.data = (List.replicate n badRequest).flatten → serveLoop env reg f 0 srv s = (List.replicate n (.fault .xml), none)
  | _, 0, _, _, h, _, _ => by omega
  | 0, f + 1, srv, s, _, hc, hd => serve_end env reg f 0 srv s hc (by simpa using hd)
  | n + 1, f + 1, srv, s, hf, hc, hd => by
    obtain ⟨sc, hsc, h⟩ := readRequest_bad env srv s (List.replicate n badRequest).flatten hc (by rw [hd, List.replicate_succ, List.flatten_cons])
    have ih := serveLoop_bad env reg hk hmax n f ⟨.xml, false, false, false⟩ ⟨(List.replicate n badRequest).flatten, sc, []⟩ (by omega) hsc rfl
    rw [serveLoop.eq_def]
    simp only [h]
    have : stop env ⟨.xml, false, false, false⟩ 0 = false := by simp [stop, hk]; omega
    rw [this, ih]
    simp [List.replicate_succ]

end HttpServer

/-- C46 (requests that could be parsed): a connection serves at most `maxKeepalive` requests (and
one when the bound is 0, which the code treats as 1). Missing: requests that cannot be parsed are
answered with a fault and not counted, see `C46_keepalive_violated`. -/
theorem C46_keepalive_bound_partial (env : Env) (reg : Registry) (srv : Srv) (s : Conn) :
    handled (serve env reg srv s).1 ≤ max 1 env.maxKeepalive := by
  have := serveLoop_handled env reg (s.data.length + 2) 0 { srv with close := false, head := false } s
  simpa [serve] using this

/-- C46: with keep-alive off one request is answered, whatever it is. -/
theorem C46_keepalive_off (env : Env) (reg : Registry) (hoff : env.keepAlive = false) (srv : Srv) (s : Conn) :
    answered (serve env reg srv s).1 ≤ 1 := serveLoop_off env reg hoff _ _ _ _

/-- C46: after a call whose client asked to close the connection, after a `HEAD`, and after an HTTP
error nothing more is served; only an HTTP error may follow, raised by that call itself. -/
theorem C46_stops (env : Env) (reg : Registry) (srv : Srv) (s : Conn) (a b : List Served) (x : Served) (hx : x.final = true)
    (h : (serve env reg srv s).1 = a ++ x :: b) : b = [] ∨ ∃ c, b = [.httpError c] :=
  serveLoop_final env reg _ _ _ _ a b x hx h

/-- C46 is false for requests that cannot be parsed: with `maxKeepalive` 1, any number of them is
answered on one connection. -/
theorem C46_keepalive_violated (env : Env) (hk : env.keepAlive = true) (hmax : env.maxKeepalive = 1) (reg : Registry) (srv : Srv) (n : Nat) :
    ∃ s : Conn, s.sched = [] ∧ answered (serve env reg srv s).1 = n := by
  refine ⟨⟨(List.replicate n badRequest).flatten, [], []⟩, rfl, ?_⟩
  unfold serve
  rw [serveLoop_bad env reg hk (by omega) n _ _ _ (by
    have : badRequest.length = 36 := by decide +kernel
    simp [this]; omega) (by intro e he; simp at he) rfl]
  simp [answered]

/-! ## C67 -/

namespace HttpServer

/-- A request of an unknown content type with a body. -/
def badWith (body : Bytes) : Bytes :=
  asc "POST / HTTP/1.1\r\n" ++ ([(asc "Content-Type", asc "x"), (asc "Content-Length", dec body.length)].flatMap headLine ++ asc "\r\n") ++ body

theorem readRequest_badWith (env : Env) (srv : Srv) (s : Conn) (body rest : Bytes) (hc : Calm s.sched) (hd : s.data = badWith body ++ rest) :
    ∃ sc, Calm sc ∧ readRequest env srv s = (.error .stream, ⟨.xml, false, false, false⟩, ⟨body ++ rest, sc, []⟩) := by
  have e : asc "POST / HTTP/1.1\r\n" = asc "POST / HTTP/1.1" ++ Spec.crlf := by decide +kernel
  obtain ⟨sc1, hc1, hr1⟩ := readLineOpt_crlf_any (srvCfg (fun _ => none)) true true { s with out := [] }
    (asc "POST / HTTP/1.1") (Spec.blockText ([(asc "Content-Type", asc "x"), (asc "Content-Length", dec body.length)].map asLine) ++ (body ++ rest)) hc
    (by show s.data = _; rw [hd]; unfold badWith; rw [e, flatMap_headLine]; simp) (by decide +kernel) (by decide +kernel) (.inl (by show (-1 : Int) < 0; omega))
  obtain ⟨h, sc2, hc2, hr2, hget⟩ := readHeader_fields (srvCfg (fun _ => none)) [(asc "Content-Type", asc "x"), (asc "Content-Length", dec body.length)]
    (by
      intro f hf
      simp only [List.mem_cons, List.not_mem_nil, or_false] at hf
      rcases hf with rfl | rfl
      · unfold FieldOk; decide +kernel
      · exact ⟨by dsimp only; decide +kernel, by dsimp only; decide +kernel, (dec_line _).1, (dec_line _).2⟩)
    ⟨Spec.blockText ([(asc "Content-Type", asc "x"), (asc "Content-Length", dec body.length)].map asLine) ++ (body ++ rest), sc1, []⟩ (body ++ rest) hc1 rfl
  have hget := get_first hget
  have hl : requestLine (asc "POST / HTTP/1.1") = .ok (asc "POST", asc "/", true) := by decide +kernel
  refine ⟨sc2, hc2, ?_⟩
  have hne : asc "POST / HTTP/1.1" ≠ [] := by decide +kernel
  generalize asc "POST / HTTP/1.1" = line at hr1 hl hne
  unfold readRequest
  simp only [hr1]
  cases line with
  | nil => exact absurd rfl hne
  | cons a line =>
    simp only [hl, hr2, readBody]
    rw [if_neg (by simp)]
    have h1 : HttpHeader.get h (asc "Accept") 0 = none := by
      rw [hget, first_miss (by decide +kernel), first_miss (by decide +kernel)]; rfl
    have h2 : getOr h (asc "Content-Type") = asc "x" := by
      unfold getOr; rw [hget, first_hit rfl]; decide +kernel
    have h3 : chooseKind (asc "x") = none := by decide +kernel
    simp only [h1, h2, h3, chooseOut]

end HttpServer

/-- C67 is false: a request of an unknown content type is answered with a fault and its body is left
on the connection. If the body (whose length the request announces) is itself a request, any one, it
is executed: after the fault comes a call of the method in the body, on the path in the body. -/
theorem C67_smuggling_violated (env : Env) (hk : env.keepAlive = true) (hmax : 0 < env.maxKeepalive) (reg : Registry) (srv : Srv)
    (c : ClientCfg) (hok : ClientOk c) (ds : List Bytes) (hlen : LengthOk c.chunks ds) (hfirst : c.chunks = true → FirstWrite ds)
    (henv : ∀ k p l, env.feed k p l = none ∧ env.finish k p l = none ∧ env.built k p l = true) (rsched : List Ev) (hr : Calm rsched) :
    ∃ w' body close, message (clientConf c) ds (.init ⟨[], []⟩) = (.ok (), w') ∧ body.flatten = ds.flatten ∧
      [.fault .xml, .call ⟨if c.binary then .binary else .xml, c.path, body⟩ (if env.useBinary then .binary else .xml) close] <+:
        (serve env reg srv ⟨badWith w'.wire.sent, rsched, []⟩).1 := by
  obtain ⟨w0, hw, -⟩ := message_sent (clientConf c) (fun h n => clientHead_const c h n) ds ⟨[], []⟩ (by intro e he; simp at he) hfirst
  obtain ⟨sc, hsc, h1⟩ := readRequest_badWith env { srv with close := false, head := false } ⟨badWith w0.wire.sent, rsched, []⟩ w0.wire.sent [] hr (by simp)
  obtain ⟨w', qs, srv', s', g1, g2, g3, -, g4, -, -, g5, -⟩ := C64_request_delivered env ⟨.xml, false, false, false⟩ c hok ds hlen hfirst [] (by intro e he; simp at he) [] sc hsc
    (fun l _ _ => (henv _ _ _).1) (fun l _ _ => (henv _ _ _).2.1)
  rw [hw] at g1
  simp only [Prod.mk.injEq, true_and] at g1
  subst g1
  refine ⟨w0, qs, srv'.close, hw, g3, ?_⟩
  unfold serve
  rw [show (List.length (badWith w0.wire.sent) + 2) = List.length (badWith w0.wire.sent) + 1 + 1 from rfl, serveLoop.eq_def]
  simp only [h1]
  have hstop : stop env ⟨.xml, false, false, false⟩ 0 = false := by simp [stop, hk]; omega
  simp only [hstop, Bool.false_eq_true, if_false, List.append_nil] at g2 ⊢
  rw [List.cons_prefix_cons]
  refine ⟨rfl, ?_⟩
  have hg2 : readRequest env ⟨.xml, false, false, false⟩ ⟨w0.wire.sent, sc, []⟩ = (.ok (some ⟨if c.binary then .binary else .xml, c.path, qs⟩), srv', s') := g2
  rw [serveLoop.eq_def]
  simp only [hg2]
  have hb := (henv (if c.binary then .binary else .xml) c.path qs).2.2
  rw [← g5]
  have hh : ∃ e, handle env reg srv' (some ⟨if c.binary then .binary else .xml, c.path, qs⟩) = e ∧
      [.call ⟨if c.binary then .binary else .xml, c.path, qs⟩ srv'.outType srv'.close] <+: e.1 := by
    refine ⟨_, rfl, ?_⟩
    unfold handle
    generalize (if c.binary then HttpServer.Kind.binary else .xml) = kind at hb
    simp only [hb, Bool.true_eq_false, if_false]
    cases reg.call ⟨kind, c.path, qs⟩ <;> simp
  obtain ⟨⟨t, e⟩, he1, he2⟩ := hh
  rw [he1]
  simp only at he2 ⊢
  cases e with
  | some e => exact he2
  | none =>
    cases stop env srv' (0 + 1) with
    | true => exact he2
    | false => exact he2.trans (List.prefix_append _ _)

/-- C67 (bodies with a length): a body that was read is exactly the bytes it announced, so that the
next request begins right after it. Missing: requests refused before their body is read, see
`C67_smuggling_violated`. -/
theorem C67_body_exact_partial (cfg : HttpIO.Cfg) (request : Bool) (h h' : HttpHeader.Fields) (v : Bytes) (n : Int) (s s' : Conn)
    (hv : HttpHeader.get h (asc "Content-Length") 0 = some v) (hn : readLong 10 v = some n) (hr : readContent cfg request h s = (.ok h', s')) :
    ∃ body, s.data = body ++ s'.data ∧ (body.length : Int) = n ∧ s'.out.flatten = s.out.flatten ++ body := by
  unfold readContent at hr
  simp only [hv, hn] at hr
  split at hr
  · simp at hr
  · split at hr
    · simp at hr
    · generalize hb : readBlock cfg n.toNat s = q at hr
      obtain ⟨q, s1⟩ := q
      cases q with
      | error e => simp at hr
      | ok u =>
        simp only [Prod.mk.injEq] at hr
        obtain ⟨p, h1, h2, h3⟩ := readBlock_sound hb
        rw [← hr.2]
        exact ⟨p, h1, by omega, h3⟩

/-! ## C68 -/

/-- A message: the client that sends it, the writes of its marshaller, and what is sent for it. -/
structure Sent where
  client : ClientCfg
  writes : List Bytes
  text : Bytes

/-- The text is what a client that keeps the connection sends for the writes, on some network. -/
structure Sent.Ok (m : Sent) : Prop where
  client : ClientOk m.client
  keep : m.client.keepAlive = true
  length : LengthOk m.client.chunks m.writes
  first : m.client.chunks = true → FirstWrite m.writes
  sent : ∃ sched w', CalmOut true sched ∧ message (clientConf m.client) m.writes (.init ⟨sched, []⟩) = (.ok (), w') ∧ w'.wire.sent = m.text

/-- What is served for a message whose body arrived in these pieces. -/
def servedCall (env : Env) (m : Sent) (body : List Bytes) : Served :=
  .call ⟨if m.client.binary then .binary else .xml, m.client.path, body⟩ (if env.useBinary then .binary else .xml) false

namespace HttpServer

theorem serveLoop_all (env : Env) (reg : Registry) (hk : env.keepAlive = true)
    (henv : ∀ k p l, env.feed k p l = none ∧ env.finish k p l = none ∧ env.built k p l = true) (hreg : ∀ r, reg.call r = .ok) :
    ∀ (msgs : List Sent) (f count : Nat) (srv : Srv) (s : Conn),
      (∀ m ∈ msgs, m.Ok) → msgs.length < f → Calm s.sched → s.data = (msgs.map Sent.text).flatten → count + msgs.length ≤ env.maxKeepalive →
      ∃ bodies : List (List Bytes), bodies.map List.flatten = msgs.map (fun m => m.writes.flatten) ∧
        serveLoop env reg f count srv s = (List.zipWith (servedCall env) msgs bodies, none)
  | _, 0, _, _, _, _, hf, _, _, _ => by omega
  | [], f + 1, count, srv, s, _, _, hc, hd, _ => ⟨[], rfl, by rw [serve_end env reg f count srv s hc (by simpa using hd)]; rfl⟩
  | m :: msgs, f + 1, count, srv, s, hok, hf, hc, hd, hmax => by
    obtain ⟨hok1, hka, hlen, hfirst, sched, w', hcs, hm, htext⟩ := hok m (by simp)
    obtain ⟨w2, qs, srv', s', g1, g2, g3, -, g4, g5, -, g6, g7⟩ := C64_request_delivered env srv m.client hok1 m.writes hlen hfirst sched hcs
      (msgs.map Sent.text).flatten s.sched hc (fun l _ _ => (henv _ _ _).1) (fun l _ _ => (henv _ _ _).2.1)
    rw [hm] at g1
    simp only [Prod.mk.injEq, true_and] at g1
    subst g1
    have hrd : readRequest env srv s = readRequest env srv ⟨w'.wire.sent ++ (msgs.map Sent.text).flatten, s.sched, []⟩ := by
      unfold readRequest
      simp only [hd, List.map_cons, List.flatten_cons, htext]
    rw [← hrd] at g2
    have hh : handle env reg srv' (some ⟨if m.client.binary then .binary else .xml, m.client.path, qs⟩) = ([servedCall env m qs], none) := by
      unfold handle
      simp only [(henv _ _ _).2.2, hreg, servedCall, g5, g6, hka]
      simp
    rw [hka] at g5
    rw [serveLoop.eq_def]
    simp only [g2, hh]
    simp only [List.length_cons] at hmax hf
    cases hst : stop env srv' (count + 1) with
    | true =>
      simp only [stop, hk, g5, Bool.not_true, Bool.or_false, decide_eq_true_eq, Bool.false_or] at hst
      have : msgs = [] := List.length_eq_zero_iff.1 (by omega)
      subst this
      exact ⟨[qs], by simp [g3], by simp⟩
    | false =>
      obtain ⟨bodies, b1, b2⟩ := serveLoop_all env reg hk henv hreg msgs f (count + 1) srv' s' (fun x hx => hok x (by simp [hx])) (by omega) g7 g4 (by omega)
      refine ⟨qs :: bodies, by simp [b1, g3], ?_⟩
      rw [b2]
      simp

theorem sent_nonempty {m : Sent} (h : m.Ok) : 0 < m.text.length := by
  obtain ⟨hok1, hka, hlen, hfirst, sched, w', hcs, hm, htext⟩ := h
  obtain ⟨w2, h1, h2, h3⟩ := message_sent (clientConf m.client) (fun h n => clientHead_const m.client h n) m.writes ⟨sched, []⟩ hcs hfirst
  rw [hm] at h1
  simp only [Prod.mk.injEq, true_and] at h1
  subst h1
  rw [← htext]
  have hh : ∀ n, 0 < (clientHead m.client n).length := by
    intro n
    have : (asc "POST ").length = 5 := by decide +kernel
    unfold clientHead
    simp only [List.length_append]
    omega
  cases hch : (clientConf m.client).chunks with
  | false => rw [h2 hch]; have := hh (m.writes.flatten.length % 2 ^ 32); simp only [clientConf, List.length_append]; omega
  | true => obtain ⟨ps, e, -⟩ := h3 hch; rw [e]; have := hh 0; simp only [clientConf, List.length_append]; omega

end HttpServer

/-- C68: requests sent one after another on one connection (each by a client that keeps it, with its
own settings and protocol), without waiting for the answers, are served in the order sent, each
exactly once, with its own path and body, whatever the segmentation on either side. -/
theorem C68_pipelined (env : Env) (reg : Registry) (hk : env.keepAlive = true)
    (henv : ∀ k p l, env.feed k p l = none ∧ env.finish k p l = none ∧ env.built k p l = true) (hreg : ∀ r, reg.call r = .ok)
    (msgs : List Sent) (hok : ∀ m ∈ msgs, m.Ok) (hmax : msgs.length ≤ env.maxKeepalive) (srv : Srv) (sched : List Ev) (hc : Calm sched) :
    ∃ bodies : List (List Bytes), bodies.map List.flatten = msgs.map (fun m => m.writes.flatten) ∧
      serve env reg srv ⟨(msgs.map Sent.text).flatten, sched, []⟩ = (List.zipWith (servedCall env) msgs bodies, none) := by
  unfold serve
  refine serveLoop_all env reg hk henv hreg msgs _ 0 _ _ hok ?_ hc rfl (by omega)
  have : msgs.length ≤ (msgs.map Sent.text).flatten.length := by
    clear hmax
    induction msgs with
    | nil => simp
    | cons m ms ih =>
      have := ih (fun x hx => hok x (by simp [hx]))
      have := sent_nonempty (hok m (by simp))
      simp only [List.map_cons, List.length_cons, List.flatten_cons, List.length_append]
      omega
  simp only
  omega

namespace HttpServer

theorem statusLine_step' (cfg : Cfg) : ∀ (f : Nat) (s : Conn), s.data.length < f →
    (statusLine cfg f s).1 ≠ .error (.io .fuel) ∧ (statusLine cfg f s).2.data <:+ s.data
  | 0, _, h => by omega
  | f + 1, s, h => by
    unfold statusLine readLine
    have hl := readLineOpt_step cfg true false s
    generalize hq : readLineOpt cfg true false s = q at hl
    obtain ⟨q, s1⟩ := q
    cases q with
    | error e =>
      refine ⟨?_, hl.2⟩
      have := hl.1
      simp only [ne_eq, Except.error.injEq] at this ⊢
      unfold respErr; split <;> simp_all
    | ok line =>
      have hlt := readLineOpt_less hq (.inl rfl)
      cases line with
      | nil =>
        have ih := statusLine_step' cfg f s1 (by omega)
        exact ⟨ih.1, ih.2.trans hl.2⟩
      | cons a line =>
        simp only
        rw [splitBySpace_eq _ 2 (by omega)]
        split
        · exact ⟨by simp, hl.2⟩
        · split
          · exact ⟨by simp, hl.2⟩
          · split
            · exact ⟨by simp, hl.2⟩
            · exact ⟨by simp, hl.2⟩
        · exact ⟨by simp, hl.2⟩

end HttpServer

/-! ## C69 -/

/-- C69: whatever the peer sends before it closes the connection, and whatever the schedule of the
network, serving the connection ends: every pass of the loop consumes at least one byte, and so does
every pass of the loops inside it (`HErr.fuel` marks a loop that did not end). -/
theorem C69_serve_ends (env : Env) (reg : Registry) (srv : Srv) (s : Conn) : (serve env reg srv s).2 ≠ some (.io .fuel) :=
  serveLoop_fuel env reg _ 0 _ s (by omega)

/-- C69: the same for one request: and it reads only forward. -/
theorem C69_request_ends (env : Env) (srv : Srv) (s : Conn) :
    (readRequest env srv s).1 ≠ .error (.io .fuel) ∧ (readRequest env srv s).2.2.data <:+ s.data :=
  ⟨(readRequest_step env srv s).1, (readRequest_step env srv s).2.1⟩

/-- C69: the same for the client's reading of a response. -/
theorem C69_response_ends (limits : Int × Int) (feed finish : HttpServer.Kind → List Bytes → Option Err) (keepAlive : Bool) (s : Conn) :
    (readResponse limits feed finish keepAlive s).1 ≠ .error (.io .fuel) ∧ (readResponse limits feed finish keepAlive s).2.data <:+ s.data := by
  unfold readResponse
  simp only
  have h1 := statusLine_step' ⟨limits.1, limits.2, fun _ => none⟩ (s.data.length + 1) { s with out := [] } (by simp)
  generalize statusLine ⟨limits.1, limits.2, fun _ => none⟩ (s.data.length + 1) { s with out := [] } = q at h1
  obtain ⟨q, s1⟩ := q
  cases q with
  | error e => exact ⟨by have := h1.1; simp only [ne_eq, Except.error.injEq] at this ⊢; exact this, h1.2⟩
  | ok v =>
    simp only at h1 ⊢
    have h2 := readHeader_step ⟨limits.1, limits.2, fun _ => none⟩ false [] s1
    generalize readHeader ⟨limits.1, limits.2, fun _ => none⟩ false [] s1 = q at h2
    obtain ⟨q, s2⟩ := q
    have hresp : ∀ e, e ≠ HErr.fuel → respErr e ≠ .io .fuel := by
      intro e he; unfold respErr; split <;> simp_all
    cases q with
    | error e =>
      refine ⟨?_, h2.2.trans h1.2⟩
      have := h2.1
      simp only [ne_eq, Except.error.injEq] at this ⊢
      exact hresp e this
    | ok h =>
      simp only [readAnswer]
      generalize (if hasSub (asc "text/xml") (getOr h (asc "Content-Type")) = true then some Kind.xml
        else if hasSub (asc "application/x-frpc") (getOr h (asc "Content-Type")) = true then some Kind.binary else none) = kind
      cases kind with
      | none => exact ⟨by simp, h2.2.trans h1.2⟩
      | some kind =>
        simp only
        have h3 := readContent_step ⟨limits.1, limits.2, feed kind⟩ false h s2
        generalize readContent ⟨limits.1, limits.2, feed kind⟩ false h s2 = q at h3
        obtain ⟨q, s3⟩ := q
        cases q with
        | error e =>
          refine ⟨?_, h3.2.trans (h2.2.trans h1.2)⟩
          have := h3.1
          simp only [ne_eq, Except.error.injEq] at this ⊢
          exact hresp e this
        | ok h' =>
          simp only
          split
          · exact ⟨by simp, h3.2.trans (h2.2.trans h1.2)⟩
          · exact ⟨by simp, h3.2.trans (h2.2.trans h1.2)⟩

/-! ## Examples -/

example : (serve exampleEnv ⟨0, fun _ => .ok⟩ ⟨.xml, false, false, false⟩ ⟨badRequest ++ asc "HEAD / HTTP/1.0\r\n\r\nmore", [.bytes 2], []⟩) =
    ([.fault .xml, .head], none) := by decide +kernel
example : Served.head.final = true := rfl
/-- A message of the example client. -/
theorem example_sent : ∃ m : Sent, m.Ok ∧ m.client = exampleClient false ∧ m.writes = [asc "ab", asc "c"] := by
  obtain ⟨w, h, -⟩ := message_sent (clientConf (exampleClient false)) (by intro h; simp [clientConf, exampleClient] at h) [asc "ab", asc "c"] ⟨[], []⟩
    (by intro e he; simp at he) (by intro h; simp [clientConf, exampleClient] at h)
  exact ⟨⟨exampleClient false, [asc "ab", asc "c"], w.wire.sent⟩, ⟨exampleClient_ok false, rfl, by dsimp only; unfold LengthOk; decide, by simp [exampleClient],
    ⟨[], w, by intro e he; simp at he, h, rfl⟩⟩, rfl, rfl⟩

end Frpc
