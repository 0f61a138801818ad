import Verif.Spec.Descriptors
/-!
# Descriptors of a client: C100, C101, C102
-/
namespace Frpc
namespace Descriptors
open Spec.Descriptors

theorem replay_append (h : Held) (a b : List Act) : replay h (a ++ b) = (replay h a).bind (fun h => replay h b) := by
  induction a generalizing h with
  | nil => rfl
  | cons x a ih =>
    simp only [List.cons_append, replay]
    cases act h x with
    | none => rfl
    | some h => exact ih h

/-- Everything was right so far, and what is there is the descriptor and those objects. -/
def Good (s : Sock) (u : List Nat) : Prop := Tidy s.log ∧ replay ⟨[], []⟩ s.log = some ⟨s.fd.toList, u⟩ ∧ u.length ≤ 1

theorem tidy_add {log : List Act} {a : Act} {h h' : Held} (ht : Tidy log) (hr : replay ⟨[], []⟩ log = some h) (ha : act h a = some h') (h1 : h'.fds.length ≤ 1) (h2 : h'.uns.length ≤ 1) :
    Tidy (log ++ [a]) ∧ replay ⟨[], []⟩ (log ++ [a]) = some h' := by
  have hr' : replay ⟨[], []⟩ (log ++ [a]) = some h' := by rw [replay_append, hr]; simp [replay, ha]
  refine ⟨fun l hl => ?_, hr'⟩
  rcases List.prefix_concat_iff.1 hl with rfl | hl
  · exact ⟨h', by simpa using hr', h1, h2⟩
  · exact ht l hl

theorem Good.add {s : Sock} {u : List Nat} (h : Good s u) (a : Act) (fd : Option Nat) (u' : List Nat) (ha : act ⟨s.fd.toList, u⟩ a = some ⟨fd.toList, u'⟩) (hu : u'.length ≤ 1) :
    Good ⟨fd, s.log ++ [a]⟩ u' := by
  obtain ⟨h1, h2⟩ := tidy_add h.1 h.2.1 ha (by cases fd <;> simp) hu
  exact ⟨h1, h2, hu⟩

theorem Good.shut {s : Sock} {u : List Nat} (h : Good s u) : Good (shut 0 s) u := by
  unfold Descriptors.shut
  split
  · exact h
  · next n hn =>
    exact h.add (.close n) none u (by simp [act, hn]) h.2.2

theorem shut_fd (k : Nat) (s : Sock) : (shut k s).fd = none := by
  unfold Descriptors.shut
  split
  · assumption
  · rfl

theorem Good.touch {s : Sock} {u : List Nat} (h : Good s u) : Good (touch s) u := by
  unfold Descriptors.touch
  split
  · exact h
  · next n hn =>
    have := h.add (.use n) (some n) u (by simp [act, hn]) h.2.2
    rw [← hn] at this
    exact this

theorem touch_fd (s : Sock) : (touch s).fd = s.fd := by
  unfold Descriptors.touch
  split <;> simp_all

theorem checkPeer_good {o : Outcome} (ho : o.eintr = 0) {s : Sock} {u : List Nat} (h : Good s u) : Good (checkPeer o s) u := by
  unfold checkPeer
  rw [ho]
  split
  · exact h.touch
  · exact h.touch.shut
  · exact h.touch.touch.shut
  · exact h.touch.touch

theorem openSocket_good {o : Outcome} {s : Sock} {u : List Nat} (h : Good s u) (hf : s.fd = none) : Good (openSocket o s).1 u := by
  unfold openSocket
  split
  · exact h
  · next n hn =>
    have h0 : Good ⟨some n, s.log ++ [.opened n]⟩ u := h.add _ _ _ (by simp [act, hf]) h.2.2
    simp only
    split
    · exact h0.touch
    · split
      · exact h0.touch.touch
      · split
        · exact h0.touch.touch.touch
        · exact h0.touch.touch.touch
        · exact h0.touch.touch.touch.touch.touch
        · exact h0.touch.touch.touch.touch
        · exact h0.touch.touch.touch.touch.touch

theorem connectSocket_good (keepAlive : Bool) {o : Outcome} (ho : o.eintr = 0) {s : Sock} {u : List Nat} (h : Good s u) : Good (connectSocket keepAlive o s).1 u := by
  unfold connectSocket
  have h1 : Good (if keepAlive = true then s else Descriptors.shut o.eintr s) u := by
    split
    · exact h
    · rw [ho]; exact h.shut
  revert h1
  generalize (if keepAlive = true then s else Descriptors.shut o.eintr s) = s1
  intro h1
  simp only
  split
  · have h2 := checkPeer_good ho h1
    split
    · exact h2
    · next hn => exact openSocket_good h2 hn
  · next hn =>
    have h2 := openSocket_good (o := o) h1 hn
    split
    · next heq => rw [heq] at h2; exact h2
    · next heq => rw [heq] at h2; rw [ho]; exact Good.shut h2

/-- What holds of a client: nothing has gone wrong, and the unmarshaller, if there is one, is the last one made. -/
structure CGood (c : Client) : Prop where
  good : Good c.sock c.un.toList
  fresh : ∀ n ∈ c.un, n < c.count

theorem sendRequest_good {o : Outcome} (ho : o.eintr = 0) (w : Bool) (sd : Sending) {c : Client} (h : CGood c) : CGood (sendRequest o w sd c).1 ∧
    (sendRequest o w sd c).1.un = c.un ∧ (sendRequest o w sd c).1.count = c.count := by
  have tr : ∀ (s : Sock) (c' : Client), Good s c'.un.toList → (∀ n ∈ c'.un, n < c'.count) → c'.un = c.un → c'.count = c.count →
      let q : Client × Bool := match sd with
        | .sent => ({ c' with sock := touch s, headersSent := true }, true)
        | .failed => ({ c' with headersSent := true, sock := Descriptors.shut o.eintr (touch s) }, false)
        | .response => ({ c' with sock := touch s, headersSent := true, mustClose := true }, false)
      CGood q.1 ∧ q.1.un = c.un ∧ q.1.count = c.count := by
    intro s c' hs hn e1 e2
    cases sd
    · exact ⟨⟨hs.touch, hn⟩, e1, e2⟩
    · exact ⟨⟨by rw [ho]; exact hs.touch.shut, hn⟩, e1, e2⟩
    · exact ⟨⟨hs.touch, hn⟩, e1, e2⟩
  unfold sendRequest
  simp only
  split
  · exact tr c.sock c h.good h.fresh rfl rfl
  · split
    · exact ⟨⟨by rw [ho]; exact h.good.shut, h.fresh⟩, rfl, rfl⟩
    · have h1 : Good (if c.mustClose = true then Descriptors.shut o.eintr c.sock else c.sock) c.un.toList := by
        split
        · rw [ho]; exact h.good.shut
        · exact h.good
      have h2 := connectSocket_good c.keepAlive ho h1
      split
      · next heq => rw [heq] at h2; exact tr _ { c with mustClose := false } h2 h.fresh rfl rfl
      · next heq => rw [heq] at h2; exact ⟨⟨by rw [ho]; exact Good.shut h2, h.fresh⟩, rfl, rfl⟩

theorem dropUn_good {c : Client} (h : CGood c) : Good (dropUn c).sock [] := by
  unfold dropUn
  split
  · next hn => have := h.good; rw [hn] at this; exact this
  · next n hn =>
    exact h.good.add (.delete n) c.sock.fd [] (by simp [act, hn]) (by simp)

theorem dropUn_count (c : Client) : (dropUn c).count = c.count ∧ (dropUn c).un = c.un := by
  unfold dropUn
  split <;> simp

/-- After a response, unless its type is unknown though there has been an unmarshaller before. -/
theorem readResponse_good (r : Reading) {c : Client} (h : CGood c) (hr : r = .badType → c.un = none) : CGood (readResponse 0 r c).1 := by
  have ht : CGood { c with sock := touch c.sock } := ⟨h.good.touch, h.fresh⟩
  have hu : ∀ c' : Client, CGood c' → CGood { dropUn c' with un := some (dropUn c').count, count := (dropUn c').count + 1, sock := { (dropUn c').sock with log := (dropUn c').sock.log ++ [.made (dropUn c').count] } } := by
    intro c' hc
    refine ⟨(dropUn_good hc).add (.made _) (dropUn c').sock.fd [(dropUn c').count] (by simp [act]) (by simp), ?_⟩
    intro n hn
    simp only [Option.mem_def, Option.some.injEq] at hn
    subst hn
    simp
  unfold readResponse
  cases r with
  | badHeader => exact ⟨ht.good.shut, ht.fresh⟩
  | badType =>
    have hn := hr rfl
    simp only [dropUn, hn]
    have := ht.good.shut
    simp only [hn] at this
    exact ⟨this, by simp⟩
  | badBody => exact ⟨(hu _ ht).good.shut, (hu _ ht).fresh⟩
  | response close =>
    simp only
    split
    · exact ⟨(hu _ ht).good.shut, (hu _ ht).fresh⟩
    · exact hu _ ht

theorem sends_good : ∀ (os : List (Outcome × Bool × Sending)) (c : Client), (∀ x ∈ os, x.1.eintr = 0) → CGood c → CGood (sends os c).1 ∧ (sends os c).1.un = c.un
  | [], c, _, h => ⟨h, rfl⟩
  | (o, w, s) :: os, c, ho, h => by
    obtain ⟨h1, h2, h3⟩ := sendRequest_good (ho (o, w, s) (by simp)) w s h
    rw [sends]
    revert h1 h2 h3
    generalize sendRequest o w s c = q
    obtain ⟨c', b⟩ := q
    intro h1 h2 h3
    cases b with
    | true =>
      obtain ⟨g1, g2⟩ := sends_good os c' (fun x hx => ho x (by simp [hx])) h1
      exact ⟨g1, g2.trans h2⟩
    | false => exact ⟨h1, h2⟩

/-- No `close` of the call is interrupted by a signal. -/
def Uninterrupted (k : Call) : Prop := (∀ x ∈ k.sends, x.1.eintr = 0) ∧ k.eintr = 0

theorem call_good (keepAlive : Bool) {s : Sock} (h : Good s []) (n : Nat) {k : Call} (hk : Uninterrupted k) : Good (call keepAlive s n k).1 [] := by
  have h0 : CGood ⟨s, keepAlive, false, false, none, n⟩ := ⟨h, by simp⟩
  unfold call
  simp only
  apply dropUn_good
  split
  · exact h0
  · obtain ⟨g1, g2⟩ := sends_good k.sends _ hk.1 h0
    split
    · next heq =>
      rw [heq] at g1 g2
      rw [hk.2]
      exact readResponse_good _ g1 (fun _ => g2)
    · next heq => rw [heq] at g1; exact g1

theorem calls_good (keepAlive : Bool) : ∀ (ks : List Call) (s : Sock) (n : Nat), (∀ k ∈ ks, Uninterrupted k) → Good s [] → Good (calls keepAlive ks s n).1 []
  | [], _, _, _, h => h
  | k :: ks, s, n, hk, h => by
    rw [calls]
    exact calls_good keepAlive ks _ _ (fun k' hk' => hk k' (by simp [hk'])) (call_good keepAlive h n (hk k (by simp)))

end Descriptors

open Descriptors Spec.Descriptors

/-- **C100 (no signals).** A proxy from its constructor to its destructor, whatever is called and whatever the network and the system calls do: it never has more than one connection open, every descriptor it
opens is closed exactly once, none is used when it is not open, every unmarshaller is deleted exactly once; in the end nothing is left. Missing: a `close` that a signal interrupts,
see `C100_interrupted_violated`. -/
theorem C100_ledger_partial (keepAlive : Bool) (ks : List Call) (h : ∀ k ∈ ks, Uninterrupted k) :
    Tidy (proxy keepAlive ks 0) ∧ replay ⟨[], []⟩ (proxy keepAlive ks 0) = some ⟨[], []⟩ := by
  have h0 : Good ⟨none, []⟩ [] := ⟨fun l hl => ⟨⟨[], []⟩, by rw [List.prefix_nil.1 hl]; rfl, by simp, by simp⟩, rfl, by simp⟩
  have h1 := (calls_good keepAlive ks _ 0 h h0).shut
  refine ⟨h1.1, ?_⟩
  have h2 := h1.2.1
  rw [shut_fd] at h2
  exact h2

/-- A call that is answered, on a new connection. -/
def goodCall (fd : Nat) (peek : Peek) : Call := ⟨true, [(⟨0, peek, some fd, true, true, .madeLater⟩, true, .sent)], 0, .response false⟩

/-- **C100 is violated** when a signal comes: `close` that was interrupted is called again, though the descriptor is closed; in a process with threads it may by then be another thread's. -/
theorem C100_interrupted_violated : replay ⟨[], []⟩ (proxy true [goodCall 5 .quiet] 1) = none ∧ (proxy true [goodCall 5 .quiet] 1).count (.close 5) = 2 := by decide

example : Uninterrupted (goodCall 5 .quiet) ∧ Uninterrupted ⟨true, [(⟨0, .ended, some 6, true, true, .late⟩, true, .sent)], 0, .response false⟩ := by
  refine ⟨⟨?_, rfl⟩, ⟨?_, rfl⟩⟩ <;> (intro x hx; simp [goodCall] at hx; subst hx; rfl)
example : proxy true [goodCall 5 .quiet, goodCall 9 .quiet, ⟨true, [(⟨0, .ended, some 6, true, true, .late⟩, true, .sent)], 0, .response false⟩] 0 =
    [.opened 5, .use 5, .use 5, .use 5, .use 5, .use 5, .use 5, .use 5, .made 0, .delete 0, .use 5, .use 5, .use 5, .made 1, .delete 1, .use 5, .use 5, .close 5,
     .opened 6, .use 6, .use 6, .use 6, .use 6, .close 6] := by decide

/-- **C100 (failures).** A call that fails in sending (but for an early answer of the server) or in reading leaves no connection to be used again, however the system calls end. -/
theorem C100_failed (keepAlive : Bool) (s : Sock) (n : Nat) (o : Outcome) (w : Bool) (sd : Sending) (eintr : Nat) (r : Reading)
    (h : sd = .failed ∨ ∀ c, r ≠ .response c) : (call keepAlive s n ⟨true, [(o, w, sd)], eintr, r⟩).1.fd = none := by
  have hd : ∀ c : Client, (dropUn c).sock.fd = c.sock.fd := by intro c; unfold dropUn; split <;> rfl
  have hu : ∀ c : Client, (∀ x, r ≠ .response x) → (readResponse eintr r c).1.sock.fd = none := by
    intro c hr
    unfold readResponse
    cases r with
    | badHeader => exact shut_fd _ _
    | badType => exact shut_fd _ _
    | badBody => exact shut_fd _ _
    | response x => exact absurd rfl (hr x)
  have hq : ∀ c : Client, (∀ x, r ≠ .response x) ∨ sd = .failed → ((sendRequest o w sd c).2 = false → sd ≠ .response ∨ (sendRequest o w sd c).1.mustClose = false → (sendRequest o w sd c).1.sock.fd = none) := by
    intro c _ hf hb
    revert hf hb
    unfold sendRequest
    simp only
    split
    · cases sd <;> simp [shut_fd]
    · split
      · simp [shut_fd]
      · split
        · cases sd <;> simp [shut_fd]
        · simp [shut_fd]
  unfold call
  simp only [Bool.true_eq_false, if_false, hd, sends]
  revert hq
  have hsf : sd = .failed → ∀ c, (sendRequest o w sd c).2 = false := by
    intro he c
    subst he
    unfold sendRequest
    simp only
    split
    · rfl
    · split
      · rfl
      · split <;> rfl
  intro hq
  have hq := hq ⟨s, keepAlive, false, false, none, n⟩ (by rcases h with h | h; exact .inr h; exact .inl h)
  have hsf := fun he => hsf he ⟨s, keepAlive, false, false, none, n⟩
  revert hq hsf
  generalize sendRequest o w sd ⟨s, keepAlive, false, false, none, n⟩ = q
  obtain ⟨c, b⟩ := q
  intro hq hsf
  cases b with
  | true =>
    simp only
    rcases h with h | h
    · exact absurd (hsf h) (by simp)
    · exact hu c h
  | false =>
    simp only
    by_cases hb : sd = .response ∧ c.mustClose = true
    · rw [decide_eq_true hb]
      simp only
      rcases h with h | h
      · rw [h] at hb; cases hb.1
      · exact hu c h
    · rw [decide_eq_false hb]
      simp only
      refine hq rfl ?_
      by_cases hs : sd = .response
      · right
        cases hm : c.mustClose with
        | true => exact absurd ⟨hs, hm⟩ hb
        | false => rfl
      · exact .inl hs

/-! ## The connector alone -/

/-- Every system call that makes a connection succeeds. -/
def Connects (o : Outcome) : Prop := o.socket.isSome = true ∧ o.nonBlocking = true ∧ o.noDelay = true ∧ (o.link = .made ∨ o.link = .madeLater)

namespace Descriptors

theorem openSocket_result (o : Outcome) (s : Sock) : ((openSocket o s).2 = true ↔ Connects o) ∧ ((openSocket o s).2 = true → (openSocket o s).1.fd = o.socket) := by
  unfold openSocket Connects
  cases h : o.socket with
  | none => simp
  | some n =>
    simp only
    split
    · next h1 => simp [h1]
    · next h1 =>
      have h1 : o.nonBlocking = true := by simpa using h1
      split
      · next h2 => simp [h2]
      · next h2 =>
        have h2 : o.noDelay = true := by simpa using h2
        cases hl : o.link <;> simp [h1, h2, touch_fd]

end Descriptors

/-- **C101.** `connectSocket` with no connection, or one that is not to be kept: it returns exactly if every system call for a connection succeeds; then the descriptor is the new one. If it throws, there is no
descriptor. -/
theorem C101_fresh (keepAlive : Bool) (o : Outcome) (s : Sock) (h : s.fd = none ∨ keepAlive = false) :
    ((connectSocket keepAlive o s).2 = true ↔ Connects o) ∧ (connectSocket keepAlive o s).1.fd = if (connectSocket keepAlive o s).2 then o.socket else none := by
  have hs : (if keepAlive = true then s else shut o.eintr s).fd = none := by
    split
    · next hk => rcases h with h | h; exact h; rw [hk] at h; cases h
    · exact shut_fd _ _
  unfold connectSocket
  revert hs
  generalize (if keepAlive = true then s else shut o.eintr s) = s1
  intro hs
  obtain ⟨h1, h2⟩ := openSocket_result o s1
  simp only [hs]
  revert h1 h2
  generalize openSocket o s1 = q
  obtain ⟨s2, b⟩ := q
  intro h1 h2
  cases b with
  | true => exact ⟨⟨fun _ => h1.1 rfl, fun _ => rfl⟩, h2 rfl⟩
  | false => exact ⟨⟨fun h => (by cases h), fun h => absurd (h1.2 h) (by simp)⟩, shut_fd _ _⟩

/-- **C101 (a kept connection).** One on which nothing has happened or data wait is used again; if the peer has closed it, it is closed, and a new one is made if every system call for that
succeeds. Missing: when they do not, see `C101_violated`. -/
theorem C101_kept_partial (o : Outcome) (s : Sock) (n : Nat) (h : s.fd = some n) :
    (o.peek = .quiet ∨ o.peek = .data → (connectSocket true o s).2 = true ∧ (connectSocket true o s).1.fd = some n) ∧
    (o.peek = .failed ∨ o.peek = .ended → Act.close n ∈ (connectSocket true o s).1.log ∧ ((connectSocket true o s).2 = true ↔ Connects o) ∧
      ((connectSocket true o s).2 = true → (connectSocket true o s).1.fd = o.socket)) := by
  have hm : ∀ s1 : Sock, (Act.close n ∈ s1.log → Act.close n ∈ (touch s1).log) := by
    intro s1 h1; unfold touch; split <;> simp [h1]
  have ho : ∀ s1 : Sock, Act.close n ∈ s1.log → Act.close n ∈ (openSocket o s1).1.log := by
    intro s1 h1
    unfold openSocket
    split
    · exact h1
    · next k hk =>
      have h0 : Act.close n ∈ (⟨some k, s1.log ++ [.opened k]⟩ : Sock).log := by simp [h1]
      simp only
      split
      · exact hm _ h0
      · split
        · exact hm _ (hm _ h0)
        · split
          · exact hm _ (hm _ (hm _ h0))
          · exact hm _ (hm _ (hm _ h0))
          · exact hm _ (hm _ (hm _ (hm _ (hm _ h0))))
          · exact hm _ (hm _ (hm _ (hm _ h0)))
          · exact hm _ (hm _ (hm _ (hm _ (hm _ h0))))
  have hsh : ∀ s1 : Sock, s1.fd = some n → Act.close n ∈ (shut o.eintr s1).log := by
    intro s1 h1
    simp [shut, h1, List.mem_append, List.mem_replicate]
  unfold connectSocket
  simp only [if_true, h]
  constructor
  · rintro (hp | hp) <;> simp [checkPeer, hp, touch_fd, h]
  · intro hp
    have hc : (checkPeer o s).fd = none ∧ Act.close n ∈ (checkPeer o s).log := by
      rcases hp with hp | hp
      · unfold checkPeer; rw [hp]; exact ⟨shut_fd _ _, hsh _ (by rw [touch_fd, h])⟩
      · unfold checkPeer; rw [hp]; exact ⟨shut_fd _ _, hsh _ (by rw [touch_fd, touch_fd, h])⟩
    obtain ⟨hc, hl⟩ := hc
    simp only [hc]
    exact ⟨ho _ hl, openSocket_result o _⟩

/-- **C101 is violated.** A kept connection that the peer has closed, and the new one is not made in time: `connectSocket` throws but leaves the new descriptor open and in place. If nothing has happened on it until
the next call, that returns it as a connection, though it has never been connected, and nobody looks at the error of the connection attempt any more. -/
theorem C101_violated (s : Sock) (k n : Nat) (h : s.fd = some k) (o : Outcome) (h1 : o.peek = .ended) (h2 : o.socket = some n) (h3 : o.nonBlocking = true) (h4 : o.noDelay = true) (h5 : o.link = .late)
    (o' : Outcome) (h6 : o'.peek = .quiet) :
    (connectSocket true o s).2 = false ∧ (connectSocket true o s).1.fd = some n ∧
    (connectSocket true o' (connectSocket true o s).1).2 = true ∧ (connectSocket true o' (connectSocket true o s).1).1.fd = some n := by
  have e : (connectSocket true o s).2 = false ∧ (connectSocket true o s).1.fd = some n := by
    unfold connectSocket
    simp only [if_true, h]
    have hc : (checkPeer o s).fd = none := by unfold checkPeer; rw [h1]; exact shut_fd _ _
    simp only [hc]
    unfold openSocket
    simp [h2, h3, h4, h5, touch_fd]
  refine ⟨e.1, e.2, ?_⟩
  exact (C101_kept_partial o' _ n e.2).1 (.inl h6)

example : (connectSocket true ⟨0, .ended, some 6, true, true, .late⟩ ⟨some 5, []⟩) = (⟨some 6, [.use 5, .use 5, .close 5, .opened 6, .use 6, .use 6, .use 6, .use 6]⟩, false) := by decide
example : Connects ⟨0, .quiet, some 6, true, true, .madeLater⟩ := ⟨rfl, rfl, rfl, .inr rfl⟩

/-! ## Several responses with one client -/

/-- Not interrupted, and no response of an unknown type. -/
def OpOk : Op → Prop
  | .send o _ _ => o.eintr = 0
  | .read e r => e = 0 ∧ r ≠ .badType

/-- **C102 (known types).** An `HTTPClient_t` from its constructor to its destructor, used in any order: unmarshallers are deleted exactly once, and what is left is the connection that is kept, if no response has an
unknown content type. Missing: those, see `C102_violated`. -/
theorem C102_client_partial (keepAlive : Bool) (s : Sock) (hs : Good s []) (count : Nat) (ops : List Op) (h : ∀ x ∈ ops, OpOk x) :
    Tidy (client keepAlive s count ops).sock.log ∧ replay ⟨[], []⟩ (client keepAlive s count ops).sock.log = some ⟨(client keepAlive s count ops).sock.fd.toList, []⟩ := by
  have key : ∀ (ops : List Op) (c : Client), (∀ x ∈ ops, OpOk x) → CGood c → CGood (ops.foldl step c) := by
    intro ops
    induction ops with
    | nil => intro c _ hc; exact hc
    | cons x ops ih =>
      intro c hx hc
      refine ih _ (fun y hy => hx y (by simp [hy])) ?_
      have hx := hx x (by simp)
      cases x with
      | send o w sd => exact (sendRequest_good hx w sd hc).1
      | read e r =>
        obtain ⟨h1, h2⟩ := hx
        subst h1
        exact readResponse_good r hc (fun h => absurd h h2)
  have := dropUn_good (key ops ⟨s, keepAlive, false, false, none, count⟩ h ⟨hs, by simp⟩)
  exact ⟨this.1, this.2.1⟩

/-- **C102 is violated:** a response, and then one of an unknown type: the unmarshaller is deleted twice. -/
theorem C102_violated (keepAlive close : Bool) :
    replay ⟨[], []⟩ (client keepAlive ⟨none, []⟩ 0 [.send ⟨0, .quiet, some 5, true, true, .made⟩ true .sent, .read 0 (.response close), .read 0 .badType]).sock.log = none := by
  revert keepAlive close
  decide

example : Good ⟨none, []⟩ [] := ⟨fun l hl => ⟨⟨[], []⟩, by rw [List.prefix_nil.1 hl]; rfl, by simp, by simp⟩, rfl, by simp⟩
example : (client true ⟨none, []⟩ 0 [.send ⟨0, .quiet, some 5, true, true, .made⟩ true .sent, .read 0 (.response false), .read 0 (.response true)]).sock =
    ⟨none, [.opened 5, .use 5, .use 5, .use 5, .use 5, .use 5, .made 0, .use 5, .delete 0, .made 1, .close 5, .delete 1]⟩ := by decide

end Frpc
