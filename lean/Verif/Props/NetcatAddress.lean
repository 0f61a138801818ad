import Verif.Props.Netcat
/-! # The console: addresses (C137) -/
namespace Frpc
open Netcat

/-! ## Specification -/

/-- The host a user names: `0` is this machine. -/
def Spec.Netcat.hostOf (h : Bytes) : Bytes := if h = asc "0" then asc "127.0.0.1" else h

/-- A word of a line. -/
def Spec.Netcat.Word (w : Bytes) : Prop := w ≠ [] ∧ 32 ∉ w ∧ 10 ∉ w ∧ 13 ∉ w

/-- Words with a space between them. -/
def Spec.Netcat.sentence : List Bytes → Bytes
  | [] => []
  | [w] => w
  | w :: ws => w ++ 32 :: sentence ws

/-- A line that makes a client without a name: `connect URL`, `connect HOST` or `connect HOST PORT`. -/
def Spec.Netcat.Unnamed (W : Netcat.World) (t : Bytes) : Prop :=
  (∃ u, Word u ∧ u ≠ asc "-h" ∧ u ≠ asc "--help" ∧ t = sentence [asc "connect", u]) ∨
  (∃ host p, Word host ∧ W.int (dec p) = some p ∧ t = sentence [asc "connect", host, dec p])

open Spec Spec.Netcat

namespace Netcat

theorem contains_split {pat s : Bytes} (h : contains pat s = true) : ∃ a b, s = a ++ pat ++ b := by
  induction s with
  | nil =>
    simp only [contains, List.isEmpty_iff] at h
    exact ⟨[], [], by simp [h]⟩
  | cons c s ih =>
    simp only [contains, Bool.or_eq_true] at h
    rcases h with h | h
    · obtain ⟨b, hb⟩ := List.isPrefixOf_iff_prefix.1 h
      exact ⟨[], b, by simp [hb]⟩
    · obtain ⟨a, b, hab⟩ := ih h
      exact ⟨c :: a, b, by simp [hab]⟩

theorem dec_plain' (n : Nat) : (47 : UInt8) ∉ dec n ∧ (32 : UInt8) ∉ dec n ∧ (10 : UInt8) ∉ dec n ∧ (13 : UInt8) ∉ dec n := by
  refine ⟨?_, ?_, ?_, ?_⟩ <;> (intro h; exact absurd (dec_digits n _ h) (by decide))

theorem dec_inj {m n : Nat} (h : dec m = dec n) : m = n := by
  rw [← atoi_dec m, ← atoi_dec n, h]

theorem address_named (host : Bytes) (p : Nat) (h : 47 ∉ host) :
    address host (some (dec p)) = asc "http://" ++ hostOf host ++ portText (some p) ++ asc "/RPC2" := by
  have h47 : 47 ∉ hostOf host := by
    unfold hostOf; split
    · decide
    · exact h
  have hn : contains (asc "://") (hostOf host ++ asc ":" ++ dec p ++ asc "/RPC2") = false := by
    cases hc : contains (asc "://") (hostOf host ++ asc ":" ++ dec p ++ asc "/RPC2") with
    | false => rfl
    | true =>
      obtain ⟨a, b, hab⟩ := contains_split hc
      have := congrArg (List.count 47) hab
      simp only [List.count_append, List.count_eq_zero.2 h47, List.count_eq_zero.2 (dec_plain' p).1, show (asc ":").count 47 = 0 from by decide, show (asc "/RPC2").count 47 = 1 from by decide,
        show (asc "://").count 47 = 2 from by decide] at this
      omega
  have e : (if host = asc "0" then asc "127.0.0.1" else host) = hostOf host := rfl
  unfold address
  simp only [if_neg h, Option.getD_some, e, hn, Bool.false_eq_true, if_false]
  simp only [portText, show asc ":" = [58] from by decide, List.append_assoc]

theorem address_80 (host : Bytes) : address host none = address host (some (dec 80)) := by
  have : asc "80" = dec 80 := by decide +kernel
  unfold address
  simp only [Option.getD_none, Option.getD_some, this]

theorem hostOf_ok {host : Bytes} (h : HostOk host) : HostOk (hostOf host) := by
  unfold hostOf; split
  · exact .inl (by decide)
  · exact h

theorem host_slash {host : Bytes} (h : HostOk host) : 47 ∉ host := by
  rcases h with h | ⟨a, rfl, h, -⟩
  · exact h.1
  · simpa using h

theorem split_word {w : Bytes} (h : 32 ∉ w) (r : Bytes) : split (w ++ 32 :: r) = w :: split r := by
  induction w with
  | nil => simp [split]
  | cons c w ih =>
    simp only [List.mem_cons, not_or] at h
    rw [List.cons_append]
    conv => lhs; unfold split
    rw [if_neg (fun e => h.1 e.symm), ih h.2]

theorem split_last {w : Bytes} (h : 32 ∉ w) : split w = [w] := by
  induction w with
  | nil => simp [split]
  | cons c w ih =>
    simp only [List.mem_cons, not_or] at h
    unfold split
    rw [if_neg (fun e => h.1 e.symm), ih h.2]

theorem dropWhile_head (c : UInt8) (s : Bytes) (h : c ≠ 32) : (c :: s).dropWhile (fun c => c == 32) = c :: s := by
  rw [List.dropWhile_cons, if_neg (by simpa using h)]

/-- A line without spaces at its ends and without line ends is left as it is. -/
theorem clean_same {s : Bytes} (h1 : 10 ∉ s ∧ 13 ∉ s) (h2 : s.head? ≠ some 32) (h3 : s.getLast? ≠ some 32) : clean s = s := by
  have hf : s.filter (fun c => c != 10 && c != 13) = s := by
    rw [List.filter_eq_self]
    intro c hc
    have e1 : c ≠ 10 := fun e => h1.1 (e ▸ hc)
    have e2 : c ≠ 13 := fun e => h1.2 (e ▸ hc)
    simp [e1, e2]
  unfold clean
  simp only [hf]
  cases s with
  | nil => rfl
  | cons c s =>
    rw [dropWhile_head c s (by simpa using h2)]
    have hr : (c :: s).reverse.head? ≠ some 32 := by rw [List.head?_reverse]; exact h3
    revert hr
    generalize hrv : (c :: s).reverse = r
    intro hr
    cases r with
    | nil => rw [← hrv]; simp at hrv
    | cons d r =>
      rw [dropWhile_head d r (by simpa using hr), ← hrv, List.reverse_reverse]


theorem contains_iff {pat s : Bytes} : contains pat s = true ↔ ∃ a b, s = a ++ pat ++ b := by
  refine ⟨contains_split, ?_⟩
  rintro ⟨a, b, rfl⟩
  induction a with
  | nil =>
    cases pat with
    | nil =>
      cases b with
      | nil => rfl
      | cons c b => simp [contains]
    | cons c pat =>
      simp only [List.nil_append, List.cons_append, contains, Bool.or_eq_true]
      exact .inl (List.isPrefixOf_iff_prefix.2 ⟨b, by simp⟩)
  | cons c a ih =>
    simp only [List.cons_append, contains, Bool.or_eq_true]
    exact .inr ih

theorem sentence_plain {ws : List Bytes} (h : ∀ w ∈ ws, Word w) : 10 ∉ sentence ws ∧ 13 ∉ sentence ws := by
  induction ws with
  | nil => exact ⟨by simp [sentence], by simp [sentence]⟩
  | cons w ws ih =>
    have hw := h w (by simp)
    cases ws with
    | nil => exact ⟨hw.2.2.1, hw.2.2.2⟩
    | cons v ws =>
      obtain ⟨h1, h2⟩ := ih (fun x hx => h x (by simp [hx]))
      show 10 ∉ w ++ 32 :: sentence (v :: ws) ∧ 13 ∉ w ++ 32 :: sentence (v :: ws)
      simp only [List.mem_append, List.mem_cons, not_or]
      exact ⟨⟨hw.2.2.1, by decide, h1⟩, hw.2.2.2, by decide, h2⟩

theorem sentence_ne {ws : List Bytes} (h : ∀ w ∈ ws, Word w) (hne : ws ≠ []) : sentence ws ≠ [] := by
  cases ws with
  | nil => exact absurd rfl hne
  | cons w ws =>
    have hw := (h w (by simp)).1
    cases ws with
    | nil => exact hw
    | cons v ws =>
      show w ++ 32 :: sentence (v :: ws) ≠ []
      simp

theorem sentence_head {ws : List Bytes} (h : ∀ w ∈ ws, Word w) : (sentence ws).head? ≠ some 32 := by
  cases ws with
  | nil => simp [sentence]
  | cons w ws =>
    have hw := h w (by simp)
    have : ∀ r, (w ++ r).head? ≠ some 32 := by
      intro r
      cases w with
      | nil => exact absurd rfl hw.1
      | cons c w =>
        intro e
        simp only [List.cons_append, List.head?_cons, Option.some.injEq] at e
        exact hw.2.1 (by simp [e])
    cases ws with
    | nil => have := this []; rwa [List.append_nil] at this
    | cons v ws => exact this _

theorem sentence_last {ws : List Bytes} (h : ∀ w ∈ ws, Word w) : (sentence ws).getLast? ≠ some 32 := by
  induction ws with
  | nil => simp [sentence]
  | cons w ws ih =>
    have hw := h w (by simp)
    cases ws with
    | nil =>
      intro e
      exact hw.2.1 (List.mem_of_getLast? e)
    | cons v ws =>
      have hv : ∀ x ∈ v :: ws, Word x := fun x hx => h x (by simp [hx])
      show (w ++ 32 :: sentence (v :: ws)).getLast? ≠ some 32
      have h0 := sentence_ne hv (by simp)
      have := ih hv
      rw [List.getLast?_append]
      revert h0 this
      generalize sentence (v :: ws) = r
      intro h0 this
      cases r with
      | nil => exact absurd rfl h0
      | cons c r =>
        rw [List.getLast?_cons_cons]
        cases hg : (c :: r).getLast? with
        | none => simp at hg
        | some x => rw [hg] at this; simpa using this

/-- The words of a line are its parts. -/
theorem split_sentence {ws : List Bytes} (h : ∀ w ∈ ws, Word w) (hne : ws ≠ []) : split (sentence ws) = ws := by
  induction ws with
  | nil => exact absurd rfl hne
  | cons w ws ih =>
    have hw := h w (by simp)
    cases ws with
    | nil => exact split_last hw.2.1
    | cons v ws =>
      show split (w ++ 32 :: sentence (v :: ws)) = _
      rw [split_word hw.2.1, ih (fun x hx => h x (by simp [hx])) (by simp)]

theorem clean_sentence {ws : List Bytes} (h : ∀ w ∈ ws, Word w) : clean (sentence ws) = sentence ws :=
  clean_same (sentence_plain h) (sentence_head h) (sentence_last h)

/-- What a line that begins with `connect` asks for. -/
theorem connect_act (W : World) (s : Settings) {ws : List Bytes} (h : ∀ w ∈ ws, Word w) (hl : ws.getLast? ≠ some (asc "-h") ∧ ws.getLast? ≠ some (asc "--help")) (hne : ws ≠ []) :
    actOf W s (askHelp (clean (sentence (asc "connect" :: ws)))).1 (askHelp (clean (sentence (asc "connect" :: ws)))).2 = connect W false s.timeout (asc "connect" :: ws) := by
  have hc : ∀ w ∈ asc "connect" :: ws, Word w := by
    intro w hw
    rcases List.mem_cons.1 hw with rfl | hw
    · exact ⟨by decide, by decide, by decide, by decide⟩
    · exact h w hw
  have hs := split_sentence hc (by simp)
  have hlast : (asc "connect" :: ws).getLast? = ws.getLast? := by
    cases ws with
    | nil => exact absurd rfl hne
    | cons v ws => rw [List.getLast?_cons_cons]
  have ha : askHelp (sentence (asc "connect" :: ws)) = (sentence (asc "connect" :: ws), asc "connect" :: ws) := by
    unfold askHelp
    simp only [hs]
    rw [if_neg]
    rintro ⟨-, e⟩
    rw [hlast] at e
    exact e.elim hl.1 hl.2
  rw [clean_sentence hc, ha]
  have hq : ¬ (sentence (asc "connect" :: ws) = asc "exit" ∨ sentence (asc "connect" :: ws) = asc "quit") := by
    rintro (e | e)
    · rw [e] at hs
      have := congrArg List.head? hs
      revert this
      simp only [List.head?_cons]
      decide
    · rw [e] at hs
      have := congrArg List.head? hs
      revert this
      simp only [List.head?_cons]
      decide
  show commandOf W s _ (asc "connect") (ws.headD []) (asc "connect" :: ws) = _
  unfold commandOf
  rw [if_neg (fun e => absurd e.1 (by decide)), if_neg (by decide), if_neg hq, if_neg (by decide), if_pos rfl]

theorem step_unnamed (W : World) (tty : Bool) (s : State) (t server : Bytes) (h : actOf W s.settings (askHelp (clean t)).1 (askHelp (clean t)).2 = .unnamed server) :
    (step W tty s t).1.done = s.done ++ [.connect server s.settings.timeout (asc "client" ++ dec (s.clients + 1))] ∧
    (W.outcome s.done (.connect server s.settings.timeout (asc "client" ++ dec (s.clients + 1))) = .ok → (step W tty s t).1.clients = s.clients + 1 ∧ (step W tty s t).2 = none) := by
  unfold step
  simp only [h, perform]
  constructor
  · split
    · rfl
    · rfl
    · exact (ctrlC_same _ _).1
    · rfl
    · rfl
  · intro ho
    simp only [ho, and_self]

theorem unnamed_act (W : World) (s : Settings) {t : Bytes} (h : Unnamed W t) : ∃ server, actOf W s (askHelp (clean t)).1 (askHelp (clean t)).2 = .unnamed server := by
  rcases h with ⟨u, hw, h1, h2, rfl⟩ | ⟨host, p, hw, hi, rfl⟩
  · refine ⟨address u none, (connect_act W s (ws := [u]) (by intro w hm; simp only [List.mem_cons, List.not_mem_nil, or_false] at hm; subst hm; exact hw) ⟨by simpa using h1, by simpa using h2⟩ (by simp)).trans ?_⟩
    unfold connect hasName
    simp [connectRpc]
  · have hd : Word (dec p) := ⟨dec_ne_nil p, (dec_plain' p).2.1, (dec_plain' p).2.2.1, (dec_plain' p).2.2.2⟩
    have hl : ∀ x : Bytes, (45 : UInt8) ∈ x → dec p ≠ x := fun x hx e => absurd (dec_digits p 45 (e ▸ hx)) (by decide)
    refine ⟨address host (some (dec p)), (connect_act W s (ws := [host, dec p]) (by intro w hm; simp only [List.mem_cons, List.not_mem_nil, or_false] at hm; rcases hm with rfl | rfl; exact hw; exact hd)
      ⟨by simpa using hl _ (by decide), by simpa using hl _ (by decide)⟩ (by simp)).trans ?_⟩
    unfold connect hasName
    simp [hi, connectRpc]

theorem step_did (W : World) (tty : Bool) (s : State) (t : Bytes) (d : Did) (h : actOf W s.settings (askHelp (clean t)).1 (askHelp (clean t)).2 = .did d) :
    (step W tty s t).1.done = s.done ++ [d] := by
  unfold step
  simp only [h, perform]
  split
  · rfl
  · rfl
  · exact (ctrlC_same _ _).1
  · rfl
  · rfl

theorem perform_clients (W : World) (tty : Bool) (s : State) (d : Did) (n : Nat) (h : s.clients ≤ n) : s.clients ≤ (perform W tty s d n).1.clients := by
  unfold perform
  simp only
  split
  · exact h
  · exact Nat.le_refl _
  · unfold ctrlC
    split
    · split <;> exact Nat.le_refl _
    · exact Nat.le_refl _
  · exact Nat.le_refl _
  · exact Nat.le_refl _

theorem step_clients (W : World) (tty : Bool) (s : State) (t : Bytes) : s.clients ≤ (step W tty s t).1.clients := by
  unfold step
  simp only
  generalize actOf W s.settings (askHelp (clean t)).1 (askHelp (clean t)).2 = a
  cases a with
  | did d => exact perform_clients W tty { s with line := s.line + 1, interrupted := false } d _ (Nat.le_refl _)
  | unnamed server => exact perform_clients W tty { s with line := s.line + 1, interrupted := false } _ _ (Nat.le_succ _)
  | nothing => exact Nat.le_refl _
  | quit => exact Nat.le_refl _
  | set x => exact Nat.le_refl _
  | badValue => exact Nat.le_refl _
  | raised => exact Nat.le_refl _

theorem run_clients (W : World) (tty : Bool) (s : State) (is : List Input) : s.clients ≤ (run W tty s is).1.clients := by
  induction is generalizing s with
  | nil => exact Nat.le_refl _
  | cons i is ih =>
    have hi : s.clients ≤ (input W tty s i).1.clients := by
      cases i with
      | line t => exact step_clients W tty s t
      | ctrlC =>
        show s.clients ≤ (ctrlC tty s).1.clients
        unfold ctrlC
        split
        · split <;> exact Nat.le_refl _
        · exact Nat.le_refl _
    unfold run
    revert hi
    generalize input W tty s i = r
    obtain ⟨s', o⟩ := r
    intro hi
    cases o with
    | none => exact Nat.le_trans hi (ih s')
    | some e => exact hi

end Netcat

/-! ## C136: the text of a line -/

/-- **C136 (the text of a line).** What a line says is what was written without the spaces around it and without the end of the line, of either kind. -/
theorem C136_line (before after : Nat) (e ending : Bytes) (h1 : 10 ∉ e ∧ 13 ∉ e) (h2 : e.head? ≠ some 32) (h3 : e.getLast? ≠ some 32) (hend : ending = [] ∨ ending = asc "\n" ∨ ending = asc "\r\n") :
    clean (List.replicate before 32 ++ e ++ List.replicate after 32 ++ ending) = e := by
  have hf : ((List.replicate before 32 ++ e ++ List.replicate after 32 ++ ending).filter (fun c => c != 10 && c != 13)) = List.replicate before 32 ++ e ++ List.replicate after 32 := by
    have he : e.filter (fun c => c != 10 && c != 13) = e := by
      rw [List.filter_eq_self]
      intro c hc
      have e1 : c ≠ 10 := fun e => h1.1 (e ▸ hc)
      have e2 : c ≠ 13 := fun e => h1.2 (e ▸ hc)
      simp [e1, e2]
    have hr : ∀ n, (List.replicate n (32 : UInt8)).filter (fun c => c != 10 && c != 13) = List.replicate n 32 := by
      intro n
      rw [List.filter_eq_self]
      intro c hc
      rw [List.eq_of_mem_replicate hc]
      decide
    have hx : ending.filter (fun c => c != 10 && c != 13) = [] := by
      rcases hend with rfl | rfl | rfl <;> decide
    rw [List.filter_append, List.filter_append, List.filter_append, he, hr, hr, hx, List.append_nil]
  have hd : ∀ n (r : Bytes), (List.replicate n 32 ++ r).dropWhile (fun c => c == 32) = r.dropWhile (fun c => c == 32) := by
    intro n r
    induction n with
    | zero => rfl
    | succ n ih => rw [List.replicate_succ, List.cons_append, List.dropWhile_cons, if_pos (by decide)]; exact ih
  unfold clean
  simp only [hf]
  rw [List.append_assoc, hd]
  cases e with
  | nil =>
    have h0 : (List.replicate after (32 : UInt8)).dropWhile (fun c => c == 32) = [] := by
      have := hd after []
      simpa using this
    simp [h0]
  | cons c e =>
    rw [List.cons_append, dropWhile_head c _ (by simpa using h2), ← List.cons_append, List.reverse_append, List.reverse_replicate, hd]
    have hr : (c :: e).reverse.head? ≠ some 32 := by rw [List.head?_reverse]; exact h3
    revert hr
    generalize hrv : (c :: e).reverse = r
    intro hr
    cases r with
    | nil => simp at hrv
    | cons d r => rw [dropWhile_head d r (by simpa using hr), ← hrv, List.reverse_reverse]

example : clean (asc "  client.add(1, 2) \r\n") = asc "client.add(1, 2)" := by decide

/-! ## C137 -/

/-- **C137 (host and port).** `connect HOST PORT` makes a client for that host and port and the path `/RPC2`, over plain HTTP, under the next of the names `client1`, `client2`, …; the host `0` is this machine. -/
theorem C137_host (W : World) (tty : Bool) (s : State) (host : Bytes) (p : Nat) (hw : Word host) (hh : HostOk host) (hp : p ≤ 65535) (hi : W.int (dec p) = some p) :
    ∃ server, (step W tty s (sentence [asc "connect", host, dec p])).1.done = s.done ++ [.connect server s.settings.timeout (asc "client" ++ dec (s.clients + 1))] ∧
      Url.parse server = .ok ⟨hostOf host, p, asc "/RPC2", false, false⟩ := by
  have hd : Word (dec p) := ⟨dec_ne_nil p, (dec_plain' p).2.1, (dec_plain' p).2.2.1, (dec_plain' p).2.2.2⟩
  have hl : ∀ x : Bytes, (45 : UInt8) ∈ x → dec p ≠ x := fun x hx e => absurd (dec_digits p 45 (e ▸ hx)) (by decide)
  have ha := connect_act W s.settings (ws := [host, dec p]) (by intro w hm; simp only [List.mem_cons, List.not_mem_nil, or_false] at hm; rcases hm with rfl | rfl; exact hw; exact hd)
    ⟨by simpa using hl _ (by decide), by simpa using hl _ (by decide)⟩ (by simp)
  have hc : connect W false s.settings.timeout [asc "connect", host, dec p] = .unnamed (address host (some (dec p))) := by
    unfold connect hasName
    simp [hi, connectRpc]
  refine ⟨_, (step_unnamed W tty s _ _ (ha.trans hc)).1, ?_⟩
  rw [address_named host p (host_slash hh)]
  exact C56_parse_partial false (asc "http://") (hostOf host) (asc "/RPC2") (some p) (by unfold IsScheme; decide) (hostOf_ok hh) (.inr (by decide)) (fun q hq => by cases hq; exact hp) (fun _ _ => by decide)

/-- **C137 (a name).** `connect NAME HOST PORT` makes the same client under the name given. -/
theorem C137_named (W : World) (tty : Bool) (s : State) (name host : Bytes) (p : Nat) (hn : Word name) (hw : Word host) (hh : HostOk host) (hp : p ≤ 65535) :
    ∃ server, (step W tty s (sentence [asc "connect", name, host, dec p])).1.done = s.done ++ [.connect server s.settings.timeout name] ∧
      Url.parse server = .ok ⟨hostOf host, p, asc "/RPC2", false, false⟩ := by
  have hd : Word (dec p) := ⟨dec_ne_nil p, (dec_plain' p).2.1, (dec_plain' p).2.2.1, (dec_plain' p).2.2.2⟩
  have hl : ∀ x : Bytes, (45 : UInt8) ∈ x → dec p ≠ x := fun x hx e => absurd (dec_digits p 45 (e ▸ hx)) (by decide)
  have ha := connect_act W s.settings (ws := [name, host, dec p]) (by intro w hm; simp only [List.mem_cons, List.not_mem_nil, or_false] at hm; rcases hm with rfl | rfl | rfl; exact hn; exact hw; exact hd)
    ⟨by simpa using hl _ (by decide), by simpa using hl _ (by decide)⟩ (by simp)
  have hc : connect W false s.settings.timeout [asc "connect", name, host, dec p] = .did (.connect (address host (some (dec p))) s.settings.timeout name) := by
    unfold connect hasName
    simp [connectRpc]
  refine ⟨_, step_did W tty s _ _ (ha.trans hc), ?_⟩
  rw [address_named host p (host_slash hh)]
  exact C56_parse_partial false (asc "http://") (hostOf host) (asc "/RPC2") (some p) (by unfold IsScheme; decide) (hostOf_ok hh) (.inr (by decide)) (fun q hq => by cases hq; exact hp) (fun _ _ => by decide)

/-- **C137 (no port).** Without a port it is 80, on the command line and in `connect HOST`. -/
theorem C137_port80 (W : World) (tty : Bool) (s : State) (host : Bytes) (hw : Word host) (hh : HostOk host) (hx : host ≠ asc "-h" ∧ host ≠ asc "--help") :
    ∃ server, (step W tty s (sentence [asc "connect", host])).1.done = s.done ++ [.connect server s.settings.timeout (asc "client" ++ dec (s.clients + 1))] ∧ fromArgs [host] = some server ∧
      Url.parse server = .ok ⟨hostOf host, 80, asc "/RPC2", false, false⟩ := by
  have ha := connect_act W s.settings (ws := [host]) (by intro w hm; simp only [List.mem_cons, List.not_mem_nil, or_false] at hm; subst hm; exact hw) ⟨by simpa using hx.1, by simpa using hx.2⟩ (by simp)
  have hc : connect W false s.settings.timeout [asc "connect", host] = .unnamed (address host none) := by
    unfold connect hasName
    simp [connectRpc]
  refine ⟨_, (step_unnamed W tty s _ _ (ha.trans hc)).1, rfl, ?_⟩
  rw [address_80, address_named host 80 (host_slash hh)]
  exact C56_parse_partial false (asc "http://") (hostOf host) (asc "/RPC2") (some 80) (by unfold IsScheme; decide) (hostOf_ok hh) (.inr (by decide)) (fun q hq => by cases hq; decide) (fun _ _ => by decide)

/-- **C137 (the command line).** A host and a port as the arguments of the program mean the same as after `connect`. -/
theorem C137_args (host : Bytes) (p : Nat) (hh : HostOk host) (hp : p ≤ 65535) :
    ∃ server, fromArgs [host, dec p] = some server ∧ Url.parse server = .ok ⟨hostOf host, p, asc "/RPC2", false, false⟩ := by
  refine ⟨_, rfl, ?_⟩
  rw [address_named host p (host_slash hh)]
  exact C56_parse_partial false (asc "http://") (hostOf host) (asc "/RPC2") (some p) (by unfold IsScheme; decide) (hostOf_ok hh) (.inr (by decide)) (fun q hq => by cases hq; exact hp) (fun _ _ => by decide)

/-- **C137 (a URL).** A URL is taken as it is, and with `http://` before it if it has no scheme; with a name or without, in `connect` and on the command line. -/
theorem C137_url (W : World) (tty : Bool) (s : State) (url : Bytes) (hw : Word url) (hu : 47 ∈ url) (hi : W.int url = none) :
    ∃ server, (server = url ∧ (∃ scheme rest, url = scheme ++ asc "://" ++ rest) ∨ server = asc "http://" ++ url ∧ ¬ ∃ scheme rest, url = scheme ++ asc "://" ++ rest) ∧
      fromArgs [url] = some server ∧
      (step W tty s (sentence [asc "connect", url])).1.done = s.done ++ [.connect server s.settings.timeout (asc "client" ++ dec (s.clients + 1))] ∧
      ∀ name, Word name → (step W tty s (sentence [asc "connect", name, url])).1.done = s.done ++ [.connect server s.settings.timeout name] := by
  have hx : url ≠ asc "-h" ∧ url ≠ asc "--help" := by
    constructor <;> (rintro rfl; exact absurd hu (by decide))
  have ha := connect_act W s.settings (ws := [url]) (by intro w hm; simp only [List.mem_cons, List.not_mem_nil, or_false] at hm; subst hm; exact hw) ⟨by simpa using hx.1, by simpa using hx.2⟩ (by simp)
  have hc : connect W false s.settings.timeout [asc "connect", url] = .unnamed (address url none) := by
    unfold connect hasName
    simp [connectRpc]
  refine ⟨address url none, ?_, rfl, (step_unnamed W tty s _ _ (ha.trans hc)).1, fun name hn => ?_⟩
  · unfold address
    simp only [if_pos hu]
    by_cases h : contains (asc "://") url = true
    · rw [if_pos h]; exact .inl ⟨rfl, contains_iff.1 h⟩
    · rw [if_neg h]; exact .inr ⟨rfl, fun e => h (contains_iff.2 e)⟩
  · have ha' := connect_act W s.settings (ws := [name, url]) (by intro w hm; simp only [List.mem_cons, List.not_mem_nil, or_false] at hm; rcases hm with rfl | rfl; exact hn; exact hw)
      ⟨by simpa using hx.1, by simpa using hx.2⟩ (by simp)
    have hc' : connect W false s.settings.timeout [asc "connect", name, url] = .did (.connect (address url none) s.settings.timeout name) := by
      unfold connect hasName
      simp [hi, connectRpc]
    exact step_did W tty s _ _ (ha'.trans hc')

/-- **C137 (names).** A client made without a name never takes the name of one made so before it, whatever was read between them. -/
theorem C137_names (W : World) (tty : Bool) (s : State) (t t' : Bytes) (is : List Input) (h : Unnamed W t) (h' : Unnamed W t') :
    ∃ server name server' name', (step W tty s t).1.done = s.done ++ [.connect server s.settings.timeout name] ∧
      (step W tty (run W tty (step W tty s t).1 is).1 t').1.done =
        (run W tty (step W tty s t).1 is).1.done ++ [.connect server' (run W tty (step W tty s t).1 is).1.settings.timeout name'] ∧
      (W.outcome s.done (.connect server s.settings.timeout name) = .ok → name ≠ name') := by
  obtain ⟨server, ha⟩ := unnamed_act W s.settings h
  obtain ⟨server', ha'⟩ := unnamed_act W (run W tty (step W tty s t).1 is).1.settings h'
  obtain ⟨h1, h2⟩ := step_unnamed W tty s t server ha
  refine ⟨server, _, server', _, h1, (step_unnamed W tty _ t' server' ha').1, fun ho e => ?_⟩
  have hc := (h2 ho).1
  have hr := run_clients W tty (step W tty s t).1 is
  simp only [List.append_cancel_left_eq] at e
  have := dec_inj e
  omega

example : Word (asc "rpc.example.cz") ∧ HostOk (asc "rpc.example.cz") ∧ Word (asc "[::1]") ∧ HostOk (asc "[::1]") := by
  refine ⟨⟨by decide, by decide, by decide, by decide⟩, .inl (by decide), ⟨by decide, by decide, by decide, by decide⟩, .inr ⟨asc "::1", by decide, by decide, by decide⟩⟩

example : (step strict false (start (asc "1") (asc "utf8") true) (asc "connect db http://u:p@h:8080/x")).1.done = [.connect (asc "http://u:p@h:8080/x") 60000 (asc "db")] := by
  decide +kernel

example : fromArgs [asc "0", asc "8080"] = some (asc "http://127.0.0.1:8080/RPC2") := by decide

end Frpc
