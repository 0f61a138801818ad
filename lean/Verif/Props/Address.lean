import Verif.Model.Address
import Verif.Props.Url
/-!
# What a proxy connects to: C103
-/
namespace Frpc
open Address Spec Url

/-- What an http(s) URL names: the host, without the brackets of an IPv6 address. -/
inductive Names : Bytes → Bytes → Bool → Prop
  | plain {h} : h ≠ [] → 47 ∉ h → 58 ∉ h → 93 ∉ h → Names h h false
  | v6 {a} : 47 ∉ a → 93 ∉ a → Names ([91] ++ a ++ [93]) a true

theorem Names.hostOk {h name : Bytes} {v6 : Bool} (n : Names h name v6) : HostOk h := by
  cases n with
  | plain _ h2 h3 h4 => exact .inl ⟨h2, h3, h4⟩
  | v6 h1 h2 => exact .inr ⟨_, rfl, h1, h2⟩

theorem Names.inet {u : Url.Url} {name : Bytes} {v6 : Bool} (n : Names u.host name v6) : Address.inet u = some (.inet name v6 u.port) := by
  unfold Address.inet
  revert n
  generalize u.host = h
  intro n
  cases n with
  | plain h1 _ _ h4 =>
    rw [if_neg h1, if_neg]
    rintro ⟨-, h⟩
    exact h4 (List.mem_of_getLast? h)
  | v6 _ _ =>
    rw [if_neg (by simp), if_pos ⟨by simp, by rw [List.getLast?_append]; simp⟩]
    simp

/-- **C103 (http).** A proxy for `scheme://host[:port]path` connects to that host and port, 80 or 443 if none is given. Missing: port 0, and a `]` in the path (C56_violated). -/
theorem C103_inet_partial (ssl : Bool) (scheme host path name : Bytes) (v6 : Bool) (port : Option Nat) (hs : IsScheme ssl scheme) (hn : Names host name v6) (hp : path = [] ∨ path.head? = some 47)
    (hport : ∀ p, port = some p → 0 < p ∧ p ≤ 65535) (hb : port ≠ none → 93 ∉ host → 93 ∉ path) :
    peerFor (scheme ++ host ++ portText port ++ path) [] = .ok (some (.inet name v6 (portOf ssl port))) := by
  have h := C56_parse_partial ssl scheme host path port hs hn.hostOk hp (fun p h => (hport p h).2) hb
  unfold peerFor Url.make
  rw [if_pos rfl, h]
  simp only [peer]
  have h0 : portOf ssl port ≠ 0 := by
    cases port with
    | none => cases ssl <;> simp [portOf]
    | some p => have := (hport p rfl).1; simp only [portOf, Option.getD_some]; omega
  rw [if_neg h0]
  exact congrArg _ (Names.inet (u := ⟨host, portOf ssl port, _, false, ssl⟩) hn)

/-- **C103 (unix sockets).** A proxy for `unix:///path` connects to that path, if it has at most 107 bytes and no NUL. -/
theorem C103_unix_partial (path : Bytes) (hp : path.head? = some 47) (hl : path.length ≤ 107) (h0 : (0 : UInt8) ∉ path) : peerFor (asc "unix://" ++ path) [] = .ok (some (.unix path)) := by
  obtain ⟨c, r, rfl⟩ : ∃ c r, path = c :: r := by cases path with
    | nil => simp at hp
    | cons c r => exact ⟨c, r, rfl⟩
  have hc : c = 47 := by simpa using hp
  subst hc
  have hu : asc "unix://" = [117, 110, 105, 120, 58, 47, 47] := by decide
  have h1 : hasScheme (asc "http://") (asc "unix://" ++ 47 :: r) = false := by
    have hh : asc "http://" = [104, 116, 116, 112, 58, 47, 47] := by decide
    have : toUpper 104 ≠ toUpper 117 := by decide
    rw [hu, hh]; simp [hasScheme, this]
  have h2 : hasScheme (asc "https://") (asc "unix://" ++ 47 :: r) = false := by
    have hh : asc "https://" = [104, 116, 116, 112, 115, 58, 47, 47] := by decide
    have : toUpper 104 ≠ toUpper 117 := by decide
    rw [hu, hh]; simp [hasScheme, this]
  have h3 : hasScheme (asc "unix://") (asc "unix://" ++ 47 :: r) = true := by rw [hu]; simp [hasScheme]
  have hf : UrlForm.findFrom 47 (asc "unix://" ++ 47 :: r) 7 = some 7 := by rw [hu]; simp [UrlForm.findFrom, List.findIdx?, List.findIdx?.go]
  have hpar : Url.parse (asc "unix://" ++ 47 :: r) = .ok ⟨[], 0, 47 :: r, false, false⟩ := by
    unfold Url.parse
    rw [h1, h2, h3]
    simp only [Bool.false_eq_true, if_false, if_true]
    unfold Url.parseAfter
    have hge : ∀ q, UrlForm.findFrom 58 (asc "unix://" ++ 47 :: r) ((UrlForm.findFrom 93 (asc "unix://" ++ 47 :: r) 0).getD 7) = some q → 7 ≤ q := by
      intro q hq
      have h7 : 7 ≤ (UrlForm.findFrom 93 (asc "unix://" ++ 47 :: r) 0).getD 7 := by
        cases hk : UrlForm.findFrom 93 (asc "unix://" ++ 47 :: r) 0 with
        | none => simp
        | some k =>
          simp only [Option.getD_some]
          rw [hu] at hk
          simp only [UrlForm.findFrom, List.drop_zero, List.cons_append, List.nil_append, List.findIdx?_cons] at hk
          simp at hk
          omega
      exact Nat.le_trans h7 (findFrom_ge hq)
    simp only [hf, Option.getD_some]
    have hlt : UrlForm.posLt (UrlForm.findFrom 58 (asc "unix://" ++ 47 :: r) ((UrlForm.findFrom 93 (asc "unix://" ++ 47 :: r) 0).getD 7)) (some 7) = false := by
      revert hge
      generalize UrlForm.findFrom 58 (asc "unix://" ++ 47 :: r) ((UrlForm.findFrom 93 (asc "unix://" ++ 47 :: r) 0).getD 7) = q
      intro hge
      cases q with
      | none => rfl
      | some q => have := hge q rfl; simp [UrlForm.posLt]; omega
    simp only [hlt]
    rw [hu]
    simp [UrlForm.substr, pathOf]
  unfold peerFor Url.make
  rw [if_pos rfl, hpar]
  simp only [peer, if_true, unixPath]
  have tw : ∀ l : Bytes, (0 : UInt8) ∉ l → l.takeWhile (fun c => decide (c ≠ 0)) = l := by
    intro l
    induction l with
    | nil => intro _; rfl
    | cons c l ih =>
      intro h
      have hc : c ≠ 0 := fun e => h (by simp [e])
      rw [List.takeWhile_cons_of_pos (by simpa using hc), ih (fun e => h (by simp [e]))]
  have ht := tw _ h0
  rw [ht, List.take_of_length_le hl]

/-- **C103 is violated: long paths.** A path of more than 107 bytes is cut without a word: proxies for different unix URLs connect to the same socket, which is neither of them. -/
theorem C103_long_violated : ∃ a b : Bytes, a ≠ b ∧ (0 : UInt8) ∉ a ∧ (0 : UInt8) ∉ b ∧ ∃ p, peerFor (asc "unix://" ++ a) [] = .ok (some (.unix p)) ∧ peerFor (asc "unix://" ++ b) [] = .ok (some (.unix p)) ∧
    p ≠ a ∧ p ≠ b :=
  ⟨List.replicate 108 47, List.replicate 109 47, by decide +kernel, by decide +kernel, by decide +kernel, List.replicate 107 47, by decide +kernel, by decide +kernel, by decide +kernel, by decide +kernel⟩

/-- **C103 is violated: a proxy at a unix socket.** The client connects to a unix socket whose path is the URL of the target. -/
theorem C103_unix_proxy_violated (url path : Bytes) (hp : path.head? = some 47) (hl : path.length ≤ 107) (h0 : (0 : UInt8) ∉ path) :
    peerFor url (asc "unix://" ++ path) = .ok (some (.unix (unixPath url))) := by
  have h := C103_unix_partial path hp hl h0
  have hne : asc "unix://" ++ path ≠ [] := by
    have hu : asc "unix://" = [117, 110, 105, 120, 58, 47, 47] := by decide
    rw [hu]; simp
  unfold peerFor Url.make at h ⊢
  rw [if_pos rfl] at h
  rw [if_neg hne]
  revert h
  cases hq : Url.parse (asc "unix://" ++ path) with
  | error e => intro h; cases h
  | ok u =>
    intro h
    have h : peer u = some (.unix path) := by simpa using h
    have hz : u.port = 0 := by
      unfold peer at h
      split at h
      · assumption
      · unfold Address.inet at h
        split at h
        · cases h
        · split at h <;> cases h
    simp [peer, hz]

/-- **C103 is violated: port 0.** `http://host:0/path`, or a port that is no number, connects to the unix socket at the path, not to the host. -/
theorem C103_port_violated : peerFor (asc "http://host:0/etc/x") [] = .ok (some (.unix (asc "/etc/x"))) ∧ peerFor (asc "http://host:rpc/etc/x") [] = .ok (some (.unix (asc "/etc/x"))) := by
  constructor <;> decide +kernel

example : Names (asc "h.cz") (asc "h.cz") false ∧ Names (asc "[::1]") (asc "::1") true := ⟨.plain (by decide) (by decide) (by decide) (by decide), .v6 (a := asc "::1") (by decide) (by decide)⟩
example : peerFor (asc "HTTPS://[::1]/x") [] = .ok (some (.inet (asc "::1") true 443)) := by decide +kernel
example : peerFor (asc "http:///x") [] = .ok none := by decide +kernel
example : peerFor (asc "unix:///tmp/a]b:c") [] = .ok (some (.unix (asc "/tmp/a]b:c"))) := by decide +kernel
example : peerFor (asc "http://t/x") (asc "unix:///tmp/s") = .ok (some (.unix (asc "http://t/x"))) := by decide +kernel

end Frpc
