import Verif.Props.HttpPeer
/-!
# URLs with white space: C75

Nothing between the URL that the user gives and the request line looks at the characters of the path.
-/
namespace Frpc
open Spec Spec.Http HttpIO HttpOut HttpServer Url

/-- **C75 is violated: a URL can add header fields.** For every URL, and every text: the URL with the protocol, a line end and the text behind it is accepted, and a request to it begins with
the request line of the first URL, followed by the text. -/
theorem C75_injection_violated (ssl : Bool) (scheme host path text : Bytes) (hs : IsScheme ssl scheme) (hh : HostOk host) (hp : path.head? = some 47) (binary keepAlive chunks : Bool)
    (custom : List (Bytes × Bytes)) (total : Nat) :
    ∃ u, Url.make (scheme ++ host ++ path ++ asc " HTTP/1.1\r\n" ++ text) [] = .ok u ∧
      ∃ fs, clientHead (clientFor u false binary keepAlive chunks custom) total = asc "POST " ++ path ++ asc " HTTP/1.1\r\n" ++ text ++ fs := by
  have hne : path ++ asc " HTTP/1.1\r\n" ++ text ≠ [] := by
    cases path with
    | nil => cases hp
    | cons c p => simp
  have hhead : (path ++ asc " HTTP/1.1\r\n" ++ text).head? = some 47 := by
    cases path with
    | nil => cases hp
    | cons c p => simpa using hp
  obtain ⟨u, h1, h2⟩ := C75_target_partial ssl scheme host (path ++ asc " HTTP/1.1\r\n" ++ text) none hs hh (.inr hhead) (by simp) (by simp)
  refine ⟨u, ?_, ?_⟩
  · rw [← h1]
    simp [portText]
  · obtain ⟨⟨fs, h3⟩, -⟩ := h2 binary keepAlive chunks custom total
    rw [if_neg hne] at h3
    refine ⟨asc " HTTP/1.1\r\nHost: " ++ (host ++ (asc ":" ++ (dec (portOf ssl none) ++ (asc "\r\n" ++ fs)))), h3.trans ?_⟩
    simp only [List.append_assoc]

/-- **C75 is violated: a URL with a space.** It is accepted, and the server takes what is behind the space for the protocol: the answer is the HTTP error 505. -/
theorem C75_space_violated (a b : Bytes) (ha : IsWord a) (hb : IsWord b) (ha47 : a.head? = some 47) (host : Bytes) (hh : HostOk host) :
    (∃ u, Url.make (asc "http://" ++ host ++ (a ++ asc " " ++ b)) [] = .ok u ∧ u.path = a ++ asc " " ++ b) ∧
    requestLine (asc "POST " ++ (a ++ asc " " ++ b) ++ asc " HTTP/1.1") = .error (.http 505) := by
  have hs : asc " " = [32] := by decide
  constructor
  · have hhead : (a ++ asc " " ++ b).head? = some 47 := by
      cases a with
      | nil => cases ha47
      | cons c p => simpa using ha47
    have h := C56_parse_partial false (asc "http://") host (a ++ asc " " ++ b) none (by unfold IsScheme; decide +kernel) hh (.inr hhead) (by simp) (by simp)
    have hne : a ++ asc " " ++ b ≠ [] := by
      cases a with
      | nil => cases ha47
      | cons c p => simp
    rw [if_neg hne] at h
    simp only [portText, List.append_nil] at h
    refine ⟨⟨host, portOf false none, a ++ asc " " ++ b, false, false⟩, ?_, rfl⟩
    unfold Url.make
    rw [if_pos rfl]
    exact h
  · have e : asc "POST " ++ (a ++ asc " " ++ b) ++ asc " HTTP/1.1" = asc "POST" ++ 32 :: (a ++ 32 :: (b ++ asc " HTTP/1.1")) := by
      have : asc "POST " = asc "POST" ++ [32] := by decide
      rw [this, hs]; simp
    have h32 : isSpace 32 = true := by decide
    have hpw : asc "POST" ≠ [] ∧ ∀ x ∈ asc "POST", isSpace x = false := by decide +kernel
    unfold requestLine
    rw [e, splitBySpace_eq _ 2 (by omega), words_word hpw.1 hpw.2 h32, words_word ha.1 ha.2 h32]
    have hw : words 0 (b ++ asc " HTTP/1.1") = [b ++ asc " HTTP/1.1"] := by
      have : b ++ asc " HTTP/1.1" ≠ [] := by
        cases b with
        | nil => exact absurd rfl hb.1
        | cons c p => simp
      simp [words, this]
    rw [hw]
    have hin : (32 : UInt8) ∈ b ++ asc " HTTP/1.1" := by rw [List.mem_append]; right; decide
    have h1 : b ++ asc " HTTP/1.1" ≠ asc "HTTP/1.1" := by
      intro h; rw [h] at hin; revert hin; decide
    have h0 : b ++ asc " HTTP/1.1" ≠ asc "HTTP/1.0" := by
      intro h; rw [h] at hin; revert hin; decide
    simp only [h1, h0, if_false]

/-- One URL, one more field. -/
example : ∃ u, Url.make (asc "http://h/x HTTP/1.1\r\nX-Admin: 1\r\nY: ") [] = .ok u ∧
    (clientHead (clientFor u false true true true []) 0).take 50 = asc "POST /x HTTP/1.1\r\nX-Admin: 1\r\nY:  HTTP/1.1\r\nHost: " := by
  refine ⟨⟨asc "h", 80, asc "/x HTTP/1.1\r\nX-Admin: 1\r\nY: ", false, false⟩, ?_, ?_⟩ <;> decide +kernel

end Frpc
