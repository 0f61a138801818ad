import Verif.Spec.Url
import Verif.Proofs.UrlForm
/-!
# URLs: C56
-/
namespace Frpc
open Spec hiding run
namespace Url
open UrlForm

theorem findFrom_hit {c : UInt8} (pre mid post : Bytes) (h : c ∉ mid) :
    findFrom c (pre ++ (mid ++ c :: post)) pre.length = some (pre.length + mid.length) := by
  rw [findFrom_at, findIdx?_append_cons h]; simp [Nat.add_comm]

theorem findFrom_miss {c : UInt8} (pre mid : Bytes) (h : c ∉ mid) : findFrom c (pre ++ mid) pre.length = none := by
  rw [findFrom_at, findIdx?_absent h]; rfl

theorem findFrom_ge {c : UInt8} {u : Bytes} {p i : Nat} (h : findFrom c u p = some i) : p ≤ i := by
  unfold findFrom at h
  rw [Option.map_eq_some_iff] at h
  obtain ⟨a, -, rfl⟩ := h
  omega

theorem findFrom_far {c : UInt8} (pre mid post : Bytes) (h : c ∉ mid) {i : Nat}
    (hi : findFrom c (pre ++ (mid ++ post)) pre.length = some i) : pre.length + mid.length ≤ i := by
  rw [findFrom_at, Option.map_eq_some_iff] at hi
  obtain ⟨a, ha, rfl⟩ := hi
  rw [List.findIdx?_eq_some_iff_getElem] at ha
  obtain ⟨hl, he, -⟩ := ha
  rcases Nat.lt_or_ge a mid.length with hlt | hge
  · rw [List.getElem_append_left hlt] at he
    exact absurd (by rw [← beq_iff_eq.1 he]; exact List.getElem_mem _) h
  · omega

theorem posLt_far {o : Option Nat} {n : Nat} (h : ∀ i, o = some i → n ≤ i) : posLt o (some n) = false := by
  cases o with
  | none => rfl
  | some i => have := h i rfl; simp [posLt]; omega

theorem dec_no {p : Nat} (x : UInt8) (hx : isDigit x = false) : x ∉ dec p := digits_no (dec_digits p) x hx

theorem portText_no (port : Option Nat) (x : UInt8) (hx : isDigit x = false) (h58 : x ≠ 58) : x ∉ portText port := by
  cases port with
  | none => simp [portText]
  | some p => simp [portText, h58, dec_no x hx]

theorem readPort_dec {p : Nat} (h : p ≤ 65535) : readPort (dec p) = p := by
  unfold readPort
  have hd := dec_digits p
  cases hc : dec p with
  | nil => exact absurd hc (dec_ne_nil p)
  | cons c s =>
    have hcd : isDigit c = true := hd c (by rw [hc]; simp)
    have hs : isSpace c = false := by
      have := forall_byte (fun c => !isDigit c || !isSpace c) (by decide +kernel) c
      rw [hcd] at this; simpa using this
    have hne : c ≠ 45 ∧ c ≠ 43 := by
      constructor <;> (rintro rfl; revert hcd; decide)
    have hdw : (c :: s).dropWhile isSpace = c :: s := by simp [hs]
    have hat : atoi ((c :: s).takeWhile isDigit) = p := by
      rw [← hc, takeWhile_all hd, atoi_dec]
    simp only [hdw]
    split
    · next h1 => cases h1; exact absurd rfl hne.1
    · next h1 => cases h1; exact absurd rfl hne.2
    · simp only [hat]; simp; omega

/-- The rest of the URL after the scheme. -/
theorem parseAfter_eq (s host path : Bytes) (port : Option Nat) (ssl : Bool)
    (hs : 93 ∉ s) (hh : HostOk host) (hp : path = [] ∨ path.head? = some 47) (hport : ∀ p, port = some p → p ≤ 65535)
    (hb : port ≠ none → 93 ∉ host → 93 ∉ path) :
    parseAfter (s ++ host ++ portText port ++ path) s.length false ssl =
      .ok ⟨host, portOf ssl port, if path = [] then asc "/" else path, false, ssl⟩ := by
  have hpt47 := portText_no port 47 (by decide) (by decide)
  have hpt93 := portText_no port 93 (by decide) (by decide)
  have h47 : (47 : UInt8) ∉ host ++ portText port := by
    rw [List.mem_append, not_or]
    refine ⟨?_, hpt47⟩
    rcases hh with h | ⟨a, rfl, h1, h2⟩
    · exact h.1
    · simp [h1]
  -- the slash
  have hslash : (findFrom 47 (s ++ host ++ portText port ++ path) s.length).getD (s ++ host ++ portText port ++ path).length
        = (s ++ host ++ portText port).length ∧
      pathOf (s ++ host ++ portText port ++ path) (findFrom 47 (s ++ host ++ portText port ++ path) s.length) = if path = [] then asc "/" else path := by
    rcases hp with rfl | hp
    · have := findFrom_miss (c := 47) s (host ++ portText port) h47
      rw [← List.append_assoc] at this
      rw [List.append_nil, this]
      simp [pathOf]
    · obtain ⟨r, rfl⟩ : ∃ r, path = 47 :: r := by
        cases path with
        | nil => simp at hp
        | cons c r => simp at hp; exact ⟨r, by rw [hp]⟩
      have := findFrom_hit (c := 47) s (host ++ portText port) r h47
      have e : s ++ (host ++ portText port ++ 47 :: r) = s ++ host ++ portText port ++ 47 :: r := by simp
      rw [e] at this
      rw [this]
      simp [pathOf]
  -- the colon
  have hcolon : ∀ (pos : Nat), pos = (findFrom 93 (s ++ host ++ portText port ++ path) 0).getD s.length →
      (port = none ∧ posLt (findFrom 58 (s ++ host ++ portText port ++ path) pos) (some (s ++ host ++ portText port).length) = false) ∨
      (∃ p, port = some p ∧ findFrom 58 (s ++ host ++ portText port ++ path) pos = some (s ++ host).length) := by
    intro pos hpos
    rcases hh with ⟨g1, g2, g3⟩ | ⟨a, rfl, g1, g2⟩
    · cases port with
      | none =>
        left; refine ⟨rfl, ?_⟩
        simp only [portText, List.append_nil]
        apply posLt_far
        intro i hi
        cases h93 : findFrom 93 (s ++ host ++ portText none ++ path) 0 with
        | none =>
          rw [h93] at hpos
          simp only [Option.getD_none] at hpos
          subst hpos
          have e : s ++ host ++ path = s ++ (host ++ path) := by simp
          rw [e] at hi
          have := findFrom_far s host path g2 hi
          simpa using this
        | some j =>
          rw [h93] at hpos
          simp only [Option.getD_some] at hpos
          subst hpos
          have e : s ++ host ++ portText none ++ path = [] ++ ((s ++ host) ++ path) := by simp [portText]
          rw [e] at h93
          have h1 := findFrom_far [] (s ++ host) path (by simp [hs, g3]) h93
          have h2 := findFrom_ge hi
          simp at h1 ⊢; omega
      | some p =>
        right; refine ⟨p, rfl, ?_⟩
        have h93 : (93 : UInt8) ∉ s ++ host ++ portText (some p) ++ path := by
          simp only [List.mem_append, not_or]
          exact ⟨⟨⟨hs, g3⟩, hpt93⟩, hb (by simp) g3⟩
        rw [findFrom_none h93] at hpos
        simp only [Option.getD_none] at hpos
        subst hpos
        have e : s ++ host ++ portText (some p) ++ path = s ++ (host ++ 58 :: (dec p ++ path)) := by simp [portText]
        rw [e, findFrom_hit s host _ g2]; simp
    · have h93 : findFrom 93 (s ++ ([91] ++ a ++ [93]) ++ portText port ++ path) 0 = some (s ++ [91] ++ a).length := by
        have e : s ++ ([91] ++ a ++ [93]) ++ portText port ++ path = [] ++ ((s ++ [91] ++ a) ++ 93 :: (portText port ++ path)) := by simp
        rw [e]
        have := findFrom_hit (c := 93) [] (s ++ [91] ++ a) (portText port ++ path) (by simp [hs, g2])
        simpa using this
      rw [h93] at hpos
      simp only [Option.getD_some] at hpos
      subst hpos
      have e : s ++ ([91] ++ a ++ [93]) ++ portText port ++ path = (s ++ [91] ++ a) ++ ([93] ++ (portText port ++ path)) := by simp
      rw [e]
      cases port with
      | none =>
        left; refine ⟨rfl, ?_⟩
        apply posLt_far
        intro i hi
        have := findFrom_far _ [93] _ (by decide) hi
        simp [portText] at this ⊢; omega
      | some p =>
        right; refine ⟨p, rfl, ?_⟩
        have e2 : portText (some p) ++ path = 58 :: (dec p ++ path) := by simp [portText]
        rw [e2, findFrom_hit _ [93] _ (by decide)]
        simp; omega
  unfold parseAfter
  simp only [hslash.1, hslash.2]
  rcases hcolon _ rfl with ⟨rfl, h⟩ | ⟨p, rfl, h⟩
  · rw [h]
    simp [portText, portOf, substr]
  · rw [h]
    have hlt : posLt (some (s ++ host).length) (some (s ++ host ++ portText (some p)).length) = true := by
      simp [posLt, portText]
    rw [hlt]
    have e1 : substr (s ++ host ++ portText (some p) ++ path) s.length (some ((s ++ host).length - s.length)) = host := by
      simp [substr]
    have e2 : substr (s ++ host ++ portText (some p) ++ path) ((s ++ host).length + 1)
        (some ((s ++ host ++ portText (some p)).length - ((s ++ host).length + 1))) = dec p := by
      have : s ++ host ++ portText (some p) ++ path = (s ++ host ++ [58]) ++ (dec p ++ path) := by simp [portText]
      rw [this]
      have h3 : (s ++ host ++ portText (some p)).length - ((s ++ host).length + 1) = (dec p).length := by simp [portText]; omega
      rw [h3]
      unfold substr
      simp only
      rw [List.drop_left' (by simp; omega), List.take_left']
      rfl
    simp only [Option.getD_some, e1, e2, readPort_dec (hport p rfl), portOf]
    rfl

/-- A list is known from its image. -/
theorem scheme_http {s : Bytes} (h : IsScheme false s) (r : Bytes) :
    s.length = 7 ∧ 93 ∉ s ∧ hasScheme (asc "http://") (s ++ r) = true := by
  unfold IsScheme at h
  simp only [Bool.false_eq_true, if_false] at h
  have hl : s.length = 7 := by have := congrArg List.length h; rw [List.length_map] at this; exact this
  refine ⟨hl, ?_, ?_⟩
  · intro hm
    have : toLower 93 ∈ s.map toLower := List.mem_map.2 ⟨_, hm, rfl⟩
    rw [h] at this; revert this; decide
  · match s, hl with
    | [a, b, c, d, e, f, g], _ =>
      have hh : asc "http://" = [104, 116, 116, 112, 58, 47, 47] := by decide
      rw [hh] at h ⊢
      simp only [List.map_cons, List.map_nil, List.cons.injEq, and_true] at h
      obtain ⟨h1, h2, h3, h4, h5, h6, h7⟩ := h
      have u : ∀ {x y : UInt8}, toLower x = y → toLower y = y → toUpper x = toUpper y := by
        intro x y h hy; exact toLower_eq_iff.1 (by rw [h, hy])
      simp [hasScheme, u h1 (by decide), u h2 (by decide), u h3 (by decide), u h4 (by decide), u h5 (by decide), u h6 (by decide), u h7 (by decide)]

theorem scheme_https {s : Bytes} (h : IsScheme true s) (r : Bytes) :
    s.length = 8 ∧ 93 ∉ s ∧ hasScheme (asc "http://") (s ++ r) = false ∧ hasScheme (asc "https://") (s ++ r) = true := by
  unfold IsScheme at h
  simp only [if_true] at h
  have hl : s.length = 8 := by have := congrArg List.length h; rw [List.length_map] at this; exact this
  refine ⟨hl, ?_, ?_⟩
  · intro hm
    have : toLower 93 ∈ s.map toLower := List.mem_map.2 ⟨_, hm, rfl⟩
    rw [h] at this; revert this; decide
  · match s, hl with
    | [a, b, c, d, e, f, g, i], _ =>
      have hh : asc "https://" = [104, 116, 116, 112, 115, 58, 47, 47] := by decide
      have hh' : asc "http://" = [104, 116, 116, 112, 58, 47, 47] := by decide
      rw [hh] at h ⊢
      rw [hh']
      simp only [List.map_cons, List.map_nil, List.cons.injEq, and_true] at h
      obtain ⟨h1, h2, h3, h4, h5, h6, h7, h8⟩ := h
      have u : ∀ {x y : UInt8}, toLower x = y → toLower y = y → toUpper x = toUpper y := by
        intro x y h hy; exact toLower_eq_iff.1 (by rw [h, hy])
      have h58 : toUpper 58 ≠ toUpper e := by rw [u h5 (by decide)]; decide
      constructor
      · simp [hasScheme, h58]
      · simp [hasScheme, u h1 (by decide), u h2 (by decide), u h3 (by decide), u h4 (by decide), u h5 (by decide), u h6 (by decide), u h7 (by decide), u h8 (by decide)]

end Url
open Url

/-- C56: parsing `scheme://host[:port]path`, scheme in any letter case, host plain or in brackets,
any path, gives the host, the port (80 or 443 when absent), the path (`/` when empty) and whether
TLS is used. Missing: a `]` in the path after a plain host with a port (see `C56_violated`). -/
theorem C56_parse_partial (ssl : Bool) (scheme host path : Bytes) (port : Option Nat)
    (hs : IsScheme ssl scheme) (hh : HostOk host) (hp : path = [] ∨ path.head? = some 47)
    (hport : ∀ p, port = some p → p ≤ 65535) (hb : port ≠ none → 93 ∉ host → 93 ∉ path) :
    Url.parse (scheme ++ host ++ portText port ++ path) =
      .ok ⟨host, portOf ssl port, if path = [] then asc "/" else path, false, ssl⟩ := by
  have e : scheme ++ host ++ portText port ++ path = scheme ++ (host ++ portText port ++ path) := by simp
  unfold Url.parse
  cases ssl with
  | false =>
    obtain ⟨h1, h2, h3⟩ := scheme_http hs (host ++ portText port ++ path)
    rw [← e] at h3
    rw [if_pos h3]
    have := parseAfter_eq scheme host path port false h2 hh hp hport hb
    rwa [h1] at this
  | true =>
    obtain ⟨h1, h2, h3, h4⟩ := scheme_https hs (host ++ portText port ++ path)
    rw [← e] at h3 h4
    rw [if_neg (by rw [h3]; decide), if_pos h4]
    have := parseAfter_eq scheme host path port true h2 hh hp hport hb
    rwa [h1] at this

/-- C56: the text `getUrl` gives for a parsed URL parses to the same URL, except as in
`C56_violated`. -/
theorem C56_getUrl_partial (u : Url.Url) (hx : u.usesProxy = false) (hh : HostOk u.host) (hp : u.path.head? = some 47)
    (hport : u.port ≤ 65535) (hb : 93 ∉ u.path ∨ 93 ∈ u.host ∨ u.port = if u.isSSL then 443 else 80) :
    Url.parse (Url.getUrl u) = .ok u := by
  obtain ⟨host, port, path, prox, ssl⟩ := u
  simp only at hx hh hp hport hb
  subst hx
  have hpath : path ≠ [] := by rintro rfl; simp at hp
  have key := C56_parse_partial ssl (if ssl then asc "https://" else asc "http://") host path
    (if port ≠ (if ssl then 443 else 80) then some port else none) (by cases ssl <;> (unfold IsScheme; decide)) hh (.inr hp)
    (by intro p h; split at h <;> simp at h <;> omega)
    (by
      intro h1 h2
      rcases hb with hb | hb | hb
      · exact hb
      · exact absurd hb h2
      · simp [hb] at h1)
  have e : Url.getUrl ⟨host, port, path, false, ssl⟩ = (if ssl then asc "https://" else asc "http://") ++ host ++
      portText (if port ≠ (if ssl then 443 else 80) then some port else none) ++ path := by
    unfold Url.getUrl
    by_cases h : port = (if ssl then 443 else 80) <;> simp [h, portText]
  rw [e, key, if_neg hpath]
  by_cases h : port = (if ssl then 443 else 80) <;> simp [h, portOf]

/-- C56: with a proxy the connection goes to the proxy's host and port and `getUrl` is the target. -/
theorem C56_proxy (url proxy : Bytes) (h : proxy ≠ []) (u : Url.Url) (hu : Url.make url proxy = .ok u) :
    Url.getUrl u = url ∧ ∃ v, Url.parse proxy = .ok v ∧ u.host = v.host ∧ u.port = v.port := by
  unfold Url.make at hu
  rw [if_neg h] at hu
  split at hu
  · cases hu
  · next v hv =>
    cases hu
    exact ⟨rfl, v, hv, rfl, rfl⟩

/-- C56 is false as stated: a `]` in the path hides an explicit port. -/
theorem C56_violated : ¬ ∀ (host path : Bytes) (port : Nat), HostOk host → path.head? = some 47 → port ≤ 65535 →
    ∃ u, Url.parse (asc "http://" ++ host ++ portText (some port) ++ path) = .ok u ∧ u.host = host ∧ u.port = port := by
  intro h
  obtain ⟨u, hu, h1, -⟩ := h (asc "h") (asc "/a]b") 8 (.inl (by decide)) (by decide) (by decide)
  have hd : dec 8 = [56] := by simp [dec, digit]
  simp only [portText, hd] at hu
  have h2 : Url.parse (asc "http://" ++ asc "h" ++ ([58] ++ [56]) ++ asc "/a]b") = .ok ⟨asc "h:8", 80, asc "/a]b", false, false⟩ := by
    decide +kernel
  rw [h2] at hu
  cases hu
  exact absurd h1 (by decide)

example : IsScheme true (asc "HttpS://") ∧ HostOk (asc "[::1]") := ⟨by unfold IsScheme; decide, .inr ⟨asc "::1", by decide, by decide, by decide⟩⟩
example : Url.parse (asc "HttpS://[::1]:8443/x?a=b") = .ok ⟨asc "[::1]", 8443, asc "/x?a=b", false, true⟩ := by decide +kernel

end Frpc
