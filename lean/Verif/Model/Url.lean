import Verif.Basic.Ascii
import Verif.Model.UrlForm
/-!
# `URL_t` (`src/frpchttp.cc:186-315`)
-/
namespace Frpc
namespace Url
open UrlForm (findFrom substr posLt)

/-- The fields of `URL_t` (`src/frpchttp.h:179-199`). -/
structure Url where
  host : Bytes
  port : Nat
  path : Bytes
  usesProxy : Bool
  isSSL : Bool
deriving DecidableEq, Repr

/-- `url.length() >= schema.length() && equal(schema..., url.begin(), nocaseCmp)`
(`src/frpchttp.cc:191-193,202-224`). -/
def hasScheme (schema url : Bytes) : Bool :=
  decide (schema.length ≤ url.length) && (schema.zip url).all (fun p => toUpper p.1 == toUpper p.2)

/-- `std::istringstream(s) >> port` for `unsigned short` in the C locale (`src/frpchttp.cc:254`):
white space, an optional sign, decimal digits; nothing read gives 0, too big a number 65535, a
minus sign the negation modulo 2^16. -/
def readPort (s : Bytes) : Nat :=
  let s := s.dropWhile isSpace
  let (neg, s) := match s with
    | 45 :: s => (true, s)
    | 43 :: s => (false, s)
    | s => (false, s)
  let n := atoi (s.takeWhile isDigit)
  if n > 65535 then 65535 else if neg then (65536 - n) % 65536 else n

/-- The path part (`src/frpchttp.cc:226-239`). -/
def pathOf (url : Bytes) : Option Nat → Bytes
  | some p => url.drop p
  | none => asc "/"

/-- `parse` after the scheme (`src/frpchttp.cc:226-275`). -/
def parseAfter (url : Bytes) (hostStart : Nat) (isUnix isSSL : Bool) : Except Err Url :=
  let slash := findFrom 47 url hostStart
  let path := pathOf url slash
  let slashPos := slash.getD url.length
  let pos := (findFrom 93 url 0).getD hostStart
  let colon := findFrom 58 url pos
  let hp : Bytes × Nat :=
    match posLt colon (some slashPos) with
    | true =>
      let c := colon.getD 0
      (substr url hostStart (some (c - hostStart)), readPort (substr url (c + 1) (some (slashPos - (c + 1)))))
    | false => (substr url hostStart (some (slashPos - hostStart)), if isSSL then 443 else 80)
  if isUnix then
    if hp.1 ≠ [] then .error .type else .ok ⟨hp.1, 0, path, false, isSSL⟩
  else .ok ⟨hp.1, hp.2, path, false, isSSL⟩

/-- `parse` (`src/frpchttp.cc:197-276`), not on Windows. -/
def parse (url : Bytes) : Except Err Url :=
  if hasScheme (asc "http://") url then parseAfter url 7 false false
  else if hasScheme (asc "https://") url then parseAfter url 8 false true
  else if hasScheme (asc "unix://") url then parseAfter url 7 true false
  else .error .type

/-- Constructor (`src/frpchttp.cc:285-299`). -/
def make (url proxyVia : Bytes) : Except Err Url :=
  if proxyVia = [] then parse url
  else match parse proxyVia with
    | .error e => .error e
    | .ok u => .ok { u with path := url, usesProxy := true }

/-- `getUrl` (`src/frpchttp.cc:301-311`). -/
def getUrl (u : Url) : Bytes :=
  if u.usesProxy then u.path
  else
    (if u.isSSL then asc "https://" else asc "http://") ++ u.host ++
      (if u.port ≠ (if u.isSSL then 443 else 80) then [58] ++ dec u.port else []) ++ u.path

end Url
end Frpc
