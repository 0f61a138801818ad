import Verif.Spec.Http
import Verif.Spec.HttpHeader
import Verif.Model.HttpServer
/-!
# Specification: requests and responses of any peer

The text of HTTP messages and what their header fields ask for.
-/
namespace Frpc
namespace Spec.Http

/-- `pat` occurs in `s`. -/
def Contains (pat s : Bytes) : Prop := ∃ a b, s = a ++ pat ++ b

/-- The first value of a field. -/
def field (name : Bytes) (fs : List (Bytes × Bytes)) : Option Bytes := (fieldValues name fs)[0]?

/-- `HTTP/1.1` or `HTTP/1.0`. -/
def versionText (http11 : Bool) : Bytes := if http11 then asc "HTTP/1.1" else asc "HTTP/1.0"

/-- A word: no white space in it, and not empty. -/
def IsWord (w : Bytes) : Prop := w ≠ [] ∧ ∀ c ∈ w, isSpace c = false

/-- The body is `data` with the announced length, or in chunks. -/
def Framed (fs : List (Bytes × Bytes)) (data body : Bytes) : Prop :=
  (field (asc "Content-Length") fs = some (dec data.length) ∧ body = data) ∨
  (field (asc "Content-Length") fs = none ∧ (∃ v, field (asc "Transfer-Encoding") fs = some v ∧ lower v = asc "chunked") ∧
    ∃ ps, body = chunked ps ∧ (∀ p ∈ ps, p ≠ []) ∧ ps.flatten = data)

/-- Does the peer let the connection stay open? HTTP/1.1: unless it says `close`; HTTP/1.0: if it says `keep-alive`. -/
def Persists (http11 : Bool) (connection : Option Bytes) : Prop :=
  if http11 = true then ¬ ∃ v, connection = some v ∧ lower v = asc "close" else ∃ v, connection = some v ∧ lower v = asc "keep-alive"

/-- What a request with that content type is in. -/
def BodyIn (ct : Bytes) : HttpServer.Kind → Prop
  | .binary => Contains (asc "application/x-frpc") ct
  | .xml => Contains (asc "text/xml") ct ∧ ¬ Contains (asc "application/x-frpc") ct
  | .urlEncoded => Contains (asc "application/x-www-form-urlencoded") ct ∧ ¬ Contains (asc "text/xml") ct ∧ ¬ Contains (asc "application/x-frpc") ct
  | .base64 => Contains (asc "application/x-base64-frpc") ct ∧ ¬ Contains (asc "application/x-www-form-urlencoded") ct ∧
      ¬ Contains (asc "text/xml") ct ∧ ¬ Contains (asc "application/x-frpc") ct

/-- What a client that accepts that is answered in, by a server that speaks the binary protocol or not. XML if nothing else. -/
def AnsweredIn (useBinary : Bool) (accept : Option Bytes) : HttpOut.OutType → Prop
  | .binary => useBinary = true ∧ ∃ a, accept = some a ∧ Contains (asc "application/x-frpc") a
  | .json => ∃ a, accept = some a ∧ Contains (asc "application/json") a ∧ ¬ Contains (asc "application/x-frpc") a
  | .base64 => ∃ a, accept = some a ∧ Contains (asc "application/x-base64-frpc") a ∧ ¬ Contains (asc "application/json") a ∧
      ¬ Contains (asc "application/x-frpc") a
  | .xml => ∀ a, accept = some a → (Contains (asc "application/x-frpc") a ∧ useBinary = false) ∨
      (¬ Contains (asc "application/x-frpc") a ∧ ¬ Contains (asc "application/json") a ∧ ¬ Contains (asc "application/x-base64-frpc") a)

/-- What a response with that content type is in. -/
def ResponseIn (ct : Bytes) : HttpServer.Kind → Prop
  | .xml => Contains (asc "text/xml") ct
  | .binary => Contains (asc "application/x-frpc") ct ∧ ¬ Contains (asc "text/xml") ct
  | _ => False

/-- A request: the line and the header. -/
def requestText (method path : Bytes) (http11 : Bool) (ls : List HLine) : Bytes :=
  method ++ asc " " ++ path ++ asc " " ++ versionText http11 ++ crlf ++ blockText ls

/-- A response: empty lines, which a reader skips, the line and the header. -/
def responseText (blank : Nat) (http11 : Bool) (status reason : Bytes) (ls : List HLine) : Bytes :=
  (List.replicate blank crlf).flatten ++ versionText http11 ++ asc " " ++ status ++ asc " " ++ reason ++ crlf ++ blockText ls

end Spec.Http
end Frpc
