import Verif.Spec.HttpPeer
/-!
# Specification: what a client of the server sends and gets
-/
namespace Frpc
namespace Spec.Web
open Spec Spec.Http

/-- A `POST` request of any client: its path and version, the lines of its header and the fields that they make, what it posts, and that framed. -/
structure Post where
  path : Bytes
  http11 : Bool
  lines : List HLine
  fields : List (Bytes × Bytes)
  data : Bytes
  body : Bytes

/-- The request as it is sent. -/
def Post.text (q : Post) : Bytes := requestText (asc "POST") q.path q.http11 q.lines ++ q.body

/-- A well-formed request. -/
structure Post.Ok (q : Post) : Prop where
  path : IsWord q.path
  lines : ∀ l ∈ q.lines, l.Ok
  fields : collectFields [] q.lines = some q.fields
  framed : Framed q.fields q.data q.body
  length : q.data.length < 2 ^ 63

/-- What it has posted is of that kind. -/
def Post.Kind (q : Post) (k : HttpServer.Kind) : Prop := BodyIn ((field (asc "Content-Type") q.fields).getD []) k

/-- It lets the connection stay open. -/
def Post.Stays (q : Post) : Prop := Persists q.http11 (field (asc "Connection") q.fields)

/-- The content type of each format. -/
def typeName : HttpOut.OutType → Bytes
  | .xml => asc "text/xml"
  | .binary => asc "application/x-frpc"
  | .json => asc "application/json"
  | .base64 => asc "application/x-base64-frpc"

/-- The bytes are one HTTP/1.1 response 200 whose content is `data`, in that format, with those fields of the application at the end of its header; to a client that does not know
chunks its length is given. -/
def IsReply (bytes : Bytes) (out : HttpOut.OutType) (custom : List (Bytes × Bytes)) (keepAlive chunksKnown : Bool) (data : Bytes) : Prop :=
  ∃ lines fs own body, bytes = responseText 0 true (asc "200") (asc "OK") lines ++ body ∧ (∀ l ∈ lines, l.Ok) ∧ collectFields [] lines = some fs ∧
    Framed fs data body ∧ (chunksKnown = false → field (asc "Content-Length") fs = some (dec data.length)) ∧ field (asc "Content-Type") fs = some (typeName out) ∧
    field (asc "Connection") fs = some (if keepAlive then asc "keep-alive" else asc "close") ∧
    fs = own ++ custom.map (fun f => (f.1, trim f.2)) ∧ own.map (·.1) = [asc "Content-Type", asc "Accept", asc "Connection",
      if chunksKnown && decide (out = .binary) then asc "Transfer-Encoding" else asc "Content-Length", asc "Server"]

end Spec.Web
end Frpc
