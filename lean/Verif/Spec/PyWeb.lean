import Verif.Spec.Web
import Verif.Spec.Python
/-!
# Specification: what a client of the Python server gets
-/
namespace Frpc
namespace Spec.PyWeb
open Spec Spec.Http Spec.Web

/-- The bytes are one HTTP/1.1 response 200 whose content is `data`, in that format, with those fields of the application at the beginning of its
header; to a client that does not know chunks its length is given. -/
def IsReply (bytes : Bytes) (out : HttpOut.OutType) (custom : List (Bytes × Bytes)) (keepAlive chunksKnown : Bool) (data : Bytes) : Prop :=
  ∃ lines given own body, bytes = responseText 0 true (asc "200") (asc "OK") lines ++ body ∧ (∀ l ∈ lines, l.Ok) ∧ collectFields [] lines = some (given ++ own) ∧
    Framed (given ++ own) data body ∧ (chunksKnown = false → field (asc "Content-Length") (given ++ own) = some (dec data.length)) ∧
    field (asc "Content-Type") (given ++ own) = some (typeName out) ∧
    field (asc "Connection") (given ++ own) = some (if keepAlive then asc "keep-alive" else asc "close") ∧
    given.map (fun f => (lower f.1, f.2)) = custom.map (fun f => (lower f.1, trim f.2)) ∧
    own.map (·.1) = [asc "Content-Type", asc "Accept", asc "Connection",
      if chunksKnown && decide (out = .binary) then asc "Transfer-Encoding" else asc "Content-Length", asc "Server"]

/-- A field that an application may add: it can be written in a header, and it is none of the server's own. -/
def MayAdd (f : Bytes × Bytes) : Prop :=
  f.1 ≠ [] ∧ (∀ c ∈ f.1, isSpace c = false ∧ c ≠ 58) ∧ (10 : UInt8) ∉ f.2 ∧ f.2.getLast? ≠ some 13 ∧
  lower f.1 ∉ [asc "content-type", asc "accept", asc "connection", asc "transfer-encoding", asc "content-length", asc "server"]

end Spec.PyWeb
end Frpc
