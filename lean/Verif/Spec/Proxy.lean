import Verif.Model.Proxy
import Verif.Spec.HttpPeer
/-!
# Specification: what a proxy sends and which answers it takes

In terms of the history of a proxy: what its user did and what the calls came to.
-/
namespace Frpc
namespace Spec.Proxy
open Frpc.Proxy HttpServer Spec.Http

/-- The steps after the last one that is a `stop`. -/
def since (stop : Op → Bool) (os : List Op) : List Op := (os.reverse.takeWhile (fun o => !stop o)).reverse

/-- Does the step take the fields away that were added for one call? -/
def endsOnce : Op → Bool
  | .call .. | .deleteHeaders => true
  | _ => false

/-- Does the step take the permanent fields away? -/
def endsPermanent : Op → Bool
  | .deleteHeaders => true
  | _ => false

/-- The field a step adds for one call. -/
def onceField : Op → Option (Bytes × Bytes)
  | .addOnce f => some f
  | .forwardedFor a => some (asc "X-Forwarded-For", a)
  | _ => none

/-- The field a step adds for all calls. -/
def permanentField : Op → Option (Bytes × Bytes)
  | .addPermanent f => some f
  | _ => none

/-- The fields added for the next call: since the last call, or deletion. -/
def onceFields (before : List Op) : List (Bytes × Bytes) := (since endsOnce before).filterMap onceField

/-- The fields added for all calls, since the last deletion. -/
def permanentFields (before : List Op) : List (Bytes × Bytes) := (since endsPermanent before).filterMap permanentField

/-- The last response that was read. -/
def lastResponse : List (Result × Sent) → Option Response
  | [] => none
  | r :: rs =>
    match lastResponse rs, r.1 with
    | some x, _ => some x
    | none, .response x => some x
    | none, _ => none

/-- The protocols the server is known to speak (XML, binary): those it announced last, XML before. -/
def announced (rs : List (Result × Sent)) : Bool × Bool := ((lastResponse rs).bind (·.accepts)).getD (true, false)

/-- The version calls are made in: that of the last response, the configured one before. -/
def versionNow (codec : Codec) (cfg : Config) (rs : List (Result × Sent)) : Version :=
  ((lastResponse rs).map (fun r => codec.version r.kind r.body)).getD cfg.version

/-- A header line. -/
def line (f : Bytes × Bytes) : Bytes := f.1 ++ asc ": " ++ f.2 ++ asc "\r\n"

/-- A request in full. -/
def request (path host : Bytes) (http10 binary keepAlive : Bool) (extra : List (Bytes × Bytes)) (body : Bytes) : Bytes :=
  asc "POST " ++ path ++ (if http10 then asc " HTTP/1.0\r\n" else asc " HTTP/1.1\r\n") ++
  (if http10 then [] else line (asc "Host", host)) ++
  line (asc "Content-Type", if binary then asc "application/x-frpc" else asc "text/xml") ++
  line (asc "Accept", asc "text/xml, application/x-frpc") ++
  line (asc "Connection", if keepAlive then asc "keep-alive" else asc "close") ++
  line (asc "Content-Length", dec body.length) ++
  extra.flatMap line ++ asc "\r\n" ++ body

/-- A response of the server. -/
structure Reply where
  blank : Nat
  http11 : Bool
  status : Nat
  reason : Bytes
  lines : List HLine
  fields : List (Bytes × Bytes)
  data : Bytes
  body : Bytes

/-- The response as it is sent. -/
def Reply.text (d : Reply) : Bytes := responseText d.blank d.http11 (dec d.status) d.reason d.lines ++ d.body

/-- It is well formed, and its header announces how long it is. -/
structure Reply.Ok (d : Reply) : Prop where
  status : d.status < 2 ^ 31
  reason : d.reason ≠ [] ∧ (10 : UInt8) ∉ d.reason ∧ d.reason.getLast? ≠ some 13
  lines : ∀ l ∈ d.lines, l.Ok
  fields : collectFields [] d.lines = some d.fields
  framed : Framed d.fields d.data d.body
  length : d.data.length < 2 ^ 63

/-- The server sends one response to each request and nothing else. Connections may fail or time out at any moment. -/
def Orderly (t : Turn) : Prop := t.arrived = [] ∧ ∀ sent, ∃ d : Reply, d.Ok ∧ t.reply sent = d.text

/-- So it is in all calls of a history. -/
def OrderlyAll (os : List Op) : Prop := ∀ o ∈ os, ∀ name args t, o = .call name args t → Orderly t

/-- The call came to a response. -/
def Answered : Result → Prop
  | .response _ => True
  | _ => False

end Spec.Proxy
end Frpc
