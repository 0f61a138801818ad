import Verif.Model.HttpIO
import Verif.Model.Url
import Verif.Basic.Hex
/-!
# HTTP output (`src/frpchttpio.cc:316-382`, `src/frpchttpclient.cc`, `src/frpcserver.cc`)

The peer's side of a `send` is a schedule: one event for each `poll` the sender makes, saying
whether the peer has sent something and how the `send` turns out. When the schedule is exhausted
every `send` takes all it is given.
-/
namespace Frpc
namespace HttpOut

/-- Exceptions: `ResponseError_t` says that the peer answers before the request has been sent. -/
inductive SErr where
  | timeout | syscall | response | fuel
deriving DecidableEq, Repr

/-- The outcome of `send`: at most `k + 1` bytes, nothing, timeout of the `poll` before it, failure of
either, `EPIPE`. -/
inductive Act where
  | sent (k : Nat) | zero | timeout | fail | epipe
deriving DecidableEq, Repr

/-- One `poll` and the `send` after it. -/
structure SEv where
  input : Bool
  act : Act
deriving DecidableEq, Repr

/-- The connection: future events, bytes given to the network. -/
structure Wire where
  sched : List SEv
  sent : Bytes
deriving DecidableEq, Repr

/-- Loop of `sendData` (`src/frpchttpio.cc:329-381`). `POLLIN` is asked for only when watching. -/
def sendLoop (watch : Bool) : Nat → Bytes → Wire → Except SErr Unit × Wire
  | 0, _, w => (.error .fuel, w)
  | f + 1, data, w =>
    match w.sched with
    | [] =>
      let part := data.take HttpIO.BUFF
      let w := { w with sent := w.sent ++ part }
      if data.drop part.length = [] then (.ok (), w) else sendLoop watch f (data.drop part.length) w
    | e :: sched =>
      let w := { w with sched := sched }
      match e.act with
      | .timeout => (.error .timeout, w)
      | .fail => if watch && e.input then (.error .response, w) else (.error .syscall, w)
      | .epipe => if watch then (.error .response, w) else (.error .syscall, w)
      | .zero => if watch && e.input then (.error .response, w) else sendLoop watch f data w
      | .sent k =>
        if watch && e.input then (.error .response, w)
        else
          let part := data.take (min (k + 1) HttpIO.BUFF)
          let w := { w with sent := w.sent ++ part }
          if data.drop part.length = [] then (.ok (), w) else sendLoop watch f (data.drop part.length) w

/-- `sendData` (`src/frpchttpio.cc:316-382`). -/
def sendData (watch : Bool) (data : Bytes) (w : Wire) : Except SErr Unit × Wire :=
  if data = [] then (.ok (), w) else sendLoop watch (data.length + w.sched.length + 1) data w

/-- `BUFFER_SIZE` (`src/frpcinternals.h:293-294`). -/
def BUFFER : Nat := 64512

/-- The writer part of `HTTPClient_t` and of `Server_t`: `contentLength` (an `unsigned int`), the
query storage split into all but the last string and the last, `headersSent`. -/
structure Writer where
  total : Nat
  front : List Bytes
  back : Bytes
  headersSent : Bool
  wire : Wire
deriving DecidableEq, Repr

/-- State after construction or `readRequest` (`src/frpchttpclient.cc:107-127`,
`src/frpcserver.cc:191-198`). -/
def Writer.init (wire : Wire) : Writer := ⟨0, [], [], false, wire⟩

/-- What the two writers differ in: the text of the header, given `contentLength`, chunking, and
whether input is watched for while sending (the client does). -/
structure Conf where
  head : Nat → Bytes
  chunks : Bool
  watch : Bool

/-- The header when it has not been sent yet. -/
def headOnce (c : Conf) (w : Writer) : Bytes := if w.headersSent then [] else c.head w.total

/-- `sendRequest`/`sendResponse` with chunks (`src/frpchttpclient.cc:349-372`,
`src/frpcserver.cc:492-514`). -/
def sendChunk (c : Conf) (last : Bool) (w : Writer) : Except SErr Unit × Writer :=
  let data := headOnce c w ++ hex w.back.length ++ asc "\r\n" ++ w.back ++ (if last then asc "\r\n0\r\n\r\n" else asc "\r\n")
  match sendData c.watch data w.wire with
  | (.ok _, wire) => (.ok (), { w with back := [], headersSent := true, wire := wire })
  | (.error e, wire) => (.error e, { w with back := data, headersSent := true, wire := wire })

/-- The loop sending all but the last string (`src/frpchttpclient.cc:379-384`,
`src/frpcserver.cc:522-526`). -/
def sendFront (c : Conf) : List Bytes → Wire → Except SErr Unit × Wire
  | [], wire => (.ok (), wire)
  | d :: ds, wire =>
    match sendData c.watch d wire with
    | (.error e, wire) => (.error e, wire)
    | (.ok _, wire) => sendFront c ds wire

/-- `queryStorage.front().insert(0, headerData)`. -/
def insertHead (h : Bytes) (w : Writer) : Writer :=
  match w.front with
  | [] => { w with back := h ++ w.back, headersSent := true }
  | d :: ds => { w with front := (h ++ d) :: ds, headersSent := true }

/-- `sendRequest`/`sendResponse` without chunks (`src/frpchttpclient.cc:373-388`,
`src/frpcserver.cc:517-529`). On an exception the storage is left as the wire only is of interest. -/
def sendPlain (c : Conf) (w : Writer) : Except SErr Unit × Writer :=
  let w := insertHead (headOnce c w) w
  match sendFront c w.front w.wire with
  | (.error e, wire) => (.error e, { w with wire := wire })
  | (.ok _, wire) =>
    match sendData false w.back wire with
    | (.error e, wire) => (.error e, { w with front := [], wire := wire })
    | (.ok _, wire) => (.ok (), { w with front := [], back := [], wire := wire })

/-- `size > BUFFER_SIZE - queryStorage.back().size()` on `size_t`. -/
def oversize (size back : Nat) : Bool := decide (size > (2 ^ 64 + BUFFER - back) % 2 ^ 64)

/-- `write` (`src/frpchttpclient.cc:144-161`, `src/frpcserver.cc:352-368`). -/
def write (c : Conf) (d : Bytes) (w : Writer) : Except SErr Unit × Writer :=
  let w := { w with total := (w.total + d.length) % 2 ^ 32 }
  match oversize d.length w.back.length with
  | true =>
    match c.chunks with
    | true =>
      match sendChunk c false w with
      | (.error e, w) => (.error e, w)
      | (.ok _, w) => (.ok (), { w with back := w.back ++ d })
    | false =>
      if d.length > BUFFER then (.ok (), { w with front := w.front ++ [w.back], back := d })
      else (.ok (), { w with back := w.back ++ d })
  | false => (.ok (), { w with back := w.back ++ d })

/-- `flush` (`src/frpchttpclient.cc:135-142`, `src/frpcserver.cc:370-376`). -/
def flush (c : Conf) (w : Writer) : Except SErr Unit × Writer :=
  match c.chunks with
  | false => sendPlain c w
  | true => sendChunk c true w

/-- A marshaller's writes. -/
def writes (c : Conf) : List Bytes → Writer → Except SErr Unit × Writer
  | [], w => (.ok (), w)
  | d :: ds, w =>
    match write c d w with
    | (.error e, w) => (.error e, w)
    | (.ok _, w) => writes c ds w

/-- A message: the writes, then `flush`. -/
def message (c : Conf) (ds : List Bytes) (w : Writer) : Except SErr Unit × Writer :=
  match writes c ds w with
  | (.error e, w) => (.error e, w)
  | (.ok _, w) => flush c w

/-- One header line. -/
def headLine (f : Bytes × Bytes) : Bytes := f.1 ++ asc ": " ++ f.2 ++ asc "\r\n"

/-- What the client's header depends on. -/
structure ClientCfg where
  path : Bytes
  hostPort : Bytes
  http10 : Bool
  binary : Bool
  keepAlive : Bool
  chunks : Bool
  custom : List (Bytes × Bytes)

/-- `url.isUnix() ? "/" : url.path` and what is written after `Host: `
(`src/frpchttpclient.cc:289-297`); `isUnix` is `src/frpchttp.cc:278-283`. -/
def clientTarget (u : Url.Url) : Bytes × Bytes :=
  if u.port = 0 then (asc "/", []) else (u.path, u.host ++ [58] ++ dec u.port)

/-- The client of a proxy to that URL. -/
def clientFor (u : Url.Url) (http10 binary keepAlive chunks : Bool) (custom : List (Bytes × Bytes)) : ClientCfg :=
  ⟨(clientTarget u).1, (clientTarget u).2, http10, binary, keepAlive, chunks, custom⟩

/-- The fields after the request line (`src/frpchttpclient.cc:301-329`); the custom ones are added by
`addCustomRequestHeader` (`src/frpchttpclient.cc:398-411`). -/
def clientFields (c : ClientCfg) (total : Nat) : List (Bytes × Bytes) :=
  (if c.http10 then [] else [(asc "Host", c.hostPort)]) ++
  [(asc "Content-Type", if c.binary then asc "application/x-frpc" else asc "text/xml"),
   (asc "Accept", asc "text/xml, application/x-frpc"),
   (asc "Connection", if c.keepAlive then asc "keep-alive" else asc "close"),
   if c.chunks then (asc "Transfer-Encoding", asc "chunked") else (asc "Content-Length", dec total)] ++ c.custom

/-- The client's header (`src/frpchttpclient.cc:284-346`). -/
def clientHead (c : ClientCfg) (total : Nat) : Bytes :=
  asc "POST " ++ c.path ++ asc " " ++ (if c.http10 then asc "HTTP/1.0" else asc "HTTP/1.1") ++ asc "\r\n" ++
  (clientFields c total).flatMap headLine ++ asc "\r\n"

/-- `HTTPClient_t` as a writer. -/
def clientConf (c : ClientCfg) : Conf := ⟨clientHead c, c.chunks, true⟩

/-- Type of a response (`Server_t::outType`). -/
inductive OutType where
  | xml | binary | json | base64
deriving DecidableEq, Repr

/-- What the server's header depends on. -/
structure ServerCfg where
  outType : OutType
  useBinary : Bool
  keepAlive : Bool
  chunks : Bool
  custom : HttpHeader.Fields

/-- The fields after the status line (`src/frpcserver.cc:406-477`). -/
def serverFields (c : ServerCfg) (total : Nat) : List (Bytes × Bytes) :=
  [(asc "Content-Type", match c.outType with
      | .xml => asc "text/xml"
      | .binary => asc "application/x-frpc"
      | .json => asc "application/json"
      | .base64 => asc "application/x-base64-frpc"),
   (asc "Accept", asc "text/xml" ++ (if c.useBinary then asc ", application/x-frpc" else []) ++
      asc ", application/x-www-form-urlencoded" ++ asc ", application/x-base64-frpc"),
   (asc "Connection", if c.keepAlive then asc "keep-alive" else asc "close"),
   if c.chunks then (asc "Transfer-Encoding", asc "chunked") else (asc "Content-Length", dec total),
   (asc "Server", asc "Fast-RPC  Server Linux")] ++ c.custom

/-- The server's header (`src/frpcserver.cc:398-490`), without a body for `HEAD`. -/
def serverHead (c : ServerCfg) (total : Nat) : Bytes :=
  asc "HTTP/1.1 200 OK\r\n" ++ (serverFields c total).flatMap headLine ++ asc "\r\n"

/-- `Server_t` as a writer. -/
def serverConf (c : ServerCfg) : Conf := ⟨serverHead c, c.chunks, false⟩

end HttpOut
end Frpc
