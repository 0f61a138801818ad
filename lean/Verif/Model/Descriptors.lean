import Verif.Basic.Bytes
/-!
# Descriptors and unmarshallers of a client: `Connector_t` (`src/frpcconnector.cc`), `HTTPClient_t` (`src/frpchttpclient.cc`), `HTTPIO_t`

What the client does to the descriptor of its connection, call by call of the system, and to its unmarshaller. What the bytes are is in the other models; here every outcome of a system call, of reading
and of sending is a parameter.
-/
namespace Frpc
namespace Descriptors

/-- What is done to descriptors and unmarshallers: `socket()` gave that descriptor; `close`; any other call with it; `new` and `delete` of the unmarshaller with that number. -/
inductive Act where
  | opened (fd : Nat)
  | close (fd : Nat)
  | use (fd : Nat)
  | made (id : Nat)
  | delete (id : Nat)
deriving DecidableEq, Repr

/-- The descriptor of the `HTTPIO_t` (`none` for -1), and everything that was done, in order. -/
structure Sock where
  fd : Option Nat
  log : List Act
deriving DecidableEq, Repr

/-- `TEMP_FAILURE_RETRY(close(fd)); fd = -1` if `fd > -1`; it is called again as often as it is interrupted (`src/nonglibc.h:44-49`). -/
def shut (eintr : Nat) (s : Sock) : Sock :=
  match s.fd with
  | none => s
  | some n => ⟨none, s.log ++ List.replicate (eintr + 1) (.close n)⟩

/-- Another system call with the descriptor. -/
def touch (s : Sock) : Sock :=
  match s.fd with
  | none => s
  | some n => { s with log := s.log ++ [.use n] }

/-- What `poll` and `recv` say of a kept connection (`src/frpcconnector.cc:184-219`): nothing has happened; `poll` fails; the end of the stream or an error; data. -/
inductive Peek where
  | quiet | failed | ended | data
deriving DecidableEq, Repr

/-- `connect`, and `poll` and `getsockopt` after it (`src/frpcconnector.cc:287-317,155-182,101-124`): it was made at once; it fails; it goes on, and is then made, or times out, or fails. -/
inductive Link where
  | made | refused | madeLater | late | failed
deriving DecidableEq, Repr

/-- The outcomes of the system calls of one `connectSocket`: how often the `close`s are interrupted, what is seen on a kept connection, the new descriptor, `fcntl`, `setsockopt` (not for unix sockets),
and the connection. -/
structure Outcome where
  eintr : Nat
  peek : Peek
  socket : Option Nat
  nonBlocking : Bool
  noDelay : Bool
  link : Link
deriving DecidableEq, Repr

/-- `closeSocketIfPeerClosed` (`src/frpcconnector.cc:184-219`). -/
def checkPeer (o : Outcome) (s : Sock) : Sock :=
  match o.peek with
  | .quiet => touch s
  | .failed => shut o.eintr (touch s)
  | .ended => shut o.eintr (touch (touch s))
  | .data => touch (touch s)

/-- Opening and connecting a socket (`src/frpcconnector.cc:270-317`, `382-423`, `461-497`): the descriptor and whether everything went well. -/
def openSocket (o : Outcome) (s : Sock) : Sock × Bool :=
  match o.socket with
  | none => (s, false)
  | some n =>
    let s := touch ⟨some n, s.log ++ [.opened n]⟩
    if o.nonBlocking = false then (s, false)
    else
      let s := touch s
      if o.noDelay = false then (s, false)
      else
        let s := touch s
        match o.link with
        | .made => (s, true)
        | .refused => (s, false)
        | .madeLater => (touch (touch s), true)
        | .late => (touch s, false)
        | .failed => (touch (touch s), false)

/-- `connectSocket` (`src/frpcconnector.cc:252-323`, `364-426`, `438-500`): does it return? The closer closes what is in `fd` on an exception, unless a kept connection was found
(`src/frpcconnector.cc:262-267`). -/
def connectSocket (keepAlive : Bool) (o : Outcome) (s : Sock) : Sock × Bool :=
  let s := if keepAlive then s else shut o.eintr s
  match s.fd with
  | some _ =>
    let s := checkPeer o s
    match s.fd with
    | some _ => (s, true)
    | none => openSocket o s
  | none =>
    match openSocket o s with
    | (s, true) => (s, true)
    | (s, false) => (shut o.eintr s, false)

/-- An `HTTPClient_t`: its socket is that of the `HTTPIO_t`; `headersSent`, `connectionMustClose`, the pointer `unmarshaller`; `count` numbers unmarshallers. -/
structure Client where
  sock : Sock
  keepAlive : Bool
  headersSent : Bool
  mustClose : Bool
  un : Option Nat
  count : Nat
deriving DecidableEq, Repr

/-- How `sendData` ends: everything is sent; an exception; `ResponseError_t`. -/
inductive Sending where
  | sent | failed | response
deriving DecidableEq, Repr

/-- `sendRequest` (`src/frpchttpclient.cc:279-396`): does it return? `wellFormed` is false if an exception comes before connecting (`src/frpchttpclient.cc:299-311`). -/
def sendRequest (o : Outcome) (wellFormed : Bool) (sending : Sending) (c : Client) : Client × Bool :=
  let abort := fun (s : Sock) (c : Client) => ({ c with sock := shut o.eintr s }, false)
  let transmit := fun (s : Sock) (c : Client) =>
    match sending with
    | .sent => ({ c with sock := touch s, headersSent := true }, true)
    | .failed => abort (touch s) { c with headersSent := true }
    | .response => ({ c with sock := touch s, headersSent := true, mustClose := true }, false)
  if c.headersSent then transmit c.sock c
  else if wellFormed = false then abort c.sock c
  else
    let s := if c.mustClose then shut o.eintr c.sock else c.sock
    let c := { c with mustClose := false }
    match connectSocket c.keepAlive o s with
    | (s, true) => transmit s c
    | (s, false) => abort s c

/-- How reading a response goes: an exception in the status line or the header; an unknown content type; an exception in the body; the response, and whether it lets the connection close. -/
inductive Reading where
  | badHeader | badType | badBody | response (close : Bool)
deriving DecidableEq, Repr

/-- `delete unmarshaller`. -/
def dropUn (c : Client) : Client :=
  match c.un with
  | none => c
  | some n => { c with sock := { c.sock with log := c.sock.log ++ [.delete n] } }

/-- `readResponse` (`src/frpchttpclient.cc:168-276`). `unmarshaller` is not cleared when it is deleted (`src/frpchttpclient.cc:238`). -/
def readResponse (eintr : Nat) (r : Reading) (c : Client) : Client × Bool :=
  let c := { c with sock := touch c.sock }
  let abort := fun (c : Client) => ({ c with sock := shut eintr c.sock }, false)
  let unmarshal := fun (c : Client) =>
    let c := dropUn c
    { c with un := some c.count, count := c.count + 1, sock := { c.sock with log := c.sock.log ++ [.made c.count] } }
  match r with
  | .badHeader => abort c
  | .badType => abort (dropUn c)
  | .badBody => abort (unmarshal c)
  | .response close =>
    let c := unmarshal c
    if c.keepAlive = false ∨ close = true ∨ c.mustClose = true then ({ c with sock := shut eintr c.sock }, true) else (c, true)

/-- What a user does with an `HTTPClient_t`. -/
inductive Op where
  | send (o : Outcome) (wellFormed : Bool) (sending : Sending)
  | read (eintr : Nat) (r : Reading)
deriving DecidableEq, Repr

/-- One operation. -/
def step (c : Client) : Op → Client
  | .send o w s => (sendRequest o w s c).1
  | .read e r => (readResponse e r c).1

/-- The constructor, the operations, the destructor (`src/frpchttpclient.cc:107-132`). -/
def client (keepAlive : Bool) (s : Sock) (count : Nat) (ops : List Op) : Client :=
  dropUn (ops.foldl step ⟨s, keepAlive, false, false, none, count⟩)

/-- The sends of one call; an exception ends them, and `ResponseError_t` leads to the response all the same (`src/frpcserverproxy.cc:497-513`): is the response read? -/
def sends : List (Outcome × Bool × Sending) → Client → Client × Bool
  | [], c => (c, true)
  | (o, w, s) :: os, c =>
    match sendRequest o w s c with
    | (c, true) => sends os c
    | (c, false) => (c, decide (s = .response ∧ c.mustClose = true))

/-- One call of a proxy: the exception of the marshaller before anything is sent, or the sends and the response. -/
structure Call where
  packed : Bool
  sends : List (Outcome × Bool × Sending)
  eintr : Nat
  reading : Reading
deriving DecidableEq, Repr

/-- `ServerProxyImpl_t::call` (`src/frpcserverproxy.cc:483-514`): the socket is that of the proxy, the client is new. -/
def call (keepAlive : Bool) (s : Sock) (count : Nat) (k : Call) : Sock × Nat :=
  let c : Client := ⟨s, keepAlive, false, false, none, count⟩
  let c := if k.packed = false then c
    else
      match sends k.sends c with
      | (c, true) => (readResponse k.eintr k.reading c).1
      | (c, false) => c
  ((dropUn c).sock, c.count)

/-- The calls of a proxy one after another. -/
def calls (keepAlive : Bool) : List Call → Sock → Nat → Sock × Nat
  | [], s, n => (s, n)
  | k :: ks, s, n =>
    let q := call keepAlive s n k
    calls keepAlive ks q.1 q.2

/-- A proxy from its constructor to its destructor (`src/frpchttpio.cc:66-69`): everything that was done. -/
def proxy (keepAlive : Bool) (ks : List Call) (eintr : Nat) : List Act := (shut eintr (calls keepAlive ks ⟨none, []⟩ 0).1).log

end Descriptors
end Frpc
