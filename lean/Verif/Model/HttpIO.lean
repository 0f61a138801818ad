import Verif.Model.HttpHeader
/-!
# HTTP input (`src/frpchttpio.cc`)

The peer is modelled by all the bytes it sends before it closes the connection and a schedule: one
event for each `poll` the reader makes.  A `recv` after it returns some of the bytes not yet
consumed, at least one and at most as many as the event says, or reports the close when there are
none. So every segmentation and every interleaving with timeouts is a schedule. `EINTR` is retried
by the code (`TEMP_FAILURE_RETRY`) and not modelled; a `recv` of bytes just peeked returns them all.
-/
namespace Frpc
namespace HttpIO

/-- Exceptions of the HTTP layer (`src/frpchttp.h:201-216`), and what a body sink may throw. -/
inductive HErr where
  | timeout | syscall | closed | value | lineTooLong | bodyTooLong
  | sink (e : Err)
  | fuel
deriving DecidableEq, Repr

/-- How one `poll` and the `recv` after it turn out: at most `k + 1` bytes, timeout, failure. -/
inductive Ev where
  | bytes (k : Nat) | timeout | fail
deriving DecidableEq, Repr

/-- `HTTP_BUFF_LENGTH` (`src/frpchttpio.cc:62`). -/
def BUFF : Nat := 65536

/-- The reader's configuration: limits are off when negative (`src/frpchttpio.h:58-62`); `sink`
says whether the unmarshaller throws on being given the last of these pieces. -/
structure Cfg where
  lineLimit : Int
  bodyLimit : Int
  sink : List Bytes → Option Err

/-- Connection and sink (`DataSink_t`, `src/frpchttpclient.h:60-81`): the pieces given to the
unmarshaller. -/
structure Conn where
  data : Bytes
  sched : List Ev
  out : List Bytes

/-- `DataSink_t::written()`: an `unsigned int`. -/
def Conn.written (s : Conn) : Nat := s.out.flatten.length % 2 ^ 32

/-- Outcome of `poll`. -/
inductive Poll where
  | ready (avail : Nat) | timeout | fail

/-- `poll`. When the schedule is exhausted everything is available. -/
def poll (s : Conn) : Poll × Conn :=
  match s.sched with
  | [] => (.ready s.data.length, s)
  | .bytes k :: r => (.ready (k + 1), { s with sched := r })
  | .timeout :: r => (.timeout, { s with sched := r })
  | .fail :: r => (.fail, { s with sched := r })

/-- Removal of trailing CR (`src/frpchttpio.cc:260-274`). -/
def stripCR (s : Bytes) : Bytes := (s.reverse.dropWhile (· == 13)).reverse

/-- `limit >= 0 && n > static_cast<unsigned int>(limit)`. -/
def over (limit : Int) (n : Nat) : Bool := decide (0 ≤ limit) && decide ((n : Int) > limit)

/-- Loop of `readLineOpt` (`src/frpchttpio.cc:166-314`). -/
def readLineLoop (cfg : Cfg) (check optional : Bool) : Nat → Bool → Bytes → Conn → Except HErr Bytes × Conn
  | 0, _, _, s => (.error .fuel, s)
  | f + 1, noBytes, line, s =>
    match poll s with
    | (.timeout, s) => if optional then (.ok [], s) else (.error .timeout, s)
    | (.fail, s) => (.error .syscall, s)
    | (.ready avail, s) =>
      let buff := s.data.take (min avail BUFF)
      if buff = [] then if noBytes && optional then (.ok [], s) else (.error .closed, s)
      else match buff.findIdx? (· == 10) with
        | some i =>
          if check && over cfg.lineLimit (line.length + (i + 1)) then (.error .lineTooLong, s)
          else (.ok (stripCR (line ++ buff.take i)), { s with data := s.data.drop (i + 1) })
        | none =>
          if check && over cfg.lineLimit (line.length + buff.length) then (.error .lineTooLong, s)
          else readLineLoop cfg check optional f false (line ++ buff) { s with data := s.data.drop buff.length }

/-- `readLineOpt`. -/
def readLineOpt (cfg : Cfg) (check optional : Bool) (s : Conn) : Except HErr Bytes × Conn :=
  readLineLoop cfg check optional (s.data.length + 1) true [] s

/-- `readLine` (`src/frpchttpio.cc:161-175`). -/
def readLine (cfg : Cfg) (check : Bool) (s : Conn) : Except HErr Bytes × Conn := readLineOpt cfg check false s

/-- `DataSink_t::write`. -/
def sinkWrite (cfg : Cfg) (d : Bytes) (s : Conn) : Except HErr Unit × Conn :=
  match cfg.sink (s.out ++ [d]) with
  | some e => (.error (.sink e), { s with out := s.out ++ [d] })
  | none => (.ok (), { s with out := s.out ++ [d] })

/-- Loop of `readBlock` (`src/frpchttpio.cc:410-466`); `none` reads until the connection ends. -/
def readBlockLoop (cfg : Cfg) : Nat → Option Nat → Conn → Except HErr Unit × Conn
  | 0, _, s => (.error .fuel, s)
  | f + 1, len, s =>
    match poll s with
    | (.timeout, s) => (.error .timeout, s)
    | (.fail, s) => (.error .syscall, s)
    | (.ready avail, s) =>
      let toRead := match len with
        | none => BUFF
        | some n => if n > BUFF then BUFF else n
      let buff := s.data.take (min avail toRead)
      if buff = [] then
        match len with
        | none => (.ok (), s)
        | some _ => (.error .closed, s)
      else
        let s := { s with data := s.data.drop buff.length }
        let len := len.map (· - buff.length)
        if over cfg.bodyLimit s.written then (.error .bodyTooLong, s)
        else match sinkWrite cfg buff s with
          | (.error e, s) => (.error e, s)
          | (.ok _, s) => if len = some 0 then (.ok (), s) else readBlockLoop cfg f len s

/-- `readBlock(contentLength)` (`src/frpchttpio.cc:388-467`). -/
def readBlock (cfg : Cfg) (len : Nat) (s : Conn) : Except HErr Unit × Conn :=
  if len = 0 then (.ok (), s)
  else if over cfg.bodyLimit len then (.error .bodyTooLong, s)
  else readBlockLoop cfg (s.data.length + 1) (some len) s

/-- `readBlock(-1)`: until the connection is closed. -/
def readToEnd (cfg : Cfg) (s : Conn) : Except HErr Unit × Conn := readBlockLoop cfg (s.data.length + 1) none s

/-- `getHeaderValue` (`src/frpchttpio.cc:117-159`) with both outputs initially empty: `none` for an
error, else name and value. -/
def getHeaderValue (line : Bytes) : Option (Bytes × Bytes) :=
  match line with
  | [] => none
  | c :: _ =>
    if isSpace c then some ([], [32] ++ line.dropWhile isSpace)
    else match line.findIdx? (· == 58) with
      | none => none
      | some idx =>
        let rest := (line.drop (idx + 1)).dropWhile isSpace
        if rest = [] then some (line.take idx, [])
        else some (line.take idx, (rest.reverse.dropWhile isSpace).reverse)

/-- Loop of `readHeader` (`src/frpchttpio.cc:469-510`). -/
def readHeaderLoop (cfg : Cfg) (optional : Bool) : Nat → Bool → HttpHeader.Fields → Conn → Except HErr HttpHeader.Fields × Conn
  | 0, _, _, s => (.error .fuel, s)
  | f + 1, noLine, h, s =>
    match readLineOpt cfg false (noLine && optional) s with
    | (.error e, s) => (.error e, s)
    | (.ok [], s) => (.ok h, s)
    | (.ok line, s) =>
      match getHeaderValue line with
      | none => (.error .value, s)
      | some (name, value) =>
        if name = [] then
          match HttpHeader.appendValue h value with
          | .error _ => (.error .value, s)
          | .ok h => readHeaderLoop cfg optional f false h s
        else readHeaderLoop cfg optional f false (HttpHeader.add h name value) s

/-- `readHeader`. -/
def readHeader (cfg : Cfg) (optional : Bool) (h : HttpHeader.Fields) (s : Conn) : Except HErr HttpHeader.Fields × Conn :=
  readHeaderLoop cfg optional (s.data.length + 1) true h s

/-- Value of a digit in base 16. -/
def hexDigit? (c : UInt8) : Option Nat :=
  if isDigit c then some (c.toNat - 48)
  else if 97 ≤ c.toNat ∧ c.toNat ≤ 102 then some (c.toNat - 87)
  else if 65 ≤ c.toNat ∧ c.toNat ≤ 70 then some (c.toNat - 55)
  else none

/-- Digits read by `operator>>` in base 10 or 16: number and count of digits. -/
def readDigits (base : Nat) : Nat → Nat → Bytes → Nat × Nat
  | acc, n, [] => (acc, n)
  | acc, n, c :: s =>
    match hexDigit? c with
    | none => (acc, n)
    | some d => if d < base then readDigits base (base * acc + d) (n + 1) s else (acc, n)

/-- A sign read by `operator>>`. -/
def takeSign : Bytes → Bool × Bytes
  | 45 :: s => (true, s)
  | 43 :: s => (false, s)
  | s => (false, s)

/-- The prefix `0x` that `operator>>` takes in base 16. -/
def skip0x (base : Nat) : Bytes → Bytes
  | 48 :: c :: s => if base = 16 ∧ (c = 120 ∨ c = 88) then s else 48 :: c :: s
  | s => s

/-- `istringstream(s) >> (hex) longValue` in the C locale: white space, sign, in base 16 an optional
`0x`, digits; fails without digits or out of the range of `long`. -/
def readLong (base : Nat) (s : Bytes) : Option Int :=
  let t := takeSign (s.dropWhile isSpace)
  let r := readDigits base 0 0 (skip0x base t.2)
  if r.2 = 0 then none
  else
    let v : Int := if t.1 then -r.1 else r.1
    if IsI64 v then some v else none

/-- `readChunkSize` (`src/frpchttpio.cc:512-523`). -/
def readChunkSize (cfg : Cfg) (s : Conn) : Except HErr Nat × Conn :=
  match readLine cfg false s with
  | (.error e, s) => (.error e, s)
  | (.ok line, s) =>
    match readLong 16 line with
    | none => (.error .value, s)
    | some n => if n < 0 then (.error .value, s) else (.ok n.toNat, s)

/-- Loop of `readChunkedContent` (`src/frpchttpio.cc:525-554`). The sum in the limit check is
evaluated without overflow: chunk sizes next to 2^63 overflow a `long` in the code, and are then
refused by `readBlock`. -/
def readChunkedLoop (cfg : Cfg) : Nat → HttpHeader.Fields → Conn → Except HErr HttpHeader.Fields × Conn
  | 0, _, s => (.error .fuel, s)
  | f + 1, h, s =>
    match readChunkSize cfg s with
    | (.error e, s) => (.error e, s)
    | (.ok 0, s) => readHeader cfg true h s
    | (.ok n, s) =>
      if over cfg.bodyLimit (s.written + n) then (.error .bodyTooLong, s)
      else match readBlock cfg n s with
        | (.error e, s) => (.error e, s)
        | (.ok _, s) =>
          match readLine cfg false s with
          | (.error e, s) => (.error e, s)
          | (.ok [], s) => readChunkedLoop cfg f h s
          | (.ok _, s) => (.error .value, s)

/-- `readChunkedContent`. -/
def readChunkedContent (cfg : Cfg) (h : HttpHeader.Fields) (s : Conn) : Except HErr HttpHeader.Fields × Conn :=
  readChunkedLoop cfg (s.data.length + 1) h s

/-- `readContent` (`src/frpchttpio.cc:556-609`). -/
def readContent (cfg : Cfg) (request : Bool) (h : HttpHeader.Fields) (s : Conn) : Except HErr HttpHeader.Fields × Conn :=
  let keep (r : Except HErr Unit × Conn) : Except HErr HttpHeader.Fields × Conn :=
    match r with
    | (.error e, s) => (.error e, s)
    | (.ok _, s) => (.ok h, s)
  match HttpHeader.get h (asc "Content-Length") 0 with
  | some v =>
    match readLong 10 v with
    | none => (.error .value, s)
    | some n =>
      if n < 0 then (.error .value, s)
      else if over cfg.bodyLimit n.toNat then (.error .bodyTooLong, s)
      else keep (readBlock cfg n.toNat s)
  | none =>
    match HttpHeader.get h (asc "Transfer-Encoding") 0 with
    | some v => if v.map toUpper = asc "CHUNKED" then readChunkedContent cfg h s else (.error .value, s)
    | none => if request then (.ok h, s) else keep (readToEnd cfg s)

/-- `line.substr(pos, n)`: throws `std::out_of_range` when `pos` is past the end. -/
def substrE (line : Bytes) (pos n : Nat) : Except Err Bytes :=
  if pos > line.length then .error .other else .ok ((line.drop pos).take n)

/-- The end of a word in `splitBySpace` (`src/frpchttpio.cc:96-97,111-112`). -/
def pushWord (line : Bytes) (state : Bool) (start i : Nat) (parts : List Bytes) : Except Err (List Bytes) :=
  match state with
  | true => match substrE line start (i - start) with
    | .ok w => .ok (parts ++ [w])
    | .error e => .error e
  | false => .ok parts

/-- Loop of `splitBySpace` (`src/frpchttpio.cc:82-108`) on positions; `upto` is already decremented. -/
def splitLoop (line : Bytes) (upto : Nat) : Nat → Nat → Nat → Bool → List Bytes → Except Err (List Bytes)
  | 0, _, _, _, _ => .error .fuel
  | f + 1, i, start, state, parts =>
    if i < line.length then
      match line[i]? with
      | none => .error .ub
      | some c =>
        if isSpace c = false then splitLoop line upto f (i + 1) (if state then start else i) true parts
        else match pushWord line state start i parts with
          | .error e => .error e
          | .ok parts =>
            if parts.length = upto then
              if line.length - (i + 1) > 0 then
                match substrE line (i + 1) (line.length - (i + 1)) with
                | .ok w => .ok (parts ++ [w])
                | .error e => .error e
              else .ok parts
            else splitLoop line upto f (i + 1) start false parts
    else pushWord line state start line.length parts

/-- `splitBySpace` (`src/frpchttpio.cc:71-115`); `--upto` on a `size_t`. -/
def splitBySpace (line : Bytes) (upto : Nat) : Except Err (List Bytes) :=
  splitLoop line (if upto = 0 then 2 ^ 64 - 1 else upto - 1) (line.length + 1) 0 0 false []

end HttpIO
end Frpc
