import Verif.Model.BinMarshaller
import Verif.Model.BinUnmarshaller
/-!
# Base64: writer, decoder, XML/JSON body encoder, base64 marshaller and unmarshaller

`src/frpcb64writer.cc`, `src/frpcbase64.cc`, `src/frpcxmlmarshaller.cc:475-550`,
`src/frpcb64marshaller.h`, `src/frpcb64unmarshaller.cc`.
-/
namespace Frpc
namespace Base64

/-- `B64_ALPHABET` (`src/frpcb64writer.cc:38-47`) and `table` (`src/frpcxmlmarshaller.cc:491-492`). -/
def alphabet : Bytes := asc "ABCDEFGHIJKLMNOPQRSTUVWXYZabcdefghijklmnopqrstuvwxyz0123456789+/"

/-- `&B64_ALPHABET[n]`, one byte; every index used is below 64 (an index beyond the table would
be undefined behaviour: rendered as the byte 0, and shown not to occur by the theorems). -/
def chr (n : Nat) : UInt8 := alphabet.getD n 0

/-- `Base64Writer_t::States_t` (`src/frpcb64writer.h:48`). -/
inductive WSt where | first | second | third
deriving Repr, DecidableEq, Inhabited

/-- `Base64Writer_t::State_t` (`src/frpcb64writer.h:51-69`); `lineLen` is never used. -/
structure W where
  st : WSt
  prev : Nat
deriving Repr, DecidableEq, Inhabited

/-- Constructor / `reset` (`src/frpcb64writer.h:52,59-62`). -/
def W.init : W := ⟨.first, 0⟩

/-- One byte of `Base64Writer_t::write` (`src/frpcb64writer.cc:64-98`): the writes to the underlying writer and the new state. The
fall-through from case to case coincides with going round the loop. -/
def W.byte (w : W) (ud : UInt8) : List Bytes × W :=
  match w.st with
  | .first => ([[chr (ud.toNat >>> 2)]], ⟨.second, (ud.toNat &&& 0x03) <<< 4⟩)
  | .second => ([[chr (w.prev ||| ((ud.toNat &&& 0xf0) >>> 4))]], ⟨.third, (ud.toNat &&& 0x0f) <<< 2⟩)
  | .third => ([[chr (w.prev ||| ((ud.toNat &&& 0xc0) >>> 6))], [chr (ud.toNat &&& 0x3f)]], ⟨.first, 0⟩)

/-- `Base64Writer_t::write` (`src/frpcb64writer.cc:64-98`). -/
def W.write : W → Bytes → List Bytes × W
  | w, [] => ([], w)
  | w, c :: cs => let r := w.byte c; let s := r.2.write cs; (r.1 ++ s.1, s.2)

/-- `Base64Writer_t::flush` (`src/frpcb64writer.cc:100-119`), also run by the destructor (55-61). -/
def W.flush (w : W) : List Bytes × W :=
  (match w.st with
   | .second => [[chr w.prev], asc "=="]
   | .third => [[chr w.prev], asc "="]
   | .first => [], .init)

/-- A client that makes the given `write` calls. -/
def W.writes : W → List Bytes → List Bytes × W
  | w, [] => ([], w)
  | w, p :: ps => let r := w.write p; let s := r.2.writes ps; (r.1 ++ s.1, s.2)

/-- `base64Table` (`src/frpcbase64.cc:5-79`). -/
def table (c : UInt8) : Nat :=
  ([0x00, 0x80, 0x80, 0x80, 0x80, 0x80, 0x80, 0x80,  0x80, 0x80, 0x80, 0x80, 0x80, 0x80, 0x80, 0x80,
    0x80, 0x80, 0x80, 0x80, 0x80, 0x80, 0x80, 0x80,  0x80, 0x80, 0x80, 0x80, 0x80, 0x80, 0x80, 0x80,
    0x80, 0x80, 0x80, 0x80, 0x80, 0x80, 0x80, 0x80,  0x80, 0x80, 0x80, 0x3e, 0x80, 0x80, 0x80, 0x3f,
    0x34, 0x35, 0x36, 0x37, 0x38, 0x39, 0x3a, 0x3b,  0x3c, 0x3d, 0x80, 0x80, 0x80, 0x80, 0x80, 0x80,
    0x80, 0x00, 0x01, 0x02, 0x03, 0x04, 0x05, 0x06,  0x07, 0x08, 0x09, 0x0a, 0x0b, 0x0c, 0x0d, 0x0e,
    0x0f, 0x10, 0x11, 0x12, 0x13, 0x14, 0x15, 0x16,  0x17, 0x18, 0x19, 0x80, 0x80, 0x80, 0x80, 0x80,
    0x80, 0x1a, 0x1b, 0x1c, 0x1d, 0x1e, 0x1f, 0x20,  0x21, 0x22, 0x23, 0x24, 0x25, 0x26, 0x27, 0x28,
    0x29, 0x2a, 0x2b, 0x2c, 0x2d, 0x2e, 0x2f, 0x30,  0x31, 0x32, 0x33, 0x80, 0x80, 0x80, 0x80, 0x80]
    : List Nat).getD c.toNat 0x80

/-- `isspace` in the C locale (for bytes above 127 the argument is negative; glibc answers 0). -/
def isspace (c : UInt8) : Bool := c.toNat = 32 || (9 ≤ c.toNat && c.toNat ≤ 13)

/-- Decoding one quad (`src/frpcbase64.cc:126-131`): the bytes appended. -/
def quad (a0 a1 a2 a3 : UInt8) : Bytes :=
  let b0 := table a0; let b1 := table a1; let b2 := table a2; let b3 := table a3
  let o := [UInt8.ofNat ((b0 <<< 2) ||| (b1 >>> 4)), UInt8.ofNat ((b1 <<< 4) ||| (b2 >>> 2)), UInt8.ofNat ((b2 <<< 6) ||| b3)]
  o.take (if a2 = 61 then 1 else if a3 = 61 then 2 else 3)

/-- `Base64::process` (`src/frpcbase64.cc:99-141`).  The object's state `i`, `a[]`, `b[]` is the list of
the `i` characters read of an unfinished quad (`a[]` and `b[]` beyond `i` are always
overwritten before use).  After a quad with padding the rest of the buffer is ignored (line 135). -/
def process : Bytes → Bytes → Bytes × Bytes
  | a, [] => ([], a)
  | a, c :: r =>
    if isspace c then process a r
    else match a with
      | [a0, a1, a2] =>
        let o := quad a0 a1 a2 c
        if o.length < 3 then (o, [])
        else let s := process [] r; (o ++ s.1, s.2)
      | _ => process (a ++ [c]) r

/-- A client that decodes the given pieces one after another. -/
def processAll : Bytes → List Bytes → Bytes × Bytes
  | a, [] => ([], a)
  | a, p :: ps => let r := process a p; let s := processAll r.2 ps; (r.1 ++ s.1, s.2)

/-- Four sextets of a full group (`src/frpcxmlmarshaller.cc:494-505,520-523`). -/
def full (i0 i1 i2 : UInt8) : Bytes :=
  [chr (i0.toNat >>> 2), chr (((i0.toNat &&& 0x03) <<< 4) ||| (i1.toNat >>> 4)),
   chr (((i1.toNat &&& 0x0f) <<< 2) ||| (i2.toNat >>> 6)), chr (i2.toNat &&& 0x3f)]

/-- State of `writeEncodeBase64`: pending input and line length (`src/frpcxmlmarshaller.cc:507-509`). -/
structure E where
  input : Bytes
  line : Nat
deriving Repr, DecidableEq

/-- One chunk (`src/frpcxmlmarshaller.cc:513-532`), byte by byte: output (writes concatenated) and new state. -/
def encChunk (rn : Bool) : E → Bytes → Bytes × E
  | e, [] => ([], e)
  | e, c :: cs =>
    match e.input with
    | [i0, i1] =>
      let line := if rn then e.line + 4 else e.line
      let nl : Bool := rn && decide (line > 72)
      let s := encChunk rn ⟨[], if nl then 0 else line⟩ cs
      (full i0 i1 c ++ (if nl then [13, 10] else []) ++ s.1, s.2)
    | inp => encChunk rn ⟨inp ++ [c], e.line⟩ cs

/-- The loop over chunks (`src/frpcxmlmarshaller.cc:510-532`). -/
def encChunks (rn : Bool) : E → List Bytes → Bytes × E
  | e, [] => ([], e)
  | e, c :: cs => let r := encChunk rn e c; let s := encChunks rn r.2 cs; (r.1 ++ s.1, s.2)

/-- The tail (`src/frpcxmlmarshaller.cc:534-549`). -/
def encTail (rn : Bool) (e : E) : Bytes :=
  (match e.input with
   | [i0] => [chr (i0.toNat >>> 2), chr (((i0.toNat &&& 0x03) <<< 4) ||| (0 >>> 4))] ++ asc "=="
   | [i0, i1] => [chr (i0.toNat >>> 2), chr (((i0.toNat &&& 0x03) <<< 4) ||| (i1.toNat >>> 4)),
                  chr (((i1.toNat &&& 0x0f) <<< 2) ||| (0 >>> 6))] ++ asc "="
   | _ => []) ++ (if e.line ≠ 0 && rn then [13, 10] else [])

/-- `XmlMarshaller_t::writeEncodeBase64(writer, chunks, rn)` (`src/frpcxmlmarshaller.cc:487-550`): everything written. -/
def writeEncodeBase64 (rn : Bool) (chunks : List Bytes) : Bytes :=
  let r := encChunks rn ⟨[], 0⟩ chunks
  r.1 ++ encTail rn r.2

/-- `Base64Marshaller_t` (`src/frpcb64marshaller.h:43-53`): the binary marshaller's writes go through a `Base64Writer_t`, which is
flushed at the end (by `flush` or the destructor). The bytes that reach the underlying writer. -/
def marshal (strOk : Bytes → Bool) (ver : Version) (ops : List PackOp) : Bytes × Option Err :=
  let r := BinMarshaller.run strOk ver ops
  let w := W.init.writes r.1
  ((w.1 ++ w.2.flush.1).flatten, r.2)

open BinUnMarshaller in
/-- `Base64UnMarshaller_t::unMarshall` (`src/frpcb64unmarshaller.cc:46-54`) once per piece, stopping at the first exception.  The state is the pending
characters of the decoder and the binary unmarshaller. The decoder's state after an exception is kept. -/
def unMarshallAll {β} (B : Builder β) (req : Req) : Bytes → Obj → β → List Bytes → Bytes × Obj × β × Option Err
  | a, o, b, [] => (a, o, b, none)
  | a, o, b, p :: ps =>
    let r := process a p
    if r.1 = [] then unMarshallAll B req r.2 o b ps
    else match BinUnMarshaller.unMarshall B req o b r.1 with
      | (o', b', none) => unMarshallAll B req r.2 o' b' ps
      | (o', b', some e) => (r.2, o', b', some e)

end Base64
end Frpc
