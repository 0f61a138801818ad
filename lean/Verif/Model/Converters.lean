import Verif.Model.Heap
import Verif.Model.DateTimeMake
/-!
# Converters of native containers (`src/frpcconverters.h`)

Simplification: converters that the user writes on top of `base_struct_cnvt` are not modelled. A converter holds a pool; the model gives it to all of them at once, as the nested ones take it from the
innermost (`allocator()`).
-/
namespace Frpc
namespace Converters
open Heap (Mem alloc push insert scalar)
open DateTimeMake (Libc)

/-- The converters (`src/frpcconverters.h:388-411`), and `array_cnvt`, and `to_struct` of associative containers (`:354-367`). -/
inductive Cnvt where
  | int | double | string | wstring | bool | binary | dateTime | localTime | utcTime
  | array (c : Cnvt)
  | map (c : Cnvt)

/-- What they take: `int64_t`, `double`, `std::string`, `std::wstring`, `time_t`, any sequence, any sequence of pairs. -/
@[reducible] def Native : Cnvt → Type
  | .int => Int
  | .double => BitVec 64
  | .string => Bytes
  | .wstring => List Nat
  | .bool => Bool
  | .binary => Bytes
  | .dateTime => Bytes
  | .localTime => Int
  | .utcTime => Int
  | .array c => List (Native c)
  | .map c => List (Bytes × Native c)

/-- The process: the C library, the validation of strings. -/
structure Env where
  L : Libc
  strOk : Bytes → Bool

/-- `base_cnvt::operator()` for scalars (`src/frpcconverters.h:76-78`): the `Pool_t` function makes an object of the value, unless its constructor throws. -/
def make (p : Nat) (r : Except Err Value) (m : Mem) : Mem × Except Err Nat :=
  match r with
  | .ok v => let q := scalar p v m; (q.1, .ok q.2)
  | .error e => (m, .error e)

/-- `String_t(const std::string &)` (`src/frpcstring.cc:68-74`). -/
def ofString (E : Env) (s : Bytes) : Except Err Value := if E.strOk s then .ok (.string s) else .error .type

/-- `String_t(const std::wstring &)` outside of Windows (`src/frpcstring.cc:97-101`): the argument is not looked at. -/
def ofWide (_ : List Nat) : Except Err Value := .ok (.string [])

/-- `std::transform(begin, end, std::back_inserter(array), converter)` (`src/frpcconverters.h:324-328`), given the converter of an item. -/
def items {A : Type} (c : A → Mem → Mem × Except Err Nat) (a : Nat) : List A → Mem → Mem × Except Err Nat
  | [], m => (m, .ok a)
  | x :: xs, m =>
    match c x m with
    | (m, .error e) => (m, .error e)
    | (m, .ok y) =>
      match push a y m with
      | (m, .error e) => (m, .error e)
      | (m, .ok _) => items c a xs m

/-- `std::transform` with an inserter and `pair_cnvt` (`src/frpcconverters.h:262-265,354-367`): `Struct_t::insert(iterator, pair)` (`src/frpcstruct.cc:82-85`) looks at no length. -/
def members {A : Type} (c : A → Mem → Mem × Except Err Nat) (s : Nat) : List (Bytes × A) → Mem → Mem × Except Err Nat
  | [], m => (m, .ok s)
  | (k, x) :: xs, m =>
    match c x m with
    | (m, .error e) => (m, .error e)
    | (m, .ok y) =>
      match insert s k y m with
      | (m, .error e) => (m, .error e)
      | (m, .ok _) => members c s xs m

/-- `base_array_cnvt::operator()` and `to_array` (`src/frpcconverters.h:218-221,318-329`). -/
def toArray {A : Type} (p : Nat) (c : A → Mem → Mem × Except Err Nat) (xs : List A) (m : Mem) : Mem × Except Err Nat :=
  let q := alloc p (.arr []) m
  items c q.2 xs q.1

/-- `to_struct` (`src/frpcconverters.h:354-367`). -/
def toStruct {A : Type} (p : Nat) (c : A → Mem → Mem × Except Err Nat) (xs : List (Bytes × A)) (m : Mem) : Mem × Except Err Nat :=
  let q := alloc p (.str []) m
  members c q.2 xs q.1

/-- A converter at work in the pool. -/
def convert (E : Env) (p : Nat) : (c : Cnvt) → Native c → Mem → Mem × Except Err Nat
  | .int, n, m => make p (.ok (.int n)) m
  | .double, x, m => make p (.ok (.double x)) m
  | .string, s, m => make p (ofString E s) m
  | .wstring, s, m => make p (ofWide s) m
  | .bool, b, m => make p (.ok (.bool b)) m
  | .binary, s, m => make p (.ok (.binary s)) m
  | .dateTime, s, m => make p ((DateTimeMake.ofIso E.L s).map .dateTime) m
  | .localTime, t, m => make p (.ok (.dateTime (DateTimeMake.localTime E.L t))) m
  | .utcTime, t, m => make p (.ok (.dateTime (DateTimeMake.utcStamp E.L t))) m
  | .array c, xs, m => toArray p (convert E p c) xs m
  | .map c, xs, m => toStruct p (convert E p c) xs m

end Converters
end Frpc
