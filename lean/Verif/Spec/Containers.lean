import Verif.Model.Struct
import Verif.Model.Array
/-!
# Specification: finite maps, sequences, parameter formats
-/
namespace Frpc
namespace Spec
variable {α : Type _}

/-- A partial function updated at one point. -/
def upd (m : Bytes → Option α) (k : Bytes) (v : Option α) : Bytes → Option α :=
  fun k' => if k' = k then v else m k'

/-- What a call means for the finite map. -/
def mapStep (m : Bytes → Option α) : SMap.Op α → (Bytes → Option α) × SMap.Outcome
  | .append k v => if 255 < k.length then (m, .lenError) else (upd m k (some v), .done)
  | .insert k v =>
    match m k with
    | none => (upd m k (some v), .inserted true)
    | some _ => (m, .inserted false)
  | .erase k =>
    match m k with
    | none => (m, .erased 0)
    | some _ => (upd m k none, .erased 1)
  | .clear => (fun _ => none, .done)

/-- A history. -/
def mapHistory (m : Bytes → Option α) : List (SMap.Op α) → (Bytes → Option α) × List SMap.Outcome
  | [] => (m, [])
  | op :: ops => ((mapHistory (mapStep m op).1 ops).1, (mapStep m op).2 :: (mapHistory (mapStep m op).1 ops).2)

/-- A sequence as a length and a function from positions. -/
structure Seq (α : Type _) where
  size : Nat
  at' : Nat → Option α

/-- What a call means for the sequence; `true` = index error. -/
def seqStep (s : Seq α) : Arr.Op α → Seq α × Bool
  | .append v => (⟨s.size + 1, fun i => if i = s.size then some v else s.at' i⟩, false)
  | .replace i v => if i < s.size then (⟨s.size, fun j => if j = i then some v else s.at' j⟩, false) else (s, true)
  | .clear => (⟨0, fun _ => none⟩, false)

/-- A history. -/
def seqHistory (s : Seq α) : List (Arr.Op α) → Seq α × List Bool
  | [] => (s, [])
  | op :: ops => ((seqHistory (seqStep s op).1 ops).1, (seqStep s op).2 :: (seqHistory (seqStep s op).1 ops).2)

/-- The types a parameter format can ask for. -/
inductive Kind where
  | int | string | double | bool | dateTime | binary | struct | array
deriving DecidableEq, Repr

/-- The documented letter of a type. -/
def Kind.letter : Kind → Char
  | .int => 'i' | .string => 's' | .double => 'd' | .bool => 'b'
  | .dateTime => 'D' | .binary => 'B' | .struct => 'S' | .array => 'A'

/-- One parameter of a format: its type and whether null is allowed too. -/
structure Param where
  kind : Kind
  nullable : Bool
deriving DecidableEq, Repr

/-- The text of a format. -/
def formatText : List Param → String
  | [] => ""
  | p :: ps => (if p.nullable then String.ofList [p.kind.letter, '?'] else String.ofList [p.kind.letter]) ++ formatText ps

/-- The value is of the type. -/
def OfKind : Kind → Value → Prop
  | .int, .int _ => True
  | .string, .string _ => True
  | .double, .double _ => True
  | .bool, .bool _ => True
  | .dateTime, .dateTime _ => True
  | .binary, .binary _ => True
  | .struct, .struct _ => True
  | .array, .array _ => True
  | _, _ => False

/-- The value is acceptable for the parameter. -/
def Fits (p : Param) (v : Value) : Prop := OfKind p.kind v ∨ (p.nullable = true ∧ v = .null)

/-- The values are acceptable for the format, one by one. -/
inductive FitsAll : List Param → List Value → Prop
  | nil : FitsAll [] []
  | cons {p ps v vs} : Fits p v → FitsAll ps vs → FitsAll (p :: ps) (v :: vs)

end Spec
end Frpc
