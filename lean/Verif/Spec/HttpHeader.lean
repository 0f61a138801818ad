import Verif.Model.HttpHeader
/-!
# Specification: header fields as a case-insensitive multimap
-/
namespace Frpc
namespace Spec

/-- The name without letter case. -/
def lower (name : Bytes) : Bytes := name.map toLower

/-- What one call does to the list of values of one (lower-case) name. -/
def headerStep (name : Bytes) (vs : List Bytes) : HttpHeader.Op → List Bytes
  | .add n v => if lower n = name then vs ++ [v] else vs
  | .set n v create i =>
    if lower n = name then
      if i < vs.length then vs.set i v else if create then vs ++ [v] else vs
    else vs
  | .remove n i => if lower n = name then vs.eraseIdx i else vs

/-- The values of one name after a history. -/
def headerValues (name : Bytes) (ops : List HttpHeader.Op) : List Bytes := ops.foldl (headerStep name) []

end Spec
end Frpc
