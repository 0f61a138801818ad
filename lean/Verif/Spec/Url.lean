import Verif.Model.Url
/-!
# Specification: URLs built from host, port and path
-/
namespace Frpc
namespace Spec

/-- A host name or IPv4 address, or a bracketed IPv6 address. -/
def HostOk (h : Bytes) : Prop :=
  (47 ∉ h ∧ 58 ∉ h ∧ 93 ∉ h) ∨ ∃ a, h = [91] ++ a ++ [93] ∧ 47 ∉ a ∧ 93 ∉ a

/-- The text of `scheme://host[:port]path` with the scheme in any letter case. -/
def IsScheme (ssl : Bool) (s : Bytes) : Prop := s.map toLower = if ssl then asc "https://" else asc "http://"

/-- The port the URL stands for. -/
def portOf (ssl : Bool) (port : Option Nat) : Nat := port.getD (if ssl then 443 else 80)

/-- Text of the optional port. -/
def portText : Option Nat → Bytes
  | none => []
  | some p => [58] ++ dec p

end Spec
end Frpc
