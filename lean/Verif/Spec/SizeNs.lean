import Verif.Spec.Size
/-!
# Specification: how much is stored for namespaces
-/
namespace KissXml.Spec

mutual
/-- the bytes of the namespaces and of the maps of prefixes (each entry as `xmlns:k="v"`) of all elements at or below a node -/
def nsStored : Node → Nat
  | .element ⟨_, cs, _, x, _, c⟩ => optBytes x + (c.entries.map attrBytes).sum + 6 * c.entries.length + nsStoredL cs
  | .text _ => 0
  | .comment _ => 0
  | .cdata _ => 0
/-- the sum over a list -/
def nsStoredL : List Node → Nat
  | [] => 0
  | n :: l => nsStored n + nsStoredL l
end

end KissXml.Spec
