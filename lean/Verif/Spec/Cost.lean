import Verif.Spec.Dom
/-!
# A measure of trees
-/
namespace KissXml.Spec
open KissXml

mutual
/-- the sum of the squares of the numbers of children, over a node and all nodes below it -/
def squares : Node → Nat
  | .element ⟨_, cs, _, _, _, _⟩ => cs.length * cs.length + squaresAll cs
  | _ => 0
/-- the sum over a list -/
def squaresAll : List Node → Nat
  | [] => 0
  | n :: l => squares n + squaresAll l
end

end KissXml.Spec
