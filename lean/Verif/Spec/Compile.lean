import Verif.Spec.Dom
/-!
# Specification: patterns compiled for a tree
-/
namespace KissXml.Spec
open KissXml

/-- for every text of a list one, and one more for every node before it: the texts of the list, of the list without its first node, and so on -/
def textPlaces : List Node → Nat
  | [] => 0
  | n :: l => (n :: l).countP Node.isText + textPlaces l

mutual
/-- over a node and all nodes below it: for an element three (text before the tag, tag, name), one for every attribute, and the places of
its texts -/
def compiled : Node → Nat
  | .element ⟨_, cs, as, _, _, _⟩ => 3 + as.entries.length + textPlaces cs + compiledAll cs
  | _ => 0
/-- the sum over a list -/
def compiledAll : List Node → Nat
  | [] => 0
  | n :: l => compiled n + compiledAll l
end

end KissXml.Spec
