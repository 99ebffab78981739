import Verif.Spec.Dom
/-!
# Specification: where a node can be put without touching its neighbours
-/
namespace KissXml.Spec

/-- Putting `n` at index `i` of a list of nodes leaves all of them as they are: `n` is no text, or a text that is not blank and does
not become the neighbour of another one. -/
def Fits (l : List Node) (i : Nat) (n : Node) : Prop :=
  ∀ t, n = .text t → ¬ Blank t ∧ ∀ j s, j = i ∨ j + 1 = i → l[j]? ≠ some (.text s)

/-- the same element, but its last child has been handed down namespaces (once more) -/
def LastGiven (e e' : Element) : Prop :=
  ∃ l last last', e.children = l ++ [last] ∧ HandedDown (givenDefault e) e.ctx last last' ∧ e' = { e with children := l ++ [last'] }

end KissXml.Spec
