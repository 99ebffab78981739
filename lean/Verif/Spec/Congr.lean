import Verif.Spec.Equal
import Verif.Spec.Reach
/-!
# Specification: results that cannot be told apart with `==`
-/
namespace KissXml.Spec

/-- lists of the same length with related members -/
inductive EachTo {α : Type} (r : α → α → Prop) : List α → List α → Prop
  | nil : EachTo r [] []
  | cons {a b : α} {l m : List α} : r a b → EachTo r l m → EachTo r (a :: l) (b :: m)

/-- both succeed with related results, or both fail with the same error, or both panic -/
def ResTo {α : Type} (r : α → α → Prop) (x y : R α) : Prop :=
  (∃ a b, x = .ok a ∧ y = .ok b ∧ r a b) ∨ (∃ e, x = .err e ∧ y = .err e) ∨ (x = .panic ∧ y = .panic)

/-- related first parts, equal second parts -/
def WithCount {α : Type} (r : α → α → Prop) (x y : α × Nat) : Prop := r x.1 y.1 ∧ x.2 = y.2

/-- a predicate on nodes that does not tell equal nodes apart -/
def Respects (p : Node → Bool) : Prop := ∀ n m, SameNode n m → p n = p m
/-- a predicate on elements that does not tell equal elements apart -/
def RespectsE (p : Element → Bool) : Prop := ∀ n m, SameElement n m → p n = p m

/-- the prefix of the node, if it is an element that has a prefix and no namespace -/
def unresolved : Node → Option Str
  | .element e => if e.xmlns = none then e.pfx else none
  | _ => none

end KissXml.Spec
