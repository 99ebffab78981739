import Verif.Spec.Dom
/-!
# Specification: predicates for the removing calls
-/
namespace KissXml.Spec

/-- the predicate does not look at the children of elements -/
def Shallow (p : Node → Bool) : Prop := ∀ (e : Element) (l : List Node), p (.element { e with children := l }) = p (.element e)

/-- number of pairs of a node that is removed and a later one in the same list that stays -/
def overtakes (p : Node → Bool) : List Node → Nat
  | [] => 0
  | n :: l => (if p n then l.countP (fun m => !p m) else 0) + overtakes p l

mutual
/-- the same for all lists of children below a node, except below removed ones -/
def overtakesBelow (p : Node → Bool) : Node → Nat
  | .element ⟨_, cs, _, _, _, _⟩ => overtakes p cs + overtakesKept p cs
  | .text _ => 0
  | .comment _ => 0
  | .cdata _ => 0
/-- the same for all lists below the nodes of a list that stay -/
def overtakesKept (p : Node → Bool) : List Node → Nat
  | [] => 0
  | m :: ms => (if p m then 0 else overtakesBelow p m) + overtakesKept p ms
end

end KissXml.Spec
