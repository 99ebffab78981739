import Verif.Spec.PutIn
/-!
# Specification: the place of a child
-/
namespace KissXml.Spec

/-- with the element `p` in the hole: the place before its child with index `i` (the first one has index 0), or after its last child if
`i` is the number of its children -/
def Hole.child : Hole → Element → Nat → Hole
  | .here l r, p, i => .under l p (.here (p.children.take i) (p.children.drop i)) r
  | .under l e h r, p, i => .under l e (h.child p i) r

end KissXml.Spec
