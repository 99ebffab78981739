import Verif.Spec.Dom
/-!
# Specification: trees of parser operations
-/
namespace KissXml.Spec

/-- a sequence of nodes; `elem e k r` is the element `e` with content `k`, followed by `r` -/
inductive Forest where
  | nil
  | leaf (n : Node) (rest : Forest)
  | elem (e : Element) (kids : Forest) (rest : Forest)

/-- the three operations of the parser on its stack -/
inductive Op where
  | push (e : Element)
  | append (n : Node)
  | pop

/-- the operations that write the forest inside the current element -/
def Forest.ops : Forest → List Op
  | .nil => []
  | .leaf n r => .append n :: r.ops
  | .elem e k r => .push e :: (k.ops ++ .pop :: r.ops)

/-- first node is a text -/
def Forest.textFirst : Forest → Prop
  | .leaf (.text _) _ => True
  | _ => False

/-- no two adjacent texts, elements without content of their own -/
def Forest.Ok : Forest → Prop
  | .nil => True
  | .leaf (.text _) r => ¬ r.textFirst ∧ r.Ok
  | .leaf (.element e) r => e.children = [] ∧ r.Ok
  | .leaf (.comment _) r => r.Ok
  | .leaf (.cdata _) r => r.Ok
  | .elem e k r => e.children = [] ∧ k.Ok ∧ r.Ok

/-- the child list of element `e` is the forest: the same nodes in the same order without the blank texts, each (with its
own content) handed the namespaces of its parent -/
inductive Written : Element → Forest → List Node → Prop
  | nil {e : Element} : Written e .nil []
  | blank {e : Element} {t : Str} {r : Forest} {l : List Node} : Blank t → Written e r l → Written e (.leaf (.text t) r) l
  | leaf {e : Element} {n n' : Node} {r : Forest} {l : List Node} : (∀ t, n = .text t → ¬ Blank t) →
      HandedDown (givenDefault e) e.ctx n n' → Written e r l → Written e (.leaf n r) (n' :: l)
  | elem {e c : Element} {n' : Node} {k r : Forest} {ck l : List Node} : Written c k ck →
      HandedDown (givenDefault e) e.ctx (.element { c with children := ck }) n' → Written e r l →
      Written e (.elem c k r) (n' :: l)

end KissXml.Spec
