import Verif.Spec.Layout
/-!
# Specification: some nodes in a tree replaced by others
-/
namespace KissXml.Spec

/-- the children are more than a single text, comment or CDATA section -/
def Several (cs : List Node) : Prop := (∃ y z w, cs = y :: z :: w) ∨ ∃ e, cs = [.element e]

/-- one of the nodes is a text -/
def HasText (cs : List Node) : Prop := ∃ t, Node.text t ∈ cs

/-- `Spliced M M' d mixed e e'`: the element `e'` is `e` with the nodes `M'` in the place of the nodes `M`, which are next to each
other among the children of one element below `e` or of `e` itself, at depth `d` below `e` (children of `e` are at depth 1).  `mixed`
says whether there is a text beside them, or beside one of the elements around them. -/
inductive Spliced (M M' : List Node) : Nat → Prop → Element → Element → Prop
  /-- among the children of `e`, which are several before and after -/
  | here {n a x p c} {X Y : List Node} : Several (X ++ M ++ Y) → Several (X ++ M' ++ Y) → (HasText (X ++ M ++ Y) ↔ HasText (X ++ M' ++ Y)) →
      Spliced M M' 1 (HasText (X ++ M ++ Y)) ⟨n, X ++ M ++ Y, a, x, p, c⟩ ⟨n, X ++ M' ++ Y, a, x, p, c⟩
  /-- the only child of `e`, which is no element before and after -/
  | only {n a x p c} {m m' : Node} : M = [m] → M' = [m'] → m.isElement = false → m'.isElement = false →
      Spliced M M' 1 True ⟨n, [m], a, x, p, c⟩ ⟨n, [m'], a, x, p, c⟩
  /-- inside of a child of `e` -/
  | inside {n a x p c} {X Y : List Node} {k k' : Element} {d : Nat} {mixed : Prop} : Spliced M M' d mixed k k' →
      Spliced M M' (d + 1) (HasText (X ++ .element k :: Y) ∨ mixed) ⟨n, X ++ .element k :: Y, a, x, p, c⟩ ⟨n, X ++ .element k' :: Y, a, x, p, c⟩

end KissXml.Spec
