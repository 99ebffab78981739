import Verif.Spec.Conform
/-!
# Specification: documents that differ in their texts and values only
-/
namespace KissXml.Spec

mutual
/-- the same node, apart from texts, values of attributes, and namespaces -/
inductive SameShape : Node → Node → Prop
  | text (s t : Str) : SameShape (.text s) (.text t)
  | comment (c : Str) : SameShape (.comment c) (.comment c)
  | cdata (c : Str) : SameShape (.cdata c) (.cdata c)
  | element {e f : Element} : e.name = f.name → e.pfx = f.pfx → (∀ k, (e.attrs.get k).isSome ↔ (f.attrs.get k).isSome) →
      SameShapes e.children f.children → SameShape (.element e) (.element f)
/-- the same nodes, apart from texts, values of attributes, and namespaces -/
inductive SameShapes : List Node → List Node → Prop
  | nil : SameShapes [] []
  | cons {n m : Node} {l k : List Node} : SameShape n m → SameShapes l k → SameShapes (n :: l) (m :: k)
end

/-- the strings in the document that are not markup: texts and values of attributes, with how they are written -/
inductive Escaped (d : Document) : Str → Prop
  | text {t : Str} : Node.text t ∈ docOrder (.element d.root) → Escaped d (textEscape t)
  | value {e : Element} {k v : Str} : Node.element e ∈ docOrder (.element d.root) → e.attrs.get k = some v → Escaped d (attributeEscape v)

end KissXml.Spec
