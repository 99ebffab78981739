import Verif.Model.Dom
/-!
# Specification: same content up to map order
-/
namespace KissXml.Spec

mutual
/-- Two nodes with the same content: equal except for the order in which the attribute maps list their
entries (and the cached prefix context, which is not part of the content). -/
inductive SameNode : Node → Node → Prop
  | text (t : Str) : SameNode (.text t) (.text t)
  | comment (t : Str) : SameNode (.comment t) (.comment t)
  | cdata (t : Str) : SameNode (.cdata t) (.cdata t)
  | element {e e' : Element} : SameElement e e' → SameNode (.element e) (.element e')
/-- the same for elements -/
inductive SameElement : Element → Element → Prop
  | mk {n x p : _} {a a' : SMap} {cs cs' : List Node} {c c' : SMap} :
      a.entries.Perm a'.entries → SameList cs cs' → SameElement ⟨n, cs, a, x, p, c⟩ ⟨n, cs', a', x, p, c'⟩
/-- the same for child lists -/
inductive SameList : List Node → List Node → Prop
  | nil : SameList [] []
  | cons {n n' : Node} {l l' : List Node} : SameNode n n' → SameList l l' → SameList (n :: l) (n' :: l')
end

end KissXml.Spec
