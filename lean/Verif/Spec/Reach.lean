import Verif.Spec.Dom
import Verif.Model.Parse
/-!
# Specification: values a program can build with the public API
-/
namespace KissXml.Spec

/-- `Api n`: some history of public API calls makes the node `n`.  One constructor per call that makes or changes a
node.  Access by shared reference (`children`, `search`, …) followed by `clone` is `child`/`clone`.  Access by mutable
reference to children (`children_mut`, `child_elements_mut`, `first_element_by_name_mut`, …) is `childrenMut`: each child
may be replaced by any other value that a history can make, in particular by the result of calls on that child. -/
inductive Api : Node → Prop
  | parsed {x : Str} {d : Document} : parseStr x = .ok d → Api (.element d.root)
  | text (t : Str) : Api (.text t)
  | comment {a c : Str} : commentNew a = .ok c → Api (.comment c)
  | commentFrom {a c : Str} : commentFrom a = .ok c → Api (.comment c)
  | commentSet {old a : Str} : Api (.comment old) → Api (.comment (commentSetContent old a).2)
  | cdata {a c : Str} : cdataNew a = .ok c → Api (.cdata c)
  | cdataFrom {a c : Str} : cdataFrom a = .ok c → Api (.cdata c)
  | cdataSet {old a : Str} : Api (.cdata old) → Api (.cdata (cdataSetText old a).2)
  | dflt : Api (.element ElementF.dflt)
  | new {name : Str} {text : Option Str} {attrs : Option SMap} {xmlns pfx : Option Str} {cs : Option (List Node)}
      {e : Element} : (∀ l, cs = some l → ∀ n ∈ l, Api n) → ElementF.new name text attrs xmlns pfx cs = .ok e →
      Api (.element e)
  | newFromName {name : Str} {e : Element} : ElementF.newFromName name = .ok e → Api (.element e)
  | setAttr {e e' : Element} {k v : Str} : Api (.element e) → e.setAttr k v = .ok e' → Api (.element e')
  | removeAttr {e : Element} (k : Str) : Api (.element e) → Api (.element (e.removeAttr k).2)
  | clearAttributes {e : Element} : Api (.element e) → Api (.element e.clearAttributes)
  | clearChildren {e : Element} : Api (.element e) → Api (.element e.clearChildren)
  | setText {e e' : Element} {t : Str} : Api (.element e) → e.setText t = .ok e' → Api (.element e')
  | append {e e' : Element} {n : Node} : Api (.element e) → Api n → e.append n = .ok e' → Api (.element e')
  | appendAll {e e' : Element} {l : List Node} : Api (.element e) → (∀ n ∈ l, Api n) → e.appendAll l = .ok e' →
      Api (.element e')
  | insert {e e' : Element} {i : Nat} {n : Node} : Api (.element e) → Api n → e.insert i n = .ok e' → Api (.element e')
  | remove {e e' : Element} {i : Nat} {n : Node} : Api (.element e) → e.remove i = .ok (n, e') → Api (.element e')
  | removeElement {e e' c : Element} {i : Nat} : Api (.element e) → e.removeElement i = .ok (c, e') → Api (.element e')
  | removeBy {e e' : Element} {p : Node → Bool} {k : Nat} : Api (.element e) → e.removeBy p = .ok (e', k) → Api (.element e')
  | removeAll {e e' : Element} {p : Node → Bool} {k : Nat} : Api (.element e) → e.removeAll p = .ok (e', k) → Api (.element e')
  | removeElements {e e' : Element} {p : Element → Bool} {k : Nat} : Api (.element e) → e.removeElements p = .ok (e', k) →
      Api (.element e')
  | removeAllElements {e e' : Element} {p : Element → Bool} {k : Nat} : Api (.element e) →
      e.removeAllElements p = .ok (e', k) → Api (.element e')
  | child {e : Element} {n : Node} : Api (.element e) → n ∈ e.children → Api n
  | clone {n : Node} : Api n → Api n.clone
  | childrenMut {e : Element} {l : List Node} : Api (.element e) → (∀ n ∈ l, Api n) → l.length = e.children.length →
      Api (.element { e with children := l })

/-- what every node should satisfy -/
def Valid : Node → Prop
  | .element e => ApiName e.name ∧ ∀ k v, e.attrs.get k = some v → ApiName k
  | .text _ => True
  | .comment c => ¬ c%"-->" <:+: c
  | .cdata c => ¬ c%"]]>" <:+: c

/-- no two adjacent texts, no empty text, no blank text -/
structure TextNormal (l : List Node) : Prop where
  apart : ∀ a b x y, l ≠ a ++ .text x :: .text y :: b
  solid : ∀ t, Node.text t ∈ l → ∃ c ∈ t, isWs c = false

end KissXml.Spec
