import Verif.Spec.Reach
import Verif.Spec.Conform
/-!
# Specification: documents built and edited without namespaces
-/
namespace KissXml.Spec

/-- a node (without what is below it) that XML can represent, without namespaces: element and attribute names are XML names,
there are no prefixes and no namespace declarations -/
def Plain : Node → Prop
  | .text _ => True
  | .comment c => CommentOk c
  | .cdata c => CDataOk c
  | .element e => (NcName e.name ∧ ApiName e.name) ∧ e.pfx = none ∧ e.xmlns = none ∧
      ∀ k v, e.attrs.get k = some v → XmlName k ∧ ApiName k ∧ ¬ c%"xmlns" <+: k

/-- a node (without what is below it) that is not an empty text, and has no adjacent, empty or blank texts as children -/
def Tidy : Node → Prop
  | .text t => t ≠ []
  | .element e => TextNormal e.children
  | _ => True

/-- lists of the same length that differ only in that elements are replaced by elements -/
inductive OnlyElements : List Node → List Node → Prop
  | nil : OnlyElements [] []
  | cons {a b : Node} {l m : List Node} : (a = b ∨ ∃ x y, a = .element x ∧ b = .element y) → OnlyElements l m →
      OnlyElements (a :: l) (b :: m)

/-- `Edits loose n`: a history of calls of the public API that makes `n`, beginning with any nodes without namespaces, and adding
none.  Without `loose` there are no removals of children, no empty texts, and no overwriting of texts, comments and CDATA in
place, and the nodes given at the beginning are tidy.  The names of the calls are as in `Api`; `elementsMut` is what a program can do with
`child_elements_mut`, `first_element_by_name_mut` and so on. -/
inductive Edits (loose : Prop) : Node → Prop
  | given {n : Node} : (∀ m ∈ docOrder n, Plain m ∧ (loose ∨ Tidy m)) → Edits loose n
  | text {t : Str} : (loose ∨ t ≠ []) → Edits loose (.text t)
  | comment {a c : Str} : CommentOk a → commentNew a = .ok c → Edits loose (.comment c)
  | commentSet {old a : Str} : CommentOk a → Edits loose (.comment old) → Edits loose (.comment (commentSetContent old a).2)
  | cdata {a c : Str} : cdataNew a = .ok c → Edits loose (.cdata c)
  | cdataSet {old a : Str} : Edits loose (.cdata old) → Edits loose (.cdata (cdataSetText old a).2)
  | dflt : Edits loose (.element ElementF.dflt)
  | new {name : Str} {text : Option Str} {attrs : Option SMap} {cs : Option (List Node)} {e : Element} : NcName name → (loose ∨ text ≠ some []) →
      (∀ m, attrs = some m → ∀ k v, m.get k = some v → XmlName k ∧ ¬ c%"xmlns" <+: k) →
      (∀ l, cs = some l → ∀ n ∈ l, Edits loose n) → ElementF.new name text attrs none none cs = .ok e →
      Edits loose (.element e)
  | newFromName {name : Str} {e : Element} : NcName name → ElementF.newFromName name = .ok e → Edits loose (.element e)
  | setAttr {e e' : Element} {k v : Str} : XmlName k → ¬ c%"xmlns" <+: k → Edits loose (.element e) →
      e.setAttr k v = .ok e' → Edits loose (.element e')
  | removeAttr {e : Element} (k : Str) : Edits loose (.element e) → Edits loose (.element (e.removeAttr k).2)
  | clearAttributes {e : Element} : Edits loose (.element e) → Edits loose (.element e.clearAttributes)
  | clearChildren {e : Element} : Edits loose (.element e) → Edits loose (.element e.clearChildren)
  | setText {e e' : Element} {t : Str} : (loose ∨ t ≠ []) → Edits loose (.element e) → e.setText t = .ok e' → Edits loose (.element e')
  | append {e e' : Element} {n : Node} : Edits loose (.element e) → Edits loose n → e.append n = .ok e' →
      Edits loose (.element e')
  | appendAll {e e' : Element} {l : List Node} : Edits loose (.element e) → (∀ n ∈ l, Edits loose n) →
      e.appendAll l = .ok e' → Edits loose (.element e')
  | insert {e e' : Element} {i : Nat} {n : Node} : Edits loose (.element e) → Edits loose n → e.insert i n = .ok e' →
      Edits loose (.element e')
  | elementsMut {e : Element} {l : List Node} : Edits loose (.element e) → (∀ n ∈ l, Edits loose n) →
      OnlyElements e.children l → Edits loose (.element { e with children := l })
  | child {e : Element} {n : Node} : Edits loose (.element e) → n ∈ e.children → Edits loose n
  | clone {n : Node} : Edits loose n → Edits loose n.clone
  | remove {e e' : Element} {i : Nat} {n : Node} : loose → Edits loose (.element e) → e.remove i = .ok (n, e') →
      Edits loose (.element e')
  | removeElement {e e' c : Element} {i : Nat} : loose → Edits loose (.element e) → e.removeElement i = .ok (c, e') →
      Edits loose (.element e')
  | removeBy {e e' : Element} {p : Node → Bool} {k : Nat} : loose → Edits loose (.element e) → e.removeBy p = .ok (e', k) →
      Edits loose (.element e')
  | removeAll {e e' : Element} {p : Node → Bool} {k : Nat} : loose → Edits loose (.element e) → e.removeAll p = .ok (e', k) →
      Edits loose (.element e')
  | removeElements {e e' : Element} {p : Element → Bool} {k : Nat} : loose → Edits loose (.element e) →
      e.removeElements p = .ok (e', k) → Edits loose (.element e')
  | removeAllElements {e e' : Element} {p : Element → Bool} {k : Nat} : loose → Edits loose (.element e) →
      e.removeAllElements p = .ok (e', k) → Edits loose (.element e')
  | childrenMut {e : Element} {l : List Node} : loose → Edits loose (.element e) → (∀ n ∈ l, Edits loose n) →
      l.length = e.children.length → Edits loose (.element { e with children := l })

/-- what escaping and reading back leaves as it is: texts and attribute values (see C01 and C02) -/
def Clear : Node → Prop
  | .text t => TextClear t
  | .element e => ∀ k v, e.attrs.get k = some v → ValueFits v
  | _ => True

end KissXml.Spec
