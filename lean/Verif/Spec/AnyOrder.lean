import Verif.Model.AnyOrder
/-!
# Specification: values that differ only in the order of their maps
-/
namespace KissXml.Spec

mutual
/-- Nodes that are the same except for the order in which the attribute maps and the maps of known prefixes list
their entries. -/
inductive TwinNode : Node → Node → Prop
  | text (t : Str) : TwinNode (.text t) (.text t)
  | comment (t : Str) : TwinNode (.comment t) (.comment t)
  | cdata (t : Str) : TwinNode (.cdata t) (.cdata t)
  | element {e e' : Element} : TwinElement e e' → TwinNode (.element e) (.element e')
/-- the same for elements -/
inductive TwinElement : Element → Element → Prop
  | mk {n x p : _} {a a' : SMap} {cs cs' : List Node} {c c' : SMap} :
      a.entries.Perm a'.entries → c.entries.Perm c'.entries → TwinList cs cs' → TwinElement ⟨n, cs, a, x, p, c⟩ ⟨n, cs', a', x, p, c'⟩
/-- the same for child lists -/
inductive TwinList : List Node → List Node → Prop
  | nil : TwinList [] []
  | cons {n n' : Node} {l l' : List Node} : TwinNode n n' → TwinList l l' → TwinList (n :: l) (n' :: l')
end

/-- the same for documents -/
def TwinDocument (d d' : Document) : Prop :=
  d.declaration = d'.declaration ∧ d.dtds = d'.dtds ∧ TwinElement d.root d'.root

/-- Two errors are the same, or both report an attribute name that is not allowed. -/
def SameComplaint (e e' : Err) : Prop :=
  e = e' ∨ ∃ n n', e = .invalidAttributeName n ∧ e' = .invalidAttributeName n' ∧ validName n = false ∧ validName n' = false

/-- Two outcomes that agree: results related by `rel`, errors related by `q`, or panics. -/
inductive Agree {α : Type} (q : Err → Err → Prop) (rel : α → α → Prop) : R α → R α → Prop
  | ok {a b : α} : rel a b → Agree q rel (.ok a) (.ok b)
  | err {e e' : Err} : q e e' → Agree q rel (.err e) (.err e')
  | panic : Agree q rel .panic .panic
  | diverge : Agree q rel .diverge .diverge

/-- Calls with the same arguments but for the order of maps; a closure is one that cannot tell nodes apart that differ in
that order only. -/
inductive TwinCall : Call → Call → Prop
  | setAttr (k v : Str) : TwinCall (.setAttr k v) (.setAttr k v)
  | removeAttr (k : Str) : TwinCall (.removeAttr k) (.removeAttr k)
  | clearAttributes : TwinCall .clearAttributes .clearAttributes
  | setText (t : Str) : TwinCall (.setText t) (.setText t)
  | clearChildren : TwinCall .clearChildren .clearChildren
  | append {n n' : Node} : TwinNode n n' → TwinCall (.append n) (.append n')
  | appendAll {l l' : List Node} : TwinList l l' → TwinCall (.appendAll l) (.appendAll l')
  | insert (i : Nat) {n n' : Node} : TwinNode n n' → TwinCall (.insert i n) (.insert i n')
  | remove (i : Nat) : TwinCall (.remove i) (.remove i)
  | removeElement (i : Nat) : TwinCall (.removeElement i) (.removeElement i)
  | removeElementsByName (n : Str) : TwinCall (.removeElementsByName n) (.removeElementsByName n)
  | removeBy {p : Node → Bool} : (∀ n m, TwinNode n m → p n = p m) → TwinCall (.removeBy p) (.removeBy p)
  | removeAll {p : Node → Bool} : (∀ n m, TwinNode n m → p n = p m) → TwinCall (.removeAll p) (.removeAll p)
  | removeElements {p : Element → Bool} : (∀ n m, TwinElement n m → p n = p m) → TwinCall (.removeElements p) (.removeElements p)
  | removeAllElements {p : Element → Bool} : (∀ n m, TwinElement n m → p n = p m) → TwinCall (.removeAllElements p) (.removeAllElements p)
  | inChild (i : Nat) {c c' : Call} : TwinCall c c' → TwinCall (.inChild i c) (.inChild i c')

/-- the same for lists of calls -/
inductive TwinCalls : List Call → List Call → Prop
  | nil : TwinCalls [] []
  | cons {c c' : Call} {l l' : List Call} : TwinCall c c' → TwinCalls l l' → TwinCalls (c :: l) (c' :: l')

end KissXml.Spec
