import Verif.Spec.Syntax
/-!
# Specification: documents that can be written and read back
-/
namespace KissXml.Spec

/-- texts whose escaped form the library decodes correctly -/
def TextClear (t : Str) : Prop := ClearAfter ['&', '<', '>'] (lastExtra t) t

/-- attribute values whose escaped form the library decodes correctly -/
def ValueFits (v : Str) : Prop := ClearAfter ['&', '<', '>', '\'', '"'] (lastExtra v) v

/-- text with something in it besides white space, of the given kind -/
def TextFitsFor (T : Str → Prop) (t : Str) : Prop := (∃ c ∈ t, isWs c = false) ∧ T t

/-- an element (without its children) that can be written: XML names, values of the given kind, no two texts side by side -/
structure ElemFitsFor (V : Str → Prop) (e : Element) : Prop where
  name : NcName e.name ∧ ApiName e.name
  pfx : ∀ p, e.pfx = some p → NcName p
  attrs : ∀ k v, e.attrs.get k = some v → XmlName k ∧ ApiName k ∧ V v
  apart : ∀ a b x y, e.children ≠ a ++ .text x :: .text y :: b

/-- a node (without what is below it) that can be written, with texts and values of the given kind -/
def NodeFitsFor (T V : Str → Prop) : Node → Prop
  | .text t => TextFitsFor T t
  | .comment c => CommentOk c
  | .cdata c => CDataOk c
  | .element e => ElemFitsFor V e

/-- A document that can be written: its declaration begins with `xml` and contains no `?>` outside quotes, it has no document
types (they are not written as such), all its nodes can be written, and a prefix of the root is declared on the root. -/
structure DocFitsFor (T V : Str → Prop) (d : Document) : Prop where
  decl : ∀ x, d.declaration = some x → ∃ m, x.declStr = c%"xml" ++ m ∧
    FirstUnquoted none c%"?>" (c%"xml" ++ m) (c%"xml" ++ m ++ c%"?>")
  dtds : d.dtds = []
  nodes : ∀ n ∈ docOrder (.element d.root), NodeFitsFor T V n
  declared : ∀ p, d.root.pfx = some p → (d.root.attrs.get (c%"xmlns:" ++ p)).isSome

/-- A document that can be written, whatever its texts and values. -/
abbrev DocShape (d : Document) : Prop := DocFitsFor (fun _ => True) (fun _ => True) d

/-- text with something in it besides white space, whose escaped form the library decodes correctly -/
abbrev TextFits (t : Str) : Prop := TextFitsFor TextClear t
/-- an element that can be written, with values whose escaped form the library decodes correctly -/
abbrev ElemFits (e : Element) : Prop := ElemFitsFor ValueFits e
/-- a node that can be written, whose escaped texts and values the library decodes correctly -/
abbrev NodeFits (n : Node) : Prop := NodeFitsFor TextClear ValueFits n
/-- A document that can be written, whose escaped texts and values the library decodes correctly. -/
abbrev DocFits (d : Document) : Prop := DocFitsFor TextClear ValueFits d

/-- The namespaces of the elements agree with the `xmlns` attributes, for the library's idea of default namespaces: an element
without prefix has the namespace it declares, else that of its parent if the parent has no prefix, else none.  (XML hands default
namespaces down through prefixed elements, too: `DefaultScope`.) -/
structure NsFits (d : Document) : Prop where
  pfx : PrefixScope (fun _ => none) (.element d.root)
  root : d.root.pfx = none → d.root.xmlns = d.root.attrs.get c%"xmlns"
  below : ∀ e, Node.element e ∈ docOrder (.element d.root) → ∀ c, Node.element c ∈ e.children → c.pfx = none →
    c.xmlns = (c.attrs.get c%"xmlns").or (if e.pfx = none then e.xmlns else none)

/-- no attribute name begins with `xmlns:xmlns:` -/
def NoDoubles (d : Document) : Prop :=
  ∀ e, Node.element e ∈ docOrder (.element d.root) → ∀ k, (e.attrs.get k).isSome → ¬ c%"xmlns:xmlns:" <+: k

mutual
/-- the node without its namespaces -/
def bare : Node → Node
  | .element ⟨n, cs, a, _, p, _⟩ => .element ⟨n, bareL cs, a, none, p, .empty⟩
  | .text t => .text t
  | .comment t => .comment t
  | .cdata t => .cdata t
/-- the same for a list of nodes -/
def bareL : List Node → List Node
  | [] => []
  | n :: l => bare n :: bareL l
end

end KissXml.Spec
