import Verif.Spec.Source
import Verif.Spec.Prolog
/-!
# Specification: other white space

Replacing the white space characters of an input, as when line ends are converted.
-/
namespace KissXml.Spec

/-- the white space characters of XML -/
def Sp (c : Char) : Prop := c = ' ' ∨ c = '\t' ∨ c = '\r' ∨ c = '\n'

instance (c : Char) : Decidable (Sp c) := inferInstanceAs (Decidable (_ ∨ _ ∨ _ ∨ _))

/-- `σ` replaces white space characters by white space, and nothing else -/
structure Respacing (σ : Char → Str) : Prop where
  other : ∀ c, ¬ Sp c → σ c = [c]
  nonempty : ∀ c, Sp c → σ c ≠ []
  space : ∀ c, Sp c → ∀ x ∈ σ c, Sp x

/-- the string with its white space replaced -/
def respace (σ : Char → Str) (s : Str) : Str := s.flatMap σ

/-- the map with the white space of its values replaced -/
def respaceMap (σ : Char → Str) (m : SMap) : SMap :=
  ⟨m.entries.map (fun kv => (kv.1, respace σ kv.2)), by rw [List.map_map]; exact m.nodup⟩

mutual
/-- The node with white space replaced in texts, comments, CDATA sections, attribute values, namespaces and prefixes. -/
def respaceNode (σ : Char → Str) : Node → Node
  | .element ⟨n, cs, a, x, q, c⟩ =>
    .element ⟨n, respaceNodes σ cs, respaceMap σ a, x.map (respace σ), q.map (respace σ), respaceMap σ c⟩
  | .text t => .text (respace σ t)
  | .comment t => .comment (respace σ t)
  | .cdata t => .cdata (respace σ t)
/-- the same for a list of nodes -/
def respaceNodes (σ : Char → Str) : List Node → List Node
  | [] => []
  | n :: l => respaceNode σ n :: respaceNodes σ l
end

/-- the same for an element -/
def respaceElement (σ : Char → Str) (e : Element) : Element :=
  ⟨e.name, respaceNodes σ e.children, respaceMap σ e.attrs, e.xmlns.map (respace σ), e.pfx.map (respace σ), respaceMap σ e.ctx⟩

/-- the document with white space replaced in its declaration, its document types and its nodes -/
def respaceDoc (σ : Char → Str) (d : Document) : Document :=
  ⟨d.declaration.map (fun x => ⟨respace σ x.declStr⟩), d.dtds.map (fun x => ⟨respace σ x.dtdStr⟩), respaceElement σ d.root⟩

/-- text without numeric character references that ends in an ASCII character, or text without `&` -/
def SimpleRefs (s : Str) : Prop := '&' ∉ s ∨ (AsciiEnd s ∧ ¬ c%"&#" <:+: s)

/-- all texts and attribute values among the tokens are such texts -/
structure SimpleToks (toks : List (Str × Str)) : Prop where
  text : ∀ t ∈ toks, SimpleRefs t.1
  value : ∀ t ∈ toks, Opening t.2 → ∀ n ps, Pieces t.2 n ps → ∀ p ∈ ps, ∀ k raw, Quoted k raw p → SimpleRefs raw

/-- the first comment before the root, its white space replaced, can be shown in the warning about it -/
def CommentShown (σ : Char → Str) (toks : List (Str × Str)) : Prop :=
  ∀ a text tag b, toks = a ++ (text, tag) :: b → c%"<!--" <+: tag → (∀ t ∈ a, IsProlog t.2 ∧ ¬ c%"<!--" <+: t.2) →
    ¬ NoCut (respace σ tag)

end KissXml.Spec
