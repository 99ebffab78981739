import Verif.Spec.Scope
import Verif.Spec.Variant
/-!
# Specification: other prefixes

Two trees of the same shape, compared element by element; and what it means that one has other namespace prefixes.
-/
namespace KissXml.Spec

mutual
/-- the trees have the same shape, texts, comments and CDATA sections, and `P` holds of elements in the same places -/
inductive Pairs (P : Element → Element → Prop) : Node → Node → Prop
  | element {e e' : Element} : P e e' → PairsL P e.children e'.children → Pairs P (.element e) (.element e')
  | text (t : Str) : Pairs P (.text t) (.text t)
  | comment (t : Str) : Pairs P (.comment t) (.comment t)
  | cdata (t : Str) : Pairs P (.cdata t) (.cdata t)
/-- the same for lists of nodes -/
inductive PairsL (P : Element → Element → Prop) : List Node → List Node → Prop
  | nil : PairsL P [] []
  | cons {n n' : Node} {l l' : List Node} : Pairs P n n' → PairsL P l l' → PairsL P (n :: l) (n' :: l')
end

/-- The second element is the first one with the prefixes renamed by `ρ`, in its name and in its declarations. -/
def OtherPrefix (ρ : Str → Str) (e e' : Element) : Prop :=
  e'.name = e.name ∧ e'.pfx = e.pfx.map ρ ∧ e'.attrs.get c%"xmlns" = e.attrs.get c%"xmlns" ∧
    ∀ p, e'.attrs.get (c%"xmlns:" ++ ρ p) = e.attrs.get (c%"xmlns:" ++ p)

/-- the element has no attribute `xmlns:xmlns:p` (for any `p`) -/
def NoTwice (e : Element) : Prop := ∀ p, e.attrs.get (c%"xmlns:xmlns:" ++ p) = none

/-! ## in the source -/

/-- the name with another prefix -/
inductive NewName (ρ : Str → Str) : Str → Str → Prop
  | plain {n : Str} : ':' ∉ n → NewName ρ n n
  | prefixed {p l : Str} : ':' ∉ p → ':' ∉ ρ p → NewName ρ (p ++ ':' :: l) (ρ p ++ ':' :: l)

/-- Pieces `k="raw"` of a tag with other prefixes in the namespace declarations: they can be read, the names are allowed and none begins with
`xmlns:xmlns:`; the namespaces that are declared are the same, under the other prefixes.  The other attributes are free. -/
structure NewPieces (ρ : Str → Str) (ps ps' : List Str) : Prop where
  readable : GoodPieces ps'
  names : ∀ p ∈ ps', ∀ k raw, Quoted k raw p → ApiName k
  once : ∀ p ∈ ps ++ ps', ∀ k raw, Quoted k raw p → ¬ c%"xmlns:xmlns:" <+: k
  default : ∀ v, Gives ps' c%"xmlns" v ↔ Gives ps c%"xmlns" v
  declared : ∀ q v, Gives ps' (c%"xmlns:" ++ ρ q) v ↔ Gives ps (c%"xmlns:" ++ q) v

/-- a tag with other prefixes: a comment or CDATA section stays the same; other tags are of the same kind, have a part that fits the pattern of
tags, and have the new name and the new declarations -/
inductive NewTag (ρ : Str → Str) (tag tag' : Str) : Prop
  | mark : kind tag = .mark → tag' = tag → NewTag ρ tag tag'
  | close {n n' : Str} : kind tag = .close → kind tag' = .close → ¬ BadTag tag' → Inner tag n → Inner tag' n' → NewName ρ n n' →
      NewTag ρ tag tag'
  | opening {n n' : Str} {ps ps' : List Str} : Opening tag → kind tag' = kind tag → ¬ BadTag tag' → Pieces tag n ps → Pieces tag' n' ps' →
      NewName ρ n n' → NewPieces ρ ps ps' → NewTag ρ tag tag'

/-- the same text, and a tag with other prefixes -/
def NewTok (ρ : Str → Str) (t t' : Str × Str) : Prop := t'.1 = t.1 ∧ NewTag ρ t.2 t'.2

end KissXml.Spec
