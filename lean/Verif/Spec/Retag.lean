import Verif.Spec.Variant
/-!
# Specification: an element with another name and other attributes in its tags
-/
namespace KissXml.Spec

/-- a piece `xmlns="…"` or `xmlns:p="…"` -/
def declares (p : Str) : Bool := c%"xmlns:".isPrefixOf p || c%"xmlns=".isPrefixOf p

/-- two names with the same prefix, or without one; `l` is the second one without the prefix -/
inductive SamePrefix (n n' l : Str) : Prop
  | plain : ':' ∉ n → ':' ∉ n' → l = n' → SamePrefix n n' l
  | prefixed {p l0 : Str} : ':' ∉ p → n = p ++ ':' :: l0 → n' = p ++ ':' :: l → SamePrefix n n' l

/-- Another first tag for an element: of the same kind, with the same prefix, and with the same namespace declarations in the same order;
the rest of the name and the other attributes are free, as long as they can be read. -/
structure Retag (tag tag' n n' l : Str) (ps ps' : List Str) : Prop where
  kind : Spec.kind tag' = Spec.kind tag
  good : ¬ BadTag tag'
  whole : TagAt tag' tag'
  new : Pieces tag' n' ps'
  readable : GoodPieces ps'
  localName : ApiName l
  names : ∀ p ∈ ps', ∀ k raw, Quoted k raw p → ApiName k
  old : Pieces tag n ps
  samePrefix : SamePrefix n n' l
  declared : ps.filter declares = ps'.filter declares

/-- the tokens after the first tag of an element, with another name in the last one -/
inductive Reclosed (n' : Str) : List (Str × Str) → List (Str × Str) → Prop
  | empty : Reclosed n' [] []
  | close {l : List (Str × Str)} {t c c' : Str} : kind c' = .close → ¬ BadTag c' → TagAt c' c' → Inner c' n' →
      Reclosed n' (l ++ [(t, c)]) (l ++ [(t, c')])

/-- the tag `tag'` is the tag `tag` with ` k="raw"` put in at its end -/
def AttrPut (tag k raw tag' : Str) : Prop :=
  ∃ s b, tag = c%"<" ++ s ++ b ∧ tag' = c%"<" ++ s ++ c%" " ++ (k ++ c%"=\"" ++ raw ++ c%"\"") ++ b ∧ (b = c%"/>" ∨ b = c%">" ∧ ¬ c%"/" <:+ s)

/-- a name for an attribute that declares no namespace -/
structure OtherName (k : Str) : Prop where
  plain : PlainName k
  api : ApiName k
  notDefault : k ≠ c%"xmlns"
  notPrefix : ¬ c%"xmlns:" <+: k

end KissXml.Spec
