import Verif.Spec.Local
/-!
# Specification: two ways to write the same thing
-/
namespace KissXml.Spec

/-- the pieces `k="raw"` of a tag give `k` the value `v`: the last piece for `k` counts, and is decoded as `unescape` does it -/
def Gives (ps : List Str) (k v : Str) : Prop :=
  ∃ a p b raw, ps = a ++ p :: b ∧ Quoted k raw p ∧ (∀ p' ∈ b, ∀ raw', ¬ Quoted k raw' p') ∧ Unesc raw (some v)

/-- another way to write a tag: the same kind of tag, with a part that fits the pattern of tags; a closing tag with the same name; or a
start tag or empty-element tag with the same name and attributes of the same names and values, in whatever order, layout and quotes -/
inductive TagVariant (tag tag' : Str) : Prop
  | same : tag = tag' → TagVariant tag tag'
  | close {n : Str} : kind tag = .close → kind tag' = .close → ¬ BadTag tag' → Inner tag n → Inner tag' n → TagVariant tag tag'
  | opening {n : Str} {ps ps' : List Str} : Opening tag → kind tag' = kind tag → ¬ BadTag tag' → Pieces tag n ps → Pieces tag' n ps' →
      GoodPieces ps' → (∀ k v, Gives ps k v ↔ Gives ps' k v) → TagVariant tag tag'

/-- another way to write a text: both are only white space, or both are not and `unescape` makes the same of them -/
inductive TextVariant (t t' : Str) : Prop
  | same : t = t' → TextVariant t t'
  | blank : AllWs t → AllWs t' → TextVariant t t'
  | text {u : Str} : ¬ AllWs t → ¬ AllWs t' → Unesc t (some u) → Unesc t' (some u) → TextVariant t t'

/-- another way to write a text and the tag after it -/
def TokVariant (t t' : Str × Str) : Prop := TextVariant t.1 t'.1 ∧ TagVariant t.2 t'.2

/-- a start tag or empty-element tag that fits the pattern of tags, with the same name `n` and attributes as another one -/
def SameOpening (tag tag' n : Str) : Prop :=
  ∃ ps ps', Pieces tag n ps ∧ Pieces tag' n ps' ∧ ¬ BadTag tag' ∧ GoodPieces ps' ∧ ∀ k v, Gives ps k v ↔ Gives ps' k v

/-- another way to write some texts and tags: each in another way, and `<a/>` for `<a></a>` or the other way round -/
inductive Rewritten : List (Str × Str) → List (Str × Str) → Prop
  | nil : Rewritten [] []
  | cons {t t' : Str × Str} {l l' : List (Str × Str)} : TokVariant t t' → Rewritten l l' → Rewritten (t :: l) (t' :: l')
  | expand {text text' tag tag' w c n : Str} {l l' : List (Str × Str)} : TextVariant text text' → kind tag = .empty → kind tag' = .start →
      SameOpening tag tag' n → AllWs w → kind c = .close → ¬ BadTag c → Inner c n → Rewritten l l' →
      Rewritten ((text, tag) :: l) ((text', tag') :: (w, c) :: l')
  | collapse {text text' tag tag' w c n : Str} {l l' : List (Str × Str)} : TextVariant text text' → kind tag = .start → kind tag' = .empty →
      SameOpening tag tag' n → AllWs w → kind c = .close → Rewritten l l' →
      Rewritten ((text, tag) :: (w, c) :: l) ((text', tag') :: l')

/-- some elements that are written as `<a …/>` are written as `<a …></a>` instead: without the slash, then white space and a closing tag with
the name -/
inductive Expanded : List (Str × Str) → List (Str × Str) → Prop
  | nil : Expanded [] []
  | cons {t : Str × Str} {l l' : List (Str × Str)} : Expanded l l' → Expanded (t :: l) (t :: l')
  | elem {text m n w c : Str} {l l' : List (Str × Str)} : kind (c%"<" ++ m ++ c%"/>") = .empty → kind (c%"<" ++ m ++ c%">") = .start →
      OpenName (c%"<" ++ m ++ c%"/>") n → AllWs w → kind c = .close → ¬ BadTag c → Inner c n → Expanded l l' →
      Expanded ((text, c%"<" ++ m ++ c%"/>") :: l) ((text, c%"<" ++ m ++ c%">") :: (w, c) :: l')

end KissXml.Spec
