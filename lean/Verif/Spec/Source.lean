import Verif.Spec.Syntax
/-!
# Specification: how the elements of a document are written in its tags
-/
namespace KissXml.Spec

/-- start tags and empty-element tags -/
def Opening (tag : Str) : Prop := kind tag = .start ∨ kind tag = .empty

instance (tag : Str) : Decidable (Opening tag) := inferInstanceAs (Decidable (_ ∨ _))

/-- start tags and empty-element tags among some tags -/
def openTags (tags : List Str) : List Str := tags.filter (fun t => Opening t)

/-- the words of a string: maximal pieces without white space outside quotes -/
inductive Words : Str → List Str → Prop
  | done {s : Str} : AllWs s → Words s []
  | word {w n r : Str} {l : List Str} : AllWs w → FirstWord (n ++ r) n → Words r l → Words (w ++ n ++ r) (n :: l)

/-- `k="raw"` or `k='raw'` -/
def Quoted (k raw p : Str) : Prop := '=' ∉ k ∧ ∃ q : Char, (q = '"' ∨ q = '\'') ∧ p = k ++ c%"=" ++ [q] ++ raw ++ [q]

/-- The attributes written by some pieces `k="raw"`: those and no others, the last one counts when a name is repeated, values
decoded. -/
structure AttrsWritten (decode : Str → Str → Prop) (pieces : List Str) (attrs : SMap) : Prop where
  form : ∀ p ∈ pieces, ∃ k raw, Quoted k raw p
  only : ∀ k v, attrs.get k = some v → ∃ raw, ∃ p ∈ pieces, Quoted k raw p
  last : ∀ a p b k raw, pieces = a ++ p :: b → Quoted k raw p → (∀ p' ∈ b, ∀ raw', ¬ Quoted k raw' p') →
    ∃ v, attrs.get k = some v ∧ decode raw v

/-- a `=` between two words -/
def Touch (a b : Str) : Prop := c%"=" <:+ a ∨ c%"=" <+: b

/-- The pieces that some words write: a word, or two or three words with a `=` between them, which are taken together from left
to right. -/
inductive Joined : List Str → List Str → Prop
  | nil : Joined [] []
  | one {a : Str} {l ps : List Str} : (∀ b r, l = b :: r → ¬ Touch a b) → Joined l ps → Joined (a :: l) (a :: ps)
  | two {a b : Str} {l ps : List Str} : Touch a b → (∀ c r, l = c :: r → ¬ Touch (a ++ b) c) → Joined l ps →
      Joined (a :: b :: l) ((a ++ b) :: ps)
  | three {a b c : Str} {l ps : List Str} : Touch a b → Touch (a ++ b) c → Joined l ps →
      Joined (a :: b :: c :: l) ((a ++ b ++ c) :: ps)

/-- the name in a tag (its first word) and the pieces after it -/
def Pieces (tag n : Str) (ps : List Str) : Prop := ∃ (s : Str) (ws : List Str), Inner tag s ∧ Words s (n :: ws) ∧ Joined ws ps

/-- The tag writes the element: it has the tag name, and its pieces write the attributes. -/
def TagWrites (decode : Str → Str → Prop) (tag : Str) (e : Element) : Prop :=
  ∃ ps, Pieces tag e.tagName ps ∧ AttrsWritten decode ps e.attrs

/-- the elements of a document, in document order, the root first -/
def elementsOf (e : Element) : List Element := (docOrder (.element e)).filterMap element?

/-- the part of a tag before the first quote -/
def beforeQuotes (tag : Str) : Str := tag.takeWhile fun c => c ≠ '"' && c ≠ '\''

/-- tags that contain no second `<` and, before the first value, no U+1680 (which XML allows in names, and which is white space
to Rust) -/
def PlainTag (tag : Str) : Prop := '<' ∉ tag.tail ∧ '\u1680' ∉ beforeQuotes tag

instance (tag : Str) : Decidable (PlainTag tag) := inferInstanceAs (Decidable (_ ∧ _))

/-- What a tag has after the name: nothing but white space, or white space, a name, `=` and a quote. -/
def AfterName (R : Str) : Prop :=
  (∃ w e, AllWs w ∧ (e = c%"/>" ∨ e = c%">") ∧ R = w ++ e) ∨
  ∃ w k q r, AllWs w ∧ w ≠ [] ∧ XmlName k ∧ (q = '"' ∨ q = '\'') ∧ R = w ++ k ++ '=' :: q :: r

end KissXml.Spec
