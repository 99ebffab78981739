import Verif.Spec.Errors
/-!
# Specification: inputs on which the parser panics
-/
namespace KissXml.Spec

/-- a tag in which `unescape` panics on the value of an attribute, all the attributes before it being fine -/
def TagCrash (tag : Str) : Prop :=
  ¬ BadTag tag ∧ ∃ n a p b k raw, Pieces tag n (a ++ p :: b) ∧ GoodPieces a ∧ Quoted k raw p ∧ Panics raw

/-- What makes the parser panic on an input that begins with prolog tokens `pre` and later tokens `rest`, followed by text `text`
(without `<`) and `s`. -/
inductive Crash (pre rest : List (Str × Str)) (text s : Str) : Prop
  /-- text on which `unescape` panics (text after a root element that is an empty-element tag is not looked at) -/
  | text {tag : Str} : TagAt s tag → ¬ AllWs text → Panics text → (∀ t r, rest = [(t, r)] → kind r ≠ .empty) → Crash pre rest text s
  /-- the first comment before the root element, shortened for a message inside a character -/
  | comment {tag : Str} : rest = [] → TagAt s tag → AllWs text → c%"<!--" <+: tag → (∀ t ∈ pre, ¬ c%"<!--" <+: t.2) → NoCut tag →
      Crash pre rest text s
  /-- the root tag -/
  | root {tag : Str} : rest = [] → TagAt s tag → AllWs text → ¬ IsProlog tag → Opening tag → TagCrash tag → Crash pre rest text s
  /-- a declaration inside or after the root element, shortened for a message inside a character -/
  | decl {tag : Str} {o : List Str} : rest ≠ [] → (∀ t r, rest = [(t, r)] → kind r ≠ .empty) → OpenAfter (rest.map Prod.snd) o → TextFine o text →
      TagAt s tag → c%"<!" <+: tag → ¬ c%"<!--" <+: tag → ¬ c%"<![CDATA[" <+: tag → NoCut tag → Crash pre rest text s
  /-- a start tag or empty-element tag inside or after the root element -/
  | elem {tag : Str} {o : List Str} : rest ≠ [] → (∀ t r, rest = [(t, r)] → kind r ≠ .empty) → OpenAfter (rest.map Prod.snd) o → TextFine o text →
      TagAt s tag → Opening tag → TagCrash tag → Crash pre rest text s

/-- What has been read so far is no reason to reject the input: it is accepted, or the root element is missing, or an element is
not closed yet. -/
def NoFaultYet (r : R Document) : Prop :=
  (∃ d, r = .ok d) ∨ r = .err (.parsing .noXmlContent none) ∨ r = .err (.parsing .rootNotClosed none)

/-- The input is prolog tokens, further tokens, text without `<`, and more (the end of the input, or what begins with a `<`, when
there is something wrong there). -/
def Split (x : Str) (pre rest : List (Str × Str)) (text s : Str) : Prop :=
  LexesTo x (pre ++ rest) (text ++ s) ∧ '<' ∉ text ∧ (∀ t ∈ pre, IsProlog t.2) ∧ (∀ t r, rest = t :: r → ¬ IsProlog t.2)

/-- something is wrong, or makes the parser panic -/
def Trouble (pre rest : List (Str × Str)) (text s : Str) : Prop := Crash pre rest text s ∨ ∃ e, Fault pre rest text s e

/-- there is no trouble before this place of the input -/
def First (x : Str) (pre rest : List (Str × Str)) : Prop :=
  ∀ pre' rest' text' s', Split x pre' rest' text' s' → Trouble pre' rest' text' s' → (pre ++ rest).length ≤ (pre' ++ rest').length

end KissXml.Spec
