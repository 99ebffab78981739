import Verif.Spec.Source
/-!
# Specification: what is wrong with a rejected input, and where
-/
namespace KissXml.Spec

/-! ## tags -/

/-- [5] `Name` -/
def PlainName (n : Str) : Prop :=
  ∃ c t, n = c :: t ∧ CodeIn startCodes c ∧ ∀ x ∈ t, CodeIn startCodes x ∨ CodeIn moreCodes x

/-- white space, a name, `=`, anything in quotes -/
def AttrPattern (p : Str) : Prop :=
  ∃ w k q raw, AllWs w ∧ w ≠ [] ∧ PlainName k ∧ (q = '"' ∨ q = '\'') ∧ p = w ++ k ++ c%"=" ++ [q] ++ raw ++ [q]

/-- `<` or `</`, a name, attributes, white space, `>` or `/>` -/
def TagPattern (t : Str) : Prop :=
  ∃ (a n : Str) (as : List Str) (w b : Str), (a = c%"<" ∨ a = c%"</") ∧ PlainName n ∧ (∀ p ∈ as, AttrPattern p) ∧ AllWs w ∧ (b = c%">" ∨ b = c%"/>") ∧
    t = a ++ n ++ as.flatten ++ w ++ b

/-- no part of the tag is a tag -/
def BadTag (tag : Str) : Prop := ∀ t, t <:+: tag → ¬ TagPattern t

/-- the part of a name after the first colon, or the name -/
def LocalPart (n l : Str) : Prop := (':' ∉ n ∧ l = n) ∨ ∃ p, ':' ∉ p ∧ n = p ++ ':' :: l

/-! ## nesting -/

/-- the names of the elements that are open after some tags, innermost first -/
inductive OpenAfter : List Str → List Str → Prop
  | nil : OpenAfter [] []
  | mark {l o : List Str} {tag : Str} : OpenAfter l o → kind tag = .mark → OpenAfter (l ++ [tag]) o
  | empty {l o : List Str} {tag : Str} : OpenAfter l o → kind tag = .empty → OpenAfter (l ++ [tag]) o
  | start {l o : List Str} {tag n : Str} : OpenAfter l o → kind tag = .start → OpenName tag n → OpenAfter (l ++ [tag]) (n :: o)
  | close {l o : List Str} {tag n : Str} : OpenAfter l (n :: o) → kind tag = .close → Inner tag n → OpenAfter (l ++ [tag]) o

/-! ## positions -/

/-- the characters of some tokens -/
def srcOf (toks : List (Str × Str)) : Str := toks.flatMap (fun t => t.1 ++ t.2)

/-- Line and column reported for what comes after `a`: the line, and one more than the 1-based column. -/
def Located (a : Str) (lc : Nat × Nat) : Prop :=
  ∃ u v, a = u ++ v ∧ (u = [] ∨ ∃ u', u = u' ++ ['\n']) ∧ '\n' ∉ v ∧ lc = (1 + u.count '\n', v.length + 2)

/-- Line and column reported for a text `t` after `a` that is outside of the root: as before; but a newline counts as the
beginning of the next line. -/
def LocatedText (a t : Str) (lc : Nat × Nat) : Prop :=
  (¬ c%"\n" <+: t ∧ Located a lc) ∨ (c%"\n" <+: t ∧ lc = (2 + a.count '\n', 1))

/-! ## faults -/

/-- There is a tag before, and it is not at the very beginning of the input.  (A declaration after a tag at the beginning is
accepted: see C52.) -/
def Late (pre : List (Str × Str)) : Prop := ∃ p t r, pre = p ++ [(t, r)] ∧ (p ≠ [] ∨ t ≠ [])

/-- `unescape` panics on `s` (see C67) -/
def Panics (s : Str) : Prop := Unesc s none

/-- `unescape` returns on `s` -/
def Returns (s : Str) : Prop := ∃ t, Unesc s (some t)

/-- `s` is the text `t`, or `t` is more than 32 bytes long and `s` has its first 15 and its last 16 bytes -/
def Shortened (t s : Str) : Prop :=
  (blen t ≤ 32 ∧ s = t) ∨ (32 < blen t ∧ ∃ a m b, t = a ++ m ++ b ∧ blen a = 15 ∧ blen b = 16 ∧ s = a ++ c%"…" ++ b)

/-- text that is no problem when the elements `o` are open -/
def TextFine (o : List Str) (text : Str) : Prop := AllWs text ∨ (o ≠ [] ∧ Returns text)

/-- pieces `k="raw"` that can be read -/
def GoodPieces (ps : List Str) : Prop := ∀ p ∈ ps, ∃ k raw, Quoted k raw p ∧ Returns raw

/-- The prefix of an element name, if it has one, is declared on the tag, unless the element is inside another (`o`: the open
elements). -/
def Bound (o : List Str) (n : Str) (ps : List Str) : Prop :=
  ∀ a b, n = a ++ ':' :: b → ':' ∉ a → o = [] → ∃ p ∈ ps, ∃ raw, Quoted (c%"xmlns:" ++ a) raw p

/-- What can be wrong with a start tag or empty-element tag (`o`: the open elements), and the error for it at `lc`: the pieces are
looked at from left to right, then the prefix, then the element name, then the attribute names. -/
inductive TagFault (o : List Str) (tag : Str) (lc : Nat × Nat) : Err → Prop
  /-- nothing in it -/
  | blank {s : Str} : Inner tag s → AllWs s → TagFault o tag lc (.parsing .emptyTag (some lc))
  /-- a piece without `=` -/
  | form {n p : Str} {a b : List Str} : Pieces tag n (a ++ p :: b) → GoodPieces a → '=' ∉ p → TagFault o tag lc (.parsing .attrForm (some lc))
  /-- a piece with nothing after the `=` -/
  | noValue {n k : Str} {a b : List Str} : Pieces tag n (a ++ (k ++ c%"=") :: b) → GoodPieces a → '=' ∉ k →
      TagFault o tag lc (.parsing .attrNoContent (some lc))
  /-- a piece with something that is not in quotes after the `=` -/
  | unquoted {n k v : Str} {a b : List Str} : Pieces tag n (a ++ (k ++ c%"=" ++ v) :: b) → GoodPieces a → '=' ∉ k → v ≠ [] →
      (∀ k' raw, ¬ Quoted k' raw (k ++ c%"=" ++ v)) → TagFault o tag lc (.parsing .attrUnquoted (some lc))
  /-- on an element that is not inside another: a prefix that the tag does not declare -/
  | pfx {n p l : Str} {ps : List Str} : Pieces tag n ps → GoodPieces ps → ¬ Bound o n ps → n = p ++ ':' :: l → ':' ∉ p →
      TagFault o tag lc (.parsing (.undefinedPrefix p) (some lc))
  /-- an element name that the API does not allow -/
  | name {n l : Str} {ps : List Str} : Pieces tag n ps → GoodPieces ps → Bound o n ps → LocalPart n l → ¬ ApiName l →
      TagFault o tag lc (.invalidElementName l)
  /-- an attribute name that the API does not allow -/
  | attrName {n l p k raw : Str} {ps : List Str} : Pieces tag n ps → GoodPieces ps → Bound o n ps → LocalPart n l → ApiName l →
      p ∈ ps → Quoted k raw p → ¬ ApiName k → TagFault o tag lc (.invalidAttributeName k)

/-- a start tag or empty-element tag with which nothing is wrong -/
def TagFine (o : List Str) (tag : Str) : Prop :=
  ∃ n l ps, Pieces tag n ps ∧ GoodPieces ps ∧ Bound o n ps ∧ LocalPart n l ∧ ApiName l ∧ ∀ p ∈ ps, ∀ k raw, Quoted k raw p → ApiName k

/-- What can be wrong with a tag inside or after the root (`o`: the open elements), and the error for it at `lc`. -/
inductive InnerFault (o : List Str) (tag : Str) (lc : Nat × Nat) : Err → Prop
  /-- a comment that is too short -/
  | comment : c%"<!--" <+: tag → tag.length < 7 → InnerFault o tag lc (.parsing .invalidComment (some lc))
  /-- a comment or a CDATA section after the root -/
  | outside : o = [] → ((c%"<!--" <+: tag ∧ 7 < tag.length) ∨ c%"<![CDATA[" <+: tag) → InnerFault o tag lc (.parsing .noRootElement (some lc))
  /-- an empty comment after the root -/
  | outside0 : o = [] → tag = c%"<!---->" → InnerFault o tag lc (.parsing .noRootElement none)
  /-- a `<!` construct other than comments and CDATA sections -/
  | unsupported {s : Str} : c%"<!" <+: tag → ¬ c%"<!--" <+: tag → ¬ c%"<![CDATA[" <+: tag → Shortened tag s →
      InnerFault o tag lc (.notSupported s (some lc))
  /-- something that is not a tag -/
  | syntax : ¬ c%"<!" <+: tag → BadTag tag → InnerFault o tag lc (.parsing .invalidElementTag (some lc))
  /-- a closing tag when no element is open -/
  | closed : o = [] → kind tag = .close → ¬ BadTag tag → InnerFault o tag lc (.parsing .rootAlreadyClosed (some lc))
  /-- a closing tag with a name other than that of the innermost open element -/
  | mismatch {n m : Str} {o' : List Str} : o = n :: o' → kind tag = .close → ¬ BadTag tag → Inner tag m → m ≠ n →
      InnerFault o tag lc (.parsing (.closingMismatch tag n) (some lc))
  /-- a bad start tag or empty-element tag -/
  | elem {e : Err} : Opening tag → ¬ BadTag tag → TagFault o tag lc e → InnerFault o tag lc e
  /-- an empty-element tag after the root -/
  | element : o = [] → kind tag = .empty → ¬ BadTag tag → TagFine o tag → InnerFault o tag lc (.parsing .noRootElement (some lc))

/-- What can be wrong with an input that begins with prolog tokens `pre` and later tokens `rest`, followed by text `text` (without
`<`) and `s`; and the error for it.  (When several things are wrong, this is the one that is reported.) -/
inductive Fault (pre rest : List (Str × Str)) (text s : Str) : Err → Prop
  /-- the input ends before the root element -/
  | noRoot : rest = [] → s = [] → Fault pre rest text s (.parsing .noXmlContent none)
  /-- a `<` before the root element that is not the beginning of a tag -/
  | noTag {lc : Nat × Nat} : rest = [] → c%"<" <+: s → (∀ t, ¬ TagAt s t) → Located (srcOf pre ++ text) lc →
      Fault pre rest text s (.parsing .unmatchedLt (some lc))
  /-- text before the root element -/
  | text {tag : Str} {lc : Nat × Nat} : rest = [] → TagAt s tag → ¬ AllWs text → Returns text → LocatedText (srcOf pre) text lc →
      Fault pre rest text s (.parsing .textOutsideRoot (some lc))
  /-- a declaration that comes late -/
  | decl {tag : Str} {lc : Nat × Nat} : rest = [] → TagAt s tag → AllWs text → c%"<?xml" <+: tag → Late pre → Located (srcOf pre ++ text) lc →
      Fault pre rest text s (.parsing .declNotAtStart (some lc))
  /-- a closing tag before the root element -/
  | closing {tag : Str} {lc : Nat × Nat} : rest = [] → TagAt s tag → AllWs text → c%"</" <+: tag → Located (srcOf pre ++ text) lc →
      Fault pre rest text s (.parsing .startsWithClosing (some lc))
  /-- something that is not a tag in place of the root element -/
  | notTag {tag : Str} {lc : Nat × Nat} : rest = [] → TagAt s tag → AllWs text → ¬ IsProlog tag → ¬ c%"</" <+: tag → BadTag tag →
      Located (srcOf pre ++ text) lc → Fault pre rest text s (.parsing .invalidSyntax (some lc))
  /-- a bad start tag or empty-element tag of the root element -/
  | root {tag : Str} {lc : Nat × Nat} {e : Err} : rest = [] → TagAt s tag → AllWs text → ¬ IsProlog tag → Opening tag → ¬ BadTag tag →
      Located (srcOf pre ++ text) lc → TagFault [] tag lc e → Fault pre rest text s e
  /-- a `<` after the root tag that is not the beginning of a tag -/
  | noTag2 {lc : Nat × Nat} : rest ≠ [] → c%"<" <+: s → (∀ t, ¬ TagAt s t) → Located (srcOf (pre ++ rest) ++ text) lc →
      Fault pre rest text s (.parsing .invalidSyntax (some lc))
  /-- a tag after a root element that is an empty-element tag -/
  | second {tag t r : Str} {lc : Nat × Nat} : rest = [(t, r)] → kind r = .empty → TagAt s tag →
      Located (srcOf (pre ++ rest) ++ text) lc → Fault pre rest text s (.parsing .onlyOneRoot (some lc))
  /-- text after the root element (and before another tag) -/
  | text2 {tag : Str} {lc : Nat × Nat} : rest ≠ [] → (∀ t r, rest = [(t, r)] → kind r ≠ .empty) → OpenAfter (rest.map Prod.snd) [] →
      TagAt s tag → ¬ AllWs text → Returns text → Located (srcOf (pre ++ rest) ++ text) lc →
      Fault pre rest text s (.parsing .noRootElement (some lc))
  /-- a bad tag after the root tag -/
  | inner {tag : Str} {o : List Str} {lc : Nat × Nat} {e : Err} : rest ≠ [] → (∀ t r, rest = [(t, r)] → kind r ≠ .empty) →
      OpenAfter (rest.map Prod.snd) o → TextFine o text → TagAt s tag → Located (srcOf (pre ++ rest) ++ text) lc → InnerFault o tag lc e →
      Fault pre rest text s e
  /-- the input ends when an element is open -/
  | notClosed {n : Str} {o : List Str} : rest ≠ [] → OpenAfter (rest.map Prod.snd) (n :: o) → s = [] →
      Fault pre rest text s (.parsing .rootNotClosed none)

/-- the same error, or both about an attribute name (of several bad names in a tag it is not determined which one is reported) -/
def Alike (e e' : Err) : Prop := e = e' ∨ ∃ k k', e = .invalidAttributeName k ∧ e' = .invalidAttributeName k'

end KissXml.Spec
