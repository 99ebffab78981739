import Verif.Spec.Dom
import Verif.Spec.Escape
import Verif.Spec.Lex
/-!
# Specification: tags, nesting and the tree a sequence of tags stands for
-/
namespace KissXml.Spec

/-- first and last character (if any) are not white space -/
def Trimmed (s : Str) : Prop :=
  (∀ c, s.head? = some c → isWs c = false) ∧ (∀ c, s.getLast? = some c → isWs c = false)

/-- `s` is the inside of the tag: without `<` or `</`, without `>` or `/>`, without outer white space -/
def Inner (tag s : Str) : Prop :=
  ∃ a m b w1 w2, tag = a ++ m ++ b ∧ (a = c%"</" ∨ (a = c%"<" ∧ ¬ c%"</" <+: tag)) ∧
    (b = c%"/>" ∨ (b = c%">" ∧ ¬ c%"/" <:+ m)) ∧
    m = w1 ++ s ++ w2 ∧ (∀ c ∈ w1, isWs c = true) ∧ (∀ c ∈ w2, isWs c = true) ∧ Trimmed s

/-- no white space of `n` is outside quotes (`q`: the quote state before `n`) -/
def NoBreak (q : Option Char) (n : Str) : Prop := ∀ a c b, n = a ++ c :: b → qstate q a = none → isWs c = false

/-- `n` is the first word of `s` (quoted white space does not end a word) -/
def FirstWord (s n : Str) : Prop :=
  n ≠ [] ∧ NoBreak none n ∧ ∃ r, s = n ++ r ∧ (r = [] ∨ ∃ c r', r = c :: r' ∧ isWs c = true ∧ qstate none n = none)

/-- the tag opens (or is) an element with the given name, prefix included -/
def OpenName (tag n : Str) : Prop := ∃ s, Inner tag s ∧ FirstWord s n

/-- kinds of tags inside the root -/
inductive Kind where
  | mark   -- comment or CDATA section
  | close
  | empty
  | start
deriving DecidableEq

/-- the kind of a tag -/
def kind (tag : Str) : Kind :=
  if c%"<!" <+: tag then .mark else if c%"</" <+: tag then .close else if c%"/>" <:+ tag then .empty else .start

/-- `WellNested open tags`: when elements with names `open` are open (innermost first), the tags close all of them, and
every closing tag has the name of the innermost open element -/
inductive WellNested : List Str → List Str → Prop
  | done : WellNested [] []
  | mark {o : List Str} {tag : Str} {l : List Str} : kind tag = .mark → WellNested o l → WellNested o (tag :: l)
  | empty {o : List Str} {tag : Str} {l : List Str} : kind tag = .empty → WellNested o l → WellNested o (tag :: l)
  | start {o : List Str} {tag n : Str} {l : List Str} : kind tag = .start → OpenName tag n → WellNested (n :: o) l →
      WellNested o (tag :: l)
  | close {o : List Str} {tag n : Str} {l : List Str} : kind tag = .close → Inner tag n → WellNested o l →
      WellNested (n :: o) (tag :: l)

/-- change of nesting depth -/
def delta (tag : Str) : Int :=
  match kind tag with
  | .mark => 0
  | .close => -1
  | .empty => 0
  | .start => 1

/-- nesting depth after some tags -/
def depth (tags : List Str) : Int := (tags.map delta).sum

/-- the first element is closed only by the last tag -/
def OneRoot (tags : List Str) : Prop := ∀ a b, tags = a ++ b → a ≠ [] → b ≠ [] → 0 < depth a

/-- the text node, if any, that a piece of text stands for -/
def TextBit (decode : Str → Str → Prop) (text : Str) (l : List Node) : Prop :=
  ((∀ c ∈ text, isWs c = true) ∧ l = []) ∨
  ((∃ c ∈ text, isWs c = false) ∧ ∃ t, decode text t ∧ l = if Blank t then [] else [.text t])

/-- `Content decode n toks l`: the tokens are the content of an element named `n` and its closing tag; the content is the
list of nodes `l` (elements are described by name and content only) -/
inductive Content (decode : Str → Str → Prop) : Str → List (Str × Str) → List Node → Prop
  | close {n text tag : Str} {l : List Node} : kind tag = .close → Inner tag n → TextBit decode text l →
      Content decode n [(text, tag)] l
  | comment {n text c : Str} {toks : List (Str × Str)} {l r : List Node} : TextBit decode text l → Content decode n toks r →
      Content decode n ((text, c%"<!--" ++ c ++ c%"-->") :: toks) (l ++ .comment c :: r)
  | cdata {n text c : Str} {toks : List (Str × Str)} {l r : List Node} : TextBit decode text l → Content decode n toks r →
      Content decode n ((text, c%"<![CDATA[" ++ c ++ c%"]]>") :: toks) (l ++ .cdata c :: r)
  | empty {n text tag : Str} {e : Element} {toks : List (Str × Str)} {l r : List Node} : kind tag = .empty →
      OpenName tag e.tagName → e.children = [] → TextBit decode text l → Content decode n toks r →
      Content decode n ((text, tag) :: toks) (l ++ .element e :: r)
  | elem {n text tag : Str} {e : Element} {toks1 toks2 : List (Str × Str)} {l r : List Node} : kind tag = .start →
      OpenName tag e.tagName → Content decode e.tagName toks1 e.children → TextBit decode text l → Content decode n toks2 r →
      Content decode n ((text, tag) :: (toks1 ++ toks2)) (l ++ .element e :: r)

/-- source of a comment or CDATA section -/
def markSource : Node → Option Str
  | .comment c => some (c%"<!--" ++ c ++ c%"-->")
  | .cdata c => some (c%"<![CDATA[" ++ c ++ c%"]]>")
  | _ => none

/-- tags of the prolog -/
def IsProlog (tag : Str) : Prop := c%"<?xml" <+: tag ∨ c%"<!" <+: tag

instance (tag : Str) : Decidable (IsProlog tag) := inferInstanceAs (Decidable (_ ∨ _))

/-- the input is made of prolog tokens, root and later tokens, and a last text without `<` -/
structure Parts (x : Str) (pre rest : List (Str × Str)) : Prop where
  lexes : ∃ tail, Lexes x (pre ++ rest) tail
  prolog : ∀ t ∈ pre, IsProlog t.2
  root : ∀ t r, rest = t :: r → ¬ IsProlog t.2

/-- some texts whose references the library decodes -/
def Readable (s : Str) : Prop := '&' ∉ s ∨ (AsciiEnd s ∧ WideRefsLast s)

/-! ## scopes -/

mutual
/-- Below a place where prefix `p` stands for `look p`: the namespace of every prefixed element is the value of `xmlns:p` on
the nearest element around it (or itself) that has such an attribute, else what `look` says. -/
def PrefixScope (look : Str → Option Str) : Node → Prop
  | .element ⟨_, cs, a, x, q, _⟩ => (∀ p, q = some p → x = (a.get (c%"xmlns:" ++ p)).or (look p)) ∧
      PrefixScopeL (fun p => (a.get (c%"xmlns:" ++ p)).or (look p)) cs
  | .text _ => True
  | .comment _ => True
  | .cdata _ => True
/-- the same for a list of nodes -/
def PrefixScopeL (look : Str → Option Str) : List Node → Prop
  | [] => True
  | n :: l => PrefixScope look n ∧ PrefixScopeL look l
end

mutual
/-- Below a place with default namespace `d`: the namespace of every unprefixed element is the value of `xmlns` on the nearest
element around it (or itself) that has such an attribute, else `d`. -/
def DefaultScope (d : Option Str) : Node → Prop
  | .element ⟨_, cs, a, x, q, _⟩ => (q = none → x = (a.get c%"xmlns").or d) ∧ DefaultScopeL ((a.get c%"xmlns").or d) cs
  | .text _ => True
  | .comment _ => True
  | .cdata _ => True
/-- the same for a list of nodes -/
def DefaultScopeL (d : Option Str) : List Node → Prop
  | [] => True
  | n :: l => DefaultScope d n ∧ DefaultScopeL d l
end

end KissXml.Spec
