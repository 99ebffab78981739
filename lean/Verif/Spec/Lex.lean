import Verif.Model.Str
/-!
# Specification: quotes and tags

A small description of where a tag ends, independent of the scanning loops of `lib.rs`.
-/
namespace KissXml.Spec

/-- quote state: `none` outside quotes, `some q` inside a literal opened by `q` -/
def qstep : Option Char → Char → Option Char
  | none, c => if c = '"' ∨ c = '\'' then some c else none
  | some q, c => if c = q then none else some q

/-- quote state after reading `a`, starting in state `q` -/
def qstate (q : Option Char) (a : Str) : Option Char := a.foldl qstep q

/-- `a` is what stands before the first occurrence of `pat` in `s` -/
structure FirstAt (pat a s : Str) : Prop where
  here : a ++ pat <+: s
  first : ∀ a', a' ++ pat <+: s → a.length ≤ a'.length

/-- `a` is what stands before the first occurrence of `pat` in `s` that begins outside quotes -/
structure FirstUnquoted (q : Option Char) (pat a s : Str) : Prop where
  here : a ++ pat <+: s
  outside : qstate q a = none
  first : ∀ a', a' ++ pat <+: s → qstate q a' = none → a.length ≤ a'.length

/-- number of occurrences of `x` outside quotes -/
def unquoted (x : Char) : Option Char → Str → Nat
  | _, [] => 0
  | q, c :: s => (if q = none ∧ c = x then 1 else 0) + unquoted x (qstep q c) s

/-- `a` is what stands before the first `>` outside quotes that does not close an earlier `<` of `s` -/
structure FirstClosing (a s : Str) : Prop where
  here : a ++ ['>'] <+: s
  outside : qstate none a = none
  balanced : unquoted '<' none a = unquoted '>' none a
  first : ∀ a', a' ++ ['>'] <+: s → qstate none a' = none → a'.length < a.length →
    unquoted '>' none a' < unquoted '<' none a'

/-- `TagAt s t`: the tag that begins with the `<` at the start of `s` is `t`. -/
inductive TagAt (s : Str) : Str → Prop
  /-- comments end at the first `-->` -/
  | comment {a : Str} : c%"<!--" <+: s → FirstAt c%"-->" a s → TagAt s (a ++ c%"-->")
  /-- declarations and processing instructions end at the first unquoted `?>` -/
  | pi {a u : Str} : s = c%"<?" ++ u → FirstUnquoted none c%"?>" a u → TagAt s (c%"<?" ++ a ++ c%"?>")
  /-- CDATA sections end at the first `]]>` -/
  | cdata {a : Str} : c%"<![CDATA[" <+: s → FirstAt c%"]]>" a s → TagAt s (a ++ c%"]]>")
  /-- other `<!` constructs end at the unquoted `>` that matches their `<` -/
  | decl {a u : Str} : s = c%"<!" ++ u → ¬ c%"<!--" <+: s → ¬ c%"<![CDATA[" <+: s → FirstClosing a u →
      TagAt s (c%"<!" ++ a ++ c%">")
  /-- everything else ends at the first unquoted `>` -/
  | elem {a u : Str} : s = c%"<" ++ u → ¬ c%"!" <+: u → ¬ c%"?" <+: u → FirstUnquoted none c%">" a u →
      TagAt s (c%"<" ++ a ++ c%">")

/-- `Lexes s toks tail`: `s` is a sequence of pieces of text (without `<`), each followed by a tag, and a last piece of
text without `<`. -/
inductive Lexes : Str → List (Str × Str) → Str → Prop
  | done {s : Str} : '<' ∉ s → Lexes s [] s
  | tag {text tag rest s tail : Str} {toks : List (Str × Str)} : '<' ∉ text → TagAt s tag → s = tag ++ rest →
      Lexes rest toks tail → Lexes (text ++ s) ((text, tag) :: toks) tail

/-- `LexesTo s toks rest`: `s` begins with the pieces of text and tags `toks`, and `rest` is left. -/
inductive LexesTo : Str → List (Str × Str) → Str → Prop
  | done {s : Str} : LexesTo s [] s
  | tag {text tag rest s r : Str} {toks : List (Str × Str)} : '<' ∉ text → TagAt s tag → s = tag ++ rest →
      LexesTo rest toks r → LexesTo (text ++ s) ((text, tag) :: toks) r

end KissXml.Spec
