import Verif.Model.Str
/-!
# Regular expressions

The `regex` crate is modelled by its language semantics.  `Re.Matches` is the denotation, `Re.isMatch`
an executable search (partial derivatives); `Verif.Proofs.Regex` proves that `isMatch` holds exactly when
some substring is in the language, which is the documented meaning of `Regex::is_match` for a pattern
without anchors (greediness and laziness do not affect whether a match exists).
-/
namespace KissXml

/-- Regular expressions over characters; a class is a list of inclusive code point ranges. -/
inductive Re where
  | eps
  | cls (ranges : List (Nat × Nat))
  | seq (a b : Re)
  | alt (a b : Re)
  | star (a : Re)
deriving DecidableEq, Repr

namespace Re

/-- The language of a regular expression. -/
inductive Matches : Re → Str → Prop
  | eps : Matches .eps []
  | cls {rs c} : inRanges rs c = true → Matches (.cls rs) [c]
  | seq {a b s t} : Matches a s → Matches b t → Matches (.seq a b) (s ++ t)
  | altL {a b s} : Matches a s → Matches (.alt a b) s
  | altR {a b s} : Matches b s → Matches (.alt a b) s
  | starNil {a} : Matches (.star a) []
  | starCons {a s t} : Matches a s → Matches (.star a) t → Matches (.star a) (s ++ t)

/-- One literal character. -/
def lit (c : Char) : Re := .cls [(c.toNat, c.toNat)]
/-- `r?` -/
def opt (r : Re) : Re := .alt .eps r
/-- `r+` -/
def plus (r : Re) : Re := .seq r (.star r)
/-- any character, newline included (`.` under `(?s)`) -/
def anyChar : Re := .cls [(0, 0x10FFFF)]

/-- does the language contain the empty string? -/
def nullable : Re → Bool
  | .eps => true
  | .cls _ => false
  | .seq a b => a.nullable && b.nullable
  | .alt a b => a.nullable || b.nullable
  | .star _ => true

/-- partial derivatives with respect to one character (Antimirov) -/
def pderiv (c : Char) : Re → List Re
  | .eps => []
  | .cls rs => if inRanges rs c then [.eps] else []
  | .seq a b => (pderiv c a).map (fun r => .seq r b) ++ (if a.nullable then pderiv c b else [])
  | .alt a b => pderiv c a ++ pderiv c b
  | .star a => (pderiv c a).map (fun r => .seq r (.star a))

/-- insert without repetition -/
def addNew (l : List Re) (r : Re) : List Re := if r ∈ l then l else r :: l

/-- successors of a set of states, without repetition -/
def step (c : Char) (rs : List Re) : List Re := (rs.flatMap (pderiv c)).foldl addNew []

/-- some prefix of the string is matched by one of the states -/
def prefixMatch : List Re → Str → Bool
  | rs, [] => rs.any nullable
  | rs, c :: s => rs.any nullable || (match step c rs with
      | [] => false
      | rs' => prefixMatch rs' s)

/-- `Regex::is_match` of an unanchored pattern: some substring matches. -/
def isMatch (r : Re) : Str → Bool
  | [] => prefixMatch [r] []
  | c :: s => prefixMatch [r] (c :: s) || isMatch r s

/-- whole-string match by states -/
def fullStates : List Re → Str → Bool
  | rs, [] => rs.any nullable
  | rs, c :: s => fullStates (step c rs) s

/-- `Regex::is_match` of `^r$` (no multi-line flag): the whole string matches. -/
def fullMatch (r : Re) (s : Str) : Bool := fullStates [r] s

end Re
end KissXml
