import Verif.Model.Str
/-!
# Specification: the notation of the `regex` crate

As far as the patterns in the code use it: characters, classes, `.`, `^`, `$`, `\s`, `\S`, `\xHH`, `\x{…}`, escaped punctuation, groups,
alternatives, the three repetitions, each greedy or lazy, and flags at the very beginning.  What a pattern means is said by `Pat.Matches`;
`Pat.read` reads a pattern and returns `none` for all notation that is not listed here.  What a match *is* does not depend on greediness,
which only decides between several matches.
-/
namespace KissXml.Spec

/-- patterns -/
inductive Pat where
  /-- the empty pattern -/
  | eps
  /-- a character that is in one of the ranges, or in none of them -/
  | cls (negated : Bool) (ranges : List (Nat × Nat))
  /-- `^` -/
  | start
  /-- `$` -/
  | finish
  /-- `^` with the flag `m` -/
  | lineStart
  /-- `$` with the flag `m` -/
  | lineEnd
  | seq (a b : Pat)
  | alt (a b : Pat)
  /-- `a*` and `a*?` -/
  | star (a : Pat)
  /-- `a+` and `a+?` -/
  | plus (a : Pat)
  /-- `a?` and `a??` -/
  | opt (a : Pat)
deriving DecidableEq, Repr

/-- `Matches p a s b`: in the text `a ++ s ++ b` the part `s` is a match of the pattern -/
inductive Pat.Matches : Pat → Str → Str → Str → Prop
  | eps {a b : Str} : Matches .eps a [] b
  | cls {neg : Bool} {rs : List (Nat × Nat)} {a b : Str} {c : Char} : inRanges rs c = !neg → Matches (.cls neg rs) a [c] b
  | start {b : Str} : Matches .start [] [] b
  | finish {a : Str} : Matches .finish a [] []
  | lineStart {a b : Str} : (a = [] ∨ ∃ l, a = l ++ ['\n']) → Matches .lineStart a [] b
  | lineEnd {a b : Str} : (b = [] ∨ ∃ l, b = '\n' :: l) → Matches .lineEnd a [] b
  | seq {p q : Pat} {a s t b : Str} : Matches p a s (t ++ b) → Matches q (a ++ s) t b → Matches (.seq p q) a (s ++ t) b
  | altL {p q : Pat} {a s b : Str} : Matches p a s b → Matches (.alt p q) a s b
  | altR {p q : Pat} {a s b : Str} : Matches q a s b → Matches (.alt p q) a s b
  | starNil {p : Pat} {a b : Str} : Matches (.star p) a [] b
  | starCons {p : Pat} {a s t b : Str} : Matches p a s (t ++ b) → Matches (.star p) (a ++ s) t b → Matches (.star p) a (s ++ t) b
  | plus {p : Pat} {a s t b : Str} : Matches p a s (t ++ b) → Matches (.star p) (a ++ s) t b → Matches (.plus p) a (s ++ t) b
  | optNone {p : Pat} {a b : Str} : Matches (.opt p) a [] b
  | optSome {p : Pat} {a s b : Str} : Matches p a s b → Matches (.opt p) a s b

/-- `Regex::is_match`: the text has a match somewhere -/
def Pat.IsMatch (p : Pat) (text : Str) : Prop := ∃ a s b, text = a ++ s ++ b ∧ p.Matches a s b

/-- the flags `s` (`.` is also `\n`) and `m` (`^` and `$` are for lines) -/
structure Flags where
  s : Bool
  m : Bool

/-- value of a hexadecimal digit -/
def hexDigit (c : Char) : Option Nat :=
  if '0' ≤ c ∧ c ≤ '9' then some (c.toNat - 48)
  else if 'A' ≤ c ∧ c ≤ 'F' then some (c.toNat - 55)
  else if 'a' ≤ c ∧ c ≤ 'f' then some (c.toNat - 87)
  else none

/-- hexadecimal digits up to `}` -/
def readHex : Nat → Str → Option (Nat × Str)
  | v, '}' :: r => some (v, r)
  | v, c :: r => (hexDigit c).bind fun d => readHex (16 * v + d) r
  | _, [] => none

/-- what stands for itself after a backslash -/
def isPunct (c : Char) : Bool := c%"\\.+*?()|[]{}^$#&-~".contains c

/-- after a backslash: a character -/
def readEscape : Str → Option (Nat × Str)
  | 'x' :: '{' :: r => readHex 0 r
  | 'x' :: a :: b :: r => (hexDigit a).bind fun i => (hexDigit b).bind fun j => some (16 * i + j, r)
  | c :: r => if isPunct c then some (c.toNat, r) else none
  | [] => none

/-- one character in a class; `&`, `~`, `-`, `[` and `^` have a meaning of their own there, if not escaped -/
def readMember : Str → Option (Nat × Str)
  | '\\' :: r => readEscape r
  | c :: r => if c%"&~-[]^".contains c then none else some (c.toNat, r)
  | [] => none

/-- the ranges of a class, after `[`, up to `]` -/
def readClass : Nat → Str → Option (List (Nat × Nat) × Str)
  | 0, _ => none
  | _ + 1, ']' :: r => some ([], r)
  | n + 1, s => (readMember s).bind fun x => match x.2 with
    | '-' :: r => (readMember r).bind fun y => if x.1 ≤ y.1 then (readClass n y.2).map fun z => ((x.1, y.1) :: z.1, z.2) else none
    | r => (readClass n r).map fun z => ((x.1, x.1) :: z.1, z.2)

/-- does a part of the pattern end here? -/
def endsPart : Str → Bool
  | [] => true
  | '|' :: _ => true
  | ')' :: _ => true
  | _ => false

/-- a repetition sign after a pattern, and the sign for lazy ones after that -/
def readRepeat (p : Pat) : Str → Pat × Str
  | '*' :: '?' :: r => (.star p, r)
  | '+' :: '?' :: r => (.plus p, r)
  | '?' :: '?' :: r => (.opt p, r)
  | '*' :: r => (.star p, r)
  | '+' :: r => (.plus p, r)
  | '?' :: r => (.opt p, r)
  | r => (p, r)

mutual
/-- one item, without repetition signs -/
def readAtom : Nat → Flags → Str → Option (Pat × Str)
  | 0, _, _ => none
  | n + 1, f, s => match s with
    | [] => none
    | '(' :: '?' :: _ => none
    | '(' :: r => (readAlt n f r).bind fun x => match x.2 with
      | ')' :: r => some (x.1, r)
      | _ => none
    | '[' :: r => (readClass r.length r).map fun x => (.cls false x.1, x.2)
    | '.' :: r => some (if f.s then .cls true [] else .cls true [(10, 10)], r)
    | '^' :: r => some (if f.m then .lineStart else .start, r)
    | '$' :: r => some (if f.m then .lineEnd else .finish, r)
    | '\\' :: 's' :: r => some (.cls false wsRanges, r)
    | '\\' :: 'S' :: r => some (.cls true wsRanges, r)
    | '\\' :: r => (readEscape r).map fun x => (.cls false [(x.1, x.1)], x.2)
    | c :: r => if c%"+*?|]){}".contains c then none else some (.cls false [(c.toNat, c.toNat)], r)
/-- items one after the other -/
def readSeq : Nat → Flags → Str → Option (Pat × Str)
  | 0, _, _ => none
  | n + 1, f, s =>
    if endsPart s then some (.eps, s)
    else (readAtom n f s).bind fun x =>
      let y := readRepeat x.1 x.2
      if endsPart y.2 then some y else (readSeq n f y.2).map fun z => (.seq y.1 z.1, z.2)
/-- alternatives -/
def readAlt : Nat → Flags → Str → Option (Pat × Str)
  | 0, _, _ => none
  | n + 1, f, s => (readSeq n f s).bind fun x => match x.2 with
    | '|' :: r => (readAlt n f r).map fun y => (.alt x.1 y.1, y.2)
    | _ => some x
end

/-- flags at the beginning of a pattern -/
def readFlags : Str → Flags × Str
  | '(' :: '?' :: 'm' :: 's' :: ')' :: r => (⟨true, true⟩, r)
  | '(' :: '?' :: 'm' :: ')' :: r => (⟨false, true⟩, r)
  | '(' :: '?' :: 's' :: ')' :: r => (⟨true, false⟩, r)
  | r => (⟨false, false⟩, r)

/-- read a whole pattern -/
def Pat.read (text : Str) : Option Pat :=
  (readAlt (3 * text.length + 3) (readFlags text).1 (readFlags text).2).bind fun x => if x.2 = [] then some x.1 else none

/-- the name before the next `}`, and what follows -/
def upToBrace : Str → Option (Str × Str)
  | [] => none
  | '}' :: r => some ([], r)
  | c :: r => (upToBrace r).map fun x => (c :: x.1, x.2)

/-- `format!` with the values of the names in braces -/
def formatWith (args : List (Str × Str)) : Nat → Str → Option Str
  | 0, _ => none
  | _ + 1, [] => some []
  | n + 1, '{' :: r => (upToBrace r).bind fun x => (args.lookup x.1).bind fun v => (formatWith args n x.2).map fun t => v ++ t
  | _ + 1, '}' :: _ => none
  | n + 1, c :: r => (formatWith args n r).map fun t => c :: t

end KissXml.Spec
