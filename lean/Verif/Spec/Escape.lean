import Verif.Model.Str
/-!
# Specification: character references

Independent of the model of `lib.rs`; only the type `Str` is shared.
-/
namespace KissXml.Spec

/-- what `text_escape` should do to one character -/
def escText : Char → Str
  | '&' => c%"&amp;"
  | '<' => c%"&lt;"
  | '>' => c%"&gt;"
  | c => [c]

/-- what `escape` / `attribute_escape` should do to one character -/
def escAttr : Char → Str
  | '&' => c%"&amp;"
  | '<' => c%"&lt;"
  | '>' => c%"&gt;"
  | '\'' => c%"&apos;"
  | '"' => c%"&quot;"
  | c => [c]

/-- the five predefined entities -/
inductive Entity : Str → Char → Prop
  | amp : Entity c%"&amp;" '&'
  | lt : Entity c%"&lt;" '<'
  | gt : Entity c%"&gt;" '>'
  | apos : Entity c%"&apos;" '\''
  | quot : Entity c%"&quot;" '"'

/-- value of a hexadecimal digit -/
inductive HexDigit : Char → Nat → Prop
  | dec {c : Char} : '0'.toNat ≤ c.toNat → c.toNat ≤ '9'.toNat → HexDigit c (c.toNat - '0'.toNat)
  | lower {c : Char} : 'a'.toNat ≤ c.toNat → c.toNat ≤ 'f'.toNat → HexDigit c (10 + (c.toNat - 'a'.toNat))
  | upper {c : Char} : 'A'.toNat ≤ c.toNat → c.toNat ≤ 'F'.toNat → HexDigit c (10 + (c.toNat - 'A'.toNat))

/-- value of a non-empty string of hexadecimal digits -/
inductive HexValue : Str → Nat → Prop
  | one {c d} : HexDigit c d → HexValue [c] d
  | snoc {s n c d} : HexValue s n → HexDigit c d → HexValue (s ++ [c]) (n * 16 + d)

/-- A character reference: a predefined entity or `&#H;` with `H` the hexadecimal code of a character.
(The crate always reads the digits as hexadecimal; as `u32::from_str_radix` does, it allows a leading `+`.) -/
inductive Ref : Str → Char → Prop
  | entity {r c} : Entity r c → Ref r c
  | hex {h c} : HexValue h c.toNat → Ref (c%"&#" ++ h ++ c%";") c
  | hexPlus {h c} : HexValue h c.toNat → Ref (c%"&#+" ++ h ++ c%";") c

/-- One left-to-right pass: references are replaced by their character, everything else is kept. -/
inductive Decodes : Str → Str → Prop
  | nil : Decodes [] []
  | char {c s t} : c ≠ '&' → Decodes s t → Decodes (c :: s) (c :: t)
  | ref {r c s t} : Ref r c → Decodes s t → Decodes (r ++ s) (c :: t)
  | amp {s t} : (∀ r c, Ref r c → ¬ r <+: '&' :: s) → Decodes s t → Decodes ('&' :: s) ('&' :: t)

/-- After each special character the next `k` bytes are whole characters, none of them special. -/
def ClearAfter (special : List Char) (k : Nat) (s : Str) : Prop :=
  ∀ a c b, s = a ++ c :: b → c ∈ special →
    ∃ t b', b = t ++ b' ∧ blen t = k ∧ ∀ x ∈ t, x ∉ special

/-- No character outside ASCII is given by a reference, except by one that ends the string. -/
def WideRefsLast (s : Str) : Prop := ∀ a r c b, s = a ++ r ++ b → Ref r c → c.utf8Size ≠ 1 → b = []

/-- The last character, if any, is ASCII. -/
def AsciiEnd (s : Str) : Prop := ∀ c, s.getLast? = some c → c.utf8Size = 1

/-! ## what `unescape` really does -/

/-- the text that begins at a `&`, before and after looking for a reference there, unless the reference is all of it -/
def AtAmp (s s' : Str) : Prop :=
  (∃ r c rest, Ref r c ∧ rest ≠ [] ∧ s = r ++ rest ∧ s' = c :: rest) ∨
  (c%"&" <+: s ∧ (∀ r c, Ref r c → ¬ r <+: s) ∧ s' = s)

/-- Left-to-right reading that goes on `w` bytes after the position of every `&` (instead of after the character there); `none`
when this is inside a character. -/
inductive Reads (w : Nat) : Str → Option Str → Prop
  /-- no `&` -/
  | plain {s : Str} : '&' ∉ s → Reads w s (some s)
  /-- the next `&` begins a reference that ends the text -/
  | last {a r : Str} {c : Char} : '&' ∉ a → Ref r c → Reads w (a ++ r) (some (a ++ [c]))
  /-- the first `w` bytes from the next `&` on are done -/
  | go {a s u v : Str} {t : Option Str} : '&' ∉ a → AtAmp s (u ++ v) → blen u = w → Reads w v t →
      Reads w (a ++ s) (t.map (fun t => a ++ u ++ t))
  /-- inside a character -/
  | cut {a s s' : Str} : '&' ∉ a → AtAmp s s' → (∀ u v, s' = u ++ v → blen u ≠ w) → Reads w (a ++ s) none

/-- The number of bytes is that of the last character of the whole text. -/
def Unesc (s : Str) (t : Option Str) : Prop := ∃ w, (∀ c, s.getLast? = some c → w = c.utf8Size) ∧ Reads w s t

/-- Texts for which `unescape` returns something. -/
def Given (s : Str) : Prop := ∃ t, Unesc s (some t)

/-- Texts whose references `unescape` decodes: what it does is what a decoder should do. -/
def Legible (s : Str) : Prop := ∀ t, Decodes s t → Unesc s (some t)

/-- The text `s` is read as `t`: as `unescape` does it, hence decoded if it is `Legible`. -/
def ReadAs (s t : Str) : Prop := Unesc s (some t) ∧ (Legible s → Decodes s t)

/-- At every `&`, the character there (decoded) and the characters after it up to `w` bytes are whole characters with no further `&`.
(A reference at the end of the text needs nothing.) -/
def Spaced (w : Nat) (s : Str) : Prop :=
  ∀ a b b', s = a ++ b → AtAmp b b' → ∃ c u v, b' = c :: u ++ v ∧ blen (c :: u) = w ∧ '&' ∉ u

end KissXml.Spec
