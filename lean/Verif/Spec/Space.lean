import Verif.Model.Dom
/-!
# Specification: white space
-/
namespace KissXml.Spec

/-- The characters with the Unicode property `White_Space`: tab, line feed, line tabulation, form feed, carriage return, space,
next line, no-break space, ogham space mark, the eleven spaces from en quad to hair space, line and paragraph separator, narrow
no-break space, medium mathematical space, ideographic space. -/
def spaceCodes : List Nat :=
  [0x9, 0xA, 0xB, 0xC, 0xD, 0x20, 0x85, 0xA0, 0x1680, 0x2000, 0x2001, 0x2002, 0x2003, 0x2004, 0x2005, 0x2006, 0x2007, 0x2008,
   0x2009, 0x200A, 0x2028, 0x2029, 0x202F, 0x205F, 0x3000]

/-- Unicode white space -/
def WhiteSpace (c : Char) : Prop := c.toNat ∈ spaceCodes

instance (c : Char) : Decidable (WhiteSpace c) := inferInstanceAs (Decidable (_ ∈ _))

/-- not empty, and only white space -/
def Gap (s : Str) : Prop := s ≠ [] ∧ ∀ c ∈ s, WhiteSpace c

end KissXml.Spec
