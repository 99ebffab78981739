import Verif.Spec.Lex
/-!
# Specification: character encodings

The W3C recommendation (4.3.3, appendix F) says how the characters of a document are written as bytes: every processor has to read UTF-8,
with or without a byte order mark, and UTF-16 with a byte order mark of either order. The mark is not part of the document.
-/
namespace KissXml.Spec

/-- the byte order mark -/
def bom : Char := Char.ofNat 0xFEFF

/-- the UTF-16 code units of a character -/
def utf16Units (c : Char) : List Nat :=
  if c.toNat < 0x10000 then [c.toNat] else [0xD800 + (c.toNat - 0x10000) / 1024, 0xDC00 + (c.toNat - 0x10000) % 1024]

/-- the two bytes of a code unit, the high one first if `big` -/
def unitBytes (big : Bool) (u : Nat) : List UInt8 := if big then [.ofNat (u / 256), .ofNat (u % 256)] else [.ofNat (u % 256), .ofNat (u / 256)]

/-- the string in UTF-16 -/
def utf16 (big : Bool) (s : Str) : ByteArray := ((s.flatMap utf16Units).flatMap (unitBytes big)).toByteArray

end KissXml.Spec
