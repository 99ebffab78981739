import Verif.Model.Str
/-!
# Specification: UTF-8 bytes, the byte order of strings, the attribute order
-/
namespace KissXml.Spec

/-- UTF-8 encoding of one scalar value (RFC 3629, section 3) -/
def utf8 (c : Char) : List Nat :=
  let n := c.toNat
  if n < 0x80 then [n]
  else if n < 0x800 then [0xC0 + n / 64, 0x80 + n % 64]
  else if n < 0x10000 then [0xE0 + n / 4096, 0x80 + n / 64 % 64, 0x80 + n % 64]
  else [0xF0 + n / 262144, 0x80 + n / 4096 % 64, 0x80 + n / 64 % 64, 0x80 + n % 64]

/-- the bytes of a string -/
def bytes (s : Str) : List Nat := s.flatMap utf8

/-- lexicographic "less than" on byte strings -/
inductive BytesLt : List Nat → List Nat → Prop
  | nil {b s} : BytesLt [] (b :: s)
  | lt {a b s t} : a < b → BytesLt (a :: s) (b :: t)
  | cons {a s t} : BytesLt s t → BytesLt (a :: s) (a :: t)

/-- does the name start with `xmlns`? -/
def IsXmlns (k : Str) : Prop := c%"xmlns" <+: k

/-- the documented attribute order: `xmlns...` first, then by name (byte order) -/
def AttrLt (a b : Str) : Prop :=
  (IsXmlns a ∧ ¬ IsXmlns b) ∨ ((IsXmlns a ↔ IsXmlns b) ∧ BytesLt (bytes a) (bytes b))

end KissXml.Spec
