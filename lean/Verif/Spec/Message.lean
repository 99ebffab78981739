import Verif.Spec.Errors
/-!
# Specification: numbers in texts
-/
namespace KissXml.Spec

/-- the number that some digits stand for -/
def decimalValue (s : Str) : Nat := s.foldl (fun n c => 10 * n + (c.toNat - 48)) 0

/-- `s` is `n` in decimal notation -/
def Decimal (s : Str) (n : Nat) : Prop :=
  s ≠ [] ∧ (∀ c ∈ s, 48 ≤ c.toNat ∧ c.toNat ≤ 57) ∧ decimalValue s = n ∧ (c%"0" <+: s → s = c%"0")

/-- `s` is `i` in decimal notation, with a sign if it is negative -/
def DecimalInt (s : Str) (i : Int) : Prop := (0 ≤ i ∧ Decimal s i.toNat) ∨ (i < 0 ∧ ∃ t, s = '-' :: t ∧ Decimal t (-i).toNat)

/-- the text has `line L, column C` in it, where `L` and `C` are the numbers `lc` -/
def SaysWhere (t : Str) (lc : Nat × Nat) : Prop :=
  ∃ a b l c, t = a ++ c%"line " ++ l ++ c%", column " ++ c ++ b ∧ Decimal l lc.1 ∧ Decimal c lc.2 ∧
    ∀ d r, b = d :: r → ¬ (48 ≤ d.toNat ∧ d.toNat ≤ 57)

/-- the position that comes with an error -/
def place : Err → Option (Nat × Nat)
  | .parsing _ loc => loc
  | .notSupported _ loc => loc
  | _ => none

/-- the name of the type of an error; index errors and I/O errors do not have it in their texts -/
def kindName : Err → Option Str
  | .parsing _ _ => some c%"ParsingError"
  | .typeCast _ => some c%"TypeCastError"
  | .doesNotExist _ => some c%"DoesNotExistError"
  | .invalidAttributeName _ => some c%"InvalidAttributeName"
  | .invalidElementName _ => some c%"InvalidElementName"
  | .invalidContent _ => some c%"InvalidContent"
  | .notSupported _ _ => some c%"NotSupportedError"
  | .indexOutOfBounds _ _ => none
  | .io => none

/-- what an error is about: the message it was made with, or the name or construct in quotes -/
inductive About : Err → Str → Prop
  | typeCast (m : Str) : About (.typeCast m) m
  | doesNotExist (m : Str) : About (.doesNotExist m) m
  | invalidContent (m : Str) : About (.invalidContent m) m
  | attr (n : Str) : About (.invalidAttributeName n) (c%"'" ++ n ++ c%"'")
  | elem (n : Str) : About (.invalidElementName n) (c%"'" ++ n ++ c%"'")
  | notSupported (w : Str) (loc : Option (Nat × Nat)) : About (.notSupported w loc) (c%"'" ++ w ++ c%"'")
  | prefix_ (p : Str) (loc : Option (Nat × Nat)) : About (.parsing (.undefinedPrefix p) loc) (c%"'" ++ p ++ c%"'")
  | close (t n : Str) (loc : Option (Nat × Nat)) : About (.parsing (.closingMismatch t n) loc) (t ++ c%" does not match <" ++ n ++ c%">")

end KissXml.Spec
