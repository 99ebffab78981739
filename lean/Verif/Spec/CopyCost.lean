import Verif.Spec.Escape
/-!
# Specification: what is copied to decode references by name
-/
namespace KissXml.Spec

/-- what follows a reference by name, without its ampersand -/
def behindName : Str → Option Str
  | 'a' :: 'm' :: 'p' :: ';' :: r => some r
  | 'l' :: 't' :: ';' :: r => some r
  | 'g' :: 't' :: ';' :: r => some r
  | 'a' :: 'p' :: 'o' :: 's' :: ';' :: r => some r
  | 'q' :: 'u' :: 'o' :: 't' :: ';' :: r => some r
  | _ => none

/-- For every ampersand the text from there on; if it begins a reference by name, twice what follows the reference, and one for the character. -/
def copies : Str → Nat
  | [] => 0
  | c :: s =>
    (if c = '&' then 1 + blen s + (match behindName s with | some r => 2 * blen r + 1 | none => 0) else 0) + copies s

end KissXml.Spec
