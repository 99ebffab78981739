import Verif.Model.Dom
/-!
# Hashing, and the derived order of declarations and document types

What is fed to the hasher: a list of calls of its methods.
-/
namespace KissXml

/-- a call of a method of `std::hash::Hasher` -/
inductive HashCall where
  | write (bytes : ByteArray)
  | writeU8 (n : Nat)
  | writeIsize (n : Int)

/-- `impl Hash for str` (std): the bytes and `0xff`. -/
noncomputable def hashStr (s : Str) : List HashCall := [.write s.utf8Encode, .writeU8 0xff]

/-- `impl Hash for Option<String>` (derived in std): the discriminant, and the value. -/
noncomputable def hashOptStr : Option Str → List HashCall
  | none => [.writeIsize 0]
  | some s => .writeIsize 1 :: hashStr s

/-- `impl Hash for Element`, dom.rs:1611-1616. -/
noncomputable def ElementF.hash (e : Element) : List HashCall := hashStr e.name ++ hashOptStr e.xmlns
/-- `impl Hash for Text`, dom.rs:1743-1747. -/
noncomputable def textHash (t : Str) : List HashCall := hashStr t
/-- `impl Hash for Comment`, dom.rs:1875-1879. -/
noncomputable def commentHash (c : Str) : List HashCall := hashStr c
/-- `impl Hash for CData`, dom.rs:2007-2011. -/
noncomputable def cdataHash (c : Str) : List HashCall := hashStr c
/-- derived `Hash` of `Declaration`, dom.rs:2029. -/
noncomputable def Declaration.hash (d : Declaration) : List HashCall := hashStr d.declStr
/-- derived `Hash` of `DTD`, dom.rs:2072. -/
noncomputable def DTD.hash (d : DTD) : List HashCall := hashStr d.dtdStr

/-- derived `Ord` and `PartialOrd` of `Declaration`, dom.rs:2029. -/
def Declaration.cmp (a b : Declaration) : Ordering := strCmp a.declStr b.declStr
/-- derived `Ord` and `PartialOrd` of `DTD`, dom.rs:2072. -/
def DTD.cmp (a b : DTD) : Ordering := strCmp a.dtdStr b.dtdStr

end KissXml
