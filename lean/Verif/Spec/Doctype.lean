import Verif.Spec.Xml
/-!
# Specification: document type declarations of XML 1.0 (Fifth Edition)

The grammar of the W3C recommendation for `doctypedecl` with its internal subset.  Production numbers are those of the recommendation.
-/
namespace KissXml.Spec

/-- a set of strings -/
abbrev Lang := Str → Prop

/-- one after the other -/
def inOrder : List Lang → Lang
  | [] => fun s => s = []
  | A :: l => fun s => ∃ a b, A a ∧ inOrder l b ∧ s = a ++ b

/-- one of these -/
def anyOf (l : List Lang) : Lang := fun s => ∃ A ∈ l, A s

/-- `A?` -/
def maybe (A : Lang) : Lang := fun s => s = [] ∨ A s

/-- `A*` -/
inductive Many (A : Lang) : Lang
  | nil : Many A []
  | cons {a s : Str} : A a → Many A s → Many A (a ++ s)

/-- one string -/
def word (w : Str) : Lang := fun s => s = w

/-- one character -/
def oneChar (p : Char → Prop) : Lang := fun s => ∃ c, p c ∧ s = [c]

/-- [3] `S` -/
def dtSpace : Lang := fun s => XSpace s ∧ s ≠ []
/-- `S?` -/
def dtSpaces : Lang := XSpace
/-- [7] `Nmtoken` -/
def dtToken : Lang := fun s => s ≠ [] ∧ ∀ c ∈ s, CodeIn startCodes c ∨ CodeIn moreCodes c
/-- [69] `PEReference` -/
def dtPe : Lang := inOrder [word c%"%", PlainName, word c%";"]
/-- [67] `Reference`: [68] `EntityRef`, [66] `CharRef` -/
def dtRef : Lang := anyOf [inOrder [word c%"&", PlainName, word c%";"],
  inOrder [word c%"&#", oneChar (CodeIn [(0x30, 0x39)]), Many (oneChar (CodeIn [(0x30, 0x39)])), word c%";"],
  inOrder [word c%"&#x", oneChar (CodeIn [(0x30, 0x39), (0x41, 0x46), (0x61, 0x66)]),
    Many (oneChar (CodeIn [(0x30, 0x39), (0x41, 0x46), (0x61, 0x66)])), word c%";"]]

/-- something in quotes; what is inside may depend on the quotes -/
def dtQuoted (A : Char → Lang) : Lang := anyOf [inOrder [word c%"\"", A '"', word c%"\""], inOrder [word c%"'", A '\'', word c%"'"]]

/-- [9] `EntityValue` -/
def dtEntityValue : Lang := dtQuoted fun q => Many (anyOf [oneChar fun c => XChar c ∧ c ≠ '%' ∧ c ≠ '&' ∧ c ≠ q, dtPe, dtRef])
/-- [10] `AttValue` -/
def dtAttValue : Lang := dtQuoted fun q => Many (anyOf [oneChar fun c => XChar c ∧ c ≠ '<' ∧ c ≠ '&' ∧ c ≠ q, dtRef])
/-- [11] `SystemLiteral` -/
def dtSystem : Lang := dtQuoted fun q => Many (oneChar fun c => XChar c ∧ c ≠ q)
/-- [13] `PubidChar` -/
def PubidChar (c : Char) : Prop :=
  c = ' ' ∨ c = '\r' ∨ c = '\n' ∨ CodeIn [(0x61, 0x7A), (0x41, 0x5A), (0x30, 0x39)] c ∨ c ∈ c%"-'()+,./:=?;!*#@$_%"
/-- [12] `PubidLiteral` -/
def dtPubid : Lang := dtQuoted fun q => Many (oneChar fun c => PubidChar c ∧ c ≠ q)

/-- [75] `ExternalID` -/
def dtExternal : Lang := anyOf [inOrder [word c%"SYSTEM", dtSpace, dtSystem], inOrder [word c%"PUBLIC", dtSpace, dtPubid, dtSpace, dtSystem]]
/-- [83] `PublicID` -/
def dtPublic : Lang := inOrder [word c%"PUBLIC", dtSpace, dtPubid]

/-- `('?' | '*' | '+')?` -/
def dtTimes : Lang := maybe (anyOf [word c%"?", word c%"*", word c%"+"])

mutual
/-- [48] `cp` -/
inductive DtCp : Str → Prop
  | name {n t : Str} : PlainName n → dtTimes t → DtCp (n ++ t)
  | group {g t : Str} : DtGroup g → dtTimes t → DtCp (g ++ t)
/-- [49] `choice`, [50] `seq` -/
inductive DtGroup : Str → Prop
  | choice {w a r v : Str} : XSpace w → DtCp a → DtMore '|' r → r ≠ [] → XSpace v → DtGroup (c%"(" ++ w ++ a ++ r ++ v ++ c%")")
  | seq {w a r v : Str} : XSpace w → DtCp a → DtMore ',' r → XSpace v → DtGroup (c%"(" ++ w ++ a ++ r ++ v ++ c%")")
/-- `(S? sep S? cp)*` -/
inductive DtMore : Char → Str → Prop
  | nil {sep : Char} : DtMore sep []
  | cons {sep : Char} {w v a r : Str} : XSpace w → XSpace v → DtCp a → DtMore sep r → DtMore sep (w ++ [sep] ++ v ++ a ++ r)
end

/-- [51] `Mixed` -/
def dtMixed : Lang := anyOf [
  inOrder [word c%"(", dtSpaces, word c%"#PCDATA", Many (inOrder [dtSpaces, word c%"|", dtSpaces, PlainName]), dtSpaces, word c%")*"],
  inOrder [word c%"(", dtSpaces, word c%"#PCDATA", dtSpaces, word c%")"]]
/-- [46] `contentspec`, [47] `children` -/
def dtContent : Lang := anyOf [word c%"EMPTY", word c%"ANY", dtMixed, inOrder [DtGroup, dtTimes]]
/-- [45] `elementdecl` -/
def dtElement : Lang := inOrder [word c%"<!ELEMENT", dtSpace, PlainName, dtSpace, dtContent, dtSpaces, word c%">"]

/-- [54] `AttType`, [55]-[59] -/
def dtAttType : Lang := anyOf [word c%"CDATA", word c%"ID", word c%"IDREF", word c%"IDREFS", word c%"ENTITY", word c%"ENTITIES",
  word c%"NMTOKEN", word c%"NMTOKENS",
  inOrder [word c%"NOTATION", dtSpace, word c%"(", dtSpaces, PlainName, Many (inOrder [dtSpaces, word c%"|", dtSpaces, PlainName]), dtSpaces, word c%")"],
  inOrder [word c%"(", dtSpaces, dtToken, Many (inOrder [dtSpaces, word c%"|", dtSpaces, dtToken]), dtSpaces, word c%")"]]
/-- [60] `DefaultDecl` -/
def dtDefault : Lang := anyOf [word c%"#REQUIRED", word c%"#IMPLIED", inOrder [maybe (inOrder [word c%"#FIXED", dtSpace]), dtAttValue]]
/-- [52] `AttlistDecl`, [53] `AttDef` -/
def dtAttlist : Lang := inOrder [word c%"<!ATTLIST", dtSpace, PlainName,
  Many (inOrder [dtSpace, PlainName, dtSpace, dtAttType, dtSpace, dtDefault]), dtSpaces, word c%">"]

/-- [70] `EntityDecl`, [71]-[74], [76] -/
def dtEntity : Lang := anyOf [
  inOrder [word c%"<!ENTITY", dtSpace, PlainName, dtSpace,
    anyOf [dtEntityValue, inOrder [dtExternal, maybe (inOrder [dtSpace, word c%"NDATA", dtSpace, PlainName])]], dtSpaces, word c%">"],
  inOrder [word c%"<!ENTITY", dtSpace, word c%"%", dtSpace, PlainName, dtSpace, anyOf [dtEntityValue, dtExternal], dtSpaces, word c%">"]]
/-- [82] `NotationDecl` -/
def dtNotation : Lang := inOrder [word c%"<!NOTATION", dtSpace, PlainName, dtSpace, anyOf [dtExternal, dtPublic], dtSpaces, word c%">"]

/-- [28b] `intSubset`, [28a] `DeclSep`, [29] `markupdecl`, and the comments and processing instructions in it -/
inductive DtSubset : Str → List Item → Prop
  | nil : DtSubset [] []
  | other {a r : Str} {l : List Item} : anyOf [dtSpace, dtPe, dtElement, dtAttlist, dtEntity, dtNotation] a → DtSubset r l → DtSubset (a ++ r) l
  | comment {c r : Str} {l : List Item} : XComment c → DtSubset r l → DtSubset (c%"<!--" ++ c ++ c%"-->" ++ r) (.comment c :: l)
  | pi {n d s r : Str} {l : List Item} : XPi n d s → DtSubset r l → DtSubset (s ++ r) (.pi n d :: l)

/-- [28] `doctypedecl`, between `<!DOCTYPE` and `>`, and the comments and processing instructions in it -/
def Doctype (m : Str) (l : List Item) : Prop :=
  ∃ a b, inOrder [dtSpace, PlainName, maybe (inOrder [dtSpace, dtExternal]), dtSpaces] a ∧
    ((b = [] ∧ l = []) ∨ ∃ s w, DtSubset s l ∧ XSpace w ∧ b = c%"[" ++ s ++ c%"]" ++ w) ∧ m = a ++ b

/-- [1] `document` with a document type declaration `<!DOCTYPE` `m` `>` that contains `l`: its declaration (or nothing), what else is before
the root element, the source of the root element and what it is, what is after it -/
def DtDocument (tight : Bool) (s dec m : Str) (l before : List Item) (e n : Str) (as : List (Str × Str)) (i after : List Item) : Prop :=
  ∃ m1 m2 m3 b1 b2, (dec = [] ∨ XDecl dec) ∧ XMisc m1 b1 ∧ Doctype m l ∧ XMisc m2 b2 ∧ XPiece tight e (.elem n as i) ∧ XMisc m3 after ∧
    before = b1 ++ b2 ∧ s = dec ++ m1 ++ (c%"<!DOCTYPE" ++ m ++ c%">") ++ m2 ++ e ++ m3

/-- documents with document type declaration that follow the grammar of XML -/
def DtWellFormed (s : Str) : Prop := ∃ dec m l before e n as i after, DtDocument false s dec m l before e n as i after

/-! ## how the library looks at it -/

/-- Quotes are closed, and outside of quotes every `>` comes after a `<` of its own and the other way round.  (Comments and processing
instructions are not told apart from the rest.) -/
structure Neutral (s : Str) : Prop where
  quotes : qstate none s = none
  closed : unquoted '<' none s = unquoted '>' none s
  order : ∀ a, a <+: s → unquoted '>' none a ≤ unquoted '<' none a

/-- comments and processing instructions that do not disturb -/
def NeutralItem : Item → Prop
  | .comment c => Neutral c
  | .pi _ d => Neutral d
  | _ => True

end KissXml.Spec
