import Verif.Spec.Conform
import Verif.Spec.Layout
import Verif.Spec.Errors
/-!
# Specification: XML 1.0 (Fifth Edition)

The grammar of the W3C recommendation, with its well-formedness constraints and what the constructs mean, for documents without
document type declaration (so the only entities are the predefined ones).  Nothing here refers to the library.  Production numbers
are those of the recommendation.  Line ends (section 2.11) are not an issue for texts without carriage returns.

The grammar is that of the recommendation with `tight = false`; with `tight = true` there is no white space around the `=` of attributes.
-/
namespace KissXml.Spec

/-- [2] `Char` -/
def XChar (c : Char) : Prop := CodeIn [(0x9, 0x9), (0xA, 0xA), (0xD, 0xD), (0x20, 0xD7FF), (0xE000, 0xFFFD), (0x10000, 0x10FFFF)] c

instance (c : Char) : Decidable (XChar c) := inferInstanceAs (Decidable (CodeIn _ c))

/-- [3] `S?` -/
def XSpace (s : Str) : Prop := ∀ c ∈ s, c = ' ' ∨ c = '\t' ∨ c = '\r' ∨ c = '\n'

instance (s : Str) : Decidable (XSpace s) := inferInstanceAs (Decidable (∀ c ∈ s, _))

/-- value of a string of decimal digits -/
inductive DecValue : Str → Nat → Prop
  | one {c : Char} : '0'.toNat ≤ c.toNat → c.toNat ≤ '9'.toNat → DecValue [c] (c.toNat - '0'.toNat)
  | snoc {s : Str} {n : Nat} {c : Char} : DecValue s n → '0'.toNat ≤ c.toNat → c.toNat ≤ '9'.toNat →
      DecValue (s ++ [c]) (n * 10 + (c.toNat - '0'.toNat))

/-- [67] `Reference` and the character it stands for -/
inductive XRef : Str → Char → Prop
  /-- [68] `EntityRef`: the predefined entities (section 4.6) -/
  | entity {r : Str} {c : Char} : Entity r c → XRef r c
  /-- [66] `CharRef`, decimal -/
  | dec {d : Str} {c : Char} : DecValue d c.toNat → XChar c → XRef (c%"&#" ++ d ++ c%";") c
  /-- [66] `CharRef`, hexadecimal -/
  | hex {h : Str} {c : Char} : HexValue h c.toNat → XChar c → XRef (c%"&#x" ++ h ++ c%";") c

/-! ## attributes and tags -/

/-- white space in attribute values is read as spaces (section 3.3.3) -/
def spaceOf (c : Char) : Char := if c = '\t' ∨ c = '\r' ∨ c = '\n' then ' ' else c

/-- [10] `AttValue` without the quotes `q`, and the value it stands for -/
inductive XValue (q : Char) : Str → Str → Prop
  | nil : XValue q [] []
  | char {c : Char} {s t : Str} : XChar c → c ≠ '<' → c ≠ '&' → c ≠ q → XValue q s t → XValue q (c :: s) (spaceOf c :: t)
  | ref {r s t : Str} {c : Char} : XRef r c → XValue q s t → XValue q (r ++ s) (c :: t)

/-- `(S Attribute)*` of [40] and [44], [41] `Attribute`, [25] `Eq`; and the attributes -/
inductive XAttrs (tight : Bool) : Str → List (Str × Str) → Prop
  | nil : XAttrs tight [] []
  | cons {w k e1 e2 raw v r : Str} {q : Char} {l : List (Str × Str)} : XSpace w → w ≠ [] → PlainName k → XSpace e1 → XSpace e2 →
      (tight = true → e1 = [] ∧ e2 = []) → (q = '"' ∨ q = '\'') → XValue q raw v → XAttrs tight r l →
      XAttrs tight (w ++ k ++ e1 ++ c%"=" ++ e2 ++ [q] ++ raw ++ [q] ++ r) ((k, v) :: l)

/-- what is between `<` and `>` or `/>` in [40] `STag` and [44] `EmptyElemTag` (constraint: Unique Att Spec) -/
def XTag (tight : Bool) (n : Str) (l : List (Str × Str)) (s : Str) : Prop :=
  ∃ a w, PlainName n ∧ XAttrs tight a l ∧ (l.map Prod.fst).Nodup ∧ XSpace w ∧ s = n ++ a ++ w

/-! ## content -/

/-- what a document contains -/
inductive Item where
  | elem (name : Str) (attrs : List (Str × Str)) (content : List Item)
  | text (t : Str)
  | comment (t : Str)
  | cdata (t : Str)
  | pi (target data : Str)

/-- characters and references, and the text they stand for -/
inductive XText : Str → Str → Prop
  | nil : XText [] []
  | char {c : Char} {s t : Str} : XChar c → c ≠ '<' → c ≠ '&' → XText s t → XText (c :: s) (c :: t)
  | ref {r s t : Str} {c : Char} : XRef r c → XText s t → XText (r ++ s) (c :: t)

/-- [14] `CharData` and references between other things -/
def XRun (s : Str) (l : List Item) : Prop :=
  ¬ c%"]]>" <:+: s ∧ ∃ t, XText s t ∧ ((s = [] ∧ l = []) ∨ (s ≠ [] ∧ l = [.text t]))

/-- [15] `Comment`, between `<!--` and `-->` -/
inductive XComment : Str → Prop
  | nil : XComment []
  | char {c : Char} {s : Str} : XChar c → c ≠ '-' → XComment s → XComment (c :: s)
  | dash {c : Char} {s : Str} : XChar c → c ≠ '-' → XComment s → XComment ('-' :: c :: s)

/-- [20] `CData` -/
def XCData (s : Str) : Prop := (∀ c ∈ s, XChar c) ∧ ¬ c%"]]>" <:+: s

/-- [17] `PITarget` -/
def XTarget (n : Str) : Prop :=
  PlainName n ∧ ∀ a b c, n = [a, b, c] → ¬ ((a = 'x' ∨ a = 'X') ∧ (b = 'm' ∨ b = 'M') ∧ (c = 'l' ∨ c = 'L'))

/-- [16] `PI` -/
def XPi (n d s : Str) : Prop :=
  XTarget n ∧ (∀ c ∈ d, XChar c) ∧ ¬ c%"?>" <:+: d ∧
    ((d = [] ∧ s = c%"<?" ++ n ++ c%"?>") ∨ ∃ w, XSpace w ∧ w ≠ [] ∧ s = c%"<?" ++ n ++ w ++ d ++ c%"?>")

mutual
/-- [39] `element`, [15] `Comment`, [18] `CDSect`, [16] `PI` -/
inductive XPiece (tight : Bool) : Str → Item → Prop
  | empty {n s : Str} {l : List (Str × Str)} : XTag tight n l s → XPiece tight (c%"<" ++ s ++ c%"/>") (.elem n l [])
  /-- constraint: Element Type Match -/
  | elem {n s c w : Str} {l : List (Str × Str)} {i : List Item} : XTag tight n l s → XContent tight c i → XSpace w →
      XPiece tight (c%"<" ++ s ++ c%">" ++ c ++ c%"</" ++ n ++ w ++ c%">") (.elem n l i)
  | comment {s : Str} : XComment s → XPiece tight (c%"<!--" ++ s ++ c%"-->") (.comment s)
  | cdata {s : Str} : XCData s → XPiece tight (c%"<![CDATA[" ++ s ++ c%"]]>") (.cdata s)
  | pi {n d s : Str} : XPi n d s → XPiece tight s (.pi n d)
/-- [43] `content` -/
inductive XContent (tight : Bool) : Str → List Item → Prop
  | last {s : Str} {l : List Item} : XRun s l → XContent tight s l
  | more {s p r : Str} {l m : List Item} {i : Item} : XRun s l → XPiece tight p i → XContent tight r m → XContent tight (s ++ p ++ r) (l ++ i :: m)
end

/-! ## documents -/

/-- `S name Eq` and something in quotes -/
def XPseudo (name value s : Str) : Prop :=
  ∃ w e1 e2 q, XSpace w ∧ w ≠ [] ∧ XSpace e1 ∧ XSpace e2 ∧ (q = '"' ∨ q = '\'') ∧ s = w ++ name ++ e1 ++ c%"=" ++ e2 ++ [q] ++ value ++ [q]

/-- [26] `VersionNum` -/
def XVersion (v : Str) : Prop := ∃ d, v = c%"1." ++ d ∧ d ≠ [] ∧ ∀ c ∈ d, '0'.toNat ≤ c.toNat ∧ c.toNat ≤ '9'.toNat

/-- [81] `EncName` -/
def XEncoding (v : Str) : Prop :=
  ∃ c t, v = c :: t ∧ CodeIn [(0x41, 0x5A), (0x61, 0x7A)] c ∧
    ∀ x ∈ t, CodeIn [(0x41, 0x5A), (0x61, 0x7A), (0x30, 0x39), (0x2E, 0x2E), (0x5F, 0x5F), (0x2D, 0x2D)] x

/-- [23] `XMLDecl` -/
def XDecl (s : Str) : Prop :=
  ∃ v e sd w, (∃ x, XVersion x ∧ XPseudo c%"version" x v) ∧ (e = [] ∨ ∃ x, XEncoding x ∧ XPseudo c%"encoding" x e) ∧
    (sd = [] ∨ ∃ x, (x = c%"yes" ∨ x = c%"no") ∧ XPseudo c%"standalone" x sd) ∧ XSpace w ∧ s = c%"<?xml" ++ v ++ e ++ sd ++ w ++ c%"?>"

/-- [27] `Misc*` and the comments and processing instructions in it -/
inductive XMisc : Str → List Item → Prop
  | nil : XMisc [] []
  | space {w r : Str} {l : List Item} : XSpace w → XMisc r l → XMisc (w ++ r) l
  | comment {c r : Str} {l : List Item} : XComment c → XMisc r l → XMisc (c%"<!--" ++ c ++ c%"-->" ++ r) (.comment c :: l)
  | pi {n d s r : Str} {l : List Item} : XPi n d s → XMisc r l → XMisc (s ++ r) (.pi n d :: l)

/-- [1] `document`: its declaration (or nothing), what is before the root element, the root element, what is after it -/
def XDocument (tight : Bool) (s dec : Str) (before : List Item) (n : Str) (l : List (Str × Str)) (i after : List Item) : Prop :=
  ∃ m e m', (dec = [] ∨ XDecl dec) ∧ XMisc m before ∧ XPiece tight e (.elem n l i) ∧ XMisc m' after ∧ s = dec ++ m ++ e ++ m'

/-- documents without document type declaration that are well-formed XML -/
def XmlWellFormed (s : Str) : Prop := ∃ dec before n l i after, XDocument false s dec before n l i after

/-! ## documents of the library -/

/-- characters that XML allows; no carriage returns, which readers turn into line feeds -/
def XPlain (s : Str) : Prop := ∀ c ∈ s, XChar c ∧ c ≠ '\r'

instance (s : Str) : Decidable (XPlain s) := inferInstanceAs (Decidable (∀ c ∈ s, _))

/-- nodes that can be written in XML -/
def XmlNode : Node → Prop
  | .text t => t ≠ [] ∧ XPlain t
  | .comment c => XComment c ∧ '\r' ∉ c
  | .cdata c => XCData c ∧ '\r' ∉ c
  | .element e => PlainName (qname e) ∧ (∀ k v, e.attrs.get k = some v → PlainName k ∧ XPlain v) ∧
      ∀ a b x y, e.children ≠ a ++ .text x :: .text y :: b

/-- the strings that a node is made of: a text, a comment, a CDATA section, the name of an element, names and values of attributes -/
def Carries : Node → Str → Prop
  | .text t, s => s = t
  | .comment c, s => s = c
  | .cdata c, s => s = c
  | .element e, s => s = qname e ∨ ∃ k v, e.attrs.get k = some v ∧ (s = k ∨ s = v)

/-- what is required of nodes apart from the characters: names are XML names, no carriage returns, no `--` in comments, which do not
end in `-`, no `]]>` in CDATA sections, no empty texts or texts side by side -/
def XmlShape : Node → Prop
  | .text t => t ≠ [] ∧ '\r' ∉ t
  | .comment c => ¬ c%"--" <:+: c ∧ ¬ c%"-" <:+ c ∧ '\r' ∉ c
  | .cdata c => ¬ c%"]]>" <:+: c ∧ '\r' ∉ c
  | .element e => PlainName (qname e) ∧ (∀ k v, e.attrs.get k = some v → PlainName k ∧ '\r' ∉ v) ∧
      ∀ a b x y, e.children ≠ a ++ .text x :: .text y :: b

/-- The content `l` of a document shows the nodes `ns`; with `true`, among further white space.  (White space is only added to
elements without text in them.) -/
inductive Shows : Bool → List Item → List Node → Prop
  | nil {b : Bool} : Shows b [] []
  | blank {t : Str} {l : List Item} {ns : List Node} : XSpace t → Shows true l ns → Shows true (.text t :: l) ns
  | text {b : Bool} {t : Str} {l : List Item} {ns : List Node} : Shows b l ns → Shows b (.text t :: l) (.text t :: ns)
  | comment {b : Bool} {t : Str} {l : List Item} {ns : List Node} : Shows b l ns → Shows b (.comment t :: l) (.comment t :: ns)
  | cdata {b : Bool} {t : Str} {l : List Item} {ns : List Node} : Shows b l ns → Shows b (.cdata t :: l) (.cdata t :: ns)
  | elem {b b' : Bool} {e : Element} {as : List (Str × Str)} {i l : List Item} {ns : List Node} :
      (∀ k v, (k, v) ∈ as ↔ ∃ x, e.attrs.get k = some x ∧ v = x.map spaceOf) →
      (b' = true → ∀ t, Node.text t ∉ e.children) → Shows b' i e.children → Shows b l ns →
      Shows b (.elem (qname e) as i :: l) (.element e :: ns)

/-! ## documents that the library reads -/

/-- white space to Rust is white space to XML, without carriage returns; no numeric references -/
structure Nice (s : Str) : Prop where
  spaces : ∀ c ∈ s, isWs c = true → c = ' ' ∨ c = '\t' ∨ c = '\n'
  refs : ¬ c%"&#" <:+: s

/-- texts and values that end in ASCII or have none of the characters that entities stand for -/
def EasyText (t : Str) : Prop := AsciiEnd t ∨ ∀ c ∈ t, c ∉ ['&', '<', '>', '\'', '"']

/-- comments that `-->` cannot end too early -/
def EasyComment (c : Str) : Prop := ¬ c%">" <+: c ∧ ¬ c%"->" <+: c

mutual
/-- Names whose local parts begin with an ASCII letter or `_`; easy texts, values and comments; no processing
instructions. -/
def EasyItem : Item → Prop
  | .elem n as i => ElemName n ∧ (∀ kv ∈ as, ApiName kv.1 ∧ EasyText kv.2) ∧ EasyItems i
  | .text t => EasyText t
  | .comment c => EasyComment c
  | .cdata _ => True
  | .pi _ _ => False
/-- the same for lists -/
def EasyItems : List Item → Prop
  | [] => True
  | a :: l => EasyItem a ∧ EasyItems l
end

mutual
/-- no processing instructions, easy comments -/
def ReadItem : Item → Prop
  | .elem _ _ i => ReadItems i
  | .text _ => True
  | .comment c => EasyComment c
  | .cdata _ => True
  | .pi _ _ => False
/-- the same for lists -/
def ReadItems : List Item → Prop
  | [] => True
  | a :: l => ReadItem a ∧ ReadItems l
end

/-- before the root: easy comments, and processing instructions that do not look like a declaration -/
def ClearMisc : Item → Prop
  | .comment c => EasyComment c
  | .pi t _ => ¬ c%"xml" <+: t
  | _ => True

/-- the value `u` is what `unescape` makes of some way to write the attribute value `v` -/
def ValueRead (v u : Str) : Prop := ∃ q raw, (q = '"' ∨ q = '\'') ∧ XValue q raw v ∧ Unesc raw (some u)

/-- the attributes have the names that they have in XML, and the values that `unescape` makes of what is written -/
structure AttrsRead (as : List (Str × Str)) (e : Element) : Prop where
  all : ∀ k v, (k, v) ∈ as → ∃ u, e.attrs.get k = some u ∧ ValueRead v u
  only : ∀ k u, e.attrs.get k = some u → ∃ v, (k, v) ∈ as ∧ ValueRead v u

/-- The nodes `ns` are what is in the content `l`: the same elements, names, attributes, comments, CDATA sections, in the same order;
texts and attribute values are what `unescape` makes of what is written, and blank texts are left out. -/
inductive ItemsRead : List Item → List Node → Prop
  | nil : ItemsRead [] []
  | text {raw t : Str} {l : List Item} {tl ns : List Node} : XText raw t → TextBit (fun s u => Unesc s (some u)) raw tl → ItemsRead l ns →
      ItemsRead (.text t :: l) (tl ++ ns)
  | comment {t : Str} {l : List Item} {ns : List Node} : ItemsRead l ns → ItemsRead (.comment t :: l) (.comment t :: ns)
  | cdata {t : Str} {l : List Item} {ns : List Node} : ItemsRead l ns → ItemsRead (.cdata t :: l) (.cdata t :: ns)
  | elem {e : Element} {as : List (Str × Str)} {i l : List Item} {ns : List Node} : AttrsRead as e → ItemsRead i e.children → ItemsRead l ns →
      ItemsRead (.elem (qname e) as i :: l) (.element e :: ns)

/-- The nodes `ns` are what is in the content `l`, without the texts that are white space only.  (In attribute values, white space is
kept as written.) -/
inductive Taken : List Item → List Node → Prop
  | nil : Taken [] []
  | blank {t : Str} {l : List Item} {ns : List Node} : XSpace t → Taken l ns → Taken (.text t :: l) ns
  | text {t : Str} {l : List Item} {ns : List Node} : ¬ XSpace t → Taken l ns → Taken (.text t :: l) (.text t :: ns)
  | comment {t : Str} {l : List Item} {ns : List Node} : Taken l ns → Taken (.comment t :: l) (.comment t :: ns)
  | cdata {t : Str} {l : List Item} {ns : List Node} : Taken l ns → Taken (.cdata t :: l) (.cdata t :: ns)
  | elem {e : Element} {as : List (Str × Str)} {i l : List Item} {ns : List Node} :
      (∀ k v, (k, v) ∈ as ↔ ∃ x, e.attrs.get k = some x ∧ v = x.map spaceOf) → Taken i e.children → Taken l ns →
      Taken (.elem (qname e) as i :: l) (.element e :: ns)

end KissXml.Spec
