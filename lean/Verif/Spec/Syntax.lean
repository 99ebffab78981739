import Verif.Spec.Tree
/-!
# Specification: concrete XML syntax

Concrete documents of a subset of XML, with every piece of layout recorded, the characters they are written with (`src`),
when they are well formed (`Ok`) and the document they denote (`Den`).  Production numbers are those of XML 1.0.
-/
namespace KissXml.Spec

/-! ## names -/

/-- code points of production [4] `NameStartChar` -/
def startCodes : List (Nat × Nat) :=
  [(0x3A, 0x3A), (0x41, 0x5A), (0x5F, 0x5F), (0x61, 0x7A), (0xC0, 0xD6), (0xD8, 0xF6), (0xF8, 0x2FF), (0x370, 0x37D),
   (0x37F, 0x1FFF), (0x200C, 0x200D), (0x2070, 0x218F), (0x2C00, 0x2FEF), (0x3001, 0xD7FF), (0xF900, 0xFDCF),
   (0xFDF0, 0xFFFD), (0x10000, 0xEFFFF)]

/-- code points that production [4a] `NameChar` adds -/
def moreCodes : List (Nat × Nat) :=
  [(0x2D, 0x2D), (0x2E, 0x2E), (0x30, 0x39), (0xB7, 0xB7), (0x300, 0x36F), (0x203F, 0x2040)]

/-- the code of `c` lies in one of the ranges -/
def CodeIn (l : List (Nat × Nat)) (c : Char) : Prop := ∃ r ∈ l, r.1 ≤ c.toNat ∧ c.toNat ≤ r.2

instance (l : List (Nat × Nat)) (c : Char) : Decidable (CodeIn l c) := inferInstanceAs (Decidable (∃ r ∈ l, _))

/-- [5] `Name`, without the one name character that is white space to Rust (U+1680) -/
def XmlName (n : Str) : Prop :=
  ∃ c t, n = c :: t ∧ CodeIn startCodes c ∧ (∀ x ∈ t, CodeIn startCodes x ∨ CodeIn moreCodes x) ∧ ∀ x ∈ n, isWs x = false

/-- `NCName` of the namespaces recommendation -/
def NcName (n : Str) : Prop := XmlName n ∧ ':' ∉ n

/-- the element name is `local` or, up to the first colon, `prefix:local`, and the API allows the local part -/
def ApiLocal (n : Str) : Prop := (':' ∉ n ∧ ApiName n) ∨ ∃ p l, n = p ++ ':' :: l ∧ ':' ∉ p ∧ ApiName l

/-- an element name that the API allows -/
def ElemName (n : Str) : Prop := XmlName n ∧ ApiLocal n

/-- how many bytes the last character has beyond the first -/
def lastExtra (s : Str) : Nat := match s.getLast? with | none => 0 | some z => z.utf8Size - 1

/-! ## tags -/

/-- an attribute as written: white space, name, white space, `=`, white space, quote, characters, quote -/
structure CAttr where
  sp : Str
  name : Str
  sp1 : Str
  sp2 : Str
  quote : Char
  raw : Str
deriving DecidableEq

/-- [41] `Attribute` (with the white space before it) -/
def CAttr.src (a : CAttr) : Str := a.sp ++ a.name ++ a.sp1 ++ c%"=" ++ a.sp2 ++ [a.quote] ++ a.raw ++ [a.quote]

/-- only white space -/
def AllWs (s : Str) : Prop := ∀ c ∈ s, isWs c = true

instance (s : Str) : Decidable (AllWs s) := inferInstanceAs (Decidable (∀ c ∈ s, _))

/-- well-formed attributes, with values of the given kind -/
structure CAttr.OkFor (P : Str → Prop) (a : CAttr) : Prop where
  sp : AllWs a.sp ∧ a.sp ≠ []
  name : XmlName a.name
  sp1 : AllWs a.sp1
  sp2 : AllWs a.sp2
  quote : a.quote = '"' ∨ a.quote = '\''
  raw : a.quote ∉ a.raw
  value : P a.raw

/-- well-formed attributes that the library decodes -/
abbrev CAttr.Ok (a : CAttr) : Prop := a.OkFor Legible

/-- no white space around the `=` -/
def CAttr.Tight (a : CAttr) : Prop := a.sp1 = [] ∧ a.sp2 = []

/-- Where the library allows white space around `=`: the attributes fall into groups; each group is a single attribute
without such space, or begins with one and ends with an attribute in the same quotes. -/
inductive Layout : List CAttr → Prop
  | nil : Layout []
  | one {a : CAttr} {l : List CAttr} : a.Tight → Layout l → Layout (a :: l)
  | span {a b : CAttr} {m l : List CAttr} : a.Tight → b.quote = a.quote → Layout l → Layout (a :: (m ++ b :: l))

/-- the inside of a start or empty-element tag: name, attributes, white space -/
structure CTag where
  name : Str
  attrs : List CAttr
  sp : Str
deriving DecidableEq

/-- what is between `<` and `>` or `/>` -/
def CTag.body (t : CTag) : Str := t.name ++ t.attrs.flatMap CAttr.src ++ t.sp
/-- [40] `STag` -/
def CTag.start (t : CTag) : Str := c%"<" ++ t.body ++ c%">"
/-- [44] `EmptyElemTag` -/
def CTag.empty (t : CTag) : Str := c%"<" ++ t.body ++ c%"/>"
/-- [42] `ETag` -/
def closing (n sp : Str) : Str := c%"</" ++ n ++ sp ++ c%">"

/-- well-formed tags, with values and layout of the given kind -/
structure CTag.OkFor (P : Str → Prop) (L : CTag → Prop) (t : CTag) : Prop where
  name : XmlName t.name
  attrs : ∀ a ∈ t.attrs, a.OkFor P
  layout : L t
  distinct : (t.attrs.map CAttr.name).Nodup
  sp : AllWs t.sp

/-- the API allows the names of the element and of the attributes -/
structure CTag.Allowed (t : CTag) : Prop where
  name : ApiLocal t.name
  attrs : ∀ a ∈ t.attrs, ApiName a.name

/-- names and layout that the library allows -/
def CTag.Laid (t : CTag) : Prop := Layout t.attrs ∧ t.Allowed

/-- well-formed tags with the names and the layout that the library allows -/
abbrev CTag.Ok (t : CTag) : Prop := t.OkFor Legible CTag.Laid

/-- the element has the name and the attributes of the tag, the values decoded by `D` -/
structure CTag.DenBy (D : Str → Str → Prop) (t : CTag) (e : Element) : Prop where
  plain : ':' ∉ t.name → e.name = t.name ∧ e.pfx = none
  prefixed : ∀ p l, t.name = p ++ ':' :: l → ':' ∉ p → e.name = l ∧ e.pfx = some p
  attrs : ∀ k v, e.attrs.get k = some v ↔ ∃ a ∈ t.attrs, a.name = k ∧ D a.raw v

/-- the element has the name and the attributes of the tag -/
abbrev CTag.Den (t : CTag) (e : Element) : Prop := t.DenBy Decodes e

/-! ## content -/

/-- [43] `content`: text, then an element, comment or CDATA section and more content -/
inductive Cst where
  | done (text : Str)
  | comment (text c : Str) (rest : Cst)
  | cdata (text c : Str) (rest : Cst)
  | empty (text : Str) (t : CTag) (rest : Cst)
  | elem (text : Str) (t : CTag) (inner : Cst) (sp : Str) (rest : Cst)
deriving DecidableEq

/-- how content is written -/
def Cst.src : Cst → Str
  | .done text => text
  | .comment text c rest => text ++ c%"<!--" ++ c ++ c%"-->" ++ rest.src
  | .cdata text c rest => text ++ c%"<![CDATA[" ++ c ++ c%"]]>" ++ rest.src
  | .empty text t rest => text ++ t.empty ++ rest.src
  | .elem text t inner sp rest => text ++ t.start ++ inner.src ++ closing t.name sp ++ rest.src

/-- [14] `CharData` and references, of the given kind -/
def TextOkFor (P : Str → Prop) (s : Str) : Prop := '<' ∉ s ∧ P s

/-- text that the library decodes -/
abbrev TextOk (s : Str) : Prop := TextOkFor Legible s

/-- [15] `Comment` (more generous about `--` inside) -/
def CommentOk (c : Str) : Prop := ¬ c%"-->" <:+: c ∧ ¬ c%">" <+: c ∧ ¬ c%"->" <+: c

/-- [18] `CDSect` -/
def CDataOk (c : Str) : Prop := ¬ c%"]]>" <:+: c

/-- well-formed content, with texts, values and layout of the given kind -/
def Cst.OkFor (P : Str → Prop) (L : CTag → Prop) : Cst → Prop
  | .done text => TextOkFor P text
  | .comment text c rest => TextOkFor P text ∧ CommentOk c ∧ rest.OkFor P L
  | .cdata text c rest => TextOkFor P text ∧ CDataOk c ∧ rest.OkFor P L
  | .empty text t rest => TextOkFor P text ∧ t.OkFor P L ∧ rest.OkFor P L
  | .elem text t inner sp rest => TextOkFor P text ∧ t.OkFor P L ∧ inner.OkFor P L ∧ AllWs sp ∧ rest.OkFor P L

/-- well-formed content that the library decodes, with the names and the layout it allows -/
abbrev Cst.Ok (c : Cst) : Prop := c.OkFor Legible CTag.Laid

/-- the child nodes that content stands for, texts and values decoded by `D` -/
inductive Cst.DenBy (D : Str → Str → Prop) : Cst → List Node → Prop
  | done {text : Str} {l : List Node} : TextBit D text l → Cst.DenBy D (.done text) l
  | comment {text c : Str} {rest : Cst} {l r : List Node} : TextBit D text l → Cst.DenBy D rest r →
      Cst.DenBy D (.comment text c rest) (l ++ .comment c :: r)
  | cdata {text c : Str} {rest : Cst} {l r : List Node} : TextBit D text l → Cst.DenBy D rest r →
      Cst.DenBy D (.cdata text c rest) (l ++ .cdata c :: r)
  | empty {text : Str} {t : CTag} {rest : Cst} {e : Element} {l r : List Node} : TextBit D text l → t.DenBy D e →
      e.children = [] → Cst.DenBy D rest r → Cst.DenBy D (.empty text t rest) (l ++ .element e :: r)
  | elem {text sp : Str} {t : CTag} {inner rest : Cst} {e : Element} {l r : List Node} : TextBit D text l → t.DenBy D e →
      Cst.DenBy D inner e.children → Cst.DenBy D rest r → Cst.DenBy D (.elem text t inner sp rest) (l ++ .element e :: r)

/-- the child nodes that content stands for -/
abbrev Cst.Den (c : Cst) (l : List Node) : Prop := c.DenBy Decodes l

/-! ## documents -/

/-- what may stand between the declaration and the root -/
inductive CMisc where
  | comment (c : Str)
  | doctype (m : Str)
deriving DecidableEq

/-- how it is written -/
def CMisc.src : CMisc → Str
  | .comment c => c%"<!--" ++ c ++ c%"-->"
  | .doctype m => c%"<!DOCTYPE" ++ m ++ c%">"

/-- well-formed comments and doctypes -/
def CMisc.Ok : CMisc → Prop
  | .comment c => CommentOk c
  | .doctype m => FirstClosing (c%"DOCTYPE" ++ m) (c%"DOCTYPE" ++ m ++ c%">")

/-- the document type definition -/
def CMisc.dtd : CMisc → Option Str
  | .comment _ => none
  | .doctype m => some m

/-- More than 32 bytes long, and there is a character across byte 15, or across the 16th byte from the end. -/
def NoCut (t : Str) : Prop := 32 < blen t ∧ ¬ ((∃ a b, t = a ++ b ∧ blen a = 15) ∧ ∃ a b, t = a ++ b ∧ blen b = 16)

/-- the library abbreviates the first comment for a warning: it must not cut a character in half -/
def Shown (l : List (Str × CMisc)) : Prop :=
  ∀ pre sp c post, l = pre ++ (sp, .comment c) :: post → (∀ x ∈ pre, ∀ c', x.2 ≠ .comment c') → ¬ NoCut (c%"<!--" ++ c ++ c%"-->")

/-- [1] `document`: declaration, comments and doctypes, the root with its content (`none`: an empty-element tag) and closing
tag, white space -/
structure CDoc where
  decl : Option (Str × Str)
  misc : List (Str × CMisc)
  sp : Str
  root : CTag
  body : Option (Cst × Str)
  tail : Str
deriving DecidableEq

/-- how a document is written -/
def CDoc.src (d : CDoc) : Str :=
  (match d.decl with | none => [] | some (sp, m) => sp ++ c%"<?xml" ++ m ++ c%"?>") ++
  d.misc.flatMap (fun x => x.1 ++ x.2.src) ++ d.sp ++
  (match d.body with | none => d.root.empty | some (c, sp) => d.root.start ++ c.src ++ closing d.root.name sp) ++ d.tail

/-- well-formed documents, with texts, values and tags of the given kind -/
structure CDoc.WfFor (P : Str → Prop) (L : CTag → Prop) (d : CDoc) : Prop where
  decl : ∀ sp m, d.decl = some (sp, m) → AllWs sp ∧ FirstUnquoted none c%"?>" (c%"xml" ++ m) (c%"xml" ++ m ++ c%"?>")
  misc : ∀ x ∈ d.misc, AllWs x.1 ∧ x.2.Ok
  sp : AllWs d.sp
  root : d.root.OkFor P L
  body : ∀ c sp, d.body = some (c, sp) → c.OkFor P L ∧ AllWs sp
  tail : AllWs d.tail

/-- the same, with a root whose prefix is declared on the root, and a first comment that can be shown -/
structure CDoc.OkFor (P : Str → Prop) (L : CTag → Prop) (d : CDoc) : Prop extends d.WfFor P L where
  declared : ∀ p l, d.root.name = p ++ ':' :: l → ':' ∉ p → c%"xmlns:" ++ p ∈ d.root.attrs.map CAttr.name
  shown : Shown d.misc

/-- well-formed documents that the library decodes, with the names and the layout it allows -/
abbrev CDoc.Ok (d : CDoc) : Prop := d.OkFor Legible CTag.Laid

/-- well-formed documents, whatever the texts, values, names and layout -/
abbrev CDoc.Wf (d : CDoc) : Prop := d.WfFor (fun _ => True) fun _ => True

/-- the document that is written, texts and values decoded by `D` -/
structure CDoc.DenBy (D : Str → Str → Prop) (d : CDoc) (x : Document) : Prop where
  decl : x.declaration.map Declaration.declStr = d.decl.map (fun s => c%"xml" ++ s.2)
  dtds : x.dtds.map DTD.dtdStr = d.misc.filterMap (fun s => s.2.dtd)
  root : d.root.DenBy D x.root
  body : match d.body with | none => x.root.children = [] | some (c, _) => c.DenBy D x.root.children

/-- the document that is written -/
abbrev CDoc.Den (d : CDoc) (x : Document) : Prop := d.DenBy Decodes x

/-! ## variants of a document -/

/-- change every tag -/
def Cst.mapTag (f : CTag → CTag) : Cst → Cst
  | .done text => .done text
  | .comment text c rest => .comment text c (rest.mapTag f)
  | .cdata text c rest => .cdata text c (rest.mapTag f)
  | .empty text t rest => .empty text (f t) (rest.mapTag f)
  | .elem text t inner sp rest => .elem text (f t) (inner.mapTag f) sp (rest.mapTag f)

/-- change every tag -/
def CDoc.mapTag (f : CTag → CTag) (d : CDoc) : CDoc :=
  { d with root := f d.root, body := d.body.map fun x => (x.1.mapTag f, x.2) }

/-- the tag with double quotes everywhere -/
def CTag.doubleQuoted (t : CTag) : CTag := { t with attrs := t.attrs.map fun a => { a with quote := '"' } }

/-- the tag without space around `=` -/
def CTag.tight (t : CTag) : CTag := { t with attrs := t.attrs.map fun a => { a with sp1 := [], sp2 := [] } }

/-- the tag with single spaces before attributes and none before the end -/
def CTag.compact (t : CTag) : CTag := { t with attrs := t.attrs.map fun a => { a with sp := c%" " }, sp := [] }

/-- every empty-element tag as a start tag and a closing tag -/
def Cst.expand : Cst → Cst
  | .done text => .done text
  | .comment text c rest => .comment text c rest.expand
  | .cdata text c rest => .cdata text c rest.expand
  | .empty text t rest => .elem text t (.done []) [] rest.expand
  | .elem text t inner sp rest => .elem text t inner.expand sp rest.expand

/-- every empty-element tag as a start tag and a closing tag -/
def CDoc.expand (d : CDoc) : CDoc :=
  { d with body := match d.body with | none => some (.done [], []) | some (c, sp) => some (c.expand, sp) }

end KissXml.Spec
