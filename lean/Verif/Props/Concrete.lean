import Verif.Proofs.SyntaxCheck
import Verif.Proofs.SyntaxExact
/-!
# C39–C42: concrete documents
-/
namespace KissXml.Props
open Spec

/-! ## an example -/

/-- a root with a prefix and attributes in both kinds of quotes, one with spaces around `=` -/
def exRoot : CTag :=
  ⟨c%"p:a", [⟨c%" ", c%"xmlns:p", [], [], '\'', c%"u"⟩, ⟨c%"\n", c%"b", c%" ", c%" ", '"', c%"1&lt;2"⟩,
    ⟨c%"  ", c%"c", [], [], '\'', c%"x>y"⟩], c%" "⟩

/-- a declaration, a comment, a doctype, a root with text, comment, CDATA, an empty element and a nested one -/
def exDoc : CDoc where
  decl := some ([], c%" version='1.0'")
  misc := [(c%"\n", .comment c%" hi "), (c%"\n", .doctype c%" a [<!ELEMENT a ANY>]")]
  sp := c%"\n"
  root := exRoot
  body := some (.empty c%"t &amp; u" ⟨c%"b", [], c%" "⟩ (.comment [] c%"c-" (.elem c%" " ⟨c%"d", [⟨c%" ", c%"k", [], [], '"', c%"'"⟩], []⟩
    (.cdata [] c%"<&]" (.done [])) c%" " (.done c%"é"))), [])
  tail := c%"\n"

example : exDoc.src = c%"<?xml version='1.0'?>
<!-- hi -->
<!DOCTYPE a [<!ELEMENT a ANY>]>
<p:a xmlns:p='u'
b = \"1&lt;2\"  c='x>y' >t &amp; u<b /><!--c---> <d k=\"'\"><![CDATA[<&]]]></d >é</p:a>
" := rfl

theorem exDoc_ok : exDoc.Ok := docB_sound (by decide)

/-! ## C39: completeness -/

/-- C39 as stated is false: each of these is a well-formed XML document, none is accepted. -/
theorem C39_false :
    -- spaces around `=`
    (∃ e, parseStr c%"<a b = \"2\"/>" = .err e) ∧
    -- a comment after the root
    (∃ e, parseStr c%"<a></a><!--x-->" = .err e) ∧
    -- processing instructions
    (∃ e, parseStr c%"<?p?><a/>" = .err e) ∧ (∃ e, parseStr c%"<a><?p?></a>" = .err e) ∧
    -- a name that begins with a letter outside ASCII
    (∃ e, parseStr c%"<é/>" = .err e) ∧
    -- a wide character after an entity
    parseStr c%"<a>&lt;é</a>" = .panic := by
  refine ⟨⟨_, rfl⟩, ⟨_, rfl⟩, ⟨_, rfl⟩, ⟨_, rfl⟩, ⟨_, rfl⟩, rfl⟩

/-- C39 for the documents of `CDoc`: each is accepted, with exactly the declaration, document types, names, prefixes, attributes,
texts, comments, CDATA sections and nesting it is written with.

Missing: what `C39_false` lists, that is comments after the root, processing instructions, names beginning outside ASCII, spaces
around `=` other than `Layout` allows, a first comment before the root that a warning cuts inside a character, and references the library cannot decode (`Legible`).  Namespaces are C30 and C31. -/
theorem C39_partial (d : CDoc) (h : d.Ok) : ∃ x, parseStr d.src = .ok x ∧ d.Den x :=
  ⟨docOf d, parse_doc h, docOf_den h.toWfFor way_legible⟩

example : ∃ x, parseStr exDoc.src = .ok x ∧ exDoc.Den x := C39_partial exDoc exDoc_ok

/-- names with a colon at the beginning, and with several -/
def colonDoc : CDoc :=
  ⟨none, [], [], ⟨c%":a", [⟨c%" ", c%"xmlns:", [], [], '"', c%"u"⟩], []⟩, some (.empty [] ⟨c%"b:c:d", [⟨c%" ", c%"e:f:g", [], [], '"', []⟩], []⟩ (.done []), []), []⟩

example : colonDoc.src = c%"<:a xmlns:=\"u\"><b:c:d e:f:g=\"\"/></:a>" := rfl
example : ∃ x, parseStr colonDoc.src = .ok x ∧ colonDoc.Den x := C39_partial colonDoc (docB_sound (by decide))

/-- C39 exactly, for well-formed documents of `CDoc`, whatever their names, texts, values and spaces around `=`: they are accepted if
and only if `unescape` returns something for every text and value, every start tag has a part that fits the pattern of tags
(`BadTag` is C53), the API allows the local part of every element name and all of every attribute name, the prefix of the root is
declared on the root, and the warning about the first comment before the root does not cut it inside a character (`Shown`).  Then the result is what is written, with texts and values as `unescape` gives them.
Missing: what `C39_false` lists. -/
theorem C39_exact_partial (d : CDoc) (h : d.Wf) :
    ((∃ x, parseStr d.src = .ok x) ↔ d.OkFor Given fun t => ¬ BadTag t.start ∧ t.Allowed) ∧
    ∀ x, parseStr d.src = .ok x → d.DenBy (fun s t => Unesc s (some t)) x := by
  have key : d.OkFor Given Matched ↔ d.OkFor Given fun t => ¬ BadTag t.start ∧ t.Allowed :=
    ⟨fun h => h.mono (fun _ h => h) fun t ht => (matched_iff ht).1 ht.layout,
     fun h => h.mono (fun _ h => h) fun t ht => (matched_iff ht).2 ht.layout⟩
  refine ⟨?_, ?_⟩
  · rw [← key]
    exact ⟨fun ⟨x, hx⟩ => ((parse_exact h).1 hx).1, fun hg => ⟨_, (parse_exact h).2 ⟨hg, rfl⟩⟩⟩
  · intro x hx
    obtain ⟨hg, rfl⟩ := (parse_exact h).1 hx
    exact docOf_den hg.toWfFor way_given

/-- `<a b="1" c=" d='" e = '2'>&lt;&gt;é!</a>`: spaces around `=` that are not `Layout`, and text that is not decoded as it should -/
def oddDoc : CDoc :=
  ⟨none, [], [], ⟨c%"a", [⟨c%" ", c%"b", [], [], '"', c%"1"⟩, ⟨c%" ", c%"c", c%" ", [], '"', c%" d='"⟩, ⟨c%" ", c%"e", c%" ", c%" ", '\'', c%"2"⟩], []⟩,
    some (.done c%"&lt;&gt;é", []), []⟩

example : oddDoc.src = c%"<a b=\"1\" c =\" d='\" e = '2'>&lt;&gt;é</a>" := rfl
example : oddDoc.Wf ∧ oddDoc.OkFor Given fun t => ¬ BadTag t.start ∧ t.Allowed :=
  ⟨wfB_sound (by decide), ((C39_exact_partial oddDoc (wfB_sound (by decide))).1).1 ⟨_, rfl⟩⟩
example : ∃ x, parseStr oddDoc.src = .ok x ∧ x.root.children = [.text c%"<&gt;é"] := ⟨_, rfl, rfl⟩

/-- `<a:b><c é="1"/></a:b>`: neither the prefix nor the name `é` is allowed -/
def shutDoc : CDoc := ⟨none, [], [], ⟨c%"a:b", [], []⟩, some (.empty [] ⟨c%"c", [⟨c%" ", c%"é", [], [], '"', c%"1"⟩], []⟩ (.done []), []), []⟩

example : shutDoc.src = c%"<a:b><c é=\"1\"/></a:b>" := rfl
example : shutDoc.Wf ∧ ¬ ∃ x, parseStr shutDoc.src = .ok x := by
  refine ⟨wfB_sound (by decide), fun h => ?_⟩
  have := ((C39_exact_partial shutDoc (wfB_sound (by decide))).1.1 h).declared c%"a" c%"b" rfl (by decide)
  cases this

/-- a comment of 33 bytes whose fifteenth byte is inside a character: the warning about it fails -/
def cutDoc : CDoc := ⟨none, [([], .comment c%"          é              ")], [], ⟨c%"a", [], []⟩, none, []⟩

example : cutDoc.src = c%"<!--          é              --><a/>" := rfl
example : cutDoc.Wf ∧ ¬ ∃ x, parseStr cutDoc.src = .ok x := by
  refine ⟨wfB_sound (by decide), ?_⟩
  rintro ⟨x, h⟩
  have : (match parseStr c%"<!--          é              --><a/>" with | .ok _ => true | _ => false) = false := by decide +kernel
  have h : parseStr c%"<!--          é              --><a/>" = .ok x := h
  rw [h] at this
  cases this

/-- White space before attributes and before the end of a tag does not matter. -/
theorem C39_layout_partial (d d' : CDoc) (h : d.Ok) (h' : d'.Ok) (he : d.mapTag CTag.compact = d'.mapTag CTag.compact) :
    ∃ x, parseStr d.src = .ok x ∧ parseStr d'.src = .ok x :=
  parse_mapTag (f := CTag.compact) ⟨fun _ => rfl, fun t => by simp [CTag.compact, Function.comp_def]⟩ h h' he

example : ∃ x, parseStr exDoc.src = .ok x ∧ parseStr (exDoc.mapTag CTag.compact).src = .ok x :=
  C39_layout_partial _ _ exDoc_ok (docB_sound (by decide)) (by decide)

/-- The same for all well-formed documents of `CDoc`: if both are accepted, the results are the same. -/
theorem C39_layout_exact_partial (d d' : CDoc) (h : d.Wf) (h' : d'.Wf) (he : d.mapTag CTag.compact = d'.mapTag CTag.compact)
    (x x' : Document) (hx : parseStr d.src = .ok x) (hx' : parseStr d'.src = .ok x') : x = x' :=
  parse_same (f := CTag.compact) ⟨fun _ => rfl, fun t => by simp [CTag.compact, Function.comp_def]⟩ h h' he hx hx'

example : ∃ x, parseStr oddDoc.src = .ok x ∧ parseStr (oddDoc.mapTag CTag.compact).src = .ok x ∧ (oddDoc.mapTag CTag.compact).Wf :=
  ⟨_, rfl, rfl, wfB_sound (by decide)⟩

/-! ## C40: quotes -/

/-- The documents `<a b="1" c = "2"/>` and `<a b='1' c = "2"/>` -/
def quoteDoc (q : Char) : CDoc :=
  ⟨none, [], [], ⟨c%"a", [⟨c%" ", c%"b", [], [], q, c%"1"⟩, ⟨c%" ", c%"c", c%" ", c%" ", '"', c%"2"⟩], []⟩, none, []⟩

/-- C40 is false: one of two documents that differ in quotes only is rejected. -/
theorem C40_false : (quoteDoc '"').mapTag CTag.doubleQuoted = (quoteDoc '\'').mapTag CTag.doubleQuoted ∧
    (∃ x, parseStr (quoteDoc '"').src = .ok x) ∧ (∃ e, parseStr (quoteDoc '\'').src = .err e) :=
  ⟨by decide, ⟨_, rfl⟩, ⟨_, rfl⟩⟩

/-- C40 for the documents of `CDoc`: two that differ in quotes only give the same result.  (`Ok` asks that no value contains its
own quotes.)  Missing: the documents that are not `CDoc`s, see C39. -/
theorem C40_partial (d d' : CDoc) (h : d.Ok) (h' : d'.Ok) (he : d.mapTag CTag.doubleQuoted = d'.mapTag CTag.doubleQuoted) :
    ∃ x, parseStr d.src = .ok x ∧ parseStr d'.src = .ok x :=
  parse_mapTag (f := CTag.doubleQuoted) ⟨fun _ => rfl, fun t => by simp [CTag.doubleQuoted, Function.comp_def]⟩ h h' he

/-- The same for all well-formed documents of `CDoc`: if both are accepted, the results are the same.  (That one of them may be
rejected is `C40_false`.) -/
theorem C40_exact_partial (d d' : CDoc) (h : d.Wf) (h' : d'.Wf) (he : d.mapTag CTag.doubleQuoted = d'.mapTag CTag.doubleQuoted)
    (x x' : Document) (hx : parseStr d.src = .ok x) (hx' : parseStr d'.src = .ok x') : x = x' :=
  parse_same (f := CTag.doubleQuoted) ⟨fun _ => rfl, fun t => by simp [CTag.doubleQuoted, Function.comp_def]⟩ h h' he hx hx'

/-- a document with two attributes in the given quotes -/
def quotesDoc (q r : Char) : CDoc :=
  ⟨none, [], [], ⟨c%"a", [⟨c%" ", c%"b", [], [], q, c%"1 > 0"⟩], []⟩,
    some (.empty c%"x" ⟨c%"c", [⟨c%" ", c%"d", [], [], r, []⟩], []⟩ (.done []), []), []⟩

example : ∃ x, parseStr (quotesDoc '"' '\'').src = .ok x ∧ parseStr (quotesDoc '\'' '"').src = .ok x :=
  C40_partial _ _ (docB_sound (by decide)) (docB_sound (by decide)) (by decide)

/-! ## C41: empty-element tags -/

/-- C41 is false for inputs that are not well formed: `<a/><b></b>` is rejected, `<a></a><b></b>` is not. -/
theorem C41_false : (∃ e, parseStr c%"<a/><b></b>" = .err e) ∧ (∃ x, parseStr c%"<a></a><b></b>" = .ok x) :=
  ⟨⟨_, rfl⟩, ⟨_, rfl⟩⟩

theorem nil_ok : Legible [] := legible_noamp (by simp)

/-- C41 for the documents of `CDoc`: two that differ only in writing some elements as `<a/>` or `<a></a>` give the same result.
Missing: the documents that are not `CDoc`s, see C39. -/
theorem C41_partial (d d' : CDoc) (h : d.Ok) (he : d.expand = d'.expand) :
    ∃ x, parseStr d.src = .ok x ∧ parseStr d'.src = .ok x := parse_expand h ((expand_ok_iff nil_ok).1 (he ▸ (expand_ok_iff nil_ok).2 h)) he

/-- The same for all well-formed documents of `CDoc`, whether they are accepted or not. -/
theorem C41_exact_partial (d d' : CDoc) (h : d.Wf) (he : d.expand = d'.expand) (x : Document) :
    parseStr d.src = .ok x ↔ parseStr d'.src = .ok x := parse_expand_iff h he

example : quoteDoc '\'' ≠ (quoteDoc '\'').expand ∧ (quoteDoc '\'').Wf := ⟨by decide, wfB_sound (by decide)⟩

example : exDoc.expand ≠ exDoc ∧ ∃ x, parseStr exDoc.src = .ok x ∧ parseStr exDoc.expand.src = .ok x :=
  ⟨by decide, C41_partial exDoc _ exDoc_ok (by decide)⟩

/-! ## C42: spaces around `=` -/

/-- `<a b="2"/>`, possibly with spaces around the `=` -/
def spaceDoc (s : Str) : CDoc := ⟨none, [], [], ⟨c%"a", [⟨c%" ", c%"b", s, s, '"', c%"2"⟩], []⟩, none, []⟩

/-- C42 is false: `<a b = "2"/>` is rejected. -/
theorem C42_false : (spaceDoc c%" ").mapTag CTag.tight = (spaceDoc []).mapTag CTag.tight ∧
    (spaceDoc c%" ").src = c%"<a b = \"2\"/>" ∧
    (∃ x, parseStr (spaceDoc []).src = .ok x) ∧ (∃ e, parseStr (spaceDoc c%" ").src = .err e) :=
  ⟨by decide, rfl, ⟨_, rfl⟩, ⟨_, rfl⟩⟩

/-- C42 where the library accepts the spaces at all (`Layout`: a group of attributes begins with one without them and ends with one
in the same quotes): they do not change the result.  Missing: other places, see `C42_false`. -/
theorem C42_partial (d d' : CDoc) (h : d.Ok) (h' : d'.Ok) (he : d.mapTag CTag.tight = d'.mapTag CTag.tight) :
    ∃ x, parseStr d.src = .ok x ∧ parseStr d'.src = .ok x :=
  parse_mapTag (f := CTag.tight) ⟨fun _ => rfl, fun t => by simp [CTag.tight, Function.comp_def]⟩ h h' he

/-- The same for all well-formed documents of `CDoc`: where spaces around `=` are accepted, they do not change the result. -/
theorem C42_exact_partial (d d' : CDoc) (h : d.Wf) (h' : d'.Wf) (he : d.mapTag CTag.tight = d'.mapTag CTag.tight)
    (x x' : Document) (hx : parseStr d.src = .ok x) (hx' : parseStr d'.src = .ok x') : x = x' :=
  parse_same (f := CTag.tight) ⟨fun _ => rfl, fun t => by simp [CTag.tight, Function.comp_def]⟩ h h' he hx hx'

example : ∃ x, parseStr oddDoc.src = .ok x ∧ parseStr (oddDoc.mapTag CTag.tight).src = .ok x := ⟨_, rfl, rfl⟩

example : ∃ x, parseStr exDoc.src = .ok x ∧ parseStr (exDoc.mapTag CTag.tight).src = .ok x :=
  C42_partial _ _ exDoc_ok (docB_sound (by decide)) (by decide)

end KissXml.Props
