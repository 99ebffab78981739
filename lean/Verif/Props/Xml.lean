import Verif.Proofs.XmlCheck
import Verif.Proofs.XmlChars
import Verif.Proofs.XmlRef
import Verif.Proofs.Grammar
import Verif.Props.RoundTrip
/-!
# C69, C70: the library and XML 1.0

The grammar of XML and what it means are in Verif/Spec/Xml.lean, after the W3C recommendation.
-/
namespace KissXml.Props
open KissXml KissXml.Spec

/-! ## C69: character references -/

/-- C69 is false: decimal references are read as hexadecimal, hexadecimal ones not at all. -/
theorem C69_false :
    (XRef c%"&#65;" 'A' ∧ (unescape c%"&#65;" : Res Unit Str) = .ok c%"e") ∧
    (XRef c%"&#10;" '\n' ∧ (unescape c%"&#10;" : Res Unit Str) = .ok ['\u0010']) ∧
    (XRef c%"&#x41;" 'A' ∧ (unescape c%"&#x41;" : Res Unit Str) = .ok c%"&#x41;") := by
  refine ⟨⟨?_, by decide⟩, ⟨?_, by decide⟩, ⟨?_, by decide⟩⟩
  · exact XRef.dec (d := c%"65") (.snoc (s := c%"6") (c := '5') (.one (c := '6') (by decide) (by decide)) (by decide) (by decide)) (by decide)
  · exact XRef.dec (d := c%"10") (.snoc (s := c%"1") (c := '0') (.one (c := '1') (by decide) (by decide)) (by decide) (by decide)) (by decide)
  · exact XRef.hex (h := c%"41") (.snoc (s := c%"4") (c := '1') (.one (c := '4') (.dec (by decide) (by decide))) (.dec (by decide) (by decide)))
      (by decide)

/-- C69 for entities.  Missing: numeric references, see `C69_decimal` and `C69_hexadecimal`. -/
theorem C69_entity_partial {r : Str} {c : Char} (h : Entity r c) : (unescape r : Res ε Str) = .ok [c] := unescape_ref (.entity h)

/-- C69, decimal references, exactly: the digits are read as hexadecimal, so the character is right if and only if its code is
less than ten (in XML this leaves the tab only). -/
theorem C69_decimal {d : Str} {c : Char} (h : DecValue d c.toNat) :
    (∃ n, HexValue d n ∧ ∀ x : Char, x.toNat = n → (unescape (c%"&#" ++ d ++ c%";") : Res ε Str) = .ok [x]) ∧
    ((unescape (c%"&#" ++ d ++ c%";") : Res ε Str) = .ok [c] ↔ c.toNat < 10) := by
  obtain ⟨n, h1, h2, h3⟩ := decValue_hex h
  have hx : ∀ x : Char, x.toNat = n → (unescape (c%"&#" ++ d ++ c%";") : Res ε Str) = .ok [x] := by
    rintro x rfl
    exact unescape_ref (.hex h1)
  refine ⟨⟨n, h1, hx⟩, ?_, fun hc => hx c (h3.2 hc).symm⟩
  intro hu
  refine h3.1 ?_
  by_cases hr : ∃ r x, Ref r x ∧ r <+: c%"&#" ++ d ++ c%";"
  · obtain ⟨r, x, hr, hp⟩ := hr
    have hn := ref_dec h1 hr hp
    rw [hx x hn.symm] at hu
    injection hu with hu
    injection hu with hu
    rw [← hu, hn]
  · exfalso
    have := unescape_noref (ε := ε) (t := '#' :: d) (by simpa using decValue_no_amp h) (fun r x hr' hp => hr ⟨r, x, hr', by simpa using hp⟩)
    simp at this hu
    rw [this] at hu
    injection hu with hu
    simp at hu

example : DecValue c%"9" '\t'.toNat ∧ (unescape c%"&#9;" : Res Unit Str) = .ok c%"\t" := ⟨.one (by decide) (by decide), by decide⟩

/-- C69, hexadecimal references: none is decoded. -/
theorem C69_hexadecimal {h : Str} {c : Char} (hv : HexValue h c.toNat) :
    (unescape (c%"&#x" ++ h ++ c%";") : Res ε Str) = .ok (c%"&#x" ++ h ++ c%";") := by
  have ha : '&' ∉ h := fun hm => by
    obtain ⟨d, hd⟩ := hexValue_all hv _ hm
    exact (hexDigit_no hd).2.1 rfl
  have := unescape_noref (ε := ε) (t := c%"#x" ++ h) (by simpa using ha) (fun r x hr hp => ref_not_x (s := h ++ c%";") hr (by simpa using hp))
  simpa using this

example : HexValue c%"41" 'A'.toNat :=
  .snoc (s := c%"4") (c := '1') (.one (c := '4') (.dec (by decide) (by decide))) (.dec (by decide) (by decide))

/-- C69 for whole texts that end in ASCII: without numeric references `unescape` gives what the text means in XML.
Missing: texts with numeric references (see above), and those with `&` and a wide last character (C07, C67). -/
theorem C69_text_partial {s t : Str} (h : XText s t) (hn : ¬ c%"&#" <:+: s) (ha : AsciiEnd s) : (unescape s : Res ε Str) = .ok t := by
  have hd := xtext_decodes h hn
  have hw : WideRefsLast s := by
    intro a r c b he hr hc
    exfalso
    cases hr with
    | entity hr => exact hc (entity_ascii hr)
    | hex _ => exact hn ⟨a, _, by rw [he]; simp; rfl⟩
    | hexPlus _ => exact hn ⟨a, _, by rw [he]; simp; rfl⟩
  obtain ⟨t', h', hu⟩ := unescapeLoop_decodes (ε := ε) (blen s + 1) [] s (Nat.lt_succ_self _) ha hw
  simp only [List.nil_append, blen_nil] at hu
  rw [unescape, hu, decodes_unique h' hd]

example : XText c%"1 &lt; 2 &amp; é &quot;" c%"1 < 2 & é \"" ∧ ¬ c%"&#" <:+: c%"1 &lt; 2 &amp; é &quot;" ∧ AsciiEnd c%"1 &lt; 2 &amp; é &quot;" := by
  have ch : ∀ {c : Char} {s t : Str}, (XChar c ∧ c ≠ '<' ∧ c ≠ '&') → XText s t → XText (c :: s) (c :: t) := fun h => .char h.1 h.2.1 h.2.2
  refine ⟨?_, by decide, by intro c h; simp at h; subst h; decide⟩
  refine ch (by decide) (ch (by decide) (.ref (r := c%"&lt;") (.entity .lt) ?_))
  refine ch (by decide) (ch (by decide) (ch (by decide) (.ref (r := c%"&amp;") (.entity .amp) ?_)))
  exact ch (by decide) (ch (by decide) (ch (by decide) (.ref (r := c%"&quot;") (.entity .quot) .nil)))

/-- and in documents -/
example : (match parseStr c%"<a k='&#10;'>&#65;&#x41;</a>" with | .ok d => some (textOfChildren d.root.children, d.root.attrs.get c%"k") | _ => none) =
    some (c%"e&#x41;", some ['\u0010']) := by decide +kernel

/-! ## C70: what is written is XML -/

/-- C70: if the nodes of a document can be written in XML, then what `to_string_with_indent` writes is a well-formed XML document
whose root element, to every reader of XML, is that of the document, but for white space added to elements without text (at most) and
white space in attribute values (tabs and line ends are read as spaces).  It begins with the declaration, if there is one.
Missing: other documents, see `C70_false`; document type declarations. -/
theorem C70_partial (d : Document) (hd : d.dtds = []) (hx : ∀ x, d.declaration = some x → XDecl x.display ∧ '\r' ∉ x.display)
    (h : ∀ n ∈ docOrder (.element d.root), XmlNode n) (indent : Str) (tight : Bool) :
    ∃ dec n as i, XDocument tight (d.toStringWithIndent indent) dec [] n as i [] ∧
      dec = (match d.declaration with | none => [] | some x => x.display) ∧ Shows false [.elem n as i] [.element d.root] ∧
      '\r' ∉ d.toStringWithIndent indent := by
  obtain ⟨i, b, h1, h2, h3, h4⟩ := doc_xml hd hx h indent
  exact ⟨_, _, _, i, h1, rfl, .elem (fun k v => attrsOut_iff) h3 h2 .nil, h4⟩

/-- C70: the same for elements. -/
theorem C70_element_partial (e : Element) (h : ∀ n ∈ docOrder (.element e), XmlNode n) (indent : Str) (tight : Bool) :
    ∃ n as i, XPiece tight (e.toStringWithIndent indent) (.elem n as i) ∧ Shows false [.elem n as i] [.element e] := by
  obtain ⟨i, b, h1, h2, h3⟩ := elem_xml (tg := tight) (realIndent_xspace indent) e h
  refine ⟨_, _, i, ?_, .elem (fun k v => attrsOut_iff) h3 h2 .nil⟩
  rw [ElementF.toStringWithIndent]
  unfold realIndent at h1
  split <;> rename_i hv
  · rwa [if_pos hv] at h1
  · rwa [if_neg hv] at h1

/-- C70: the declaration that new documents get is one of XML. -/
theorem C70_declaration : XDecl Declaration.dflt.display ∧ '\r' ∉ Declaration.dflt.display := by
  refine ⟨⟨c%" version=\"1.0\"", c%" encoding=\"UTF-8\"", [], [], ⟨c%"1.0", ⟨c%"0", rfl, by decide, by decide⟩, ?_⟩, .inr ⟨c%"UTF-8", ?_, ?_⟩,
    .inl rfl, by decide, rfl⟩, by decide⟩
  · exact ⟨c%" ", [], [], '"', by decide, by decide, by decide, by decide, .inl rfl, rfl⟩
  · exact ⟨'U', c%"TF-8", rfl, by decide, by decide⟩
  · exact ⟨c%" ", [], [], '"', by decide, by decide, by decide, by decide, .inl rfl, rfl⟩

/-- the conditions for the sample document -/
example : sample.dtds = [] ∧ (∀ x, sample.declaration = some x → XDecl x.display ∧ '\r' ∉ x.display) ∧
    ∀ n ∈ docOrder (.element sample.root), XmlNode n := by
  refine ⟨rfl, ?_, xmlNodesB_sound (by decide +kernel)⟩
  rintro x ⟨⟩
  refine ⟨⟨c%" version='1.0'", [], [], [], ⟨c%"1.0", ⟨c%"0", rfl, by decide, by decide⟩, ?_⟩, .inl rfl, .inl rfl, by decide, rfl⟩, by decide⟩
  exact ⟨c%" ", [], [], '\'', by decide, by decide, by decide, by decide, .inr rfl, rfl⟩

/-- C70 is false: characters that XML does not allow are written as they are, and are read too. -/
theorem C70_false : ∃ e, ElementF.newWithText c%"a" ['\u0001'] = .ok e ∧
    (∀ indent dec before n as i after, ¬ XDocument false ((Document.new e).toStringWithIndent indent) dec before n as i after) ∧
    ∀ indent, ∃ d, parseStr ((Document.new e).toStringWithIndent indent) = .ok d := by
  refine ⟨⟨c%"a", [.text ['\u0001']], .empty, none, none, .empty⟩, rfl, ?_⟩
  have hs : ∀ indent, (Document.new ⟨c%"a", [.text ['\u0001']], .empty, none, none, .empty⟩).toStringWithIndent indent =
      c%"<?xml version=\"1.0\" encoding=\"UTF-8\"?>\n<a>" ++ '\u0001' :: c%"</a>\n" := fun indent => by rw [doc_string rfl]; rfl
  refine ⟨fun indent dec before n as i after h => ?_, fun indent => ?_⟩
  · rw [hs] at h
    exact absurd (allX_document h '\u0001' (by decide)) (by decide)
  · rw [hs]
    have : (match parseStr (c%"<?xml version=\"1.0\" encoding=\"UTF-8\"?>\n<a>" ++ '\u0001' :: c%"</a>\n") with | .ok _ => true | _ => false) =
      true := by decide +kernel
    split at this
    · rename_i d hd; exact ⟨d, hd⟩
    · cases this

/-- C70, the other way: if what is written is well-formed XML, then all texts, comments, CDATA sections, names and values are of
characters that XML allows. -/
theorem C70_chars (d : Document) (indent : Str) (h : XmlWellFormed (d.toStringWithIndent indent)) :
    ∀ n ∈ docOrder (.element d.root), ∀ s, Carries n s → ∀ c ∈ s, XChar c :=
  fun _ hn _ hs _ hc => doc_chars h hn hs hc

/-- C70, exactly: for documents of the right shape, what is written is well-formed XML if and only if all characters are allowed in
XML.  Missing: document types, names that are not XML names, `--` in comments, `]]>` in CDATA sections, carriage returns, empty texts and
texts side by side. -/
theorem C70_exact_partial (d : Document) (hd : d.dtds = []) (hx : ∀ x, d.declaration = some x → XDecl x.display ∧ '\r' ∉ x.display)
    (h : ∀ n ∈ docOrder (.element d.root), XmlShape n) (indent : Str) :
    XmlWellFormed (d.toStringWithIndent indent) ↔ ∀ n ∈ docOrder (.element d.root), ∀ s, Carries n s → ∀ c ∈ s, XChar c := by
  constructor
  · exact C70_chars d indent
  · intro hc
    obtain ⟨dec, n, as, i, h1, -⟩ := C70_partial d hd hx (fun n hn => xmlNode_of (h n hn) (hc n hn)) indent false
    exact ⟨dec, [], n, as, i, [], h1⟩

/-- a document that has the shape, but a character that is not allowed -/
def bellDoc : Document := Document.new ⟨c%"a", [.text c%"t", .comment c%"-a"], ⟨[(c%"k", c%"\u0007")], by decide⟩, none, none, .empty⟩

example : (∀ n ∈ docOrder (.element bellDoc.root), XmlShape n) ∧ ¬ XmlWellFormed bellDoc.toString := by
  refine ⟨?_, fun h => ?_⟩
  · intro n hn
    have hn : n ∈ [Node.element bellDoc.root, .text c%"t", .comment c%"-a"] := hn
    have : n = .element bellDoc.root ∨ n = .text c%"t" ∨ n = .comment c%"-a" := by simpa using hn
    rcases this with rfl | rfl | rfl
    · refine ⟨plainNameB_sound (by decide), ?_, ?_⟩
      · intro k v hk
        have hm := SMap.get_eq_some.1 hk
        cases List.mem_singleton.1 (show (k, v) ∈ [(c%"k", c%"\u0007")] from hm)
        exact ⟨plainNameB_sound (by decide), by decide⟩
      · intro a b x y hab
        have : [Node.text c%"t", .comment c%"-a"] = a ++ .text x :: .text y :: b := hab
        match a, this with
        | [], h => simp at h
        | [_], h => simp at h
        | _ :: _ :: _, h => simp at h
    · exact ⟨by decide, by decide⟩
    · exact ⟨by decide, by decide, by decide⟩
  · exact absurd (C70_chars _ _ h (.element bellDoc.root) (mem_docOrder_self _) c%"\u0007" (.inr ⟨c%"k", _, rfl, .inr rfl⟩) _
      (List.mem_singleton.2 rfl)) (by decide)

end KissXml.Props
