import Verif.Proofs.Reread
import Verif.Proofs.TokenCheck
import Verif.Proofs.RoundTripExact
/-!
# Writing and reading: C11, C45, C46, C49, C50, C56, C59

`DocFits`, `NsFits` and `NoDoubles` (Verif/Spec/Conform.lean) say which documents can be written and read back: XML names,
texts and values that the library decodes correctly after escaping them, comments that do not end early, and so on.
-/
namespace KissXml.Props
open KissXml KissXml.Spec

/-- a document with a prefix, namespaces, special characters, nested elements, texts, a comment and a CDATA section -/
def sample : Document := ⟨some ⟨c%"xml version='1.0'"⟩, [], ⟨c%"r", [.text c%"a < b & c\n",
    .element ⟨c%"b", [], .empty, some c%"u", some c%"p", .empty⟩, .comment c%" - x ",
    .element ⟨c%"c", [.element ⟨c%"d", [.cdata c%"]]x</r>"], .empty, some c%"v", none, .empty⟩, .text c%" é "],
      ⟨[(c%"xmlns", c%"v")], by decide⟩, some c%"v", none, .empty⟩],
  ⟨[(c%"xmlns:p", c%"u"), (c%"k", c%"'x' > \"&lt;\"")], by decide⟩, some c%"u", some c%"p", .empty⟩⟩

theorem sample_fits : DocFits sample := docFitsB_sound (by decide)
theorem sample_noDoubles : NoDoubles sample := noDoublesB_sound (by decide)

/-! ## C45 -/

/-- C45, exactly: a document that fits is read back without error, whatever the indent, and what is read back is equal to the
document if and only if its namespaces agree with its `xmlns` attributes, as the library understands them (`NsFits`).
Missing: see `C45_false`. -/
theorem C45_iff_partial (d : Document) (h : DocFits d) (hd : NoDoubles d) (i : Str) :
    ∃ d', parseStr (d.toStringWithIndent i) = .ok d' ∧ (d.eq d' = true ↔ NsFits d) :=
  ⟨_, reparse h i, reparse_eq_iff h hd⟩

/-- C45 for documents whose namespaces agree with their attributes as XML understands them (`PrefixScope`, `DefaultScope`)
and in which every unprefixed child of a prefixed element has an `xmlns` attribute itself.
Missing: see `C45_false`. -/
theorem C45_partial (d : Document) (h : DocFits d) (hd : NoDoubles d) (hp : PrefixScope (fun _ => none) (.element d.root))
    (hs : DefaultScope none (.element d.root))
    (hr : ∀ e, Node.element e ∈ docOrder (.element d.root) → e.pfx ≠ none → ∀ c, Node.element c ∈ e.children → c.pfx = none →
      (c.attrs.get c%"xmlns").isSome) (i : Str) :
    ∃ d', parseStr (d.toStringWithIndent i) = .ok d' ∧ d.eq d' = true :=
  ⟨_, reparse h i, (reparse_eq_iff h hd).2 (nsFits_of_scopes hp hs hr)⟩

/-- an unprefixed element in a prefixed one, in the scope of a default namespace -/
def inherits : Document := ⟨none, [], ⟨c%"r", [.element ⟨c%"a", [.element ⟨c%"b", [], .empty, some c%"u", none, .empty⟩], .empty,
    some c%"v", some c%"p", .empty⟩], ⟨[(c%"xmlns", c%"u"), (c%"xmlns:p", c%"v")], by decide⟩, some c%"u", none, .empty⟩⟩

/-- text that cannot be read back -/
def amp : Document := ⟨none, [], ⟨c%"r", [.text c%"&x☼"], .empty, none, none, .empty⟩⟩

/-- C45 is false: an unprefixed element in a prefixed one loses the default namespace it has according to XML; and text
with `&` and a wide character at the end makes the parser panic. -/
theorem C45_false :
    (DocFits inherits ∧ NoDoubles inherits ∧ PrefixScope (fun _ => none) (.element inherits.root) ∧
      DefaultScope none (.element inherits.root) ∧
      ∀ i d', parseStr (inherits.toStringWithIndent i) = .ok d' → inherits.eq d' = false) ∧
    parseStr amp.toString = .panic := by
  have hf : DocFits inherits := docFitsB_sound (by decide)
  refine ⟨⟨hf, noDoublesB_sound (by decide), ?_, ?_, ?_⟩, rfl⟩
  · refine ⟨fun p hp => (by cases hp), ⟨fun p hp => ?_, ⟨fun p hp => (by cases hp), trivial⟩, trivial⟩, trivial⟩
    cases hp; rfl
  · exact ⟨fun _ => rfl, ⟨fun h => (by cases h), ⟨fun _ => rfl, trivial⟩, trivial⟩, trivial⟩
  · intro i d' hd
    rw [reparse hf i] at hd
    cases hd
    rfl

theorem sample_prefix : PrefixScope (fun _ => none) (.element sample.root) := by
  refine ⟨fun p hp => ?_, trivial, ⟨fun p hp => ?_, trivial⟩, trivial, ⟨fun p hp => (by cases hp), ⟨fun p hp => (by cases hp), trivial, trivial⟩, trivial, trivial⟩, trivial⟩ <;>
    cases hp <;> rfl
theorem sample_default : DefaultScope none (.element sample.root) :=
  ⟨fun h => (by cases h), trivial, ⟨fun h => (by cases h), trivial⟩, trivial, ⟨fun _ => rfl, ⟨fun _ => rfl, trivial, trivial⟩, trivial, trivial⟩, trivial⟩
theorem sample_inherits : ∀ e, Node.element e ∈ docOrder (.element sample.root) → e.pfx ≠ none → ∀ c, Node.element c ∈ e.children →
    c.pfx = none → (c.attrs.get c%"xmlns").isSome := by
  intro e he hp c hc hq
  have : docOrder (.element sample.root) = [_, _, _, _, _, _, _, _] := rfl
  rw [this] at he
  simp only [List.mem_cons, List.not_mem_nil, or_false, reduceCtorEq, Node.element.injEq, false_or] at he
  rcases he with rfl | rfl | rfl | rfl
  · simp [sample] at hc
    rcases hc with rfl | rfl
    · cases hq
    · rfl
  · simp at hc
  · exact absurd rfl hp
  · exact absurd rfl hp
example : ∃ d', parseStr (sample.toStringWithIndent c%"\t") = .ok d' ∧ sample.eq d' = true :=
  C45_partial sample sample_fits sample_noDoubles sample_prefix sample_default sample_inherits _

/-- C45, when: among the documents that can be written (`DocShape`: XML names, no two texts side by side, no blank texts, no
document types and so on), exactly those are read back as they were whose texts and values the library decodes correctly after
escaping them, and whose namespaces agree with their `xmlns` attributes as the library understands them.
Missing: see `C45_false`; documents without the shape. -/
theorem C45_exact_partial (d : Document) (h : DocShape d) (hd : NoDoubles d) (i : Str) :
    (∃ d', parseStr (d.toStringWithIndent i) = .ok d' ∧ d.eq d' = true) ↔
      (∀ n ∈ docOrder (.element d.root), NodeFits n) ∧ NsFits d := by
  rw [reread_iff h hd i]
  exact and_congr_left' ⟨fun h => h.nodes, fun hn => ⟨h.decl, h.dtds, hn, h.declared⟩⟩

/-- text that is read back wrongly -/
def loses : Document := ⟨none, [], ⟨c%"r", [.text c%"&&é"], .empty, none, none, .empty⟩⟩

theorem loses_shape : DocShape loses := shapeB_sound (by decide)
example : ∃ d', parseStr (sample.toStringWithIndent c%"\t") = .ok d' ∧ sample.eq d' = true :=
  (C45_exact_partial sample (fits_shape sample_fits) sample_noDoubles _).2 ⟨sample_fits.nodes, nsFits_of_scopes sample_prefix
    sample_default sample_inherits⟩
example : ∃ d', parseStr (loses.toStringWithIndent c%"\t") = .ok d' ∧ d'.root.children = [.text c%"&&amp;é"] := ⟨_, rfl, rfl⟩
example : ¬ NodeFits (.text c%"&&é") := by
  intro h
  have : (unescape (textEscape c%"&&é") : Res Unit Str) = .ok c%"&&é" := (C01_partial c%"&&" 'é').2 h.2
  revert this; decide

/-! ## C46 -/

/-- C46: reading back what was written and writing it again, with any indents, gives what writing the document gives.
Missing: documents with texts or values whose escaped form the library does not decode (`TextFits`, `ValueFits`); for those the
claim fails, see `C46_false`. -/
theorem C46_partial (d : Document) (h : DocFits d) (i : Str) :
    ∃ d', parseStr (d.toStringWithIndent i) = .ok d' ∧ ∀ j, d'.toStringWithIndent j = d.toStringWithIndent j :=
  ⟨_, reparse h i, rewrite_same h⟩

example : ∃ d', parseStr (sample.toStringWithIndent c%"") = .ok d' ∧ ∀ j, d'.toStringWithIndent j = sample.toStringWithIndent j :=
  C46_partial sample sample_fits _
-- the namespaces need not agree
example : ∃ d', parseStr (inherits.toStringWithIndent c%"") = .ok d' ∧ ∀ j, d'.toStringWithIndent j = inherits.toStringWithIndent j :=
  C46_partial inherits C45_false.1.1 _

/-- C46, when: among the documents that can be written (`DocShape`), exactly those are written as they were after reading them
back whose texts and values the library decodes correctly after escaping them; which indents are used does not matter.
Missing: as for `C46_partial`; documents without the shape. -/
theorem C46_exact_partial (d : Document) (h : DocShape d) (i j : Str) :
    (∃ d', parseStr (d.toStringWithIndent i) = .ok d' ∧ d'.toStringWithIndent j = d.toStringWithIndent j) ↔
      ∀ n ∈ docOrder (.element d.root), NodeFits n := by
  constructor
  · rintro ⟨d', h1, h2⟩
    exact (fits_of_rewrite h h1 h2).nodes
  · intro hn
    have hf : DocFits d := ⟨h.decl, h.dtds, hn, h.declared⟩
    exact ⟨_, reparse hf i, rewrite_same hf j⟩

-- nothing like it for text that is read back wrongly
example : DocShape loses ∧ ¬ ∃ d', parseStr (loses.toStringWithIndent []) = .ok d' ∧ d'.toStringWithIndent [] = loses.toStringWithIndent [] :=
  ⟨loses_shape, by rintro ⟨d', hd, h⟩; cases hd; revert h; decide⟩

/-- an element with one text is written the same way with every indent -/
theorem one_text (t i : Str) : Document.toStringWithIndent ⟨none, [], ⟨c%"r", [.text t], .empty, none, none, .empty⟩⟩ i =
    Document.toStringWithIndent ⟨none, [], ⟨c%"r", [.text t], .empty, none, none, .empty⟩⟩ [] := by
  unfold Document.toStringWithIndent ElementF.toStringWithIndent
  cases validateIndent i <;> simp [ElementF.toStringPI, childrenToString, Node.toStringPI, Node.isElement]

theorem amp_shape : DocShape amp := shapeB_sound (by decide)

/-- C46 is false, for every pair of indents: what is written for the text `&&é` is read back as another text, and written again it is
different; what is written for `&x☼` makes the parser panic. Both documents have the required shape and no namespaces at all. -/
theorem C46_false : DocShape loses ∧ DocShape amp ∧
    (∀ i j, ∃ d', parseStr (loses.toStringWithIndent i) = .ok d' ∧ d'.toStringWithIndent j ≠ loses.toStringWithIndent j) ∧
    ∀ i, parseStr (amp.toStringWithIndent i) = .panic := by
  refine ⟨loses_shape, amp_shape, fun i j => ?_, fun i => ?_⟩
  · have h : parseStr (loses.toStringWithIndent []) =
        .ok ⟨none, [], ⟨c%"r", [.text c%"&&amp;é"], .empty, none, none, .empty⟩⟩ := rfl
    refine ⟨_, (one_text _ i).symm ▸ h, ?_⟩
    rw [one_text, show loses.toStringWithIndent j = loses.toStringWithIndent [] from one_text _ j]
    decide
  · rw [show amp.toStringWithIndent i = amp.toStringWithIndent [] from one_text _ i]
    rfl

/-! ## C11 -/

/-- C11: what is read back does not depend on the indent, and it is equal to the document if its namespaces agree with its
attributes.
Missing: documents with texts or values whose escaped form the library does not decode, see `C11_false`. -/
theorem C11_partial (d : Document) (h : DocFits d) :
    ∃ d', (∀ i, parseStr (d.toStringWithIndent i) = .ok d') ∧ (NoDoubles d → NsFits d → d.eq d' = true) :=
  ⟨_, reparse h, fun hd hn => (reparse_eq_iff h hd).2 hn⟩

/-- C11, whenever anything is read back: it is what is read back with any other indent.
Missing: documents without the shape. -/
theorem C11_exact_partial (d d' : Document) (h : DocShape d) (i j : Str) (hi : parseStr (d.toStringWithIndent i) = .ok d') :
    parseStr (d.toStringWithIndent j) = .ok d' :=
  (reparse_iff h j).2 ((reparse_iff h i).1 hi)

-- also if it is not what was written
example (j : Str) : parseStr (loses.toStringWithIndent j) = parseStr (loses.toStringWithIndent []) := by
  have : ∃ d, parseStr (loses.toStringWithIndent []) = .ok d := ⟨_, rfl⟩
  obtain ⟨d, hd⟩ := this
  rw [hd, C11_exact_partial loses d loses_shape [] j hd]

theorem one_text_ns (t : Str) : NsFits ⟨none, [], ⟨c%"r", [.text t], .empty, none, none, .empty⟩⟩ := by
  refine nsFits_of_scopes ⟨fun p hp => (by cases hp), trivial, trivial⟩ ⟨fun _ => rfl, trivial, trivial⟩ fun e he hp c hc => ?_
  simp only [docOrder, docOrderL, List.mem_cons, Node.element.injEq, List.append_nil, reduceCtorEq, List.not_mem_nil, or_false] at he
  subst he
  exact absurd rfl hp

/-- C11 is false: with every indent, what is read back for the text `&&é` is not equal to the document, and nothing is read back for
`&x☼`. (It is the same for any two indents whenever anything is read back, `C11_exact_partial`.) -/
theorem C11_false : DocShape loses ∧ NoDoubles loses ∧ NsFits loses ∧ DocShape amp ∧ NoDoubles amp ∧ NsFits amp ∧
    (∀ i, ∃ d', parseStr (loses.toStringWithIndent i) = .ok d' ∧ loses.eq d' = false) ∧
    ∀ i, ¬ ∃ d', parseStr (amp.toStringWithIndent i) = .ok d' := by
  refine ⟨loses_shape, noDoublesB_sound (by decide), ?_, amp_shape, noDoublesB_sound (by decide), ?_, fun i => ?_, fun i => ?_⟩
  · exact one_text_ns _
  · exact one_text_ns _
  · have h : parseStr (loses.toStringWithIndent []) =
        .ok ⟨none, [], ⟨c%"r", [.text c%"&&amp;é"], .empty, none, none, .empty⟩⟩ := rfl
    exact ⟨_, (one_text _ i).symm ▸ h, by decide⟩
  · rw [C46_false.2.2.2 i]
    rintro ⟨d', h⟩
    cases h

example : parseStr (sample.toStringWithIndent c%"\t") = parseStr (sample.toStringWithIndent c%"   ") := by
  obtain ⟨d', h, -⟩ := C11_partial sample sample_fits
  rw [h, h]
example : sample.toStringWithIndent c%"\t" = sample.toStringWithIndent c%"   " := rfl
/-- a document in which the indent shows -/
def nested : Document := ⟨none, [], ⟨c%"r", [.element ⟨c%"a", [.element ⟨c%"b", [.text c%"x"], .empty, none, none, .empty⟩], .empty,
    none, none, .empty⟩], .empty, none, none, .empty⟩⟩
example : DocFits nested ∧ NoDoubles nested ∧ nested.toStringWithIndent c%"\t" = c%"<r>\n\t<a>\n\t\t<b>x</b>\n\t</a>\n</r>\n" :=
  ⟨docFitsB_sound (by decide), noDoublesB_sound (by decide), rfl⟩

/-! ## C49 -/

/-- C49 for CDATA: an element with a CDATA section made by `CData::new` is read back as it was. -/
theorem C49_cdata (n c : Str) (hn : NcName n ∧ ApiName n) (hc : cdataNew c = .ok c) :
    ∃ e, ElementF.newWithChildren n [.cdata c] = .ok e ∧ e.children = [.cdata c] ∧
      ∀ i, ∃ d', parseStr ((Document.new e).toStringWithIndent i) = .ok d' ∧ (Document.new e).eq d' = true := by
  have hv : CDataOk c := by
    intro h
    rw [cdataNew, if_pos (contains_iff.2 h)] at hc
    cases hc
  have he : ElementF.newWithChildren n [.cdata c] = .ok ⟨n, [.cdata c], .empty, none, none, .empty⟩ := by
    unfold ElementF.newWithChildren ElementF.new checkElemName
    simp only [validName_iff.2 hn.2]
    rfl
  refine ⟨_, he, rfl, fun i => ?_⟩
  have hf : DocFits (Document.new ⟨n, [.cdata c], .empty, none, none, .empty⟩) :=
    flat_fits hn (by intro k v hk; cases hk) (by intro m hm; cases List.mem_singleton.1 hm; exact hv) (by simp [Node.isElement])
      (apartB_sound (l := [.cdata c]) rfl) _ _
  refine ⟨_, reparse hf i, (reparse_eq_iff hf ?_).2 (flat_ns (by simp [Node.isElement]) rfl)⟩
  intro e he k hk
  have := flat_elements (by simp [Node.isElement]) he
  subst this
  cases hk

theorem single_comment (n c : Str) (hn : validName n = true) :
    ElementF.newWithChildren n [.comment c] = .ok ⟨n, [.comment c], .empty, none, none, .empty⟩ := by
  unfold ElementF.newWithChildren ElementF.new checkElemName
  simp only [hn]
  rfl

/-- C49 for comments: an element with a comment made by `Comment::new` is read back as it was if and only if the comment does
not begin with `>` or `->`.
Missing: comments that do, see `C49_false`. -/
theorem C49_comment_partial (n c : Str) (hn : NcName n ∧ ApiName n) (hc : commentNew c = .ok c) :
    ∃ e, ElementF.newWithChildren n [.comment c] = .ok e ∧ e.children = [.comment c] ∧
      ∀ i, (∃ d', parseStr ((Document.new e).toStringWithIndent i) = .ok d' ∧ (Document.new e).eq d' = true) ↔
        ¬ c%">" <+: c ∧ ¬ c%"->" <+: c := by
  refine ⟨_, single_comment n c (validName_iff.2 hn.2), rfl, fun i => ⟨?_, fun hv => ?_⟩⟩
  · rintro ⟨d', h1, h2⟩
    simp only [Document.eq, Bool.and_eq_true, element_eq_iff] at h2
    have hm : Node.comment c ∈ descendants d'.root := by
      obtain ⟨-, h2⟩ := h2
      generalize d'.root = e at h2
      cases h2 with
      | mk hp hl =>
        cases hl with
        | cons h1 h2 =>
          cases h1
          cases h2
          simp [descendants, docOrderL, docOrder]
    have := read_comment_ok h1 hm
    exact this.2
  · have hv : CommentOk c := by
      refine ⟨fun h => ?_, hv⟩
      rw [commentNew, if_pos (contains_iff.2 h)] at hc
      cases hc
    have hf : DocFits (Document.new ⟨n, [.comment c], .empty, none, none, .empty⟩) :=
      flat_fits hn (by intro k v hk; cases hk) (by intro m hm; cases List.mem_singleton.1 hm; exact hv) (by simp [Node.isElement])
        (apartB_sound (l := [.comment c]) rfl) _ _
    refine ⟨_, reparse hf i, (reparse_eq_iff hf ?_).2 (flat_ns (by simp [Node.isElement]) rfl)⟩
    intro e he k hk
    have := flat_elements (by simp [Node.isElement]) he
    subst this
    cases hk

/-- C49 is false: comments that begin with `>` or `->` are accepted, and what is written is not read back, or not as it was. -/
theorem C49_false : commentNew c%">" = .ok c%">" ∧ (∃ e, ElementF.newWithChildren c%"r" [.comment c%">"] = .ok e ∧
      ∃ x, parseStr (Document.new e).toString = .err x) ∧
    commentNew c%"->b" = .ok c%"->b" ∧ (∃ e, ElementF.newWithChildren c%"r" [.comment c%"->b"] = .ok e ∧
      ∃ x, parseStr (Document.new e).toString = .err x) :=
  ⟨rfl, ⟨_, rfl, _, rfl⟩, rfl, ⟨_, rfl, _, rfl⟩⟩

example : cdataNew c%"]] ></r>" = .ok c%"]] ></r>" ∧ commentNew c%"--<--" = .ok c%"--<--" ∧ ¬ c%">" <+: c%"--<--" ∧ ¬ c%"->" <+: c%"--<--" :=
  ⟨rfl, rfl, by decide, by decide⟩

/-! ## C50 -/

/-- C50 for XML names: an element made by `Element::new_with_attributes` (or, without attributes, `new_from_name`) is read back
as it was if its name is an XML name without colon, the names of the attributes are XML names, none begins with
`xmlns:xmlns:`, and escaping the values can be undone.
Missing: other names that are accepted, see `C50_false`. -/
theorem C50_partial (n : Str) (a : SMap) (e : Element) (he : ElementF.newWithAttributes n a = .ok e) (hn : NcName n)
    (ha : ∀ k v, a.get k = some v → XmlName k ∧ ValueFits v ∧ ¬ c%"xmlns:xmlns:" <+: k) (i : Str) :
    ∃ d', parseStr ((Document.new e).toStringWithIndent i) = .ok d' ∧ (Document.new e).eq d' = true := by
  unfold ElementF.newWithAttributes ElementF.new checkElemName at he
  cases hv : validName n with
  | false => simp only [hv] at he; cases he
  | true =>
    simp only [hv] at he
    cases hf : a.entries.find? (fun kv => !validName kv.1) with
    | some kv => simp only [hf] at he; cases he
    | none =>
      simp only [hf] at he
      cases he
      have hk : ∀ k v, a.get k = some v → ApiName k := by
        intro k v hk
        have := List.find?_eq_none.1 hf (k, v) (SMap.get_eq_some.1 hk)
        simp at this
        exact validName_iff.1 this
      have hf : DocFits (Document.new ⟨n, [], a, a.get c%"xmlns", none, ElementF.xmlnsContextFromAttributes a⟩) :=
        flat_fits ⟨hn, validName_iff.1 hv⟩ (fun k v h => ⟨(ha k v h).1, hk k v h, (ha k v h).2.1⟩) (by simp) (by simp)
          (apartB_sound (l := []) rfl) _ _
      refine ⟨_, reparse hf i, (reparse_eq_iff hf ?_).2 (flat_ns (by simp) rfl)⟩
      intro e he k hk
      have := flat_elements (by simp) he
      subst this
      obtain ⟨v, hv⟩ := Option.isSome_iff_exists.1 hk
      exact (ha k v hv).2.2

/-- the same for `Element::new_from_name` -/
theorem C50_name_partial (n : Str) (e : Element) (he : ElementF.newFromName n = .ok e) (hn : NcName n) (i : Str) :
    ∃ d', parseStr ((Document.new e).toStringWithIndent i) = .ok d' ∧ (Document.new e).eq d' = true := by
  have hv : validName n = true := by
    unfold ElementF.newFromName checkElemName at he
    cases hv : validName n with
    | false => simp only [hv] at he; cases he
    | true => rfl
  have he' : ElementF.newFromName n = .ok ⟨n, [], .empty, none, none, .empty⟩ := by
    unfold ElementF.newFromName checkElemName
    simp only [hv]
    rfl
  rw [he'] at he
  cases he
  have hf : DocFits (Document.new ⟨n, [], .empty, none, none, .empty⟩) :=
    flat_fits ⟨hn, validName_iff.1 hv⟩ (by intro k v hk; cases hk) (by simp) (by simp) (apartB_sound (l := []) rfl) _ _
  refine ⟨_, reparse hf i, (reparse_eq_iff hf ?_).2 (flat_ns (by simp) rfl)⟩
  intro e he k hk
  have := flat_elements (by simp) he
  subst this
  cases hk

example : ∃ e, ElementF.newWithAttributes c%"a-1" ⟨[(c%"xmlns:p", c%"u"), (c%"xmlns", c%"v"), (c%"p:é", c%"<\"'&>")], by decide⟩ = .ok e ∧
    DocFits (Document.new e) ∧ NoDoubles (Document.new e) :=
  ⟨⟨c%"a-1", [], ⟨[(c%"xmlns:p", c%"u"), (c%"xmlns", c%"v"), (c%"p:é", c%"<\"'&>")], by decide⟩, some c%"v", none,
    ⟨[(c%"p", c%"u")], by decide⟩⟩, rfl, docFitsB_sound (by decide), noDoublesB_sound (by decide)⟩

/-- C50 is false: the names `a>b` and `a:b` are accepted for elements, and `a>b` for attributes; what is written is not read
back, or read back as another element. -/
theorem C50_false : (∃ e, ElementF.newFromName c%"a>b" = .ok e ∧ ∃ x, parseStr (Document.new e).toString = .err x) ∧
    (∃ e, ElementF.newFromName c%"a:b" = .ok e ∧ ∃ x, parseStr (Document.new e).toString = .err x) ∧
    (∃ e, ElementF.newWithAttributes c%"a" ⟨[(c%"a>b", c%"x")], by decide⟩ = .ok e ∧ ∃ x, parseStr (Document.new e).toString = .err x) ∧
    (∃ e, ElementF.newFromName c%"a" = .ok e ∧ ∃ e', e.setAttr c%"xmlns" c%"u" = .ok e' ∧
      ∃ d', parseStr (Document.new e').toString = .ok d' ∧ (Document.new e').eq d' = false) :=
  ⟨⟨_, rfl, _, rfl⟩, ⟨_, rfl, _, rfl⟩, ⟨_, rfl, _, rfl⟩, ⟨_, rfl, _, rfl, _, rfl, rfl⟩⟩

/-! ## C56 -/

/-- C56 is false: a default namespace reaches only the child that is appended, not what is already below it. -/
theorem C56_false : ∃ b, ElementF.newFromName c%"b" = .ok b ∧ ∃ a, ElementF.newFromName c%"a" = .ok a ∧
    ∃ r, ElementF.newWithAttributes c%"r" ⟨[(c%"xmlns", c%"u")], by decide⟩ = .ok r ∧ ∃ a', a.append (.element b) = .ok a' ∧
    ∃ r', r.append (.element a') = .ok r' ∧ ∃ d', parseStr (Document.new r').toString = .ok d' ∧
      (descendants r').map (fun n => (element? n).bind ElementF.namespace_) = [some c%"u", none] ∧
      (descendants d'.root).map (fun n => (element? n).bind ElementF.namespace_) = [some c%"u", some c%"u"] :=
  ⟨⟨c%"b", [], .empty, none, none, .empty⟩, rfl, ⟨c%"a", [], .empty, none, none, .empty⟩, rfl,
    ⟨c%"r", [], ⟨[(c%"xmlns", c%"u")], by decide⟩, some c%"u", none, .empty⟩, rfl,
    ⟨c%"a", [.element ⟨c%"b", [], .empty, none, none, .empty⟩], .empty, none, none, .empty⟩, rfl,
    ⟨c%"r", [.element ⟨c%"a", [.element ⟨c%"b", [], .empty, none, none, .empty⟩], .empty, some c%"u", none, .empty⟩],
      ⟨[(c%"xmlns", c%"u")], by decide⟩, some c%"u", none, .empty⟩, rfl, _, reparse (docFitsB_sound (by decide)) _, rfl, rfl⟩

/-- C56, what holds for every document that fits, however it was made: what is read back is the same tree except perhaps for
the namespaces, and the namespaces are also the same if and only if they agree with the attributes (`NsFits`).
Missing: the namespaces of trees for which they do not agree, see `C56_false`. -/
theorem C56_partial (d : Document) (h : DocFits d) (hd : NoDoubles d) (i : Str) :
    ∃ d', parseStr (d.toStringWithIndent i) = .ok d' ∧ SameNode (bare (.element d.root)) (bare (.element d'.root)) ∧
      (SameNode (.element d.root) (.element d'.root) ↔ NsFits d) := by
  refine ⟨_, reparse h i, re_bareE none d.root h.nodes, ?_⟩
  rw [← reparse_eq_iff h hd, Document.eq]
  constructor
  · intro hs
    cases hs with
    | element hs =>
      simp only [Bool.and_eq_true, beq_iff_eq, element_eq_iff]
      exact ⟨⟨rfl, h.dtds⟩, hs⟩
  · intro hs
    simp only [Bool.and_eq_true, element_eq_iff] at hs
    exact .element hs.2

/-- In particular trees without prefixes, `xmlns` attributes and namespaces are read back as they were. -/
theorem C56_plain (d : Document) (h : DocFits d)
    (hp : ∀ e, Node.element e ∈ docOrder (.element d.root) → e.pfx = none ∧ e.xmlns = none ∧
      ∀ k, (e.attrs.get k).isSome → ¬ c%"xmlns" <+: k) (i : Str) :
    ∃ d', parseStr (d.toStringWithIndent i) = .ok d' ∧ d.eq d' = true := by
  have hx : ∀ e, Node.element e ∈ docOrder (.element d.root) → e.attrs.get c%"xmlns" = none := by
    intro e he
    cases hg : e.attrs.get c%"xmlns" with
    | none => rfl
    | some v => exact absurd List.prefix_rfl ((hp e he).2.2 c%"xmlns" (by rw [hg]; rfl))
  refine ⟨_, reparse h i, (reparse_eq_iff h fun e he k hk hk' => (hp e he).2.2 k hk (List.IsPrefix.trans (by decide) hk')).2 ?_⟩
  refine ⟨prefixScope_plain _ _ fun e he => (hp e he).1, fun _ => ?_, ?_⟩
  · have he := mem_docOrder_self (.element d.root)
    rw [(hp _ he).2.1, hx _ he]
  · intro e he c hc _
    have hc' := mem_docOrder_children _ he hc
    rw [(hp _ hc').2.1, hx _ hc', (hp _ he).2.1]
    split <;> rfl

example : DocFits nested ∧ ∀ e, Node.element e ∈ docOrder (.element nested.root) → e.pfx = none ∧ e.xmlns = none ∧
      ∀ k, (e.attrs.get k).isSome → ¬ c%"xmlns" <+: k := by
  refine ⟨docFitsB_sound (by decide), fun e he => ?_⟩
  have : docOrder (.element nested.root) = [_, _, _, _] := rfl
  rw [this] at he
  simp only [List.mem_cons, List.not_mem_nil, or_false, reduceCtorEq, Node.element.injEq] at he
  rcases he with rfl | rfl | rfl <;> exact ⟨rfl, rfl, fun k hk => by cases hk⟩

/-! ## C59 -/

/-- C59 is false: a document with a document type is not read again; text `a>b☼` is read, but what is written for it is not;
and with several top-level elements, what is read again has other namespaces. -/
theorem C59_false :
    (∃ d, parseStr c%"<!DOCTYPE r><r/>" = .ok d ∧ ∃ x, parseStr d.toString = .err x) ∧
    (∃ d, parseStr c%"<r>a>b☼</r>" = .ok d ∧ parseStr d.toString = .panic) ∧
    (∃ d, parseStr c%"<a xmlns='u'><c/></a><b></b>" = .ok d ∧ ∃ d', parseStr d.toString = .ok d' ∧ d.eq d' = false) :=
  ⟨⟨_, rfl, _, rfl⟩, ⟨_, rfl, rfl⟩, ⟨_, rfl, _, rfl, rfl⟩⟩

/-- C59 for inputs with one top-level element and without document types, in which names are XML names and escaping texts and
values can be undone: the document that was read is written, with any indent, to a string that is read as an equal document.
Missing: see `C59_false`. -/
theorem C59_partial (x : Str) (d : Document) (pre rest : List (Str × Str)) (h : parseStr x = .ok d) (hp : Parts x pre rest)
    (h1 : OneRoot (rest.map Prod.snd)) (hd : d.dtds = [])
    (hn : ∀ e, Node.element e ∈ docOrder (.element d.root) → NcName e.name ∧ (∀ p, e.pfx = some p → NcName p) ∧
      ∀ k v, e.attrs.get k = some v → XmlName k ∧ ValueFits v)
    (ht : ∀ t, Node.text t ∈ docOrder (.element d.root) → ClearAfter ['&', '<', '>'] (lastExtra t) t) (i : Str) :
    ∃ d', parseStr (d.toStringWithIndent i) = .ok d' ∧ d.eq d' = true :=
  have hf := read_fits h hd hn ht
  ⟨_, reparse hf i, read_same h hp h1 hf⟩

example : ∃ d pre rest, Parts c%"<?xml?>\n<p:a k='>' xmlns:p=\"u\"> x <!--c--><b></b></p:a>" pre rest ∧
    parseStr c%"<?xml?>\n<p:a k='>' xmlns:p=\"u\"> x <!--c--><b></b></p:a>" = .ok d ∧ OneRoot (rest.map Prod.snd) ∧ DocFits d ∧
    d.toString = c%"<?xml?>\n<p:a xmlns:p=\"u\" k=\"&gt;\"> x <!--c--><b/></p:a>\n" :=
  ⟨_, [([], c%"<?xml?>")], [(c%"\n", c%"<p:a k='>' xmlns:p=\"u\">"), (c%" x ", c%"<!--c-->"), ([], c%"<b>"), ([], c%"</b>"), ([], c%"</p:a>")],
    partsB_sound [] (by decide) rfl, rfl, oneRootB_sound (by decide), docFitsB_sound (by rfl), rfl⟩

end KissXml.Props
