import Verif.Proofs.Layout
import Verif.Proofs.Equal
/-!
# Serialisation and equality: C08, C09, C10, C27, C28, C29
-/
namespace KissXml.Props
open KissXml KissXml.Spec

/-! concrete values used in the examples -/

/-- attribute maps listing the same entries in two orders -/
def m1 : SMap := ⟨[(c%"b", c%"2"), (c%"xmlns:p", c%"u"), (c%"a", c%"1"), (c%"xmlns", c%"d")], by decide⟩
def m2 : SMap := ⟨[(c%"xmlns", c%"d"), (c%"a", c%"1"), (c%"b", c%"2"), (c%"xmlns:p", c%"u")], by decide⟩
/-- `<r …><k/>t<!--c--></r>` -/
def e1 : Element := ⟨c%"r", [.element ⟨c%"k", [], m1, none, none, .empty⟩, .text c%"t", .comment c%"c"], m1, some c%"d", none, .empty⟩
def e2 : Element := ⟨c%"r", [.element ⟨c%"k", [], m2, none, none, .empty⟩, .text c%"t", .comment c%"c"], m2, some c%"d", none, m1⟩
/-- nested, without text -/
def e3 : Element := ⟨c%"r", [.element ⟨c%"k", [.element ⟨c%"j", [.text c%"<"], .empty, none, none, .empty⟩], .empty, none, none, .empty⟩, .comment c%"c"], .empty, none, none, .empty⟩

/-! ## C08 -/

/-- C08: every start tag the serialiser writes (for the element itself or for a descendant: `toStringPI` is
called for each) is `<name` followed by all attributes, each exactly once, in strictly increasing order,
followed by `>` or `/>`. -/
theorem C08_attribute_order (pre indent : Str) (inl : Bool) (e : Element) :
    ∃ l rest, SortedAttrs e.attrs l ∧
      e.toStringPI pre indent inl = (if inl then [] else pre) ++ '<' :: qname e ++ l.flatMap attrStr ++ rest ∧
      (rest = c%"/>" ∨ c%">" <+: rest) := by
  obtain ⟨n, cs, a, x, p, c⟩ := e
  have hs : SortedAttrs a (sortAttrs a.entries) := ⟨sortAttrs_perm a.entries, sortAttrs_pairwise a.nodup⟩
  rw [ElementF.toStringPI]
  simp only [attrsToString_spec, tagName_qname]
  generalize (if inl then [] else pre) = q
  split
  · exact ⟨_, c%"/>", hs, by simp, .inl rfl⟩
  · split
    · exact ⟨_, c%">" ++ _, hs, by simp only [List.append_assoc, List.cons_append, List.nil_append]; rfl,
        .inr (List.prefix_append _ _)⟩
    · exact ⟨_, c%">" ++ _, hs, by simp only [List.append_assoc, List.cons_append, List.nil_append]; rfl,
        .inr (List.prefix_append _ _)⟩

/-- the order of C08 is a strict total order on names … -/
theorem C08_strict_total :
    (∀ a, ¬ AttrLt a a) ∧ (∀ a b c, AttrLt a b → AttrLt b c → AttrLt a c) ∧
    (∀ a b, a ≠ b → AttrLt a b ∨ AttrLt b a) :=
  ⟨attrLt_irrefl, fun _ _ _ => attrLt_trans, fun _ _ => attrLt_total⟩

/-- … that puts every `xmlns…` attribute before all others. -/
theorem C08_xmlns_first {a : SMap} {l : List (Str × Str)} (h : SortedAttrs a l) {s t : List (Str × Str)}
    {x : Str × Str} (hl : l = s ++ x :: t) (hx : IsXmlns x.1) : ∀ y ∈ s, IsXmlns y.1 := by
  intro y hy
  have := h.2
  rw [hl, List.pairwise_append] at this
  rcases this.2.2 y hy x (by simp) with ⟨h1, -⟩ | ⟨h1, -⟩
  · exact h1
  · exact h1.2 hx

example : ElementF.toString ⟨c%"k", [], m1, none, none, .empty⟩ =
    c%"<k xmlns=\"d\" xmlns:p=\"u\" a=\"1\" b=\"2\"/>" := by decide

/-! ## C09 -/

/-- C09 for elements: only the content matters, not the order of the map entries. -/
theorem C09_element {e e' : Element} (h : SameElement e e') (indent : Str) :
    e.toStringWithIndent indent = e'.toStringWithIndent indent := by
  unfold ElementF.toStringWithIndent
  rw [same_toStringPI _ _ _ h, same_toStringPI _ _ _ h]

/-- C09 for documents -/
theorem C09_document {d d' : Document} (h1 : d.declaration = d'.declaration) (h2 : d.dtds = d'.dtds)
    (h3 : SameElement d.root d'.root) (indent : Str) :
    d.toStringWithIndent indent = d'.toStringWithIndent indent ∧ d.toString = d'.toString := by
  unfold Document.toString Document.toStringWithIndent
  simp only [h1, h2, C09_element h3, and_self]

theorem e1_same_e2 : SameElement e1 e2 := by
  have h : m1.entries.Perm m2.entries := SMap.eq_iff.1 (by decide)
  exact .mk h (.cons (.element (.mk h .nil)) (.cons (.text _) (.cons (.comment _) .nil)))

example : m1.entries ≠ m2.entries := by decide
example : e1.toString = c%"<r xmlns=\"d\" xmlns:p=\"u\" a=\"1\" b=\"2\"><k xmlns=\"d\" xmlns:p=\"u\" a=\"1\" b=\"2\"/>t<!--c--></r>"
    ∧ e2.toString = e1.toString := ⟨by decide, (C09_element e1_same_e2 _).symm⟩

/-! ## C10 -/

open Classical in
/-- C10 for elements: the layout uses the given indent if it is one tab or only spaces, else two spaces.
`ELayout` determines the string (`layout_functional`). -/
theorem C10_element (e : Element) (i : Str) :
    ELayout (if ValidIndent i then i else c%"  ") 0 false e (e.toStringWithIndent i) := by
  unfold ElementF.toStringWithIndent
  by_cases h : ValidIndent i
  · rw [if_pos h, if_pos (validateIndent_iff.2 h)]
    exact elayout i 0 false [] e (fun _ => rfl)
  · rw [if_neg h, if_neg (fun h' => h (validateIndent_iff.1 h'))]
    exact elayout _ 0 false [] e (fun _ => rfl)

theorem layout_functional {u : Str} {e : Element} {s s' : Str} (h : ELayout u 0 false e s) (h' : ELayout u 0 false e s') :
    s = s' := elayout_unique h h'

/-- C10 for elements: an invalid indent gives `to_string()`. -/
theorem C10_element_invalid (e : Element) (i : Str) (h : ¬ ValidIndent i) :
    e.toStringWithIndent i = e.toString := by
  unfold ElementF.toString ElementF.toStringWithIndent
  rw [if_neg (fun h' => h (validateIndent_iff.1 h'))]
  rfl

/-- C10 for documents: declaration line, DTD lines, root element laid out with the indent (or two
spaces), line feed. -/
theorem C10_document (d : Document) (i : Str) :
    (ValidIndent i → ∃ s, ELayout i 0 false d.root s ∧
      d.toStringWithIndent i = (d.declaration.elim [] (fun x => c%"<?" ++ x.declStr ++ c%"?>\n")) ++
        (d.dtds.flatMap (fun x => x.dtdStr ++ ['\n'])) ++ s ++ ['\n']) ∧
    (¬ ValidIndent i → d.toStringWithIndent i = d.toString) := by
  constructor
  · intro h
    refine ⟨d.root.toStringWithIndent i, ?_, ?_⟩
    · have := C10_element d.root i
      rwa [if_pos h] at this
    · have hd : ∀ l : List DTD, dtdsToString l = l.flatMap (fun x => x.dtdStr ++ ['\n']) := by
        intro l
        induction l with
        | nil => rfl
        | cons x l ih => simp [dtdsToString, DTD.display, ih]
      unfold Document.toStringWithIndent
      rw [if_pos (validateIndent_iff.2 h)]
      simp only [hd]
      cases d.declaration <;> simp [Declaration.display]
  · intro h
    unfold Document.toString Document.toStringWithIndent
    rw [if_neg (fun h' => h (validateIndent_iff.1 h'))]
    rfl

open Classical in
/-- C10 for an element held as a node: the same layout through the methods of the `Node` trait, and
`to_string()` with two spaces, whether of the node, the element or the document it is the root of. -/
theorem C10_node (e : Element) (i : Str) :
    ELayout (if ValidIndent i then i else c%"  ") 0 false e ((Node.element e).toStringWithIndent i) ∧
    ELayout c%"  " 0 false e (Node.element e).toString ∧ ELayout c%"  " 0 false e e.toString ∧
    ∀ dcl dtds, ∃ s, ELayout c%"  " 0 false e s ∧ (⟨dcl, dtds, e⟩ : Document).toString =
      (dcl.elim [] (fun x => c%"<?" ++ x.declStr ++ c%"?>\n")) ++
        (dtds.flatMap (fun x => x.dtdStr ++ ['\n'])) ++ s ++ ['\n'] := by
  have two : ValidIndent c%"  " := .inr ⟨2, rfl⟩
  have h := C10_element e c%"  "
  rw [if_pos two] at h
  exact ⟨C10_element e i, h, h, fun dcl dtds => (C10_document ⟨dcl, dtds, e⟩ c%"  ").1 two⟩

example : (Node.element e3).toString = c%"<r>\n  <k>\n    <j>&lt;</j>\n  </k>\n  <!--c-->\n</r>" := by decide
example : ValidIndent c%"\t" ∧ ValidIndent c%"   " ∧ ValidIndent [] ∧ ¬ ValidIndent c%"\t " :=
  ⟨.inl rfl, .inr ⟨3, rfl⟩, .inr ⟨0, rfl⟩, fun h => absurd (validateIndent_iff.2 h) (by decide)⟩
example : e3.toStringWithIndent c%"\t" = c%"<r>\n\t<k>\n\t\t<j>&lt;</j>\n\t</k>\n\t<!--c-->\n</r>" := by decide
example : e3.toStringWithIndent c%"\t " = c%"<r>\n  <k>\n    <j>&lt;</j>\n  </k>\n  <!--c-->\n</r>" := by decide

/-! ## C27 -/

/-- C27: `==` on nodes, elements and documents is an equivalence … -/
theorem C27_equivalence :
    (∀ n : Node, n.eq n = true) ∧ (∀ a b : Node, a.eq b = true → b.eq a = true) ∧
    (∀ a b c : Node, a.eq b = true → b.eq c = true → a.eq c = true) ∧
    (∀ e : Element, e.eq e = true) ∧ (∀ a b : Element, a.eq b = true → b.eq a = true) ∧
    (∀ a b c : Element, a.eq b = true → b.eq c = true → a.eq c = true) ∧
    (∀ d : Document, d.eq d = true) ∧ (∀ a b : Document, a.eq b = true → b.eq a = true) ∧
    (∀ a b c : Document, a.eq b = true → b.eq c = true → a.eq c = true) := by
  simp only [Document.eq, Bool.and_eq_true, beq_iff_eq, node_eq_iff, element_eq_iff]
  refine ⟨sameNode_refl, fun _ _ => sameNode_symm, fun _ _ _ => sameNode_trans,
    sameElement_refl, fun _ _ => sameElement_symm, fun _ _ _ => sameElement_trans,
    fun d => ⟨⟨trivial, trivial⟩, sameElement_refl _⟩, ?_, ?_⟩
  · rintro a b ⟨⟨h1, h2⟩, h3⟩
    exact ⟨⟨h1.symm, h2.symm⟩, sameElement_symm h3⟩
  · rintro a b c ⟨⟨h1, h2⟩, h3⟩ ⟨⟨h1', h2'⟩, h3'⟩
    exact ⟨⟨h1.trans h1', h2.trans h2'⟩, sameElement_trans h3 h3'⟩

/-- … and it means: same content, whatever the iteration order of the maps. -/
theorem C27_same_content (a b : Element) : a.eq b = true ↔ SameElement a b := element_eq_iff
theorem C27_same_content_node (a b : Node) : a.eq b = true ↔ SameNode a b := node_eq_iff

example : e1.eq e2 = true ∧ e1.eq e3 = false := by decide

/-! ## C28 -/

/-- C28 for elements: equal elements serialise identically, have the same text and feed the same data to
the hasher. -/
theorem C28_element {a b : Element} (h : a.eq b = true) :
    (∀ i, a.toStringWithIndent i = b.toStringWithIndent i) ∧ a.toString = b.toString ∧
    a.textOf = b.textOf ∧ a.hashKey = b.hashKey := by
  have hs := element_eq_iff.1 h
  refine ⟨C09_element hs, C09_element hs _, same_textOfE hs, ?_⟩
  cases hs; rfl

/-- C28 for nodes -/
theorem C28_node {a b : Node} (h : a.eq b = true) :
    (∀ i, a.toStringWithIndent i = b.toStringWithIndent i) ∧ a.textOf = b.textOf := by
  have hs := node_eq_iff.1 h
  refine ⟨?_, same_textOf hs⟩
  intro i
  cases hs with
  | element h' => exact C09_element h' i
  | text => rfl
  | comment => rfl
  | cdata => rfl

/-- C28 for documents -/
theorem C28_document {a b : Document} (h : a.eq b = true) :
    (∀ i, a.toStringWithIndent i = b.toStringWithIndent i) ∧ a.toString = b.toString := by
  simp only [Document.eq, Bool.and_eq_true, beq_iff_eq, element_eq_iff] at h
  obtain ⟨⟨h1, h2⟩, h3⟩ := h
  exact ⟨fun i => (C09_document h1 h2 h3 i).1, (C09_document h1 h2 h3 []).2⟩

/-- C28: a clone equals its original (it is identical). -/
theorem C28_clone (e : Element) (n : Node) : e.clone = e ∧ e.clone.eq e = true ∧ n.clone = n ∧ n.clone.eq n = true := by
  rw [clone_element, clone_node]
  exact ⟨rfl, element_eq_iff.2 (sameElement_refl _), rfl, node_eq_iff.2 (sameNode_refl _)⟩

/-! ## C29 -/

/-- C29 is false for elements: the order compares only the names. -/
theorem C29_false : ∃ a b : Element, a.cmp b = .eq ∧ a.eq b = false :=
  ⟨⟨c%"a", [], .empty, none, none, .empty⟩, ⟨c%"a", [.text c%"t"], .empty, none, none, .empty⟩, by decide⟩

/-- C29 for texts, comments, CDATA; for elements one direction and the exact meaning of "equal" order.
Missing: for elements an equal comparison does not imply equality (`C29_false`). -/
theorem C29_partial :
    (∀ a b, textCmp a b = .eq ↔ textEq a b = true) ∧ (∀ a b, commentCmp a b = .eq ↔ commentEq a b = true) ∧
    (∀ a b, cdataCmp a b = .eq ↔ cdataEq a b = true) ∧
    (∀ a b : Element, a.eq b = true → a.cmp b = .eq) ∧
    (∀ a b : Element, a.cmp b = .eq ↔ a.name = b.name) := by
  refine ⟨fun a b => ?_, fun a b => ?_, fun a b => ?_, fun a b h => ?_, fun a b => strCmp_eq⟩
  · simp [textCmp, textEq, strCmp_eq]
  · simp [commentCmp, commentEq, strCmp_eq]
  · simp [cdataCmp, cdataEq, strCmp_eq]
  · have := element_eq_iff.1 h
    cases this
    exact strCmp_eq.2 rfl

/-- the order is the byte order of the strings, as in Rust -/
theorem C29_byte_order (a b : Str) : textCmp a b = .lt ↔ BytesLt (bytes a) (bytes b) := strCmp_lt_iff

example : textCmp c%"aé" c%"b" = .lt ∧ textCmp c%"b" c%"b" = .eq := by decide

end KissXml.Props
