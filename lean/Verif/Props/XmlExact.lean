import Verif.Proofs.XmlExact
import Verif.Proofs.XmlCheck
import Verif.Props.Concrete
/-!
# C90: exactly which XML documents are accepted, and how they are read

The grammar of XML is in Verif/Spec/Xml.lean, what is accepted of concrete documents is C39.
-/
namespace KissXml.Props
open KissXml KissXml.Spec

/-- C90: an XML document that is accepted has nothing after the root, nothing but comments before it, and in it no processing
instruction and no comment that begins with `>` or `->`. -/
theorem C90_needs {x dec : Str} {before i after : List Item} {n : Str} {as : List (Str × Str)}
    (hx : XDocument false x dec before n as i after) (hu : '\u1680' ∉ x) (hb : ∀ p ∈ before, ClearMisc p)
    {d : Document} (hd : parseStr x = .ok d) : after = [] ∧ (∀ p ∈ before, ∃ c, p = .comment c) ∧ ReadItems i :=
  xml_needs hx hu hb hd

/-- C90: an XML document is accepted if and only if it is written like a concrete document that is accepted by C39.  Then the result
has its declaration and the content it has to every reader of XML, with texts and values as `unescape` gives them (C67) and without the
texts that are white space only. -/
theorem C90_exact {x dec : Str} {before i after : List Item} {n : Str} {as : List (Str × Str)}
    (hx : XDocument false x dec before n as i after) (hu : '\u1680' ∉ x) (hb : ∀ p ∈ before, ClearMisc p) :
    ((∃ d, parseStr x = .ok d) ↔ ∃ c : CDoc, c.src = x ∧ c.OkFor Given fun t => ¬ BadTag t.start ∧ t.Allowed) ∧
    ∀ d, parseStr x = .ok d → d.dtds = [] ∧ dec = (match d.declaration with | none => [] | some x => x.display) ∧
      ItemsRead [.elem n as i] [.element d.root] := by
  have key : ∀ d, parseStr x = .ok d → ∃ c : CDoc, c.src = x ∧ c.Wf ∧ ∀ L d, c.OkFor Given L → c.DenBy UnescTo d →
      d.dtds = [] ∧ dec = (match d.declaration with | none => [] | some x => x.display) ∧ ItemsRead [.elem n as i] [.element d.root] := by
    intro d hd
    obtain ⟨rfl, h2, h3⟩ := xml_needs hx hu hb hd
    refine xdoc_any hx hu (fun p hp => ?_) h3
    obtain ⟨c, rfl⟩ := h2 p hp
    exact ⟨c, rfl, hb _ hp⟩
  refine ⟨⟨?_, ?_⟩, ?_⟩
  · rintro ⟨d, hd⟩
    obtain ⟨c, rfl, hc, -⟩ := key d hd
    exact ⟨c, rfl, (C39_exact_partial c hc).1.1 ⟨d, hd⟩⟩
  · rintro ⟨c, rfl, hc⟩
    exact (C39_exact_partial c (hc.toWfFor.mono (fun _ _ => trivial) fun _ _ => trivial)).1.2 hc
  · intro d hd
    obtain ⟨c, rfl, hc, hr⟩ := key d hd
    obtain ⟨g1, g2⟩ := C39_exact_partial c hc
    exact hr _ d (g1.1 ⟨d, hd⟩) (g2 d hd)

/-- `<!--k--><a b="1" c = "&#65;">&lt;&gt;é<!--x--></a>`: spaces around `=` and references that are not decoded as they should -/
theorem exact_ex : XDocument false c%"<!--k--><a b=\"1\" c = \"&#65;\">&lt;&gt;é<!--x--></a>" [] [.comment c%"k"] c%"a"
    [(c%"b", c%"1"), (c%"c", c%"A")] [.text c%"<>é", .comment c%"x"] [] := by
  refine ⟨c%"<!--k-->", c%"<a b=\"1\" c = \"&#65;\">&lt;&gt;é<!--x--></a>", [], .inl rfl,
    .comment (c := c%"k") (r := []) (xcommentB_sound (d := false) (by decide)) .nil, ?_, .nil, rfl⟩
  refine .elem (n := c%"a") (s := c%"a b=\"1\" c = \"&#65;\"") (c := c%"&lt;&gt;é<!--x-->") (w := []) ?_ ?_ (by decide)
  · refine ⟨c%" b=\"1\" c = \"&#65;\"", [], plainNameB_sound (by decide), ?_, by decide, by decide, rfl⟩
    refine .cons (w := c%" ") (k := c%"b") (e1 := []) (e2 := []) (raw := c%"1") (q := '"') (r := c%" c = \"&#65;\"") (by decide) (by decide)
      (plainNameB_sound (by decide)) (by decide) (by decide) (by simp) (.inl rfl) (.char (by decide) (by decide) (by decide) (by decide) .nil) ?_
    refine .cons (w := c%" ") (k := c%"c") (e1 := c%" ") (e2 := c%" ") (raw := c%"&#65;") (q := '"') (r := []) (by decide) (by decide)
      (plainNameB_sound (by decide)) (by decide) (by decide) (by simp) (.inl rfl) (.ref (r := c%"&#65;") (s := []) ?_ .nil) .nil
    exact XRef.dec (d := c%"65") (.snoc (s := c%"6") (c := '5') (.one (c := '6') (by decide) (by decide)) (by decide) (by decide)) (by decide)
  · refine .more (s := c%"&lt;&gt;é") (l := [.text c%"<>é"]) (p := c%"<!--x-->") (r := []) (m := []) ⟨by decide, c%"<>é", ?_, .inr ⟨by decide, rfl⟩⟩
      (.comment (s := c%"x") (xcommentB_sound (d := false) (by decide))) (.last ⟨by decide, [], .nil, .inl ⟨rfl, rfl⟩⟩)
    exact .ref (.entity .lt) (.ref (.entity .gt) (.char (c := 'é') (by decide) (by decide) (by decide) .nil))

example : ∃ d, parseStr c%"<!--k--><a b=\"1\" c = \"&#65;\">&lt;&gt;é<!--x--></a>" = .ok d ∧ d.root.attrs.get c%"c" = some c%"e" ∧
    d.root.children = [.text c%"<&gt;é", .comment c%"x"] ∧
    ItemsRead [.elem c%"a" [(c%"b", c%"1"), (c%"c", c%"A")] [.text c%"<>é", .comment c%"x"]] [.element d.root] := by
  have hd : ∃ d, parseStr c%"<!--k--><a b=\"1\" c = \"&#65;\">&lt;&gt;é<!--x--></a>" = .ok d ∧ d.root.attrs.get c%"c" = some c%"e" ∧
    d.root.children = [.text c%"<&gt;é", .comment c%"x"] := ⟨_, rfl, rfl, rfl⟩
  obtain ⟨d, h1, h2, h3⟩ := hd
  refine ⟨d, h1, h2, h3, ((C90_exact exact_ex (by decide) ?_).2 d h1).2.2⟩
  simp only [List.mem_singleton]
  rintro _ rfl
  exact ⟨by decide, by decide⟩

/-- with a space on the first attribute it is not accepted, and no concrete document that C39 accepts is written so -/
theorem exact_no : XDocument false c%"<a b = \"1\" c = '2'/>" [] [] c%"a" [(c%"b", c%"1"), (c%"c", c%"2")] [] [] := by
  refine ⟨[], c%"<a b = \"1\" c = '2'/>", [], .inl rfl, .nil, .empty (s := c%"a b = \"1\" c = '2'") ⟨c%" b = \"1\" c = '2'", [],
      plainNameB_sound (by decide), ?_, by decide, by decide, rfl⟩, .nil, rfl⟩
  refine .cons (w := c%" ") (k := c%"b") (e1 := c%" ") (e2 := c%" ") (raw := c%"1") (q := '"') (r := c%" c = '2'") (by decide) (by decide)
      (plainNameB_sound (by decide)) (by decide) (by decide) (by simp) (.inl rfl) (.char (by decide) (by decide) (by decide) (by decide) .nil) ?_
  exact .cons (w := c%" ") (k := c%"c") (e1 := c%" ") (e2 := c%" ") (raw := c%"2") (q := '\'') (r := []) (by decide) (by decide)
      (plainNameB_sound (by decide)) (by decide) (by decide) (by simp) (.inr rfl) (.char (by decide) (by decide) (by decide) (by decide) .nil) .nil

example : ¬ ∃ c : CDoc, c.src = c%"<a b = \"1\" c = '2'/>" ∧ c.OkFor Given fun t => ¬ BadTag t.start ∧ t.Allowed := by
  rw [← (C90_exact exact_no (by decide) (by simp)).1]
  rintro ⟨d, hd⟩
  have : (match parseStr c%"<a b = \"1\" c = '2'/>" with | .ok _ => true | _ => false) = false := by decide +kernel
  rw [hd] at this
  cases this

/-- a comment after the root -/
example : ∀ d, parseStr c%"<a/><!--c-->" ≠ .ok d := by
  intro d hd
  have hx : XDocument false c%"<a/><!--c-->" [] [] c%"a" [] [] [.comment c%"c"] := ⟨[], c%"<a/>", c%"<!--c-->", .inl rfl, .nil,
      .empty (s := c%"a") ⟨[], [], plainNameB_sound (by decide), .nil, by decide, by decide, rfl⟩,
      .comment (c := c%"c") (r := []) (xcommentB_sound (d := false) (by decide)) .nil, rfl⟩
  have := (C90_needs hx (by decide) (by simp) hd).1
  cases this

/-- C90, the conditions are needed.  A comment before the root that begins with `>` can hide the root: the text `">` in `b` is read as the
end of an attribute.  An ogham space mark, which is white space to Rust and may be in names of XML, ends the name.  A processing
instruction before the root is accepted if its name begins with `xml`. -/
theorem C90_conditions :
    (XDocument false c%"<!--><b c=\"--><b>\"></b>" [] [.comment c%"><b c=\""] c%"b" [] [.text c%"\">"] [] ∧
      ∃ d, parseStr c%"<!--><b c=\"--><b>\"></b>" = .ok d ∧ d.root.attrs.get c%"c" = some c%"--><b>" ∧ d.root.children = []) ∧
    (XDocument false (c%"<a" ++ '\u1680' :: c%"/>") [] [] (c%"a" ++ ['\u1680']) [] [] [] ∧
      ∃ d, parseStr (c%"<a" ++ '\u1680' :: c%"/>") = .ok d ∧ d.root.name = c%"a") ∧
    (XDocument false c%"<?xml-style?><a/>" [] [.pi c%"xml-style" []] c%"a" [] [] [] ∧ ∃ d, parseStr c%"<?xml-style?><a/>" = .ok d) := by
  refine ⟨⟨⟨c%"<!--><b c=\"-->", c%"<b>\"></b>", [], .inl rfl, .comment (c := c%"><b c=\"") (r := []) (xcommentB_sound (d := false) (by decide)) .nil,
      .elem (n := c%"b") (s := c%"b") (c := c%"\">") (w := []) ⟨[], [], plainNameB_sound (by decide), .nil, by decide, by decide, rfl⟩
        (.last ⟨by decide, c%"\">", .char (by decide) (by decide) (by decide) (.char (by decide) (by decide) (by decide) .nil),
          .inr ⟨by decide, rfl⟩⟩) (by decide), .nil, rfl⟩, _, rfl, rfl, rfl⟩,
    ⟨⟨[], c%"<a" ++ '\u1680' :: c%"/>", [], .inl rfl, .nil, .empty (s := c%"a" ++ ['\u1680']) ⟨[], [], plainNameB_sound (by decide), .nil, by decide, by decide, rfl⟩,
      .nil, rfl⟩, _, rfl, rfl⟩,
    ⟨⟨c%"<?xml-style?>", c%"<a/>", [], .inl rfl, ?_,
      .empty (s := c%"a") ⟨[], [], plainNameB_sound (by decide), .nil, by decide, by decide, rfl⟩, .nil, rfl⟩, _, rfl⟩⟩
  exact .pi (s := c%"<?xml-style?>") (r := []) ⟨⟨plainNameB_sound (by decide), by intro a b c h; simp at h⟩, by simp, by decide, .inl ⟨rfl, rfl⟩⟩ .nil

end KissXml.Props
