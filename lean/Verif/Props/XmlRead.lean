import Verif.Proofs.XmlRead
import Verif.Proofs.XmlCheck
import Verif.Proofs.SyntaxCheck
/-!
# C71: reading XML

The grammar of XML and what it means are in Verif/Spec/Xml.lean, after the W3C recommendation.
-/
namespace KissXml.Props
open KissXml KissXml.Spec

/-- C71: a well-formed XML document is read, and the result has its declaration and, but for texts that are white space only, the
content that it has to every reader of XML (tabs and line feeds in attribute values are kept as they are).
Missing, see `C71_false`: documents with numeric references, other white space than that of XML, white space around the `=` of
attributes, processing instructions, comments after the root, a first comment before it that is cut inside a character for a warning (`NoCut`), comments that begin with `>` or
`->`, names that the library refuses, undeclared prefixes of the root, and texts with special characters that do not end in ASCII. -/
theorem C71_partial {x dec : Str} {before i : List Item} {n : Str} {as : List (Str × Str)} (hx : XDocument true x dec before n as i [])
    (hn : Nice x) (hb : ∀ p ∈ before, ∃ c, p = .comment c ∧ EasyComment c)
    (hf : ∀ c r, before = .comment c :: r → ¬ NoCut (c%"<!--" ++ c ++ c%"-->"))
    (he : EasyItem (.elem n as i)) (hp : ∀ p l, n = p ++ ':' :: l → ':' ∉ p → c%"xmlns:" ++ p ∈ as.map Prod.fst) :
    ∃ d, parseStr x = .ok d ∧ d.dtds = [] ∧ dec = (match d.declaration with | none => [] | some x => x.display) ∧
      Taken [.elem n as i] [.element d.root] := xml_read hx hn hb hf he hp

/-- a text that meets the conditions -/
example : ∃ x, x = c%"<?xml version='1.0'?>\n<!-- tea -->\n<t:a xmlns:t=\"u\" b='1 &lt; \"2\"' >é &amp; six<!--k-v--><c />\n</t:a >\n" ∧
    ∃ dec before n as i, XDocument true x dec before n as i [] ∧ Nice x ∧
      (∀ p ∈ before, ∃ c, p = .comment c ∧ EasyComment c) ∧ (∀ c r, before = .comment c :: r → ¬ NoCut (c%"<!--" ++ c ++ c%"-->")) ∧
      EasyItem (.elem n as i) ∧ (∀ p l, n = p ++ ':' :: l → ':' ∉ p → c%"xmlns:" ++ p ∈ as.map Prod.fst) := by
  refine ⟨_, rfl, c%"<?xml version='1.0'?>", [.comment c%" tea "], c%"t:a", [(c%"xmlns:t", c%"u"), (c%"b", c%"1 < \"2\"")],
    [.text c%"é & six", .comment c%"k-v", .elem c%"c" [] [], .text c%"\n"], ?_, ⟨by decide, ?_⟩, ?_, ?_, ?_, ?_⟩
  · refine ⟨c%"\n<!-- tea -->\n", c%"<t:a xmlns:t=\"u\" b='1 &lt; \"2\"' >é &amp; six<!--k-v--><c />\n</t:a >", c%"\n", .inr ?_, ?_, ?_,
      .space (w := c%"\n") (by decide) .nil, rfl⟩
    · refine ⟨c%" version='1.0'", [], [], [], ⟨c%"1.0", ⟨c%"0", rfl, by decide, by decide⟩, ?_⟩, .inl rfl, .inl rfl, by decide, rfl⟩
      exact ⟨c%" ", [], [], '\'', by decide, by decide, by decide, by decide, .inr rfl, rfl⟩
    · exact .space (w := c%"\n") (by decide) (.comment (c := c%" tea ") (xcommentB_sound (d := false) (by decide))
        (.space (w := c%"\n") (by decide) .nil))
    · refine XPiece.elem (n := c%"t:a") (s := c%"t:a xmlns:t=\"u\" b='1 &lt; \"2\"' ") (c := c%"é &amp; six<!--k-v--><c />\n") (w := c%" ") ?_ ?_ (by decide)
      · refine ⟨c%" xmlns:t=\"u\" b='1 &lt; \"2\"'", c%" ", plainNameB_sound (by decide), ?_, by decide, by decide, rfl⟩
        refine XAttrs.cons (w := c%" ") (k := c%"xmlns:t") (e1 := []) (e2 := []) (raw := c%"u") (q := '"') (by decide) (by decide) (plainNameB_sound (by decide)) (by decide)
          (by decide) (by simp) (.inl rfl) (.char (by decide) (by decide) (by decide) (by decide) .nil) ?_
        refine XAttrs.cons (w := c%" ") (k := c%"b") (e1 := []) (e2 := []) (raw := c%"1 &lt; \"2\"") (q := '\'') (r := []) (by decide) (by decide)
          (plainNameB_sound (by decide)) (by decide) (by decide) (by simp) (.inr rfl) ?_ .nil
        exact .char (c := '1') (by decide) (by decide) (by decide) (by decide) (.char (c := ' ') (by decide) (by decide) (by decide) (by decide)
          (.ref (.entity .lt) (.char (c := ' ') (by decide) (by decide) (by decide) (by decide)
          (.char (c := '"') (by decide) (by decide) (by decide) (by decide) (.char (c := '2') (by decide) (by decide) (by decide) (by decide)
          (.char (c := '"') (by decide) (by decide) (by decide) (by decide) .nil))))))
      · refine XContent.more (s := c%"é &amp; six") (p := c%"<!--k-v-->") (l := [.text c%"é & six"]) ⟨by decide, c%"é & six", ?_, .inr ⟨by decide, rfl⟩⟩
          (.comment (s := c%"k-v") (xcommentB_sound (d := false) (by decide))) ?_
        · exact .char (c := 'é') (by decide) (by decide) (by decide) (.char (c := ' ') (by decide) (by decide) (by decide)
            (.ref (.entity .amp) (.char (c := ' ') (by decide) (by decide) (by decide) (.char (c := 's') (by decide) (by decide) (by decide)
            (.char (c := 'i') (by decide) (by decide) (by decide) (.char (c := 'x') (by decide) (by decide) (by decide) .nil))))))
        · refine XContent.more (s := []) (p := c%"<c />") (l := []) (r := c%"\n") ⟨by decide, [], .nil, .inl ⟨rfl, rfl⟩⟩
            (.empty (s := c%"c ") ⟨[], c%" ", plainNameB_sound (by decide), .nil, by decide, by decide, rfl⟩) (.last ⟨by decide, c%"\n", ?_, .inr ⟨by decide, rfl⟩⟩)
          exact .char (by decide) (by decide) (by decide) .nil
  · decide +kernel
  · intro p hp
    simp at hp
    exact ⟨_, hp, ⟨by decide, by decide⟩⟩
  · rintro c r ⟨⟩
    exact noCut_short (by decide)
  · refine ⟨elemNameB_sound (by decide), ?_, ?_⟩
    · intro kv hkv
      simp only [List.mem_cons, List.not_mem_nil, or_false] at hkv
      rcases hkv with rfl | rfl
      · exact ⟨validName_iff.1 (by decide), .inl (by rintro c ⟨⟩; decide)⟩
      · exact ⟨validName_iff.1 (by decide), .inl (by rintro c ⟨⟩; decide)⟩
    · refine ⟨.inl (by rintro c ⟨⟩; decide), ⟨by decide, by decide⟩, ⟨elemNameB_sound (by decide), by simp, trivial⟩, .inr (by decide), trivial⟩
  · intro p l h hp
    have h2 := splitOnce_eq_some.2 ⟨h, hp⟩
    rw [show splitOnce ':' c%"t:a" = some (c%"t", c%"a") by decide] at h2
    cases h2
    simp

/-- C71 is false: well-formed documents that are rejected. -/
theorem C71_false : ∀ x ∈ [c%"<a b = \"2\"/>", c%"<a/><!--c-->", c%"<a><?p?></a>", c%"<é/>", c%"<a><!-->--></a>"],
    XmlWellFormed x ∧ ∀ d, parseStr x ≠ .ok d := by
  intro x hx
  have hr : ∀ d, parseStr x ≠ .ok d := by
    intro d hd
    have : ∀ x ∈ [c%"<a b = \"2\"/>", c%"<a/><!--c-->", c%"<a><?p?></a>", c%"<é/>", c%"<a><!-->--></a>"],
        (match parseStr x with | .ok _ => false | _ => true) = true := by decide +kernel
    have := this x hx
    rw [hd] at this
    cases this
  refine ⟨?_, hr⟩
  simp only [List.mem_cons, List.not_mem_nil, or_false] at hx
  rcases hx with rfl | rfl | rfl | rfl | rfl
  · refine ⟨[], [], c%"a", [(c%"b", c%"2")], [], [], [], _, [], .inl rfl, .nil, .empty (s := c%"a b = \"2\"") ⟨c%" b = \"2\"", [],
      plainNameB_sound (by decide), ?_, by decide, by decide, rfl⟩, .nil, rfl⟩
    exact .cons (w := c%" ") (k := c%"b") (e1 := c%" ") (e2 := c%" ") (raw := c%"2") (q := '"') (r := []) (by decide) (by decide)
      (plainNameB_sound (by decide)) (by decide) (by decide) (by simp) (.inl rfl) (.char (by decide) (by decide) (by decide) (by decide) .nil) .nil
  · exact ⟨[], [], c%"a", [], [], [.comment c%"c"], [], c%"<a/>", c%"<!--c-->", .inl rfl, .nil,
      .empty (s := c%"a") ⟨[], [], plainNameB_sound (by decide), .nil, by decide, by decide, rfl⟩,
      .comment (c := c%"c") (r := []) (xcommentB_sound (d := false) (by decide)) .nil, rfl⟩
  · exact ⟨[], [], c%"a", [], [.pi c%"p" []], [], [], c%"<a><?p?></a>", [], .inl rfl, .nil,
      .elem (n := c%"a") (s := c%"a") (c := c%"<?p?>") (w := []) ⟨[], [], plainNameB_sound (by decide), .nil, by decide, by decide, rfl⟩
      (.more (s := []) (l := []) (p := c%"<?p?>") (r := []) (m := []) ⟨by decide, [], .nil, .inl ⟨rfl, rfl⟩⟩ (.pi ⟨⟨plainNameB_sound (by decide), by
        intro a b c h; simp at h⟩, by simp, by decide, .inl ⟨rfl, rfl⟩⟩) (.last ⟨by decide, [], .nil, .inl ⟨rfl, rfl⟩⟩)) (by decide), .nil, rfl⟩
  · exact ⟨[], [], c%"é", [], [], [], [], c%"<é/>", [], .inl rfl, .nil,
      .empty (s := c%"é") ⟨[], [], plainNameB_sound (by decide), .nil, by decide, by decide, rfl⟩, .nil, rfl⟩
  · exact ⟨[], [], c%"a", [], [.comment c%">"], [], [], c%"<a><!-->--></a>", [], .inl rfl, .nil,
      .elem (n := c%"a") (s := c%"a") (c := c%"<!-->-->") (w := []) ⟨[], [], plainNameB_sound (by decide), .nil, by decide, by decide, rfl⟩
      (.more (s := []) (l := []) (p := c%"<!-->-->") (r := []) (m := []) ⟨by decide, [], .nil, .inl ⟨rfl, rfl⟩⟩
        (.comment (s := c%">") (xcommentB_sound (d := false) (by decide))) (.last ⟨by decide, [], .nil, .inl ⟨rfl, rfl⟩⟩)) (by decide), .nil, rfl⟩

/-- C71 is false: well-formed documents that are read as something else, here `A` as `e` and a no-break space as nothing. -/
theorem C71_false_text :
    (∃ n, XDocument true c%"<a>&#65;</a>" [] [] n [] [.text c%"A"] [] ∧ ∃ d, parseStr c%"<a>&#65;</a>" = .ok d ∧ d.root.children = [.text c%"e"]) ∧
    (∃ n, XDocument true (c%"<a>" ++ '\u00A0' :: c%"</a>") [] [] n [] [.text ['\u00A0']] [] ∧
      ∃ d, parseStr (c%"<a>" ++ '\u00A0' :: c%"</a>") = .ok d ∧ d.root.children = []) := by
  refine ⟨⟨c%"a", ⟨[], c%"<a>&#65;</a>", [], .inl rfl, .nil, ?_, .nil, rfl⟩, ⟨_, rfl, rfl⟩⟩,
    ⟨c%"a", ⟨[], c%"<a>" ++ '\u00A0' :: c%"</a>", [], .inl rfl, .nil, ?_, .nil, rfl⟩, ⟨_, rfl, rfl⟩⟩⟩
  · refine .elem (n := c%"a") (s := c%"a") (c := c%"&#65;") (w := []) ⟨[], [], plainNameB_sound (by decide), .nil, by decide, by decide, rfl⟩
      (.last ⟨by decide, c%"A", .ref (r := c%"&#65;") (s := []) ?_ .nil, .inr ⟨by decide, rfl⟩⟩) (by decide)
    exact XRef.dec (d := c%"65") (.snoc (s := c%"6") (c := '5') (.one (c := '6') (by decide) (by decide)) (by decide) (by decide)) (by decide)
  · exact .elem (n := c%"a") (s := c%"a") (c := ['\u00A0']) (w := []) ⟨[], [], plainNameB_sound (by decide), .nil, by decide, by decide, rfl⟩
      (.last ⟨by decide, ['\u00A0'], .char (by decide) (by decide) (by decide) .nil, .inr ⟨by decide, rfl⟩⟩) (by decide)

end KissXml.Props
