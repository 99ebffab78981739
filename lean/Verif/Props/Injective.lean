import Verif.Props.RoundTrip
/-!
# Writing loses nothing: C77

`DocShape` (Verif/Spec/Conform.lean) says which documents can be written: XML names, no two texts side by side, no blank texts,
comments and CDATA sections that do not end early, no document types; texts and attribute values may be any.
-/
namespace KissXml.Props
open KissXml KissXml.Spec

/-- C77: two documents that can be written are written with the same characters, whatever the indents, only if they have the
same declaration and the same elements, attributes, texts, comments and CDATA sections; then they are written with the same
characters for every indent. -/
theorem C77_written (d d' : Document) (h : DocShape d) (h' : DocShape d') :
    ((∃ i j, d.toStringWithIndent i = d'.toStringWithIndent j) ↔
      d.declaration = d'.declaration ∧ SameNode (bare (.element d.root)) (bare (.element d'.root))) ∧
    ((∃ i j, d.toStringWithIndent i = d'.toStringWithIndent j) ↔ ∀ i, d.toStringWithIndent i = d'.toStringWithIndent i) := by
  have key : d.declaration = d'.declaration ∧ SameNode (bare (.element d.root)) (bare (.element d'.root)) →
      ∀ i, d.toStringWithIndent i = d'.toStringWithIndent i :=
    fun hs i => write_of_bare hs.1 (h.dtds.trans h'.dtds.symm) hs.2 i
  exact ⟨⟨fun ⟨i, j, he⟩ => write_inj h h' he, fun hs => ⟨[], [], key hs []⟩⟩,
    ⟨fun ⟨i, j, he⟩ => key (write_inj h h' he), fun he => ⟨[], [], he []⟩⟩⟩

/-- C77 with namespaces: two documents that can be written, whose namespaces agree with their `xmlns` attributes as the library
understands them, are equal if and only if they are written with the same characters. -/
theorem C77_equal (d d' : Document) (h : DocShape d) (h' : DocShape d') (hn : NsFits d) (hn' : NsFits d') (hd : NoDoubles d)
    (hd' : NoDoubles d') (i j : Str) :
    (d.toStringWithIndent i = d'.toStringWithIndent j → d.eq d' = true) ∧
    (d.eq d' = true → d.toStringWithIndent i = d'.toStringWithIndent i) := by
  constructor
  · intro he
    obtain ⟨h1, h2⟩ := write_inj h h' he
    simp only [Document.eq, Bool.and_eq_true, beq_iff_eq, element_eq_iff]
    refine ⟨⟨h1, h.dtds.trans h'.dtds.symm⟩, ?_⟩
    have g := (nsFits_iff hd).1 hn
    have g' := (nsFits_iff hd').1 hn'
    have := same_of_rules h2 g.1 g'.1 g.2 g'.2
    cases this with
    | element h => exact h
  · intro he
    simp only [Document.eq, Bool.and_eq_true, beq_iff_eq, element_eq_iff] at he
    exact write_of_bare he.1.1 he.1.2 (same_bare (.element he.2)) i

/-- two documents that differ in a space -/
def spaced (t : Str) : Document := ⟨none, [], ⟨c%"r", [.element ⟨c%"a", [], .empty, none, none, .empty⟩, .text t], .empty, none, none, .empty⟩⟩

example : DocShape (spaced c%"&&é") ∧ DocShape (spaced c%" &&é") := ⟨shapeB_sound (by decide), shapeB_sound (by decide)⟩
-- they are written differently, though neither is read back correctly
example (i j : Str) : (spaced c%"&&é").toStringWithIndent i ≠ (spaced c%" &&é").toStringWithIndent j := by
  intro he
  have := ((C77_written _ _ (shapeB_sound (by decide)) (shapeB_sound (by decide))).1.1 ⟨i, j, he⟩).2
  simp only [spaced, bare, bareL] at this
  cases this with
  | element h => cases h with
    | mk _ h => cases h with
      | cons _ h => cases h with
        | cons h _ => cases h

example : DocShape sample ∧ NoDoubles sample ∧ NsFits sample :=
  ⟨fits_shape sample_fits, sample_noDoubles, nsFits_of_scopes sample_prefix sample_default sample_inherits⟩

/-- the same texts in one node and in two -/
def joined (l : List Node) : Document := ⟨none, [], ⟨c%"r", l, .empty, none, none, .empty⟩⟩

-- the shape is needed: texts side by side, and blank texts
example : (joined [.text c%"ab"]).toString = (joined [.text c%"a", .text c%"b"]).toString ∧
    (joined [.text c%"ab"]).eq (joined [.text c%"a", .text c%"b"]) = false := ⟨rfl, rfl⟩
example : (joined [.element ⟨c%"a", [], .empty, none, none, .empty⟩, .element ⟨c%"b", [], .empty, none, none, .empty⟩]).toString =
    (joined [.text c%"\n  ", .element ⟨c%"a", [], .empty, none, none, .empty⟩, .text c%"\n  ", .element ⟨c%"b", [], .empty, none, none, .empty⟩,
      .text c%"\n"]).toString := rfl

end KissXml.Props
