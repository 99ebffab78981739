import Verif.Proofs.SyntaxCheck
import Verif.Proofs.UnescapeExact
import Verif.Props.Concrete
import Verif.Spec.Space
/-!
# C85: white space
-/
namespace KissXml.Props
open KissXml KissXml.Spec

/-- `isWs`, by which the other specifications speak of white space, is the Unicode property; so is the complement of the class
`\S` in patterns. -/
theorem C85_char (c : Char) : (isWs c = true ↔ WhiteSpace c) ∧ (inRanges Re.nonWsRanges c = true ↔ ¬ WhiteSpace c) := by
  have h : isWs c = true ↔ WhiteSpace c := by
    simp only [isWs, inRanges, wsRanges, List.any_cons, List.any_nil, Bool.or_false, Bool.or_eq_true,
      Bool.and_eq_true, decide_eq_true_eq, WhiteSpace, spaceCodes, List.mem_cons, List.not_mem_nil, or_false]
    omega
  refine ⟨h, ?_⟩
  rw [Re.inRanges_nonWs, ← h]
  simp

theorem isWs_iff {c : Char} : isWs c = true ↔ WhiteSpace c := (C85_char c).1

theorem isWs_false_iff {c : Char} : isWs c = false ↔ ¬ WhiteSpace c := by rw [← isWs_iff]; simp

/-- White space anywhere between the parts of a document, and text in an element, without `<` and `&`: the text is dropped if it is
only white space, else it is kept as it is. -/
theorem C85_text (s v w0 w1 w2 w3 w4 : Str) (h1 : '<' ∉ s) (h2 : '&' ∉ s) (hv : '"' ∉ v ∧ '&' ∉ v) (h : w1 ≠ [])
    (hw : ∀ c ∈ w0 ++ w1 ++ w2 ++ w3 ++ w4, WhiteSpace c) :
    ∃ d, parseStr (w0 ++ c%"<a" ++ w1 ++ c%"k=\"" ++ v ++ c%"\"" ++ w2 ++ c%">" ++ s ++ c%"</a" ++ w3 ++ c%">" ++ w4) = .ok d ∧
      d.root.tagName = c%"a" ∧ (∀ k u, d.root.attrs.get k = some u ↔ k = c%"k" ∧ u = v) ∧
      ((∀ c ∈ s, WhiteSpace c) → d.root.children = []) ∧ ((∃ c ∈ s, ¬ WhiteSpace c) → d.root.children = [.text s]) := by
  have ws : ∀ w, (∀ c ∈ w, WhiteSpace c) → AllWs w := fun w h c hc => isWs_iff.2 (h c hc)
  have hA : XmlName c%"a" ∧ ':' ∉ c%"a" ∧ ApiName c%"a" := ⟨xmlNameB_sound (by decide), by decide, validName_iff.1 (by decide)⟩
  have hK : XmlName c%"k" ∧ ApiName c%"k" := ⟨xmlNameB_sound (by decide), validName_iff.1 (by decide)⟩
  have hT : CTag.Ok ⟨c%"a", [⟨w1, c%"k", [], [], '"', v⟩], w2⟩ := by
    refine ⟨hA.1, ?_, ⟨.one ⟨rfl, rfl⟩ .nil, .inl hA.2, ?_⟩, by simp,
      ws _ fun c hc => hw c (by simp [hc])⟩
    · intro a ha
      cases List.mem_singleton.1 ha
      exact ⟨⟨ws _ fun c hc => hw c (by simp [hc]), h⟩, hK.1,
        fun c hc => (by cases hc), fun c hc => (by cases hc), .inl rfl, hv.1, legible_noamp hv.2⟩
    · intro a ha
      cases List.mem_singleton.1 ha
      exact hK.2
  have hd : CDoc.Ok ⟨none, [], w0, ⟨c%"a", [⟨w1, c%"k", [], [], '"', v⟩], w2⟩, some (.done s, w3), w4⟩ := by
    refine ⟨⟨(by simp), (by simp), ws _ fun c hc => hw c (by simp [hc]), hT, ?_, ws _ fun c hc => hw c (by simp [hc])⟩, ?_,
      by intro pre sp c post hl; simp at hl⟩
    · rintro c sp h
      cases h
      exact ⟨⟨h1, legible_noamp h2⟩, ws _ fun c hc => hw c (by simp [hc])⟩
    · intro p l h
      have : ':' ∈ c%"a" := by rw [show c%"a" = p ++ ':' :: l from h]; simp
      simp at this
  obtain ⟨d, hd1, hd2⟩ := C39_partial _ hd
  refine ⟨d, by simpa [CDoc.src, CTag.start, CTag.body, Cst.src, closing, CAttr.src] using hd1, ?_, ?_, ?_⟩
  · obtain ⟨e1, e2⟩ := hd2.root.plain hA.2.1
    simp [ElementF.tagName, e1, e2]
  · intro k u
    rw [hd2.root.attrs k u]
    constructor
    · rintro ⟨a, ha, hk, hu⟩
      cases List.mem_singleton.1 ha
      exact ⟨hk.symm, decodes_unique hu (decodes_noamp hv.2)⟩
    · rintro ⟨rfl, rfl⟩
      exact ⟨_, List.mem_singleton.2 rfl, rfl, decodes_noamp hv.2⟩
  have hb : Cst.Den (.done s) d.root.children := hd2.body
  generalize d.root.children = l at hb ⊢
  cases hb with
  | done hb =>
    constructor
    · intro hs
      rcases hb with ⟨-, rfl⟩ | ⟨⟨c, hc, hw⟩, -⟩
      · rfl
      · exact absurd (hs c hc) (isWs_false_iff.1 hw)
    · rintro ⟨c, hc, hw⟩
      rcases hb with ⟨h, -⟩ | ⟨-, t, ht, rfl⟩
      · exact absurd (isWs_iff.1 (h c hc)) hw
      · rw [decodes_unique ht (decodes_noamp h2)]
        have : ¬ Blank s := fun h => hw (isWs_iff.1 (h.2 c hc))
        simp [this]

-- zero width space (U+200B) is not white space, ideographic space and no-break space are
example : ∃ d, parseStr c%"<a\u3000k=\"1 \"\u00a0>\u200b</a\u2009>\u2028" = .ok d ∧ d.root.children = [.text c%"\u200b"] := ⟨_, rfl, rfl⟩
example : ∃ d, parseStr c%"<a> \u2003\u205f</a>" = .ok d ∧ d.root.children = [] := ⟨_, rfl, rfl⟩

/-- Names that `Element::new_from_name` accepts: a letter of ASCII or `_`, and no white space after it. -/
theorem C85_names (n : Str) :
    (∃ e, ElementF.newFromName n = .ok e) ↔ ∃ c s, n = c :: s ∧ (c = '_' ∨ ('a' ≤ c ∧ c ≤ 'z') ∨ ('A' ≤ c ∧ c ≤ 'Z')) ∧
      ∀ x ∈ s, ¬ WhiteSpace x := by
  have : (∃ e, ElementF.newFromName n = .ok e) ↔ validName n = true := by
    unfold ElementF.newFromName checkElemName
    cases validName n with
    | false => exact ⟨fun ⟨e, h⟩ => (by cases h), fun h => (by cases h)⟩
    | true => exact ⟨fun _ => rfl, fun _ => ⟨_, rfl⟩⟩
  rw [this, validName_iff]
  constructor
  · rintro ⟨c, t, h1, h2, h3⟩
    exact ⟨c, t, h1, h2, fun x hx => isWs_false_iff.1 (h3 x hx)⟩
  · rintro ⟨c, t, h1, h2, h3⟩
    exact ⟨c, t, h1, h2, fun x hx => isWs_false_iff.2 (h3 x hx)⟩

/-- The checks of names and of white space in the model are those of the patterns in the code, `^[_a-zA-Z]\S*$`, `^\s+$` and `^\s*$`,
where `fullMatch` is the usual meaning of patterns. -/
theorem C85_patterns (s : Str) :
    (∀ r : Re, Re.fullMatch r s = true ↔ Re.Matches r s) ∧
    validName s = Re.fullMatch (.seq (.cls [(0x5F, 0x5F), (0x61, 0x7A), (0x41, 0x5A)]) (.star (.cls Re.nonWsRanges))) s ∧
    textIsWhitespace s = Re.fullMatch (.seq (.cls wsRanges) (.star (.cls wsRanges))) s ∧
    s.all isWs = Re.fullMatch (.star (.cls wsRanges)) s :=
  ⟨fun _ => Re.fullMatch_iff, Re.validName_eq s, Re.textIsWhitespace_eq s, Re.allWs_eq s⟩

example : Re.fullMatch (.seq (.cls [(0x5F, 0x5F), (0x61, 0x7A), (0x41, 0x5A)]) (.star (.cls Re.nonWsRanges))) c%"_-1" = true ∧
    Re.fullMatch (.seq (.cls [(0x5F, 0x5F), (0x61, 0x7A), (0x41, 0x5A)]) (.star (.cls Re.nonWsRanges))) c%"_ 1" = false := by decide

example : (∃ e, ElementF.newFromName c%"a\u200b" = .ok e) ∧ ¬ ∃ e, ElementF.newFromName c%"a\u2007" = .ok e := by
  refine ⟨⟨_, rfl⟩, ?_⟩
  rw [C85_names]
  rintro ⟨c, s, h, -, h2⟩
  cases h
  exact h2 '\u2007' (by simp) (by decide)

end KissXml.Props
