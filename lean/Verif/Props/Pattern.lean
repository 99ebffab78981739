import Verif.Proofs.Pattern
/-!
# The regular expressions of the code (C109)
-/
namespace KissXml.Props
open Spec

/-- The pattern for names of elements and attributes is read, and both checks accept exactly the strings in which it has a match. -/
theorem C109_name : ∃ p, Pat.read Patterns.name = some p ∧
    (∀ s, checkElemName s = .ok () ↔ p.IsMatch s) ∧ (∀ s, ¬ p.IsMatch s → checkElemName s = .err (.invalidElementName s)) ∧
    (∀ s, checkAttrName s = .ok () ↔ p.IsMatch s) ∧ (∀ s, ¬ p.IsMatch s → checkAttrName s = .err (.invalidAttributeName s)) := by
  refine ⟨.seq .start (.seq (.cls false [(0x5F, 0x5F), (0x61, 0x7A), (0x41, 0x5A)]) (.seq (.star (.cls true wsRanges)) .finish)),
    by decide, ?_⟩
  have h : ∀ s, validName s = true ↔ (Pat.seq .start (.seq (.cls false [(0x5F, 0x5F), (0x61, 0x7A), (0x41, 0x5A)])
      (.seq (.star (.cls true wsRanges)) .finish))).IsMatch s := by
    intro s
    rw [isMatch_name]
    cases s with
    | nil => simp [validName]
    | cons c s => simp [validName, isAsciiNameStart, isWs]
  refine ⟨fun s => ?_, fun s hs => ?_, fun s => ?_, fun s hs => ?_⟩
  · rw [← h]; unfold checkElemName; split <;> simp_all
  · rw [← h] at hs; unfold checkElemName; rw [if_neg hs]
  · rw [← h]; unfold checkAttrName; split <;> simp_all
  · rw [← h] at hs; unfold checkAttrName; rw [if_neg hs]

/-- `Text::is_whitespace` -/
theorem C109_blank : ∃ p, Pat.read Patterns.blank = some p ∧ ∀ s, textIsWhitespace s = true ↔ p.IsMatch s := by
  refine ⟨.seq .start (.seq (.plus (.cls false wsRanges)) .finish), by decide, fun s => ?_⟩
  rw [isMatch_anchored, pat_plus_cls]
  simp [textIsWhitespace, isWs]

/-- `real_text` takes a text for nothing exactly if the pattern has a match in it -/
theorem C109_all_blank : ∃ p, Pat.read Patterns.allBlank = some p ∧ ∀ s, realText s = .ok none ↔ p.IsMatch s := by
  refine ⟨.seq .start (.seq (.star (.cls false wsRanges)) .finish), by decide, fun s => ?_⟩
  rw [isMatch_anchored, pat_star_cls]
  have : (∀ c ∈ s, inRanges wsRanges c = !false) ↔ s.all isWs = true := by simp [isWs]
  rw [this]
  unfold realText
  split
  · simp_all
  · rename_i h
    refine ⟨fun h' => ?_, fun h' => absurd h' h⟩
    cases hu : (unescape s : R Str) <;> simp [hu, bind, Res.bind, pure] at h'

/-- The pattern for tags, with the two classes put in by `format!`, is read, and `check_element_tag` accepts exactly the strings in which
it has a match. -/
theorem C109_tag : ∃ text p,
    formatWith [(c%"name_start_char", Patterns.nameStartChar), (c%"name_char", Patterns.nameChar)] 200 Patterns.tagTemplate = some text ∧
    Pat.read text = some p ∧ (∀ s, checkElementTag s = .ok () ↔ p.IsMatch s) ∧
    (∀ s, ¬ p.IsMatch s → checkElementTag s = .err (.parsing .invalidElementTag none)) := by
  obtain ⟨text, p, r, h1, h2, h3, h4⟩ : ∃ text p r,
      formatWith [(c%"name_start_char", Patterns.nameStartChar), (c%"name_char", Patterns.nameChar)] 200 Patterns.tagTemplate = some text ∧
      Pat.read text = some p ∧ p.toRe = some r ∧ r.flat = elemRe.flat := by
    have h : ((formatWith [(c%"name_start_char", Patterns.nameStartChar), (c%"name_char", Patterns.nameChar)] 200 Patterns.tagTemplate).bind
        fun t => (Pat.read t).bind fun p => p.toRe.map fun r => decide (r.flat = elemRe.flat)) = some true := by decide +kernel
    simp only [Option.bind_eq_some_iff, Option.map_eq_some_iff, decide_eq_true_eq] at h
    obtain ⟨t, h1, p, h2, r, h3, h4⟩ := h
    exact ⟨t, p, r, h1, h2, h3, h4⟩
  have h : ∀ s, Re.isMatch elemRe s = true ↔ p.IsMatch s := fun s => by rw [isMatch_toRe h3, isMatch_flat h4]
  refine ⟨text, p, h1, h2, fun s => ?_, fun s hs => ?_⟩
  · rw [← h]; unfold checkElementTag; split <;> simp_all
  · rw [← h] at hs; unfold checkElementTag; rw [if_neg hs]

/-! ## examples -/

/-- patterns with other notation, and what they mean -/
example : Pat.read c%"a|b+?(\\x41\\.)?" = some (.alt (.cls false [(97, 97)])
    (.seq (.plus (.cls false [(98, 98)])) (.opt (.seq (.cls false [(65, 65)]) (.cls false [(46, 46)]))))) := by decide
example : Pat.read c%"(a" = none ∧ Pat.read c%"a)" = none ∧ Pat.read c%"[z-a]" = none ∧ Pat.read c%"*" = none ∧ Pat.read c%"\\q" = none := by decide
example : Pat.read c%"(?m)^.$" = some (.seq .lineStart (.seq (.cls true [(10, 10)]) .lineEnd)) ∧
    Pat.read c%"(?s)^.$" = some (.seq .start (.seq (.cls true []) .finish)) := by decide
/-- `$` is the very end: unlike in other notations it is not before a newline at the end -/
example : ¬ (Pat.seq .start (.seq (.cls false [(97, 97)]) .finish)).IsMatch c%"a\n" := by
  rw [isMatch_anchored, pat_cls]; simp
example : (Pat.seq .lineStart (.cls false [(98, 98)])).IsMatch c%"a\nb" :=
  ⟨c%"a\n", c%"b", [], rfl, .seq (s := []) (.lineStart (.inr ⟨c%"a", rfl⟩)) (.cls rfl)⟩
/-- the checks do accept and refuse -/
example : checkElemName c%"a<" = .ok () ∧ checkElemName c%"é" = .err (.invalidElementName c%"é") := by decide
example : checkElementTag c%"<a b='<'>" = .ok () ∧ checkElementTag c%"<a b>" = .err (.parsing .invalidElementTag none) := by decide +kernel
example : textIsWhitespace c%" \n" = true ∧ textIsWhitespace [] = false ∧ (realText [] : R (Option Str)) = .ok none := by decide

end KissXml.Props
