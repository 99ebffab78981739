import Verif.Proofs.Warn
import Verif.Proofs.Layout
/-!
# Property C78: warnings
-/
namespace KissXml.Props
open Spec

/-- Printing does not change what is returned. -/
theorem C78_result (x : Str) (e : Element) (d : Document) (i : Str) (out : ByteArray) :
    (parseStrOut x).result = parseStr x ∧ (e.toStringWithIndentOut i).2 = e.toStringWithIndent i ∧
    (d.toStringWithIndentOut i).2 = d.toStringWithIndent i ∧
    (d.writeToFileWithIndentOut out i).2 = d.writeToFileWithIndent out i := by
  have h2 : ∀ (e : Element) (i : Str), (e.toStringWithIndentOut i).2 = e.toStringWithIndent i := by
    intro e i
    unfold ElementF.toStringWithIndentOut ElementF.toStringWithIndent
    split <;> rfl
  have h3 : (d.toStringWithIndentOut i).2 = d.toStringWithIndent i := by
    unfold Document.toStringWithIndentOut Document.toStringWithIndent
    simp only [h2]
    by_cases h : validateIndent i = true
    · simp only [if_pos h]
      rfl
    · simp only [if_neg h]
      rfl
  refine ⟨parseStrOut_result x, h2 e i, h3, ?_⟩
  unfold Document.writeToFileWithIndentOut Document.writeToFileWithIndent
  simp only [h3]

/-- What is printed about an accepted input: the first comment before the root element (shortened), and every `<!` construct there that
is neither a comment nor a document type; in that order, and nothing else. -/
theorem C78_accepted {x : Str} {d : Document} {pre rest : List (Str × Str)} (h : parseStr x = .ok d) (hp : Parts x pre rest)
    (w : List Warning) : (parseStrOut x).warned = w ↔ Warns false (pre.map Prod.snd) w :=
  ⟨fun h' => h' ▸ warned_ok h hp, fun h' => warns_unique (warned_ok h hp) h'⟩

/-- An accepted input makes the parser print nothing if and only if only the declaration and document types come before the root. -/
theorem C78_silent {x : Str} {d : Document} {pre rest : List (Str × Str)} (h : parseStr x = .ok d) (hp : Parts x pre rest) :
    (parseStrOut x).warned = [] ↔ ∀ t ∈ pre, c%"<?xml" <+: t.2 ∨ c%"<!DOCTYPE" <+: t.2 := by
  rw [C78_accepted h hp, warns_nil]
  exact ⟨fun h' t ht => h' t.2 (List.mem_map_of_mem ht), fun h' t ht => by
    obtain ⟨t, ht', rfl⟩ := List.mem_map.1 ht
    exact h' t ht'⟩

/-- For an input that is not accepted, the same about the tags before the root element and before the first thing that is wrong. -/
theorem C78_rejected {x : Str} (h : ∀ d, parseStr x ≠ .ok d) :
    ∃ pre rest text s, Split x pre rest text s ∧ First x pre rest ∧ Trouble pre rest text s ∧
      ∀ w, (parseStrOut x).warned = w ↔ Warns false (pre.map Prod.snd) w := by
  have key : ∃ pre rest text s, Split x pre rest text s ∧ First x pre rest ∧ Trouble pre rest text s := by
    cases hx : parseStr x with
    | ok d => exact (h d hx).elim
    | err e =>
      obtain ⟨pre, rest, text, s, h1, h2, h3⟩ := first_err hx
      exact ⟨pre, rest, text, s, h1, h2, .inr ⟨e, h3⟩⟩
    | panic =>
      obtain ⟨pre, rest, text, s, h1, h2, h3⟩ := first_panic.1 hx
      exact ⟨pre, rest, text, s, h1, h2, .inl h3⟩
    | diverge => exact ((np_parseStr x).1 hx).elim
  obtain ⟨pre, rest, text, s, h1, h2, h3⟩ := key
  exact ⟨pre, rest, text, s, h1, h2, h3, fun w =>
    ⟨fun h' => h' ▸ warned h1 h2 (.inr h3), fun h' => warns_unique (warned h1 h2 (.inr h3)) h'⟩⟩

/-- Whatever the place of the first thing that is wrong: it is the same one. -/
theorem C78_rejected_any {x : Str} {pre rest : List (Str × Str)} {text s : Str} (h : Split x pre rest text s) (h1 : First x pre rest)
    (h2 : Trouble pre rest text s) (w : List Warning) : (parseStrOut x).warned = w ↔ Warns false (pre.map Prod.snd) w :=
  ⟨fun h' => h' ▸ warned h h1 (.inr h2), fun h' => warns_unique (warned h h1 (.inr h2)) h'⟩

/-- Serializing prints exactly one warning for an indent that is neither one tab nor spaces, and none otherwise. -/
theorem C78_indent (e : Element) (d : Document) (i : Str) (out : ByteArray) :
    (ValidIndent i → (e.toStringWithIndentOut i).1 = [] ∧ (d.toStringWithIndentOut i).1 = [] ∧ (d.writeToFileWithIndentOut out i).1 = []) ∧
    (¬ ValidIndent i → (e.toStringWithIndentOut i).1 = [.indent i] ∧ (d.toStringWithIndentOut i).1 = [.indent i] ∧
      (d.writeToFileWithIndentOut out i).1 = [.indent i]) := by
  have hg : ∀ (e : Element) {i : Str}, ValidIndent i → (e.toStringWithIndentOut i).1 = [] := by
    intro e i h
    rw [ElementF.toStringWithIndentOut, if_pos (validateIndent_iff.2 h)]
  constructor
  · intro h
    have hd : (d.toStringWithIndentOut i).1 = [] := by
      simp only [Document.toStringWithIndentOut, if_pos (validateIndent_iff.2 h)]
      rw [hg _ h]
      rfl
    exact ⟨hg e h, hd, hd⟩
  · intro h
    have hn : ¬ validateIndent i = true := fun h' => h (validateIndent_iff.1 h')
    have hd : (d.toStringWithIndentOut i).1 = [.indent i] := by
      simp only [Document.toStringWithIndentOut, if_neg hn]
      rw [hg (i := c%"  ") _ (.inr ⟨2, rfl⟩)]
      rfl
    refine ⟨?_, hd, hd⟩
    rw [ElementF.toStringWithIndentOut, if_neg hn]

/-- The lines that are printed about comments and about what is ignored, begin with `WARNING: ` and contain the piece of the input. -/
theorem C78_text (s : Str) :
    (Warning.comment s).text = some (c%"WARNING: Encountered comment " ++ s ++
      c%" outside of root element. Comments outside of the root are not supported and will be ignored.") ∧
    (Warning.ignored s).text = some (c%"WARNING: Ignoring " ++ s ++ c%" (not supported outside root element)") := ⟨rfl, rfl⟩

/-! Two comments (only the first is shown), a document type, and an entity declaration. -/
def warnSample : Str := c%"<?xml version='1.0'?><!-- one --><!DOCTYPE a><!ENTITY x 'y'><!-- two --><a/>"

def warnSampleToks : List (Str × Str) :=
  [([], c%"<?xml version='1.0'?>"), ([], c%"<!-- one -->"), ([], c%"<!DOCTYPE a>"), ([], c%"<!ENTITY x 'y'>"), ([], c%"<!-- two -->")]

example : (parseStrOut warnSample).warned = [.comment c%"<!-- one -->", .ignored c%"<!ENTITY x 'y'>"] := by decide +kernel
example : ∃ d pre rest, parseStr warnSample = .ok d ∧ Parts warnSample pre rest := by
  obtain ⟨d, hd⟩ : ∃ d, parseStr warnSample = .ok d := ⟨_, rfl⟩
  obtain ⟨pre, text, tag, rest, -, -, h, -⟩ := accepted hd
  exact ⟨d, pre, _, hd, h⟩

example : Warns false (warnSampleToks.map Prod.snd) [.comment c%"<!-- one -->", .ignored c%"<!ENTITY x 'y'>"] :=
  .decl (by decide) (.comment (by decide) (.inl ⟨by decide, rfl⟩) (.doctype (by decide) (.other (by decide) (by decide) (by decide)
    (.again (by decide) .nil))))

/-! A warning is printed although the input is rejected later; and none about what comes after the first thing that is wrong. -/
example : (parseStrOut c%"<!-- one --><a>").warned = [.comment c%"<!-- one -->"] ∧ ∃ e, parseStr c%"<!-- one --><a>" = .err e :=
  ⟨by decide +kernel, _, rfl⟩
example : ∃ pre rest text s, Split c%"<!-- one --><a>" pre rest text s ∧ First c%"<!-- one --><a>" pre rest ∧ Trouble pre rest text s := by
  obtain ⟨e, he⟩ : ∃ e, parseStr c%"<!-- one --><a>" = .err e := ⟨_, rfl⟩
  obtain ⟨pre, rest, text, s, h1, h2, h3⟩ := first_err he
  exact ⟨pre, rest, text, s, h1, h2, .inr ⟨e, h3⟩⟩
example : (parseStrOut c%"x<!-- one --><a/>").warned = [] := by decide +kernel

/-! A long comment is shown shortened. -/
example : (parseStrOut c%"<!-- a comment of more than 32 bytes --><a/>").warned = [.comment c%"<!-- a comment …han 32 bytes -->"] := by
  decide +kernel

example : (Warning.comment c%"<!-- -->").text = some c%"WARNING: Encountered comment <!-- --> outside of root element. Comments outside of the root are not supported and will be ignored." := rfl

example : ¬ ValidIndent c%" \t" := fun h => absurd (validateIndent_iff.2 h) (by decide)

end KissXml.Props
