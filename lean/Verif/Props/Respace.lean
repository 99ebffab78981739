import Verif.Proofs.RespaceParse
import Verif.Proofs.TokenCheck
/-!
# C117: other white space

An input whose white space characters are replaced, as when its line ends are converted, is read as the document in which they are replaced.
-/
namespace KissXml.Props
open KissXml KissXml.Spec

variable {σ : Char → Str}

/-- C117: when the white space characters of an accepted input are replaced by other white space, the input is accepted, and the document is
the same with the same replacement in texts, attribute values, comments, CDATA sections, declaration and document types.
Missing, see `C117_false`, `C117_false_wide`, `C117_false_comment`: texts and values with numeric references, or with references and a last
character that is not ASCII; inputs whose first comment before the root cannot be shown in the warning about it. -/
theorem C117_partial (hσ : Respacing σ) {x tail : Str} {toks : List (Str × Str)} {d : Document} (h : parseStr x = .ok d)
    (hl : Lexes x toks tail) (hs : SimpleToks toks) (hc : CommentShown σ toks) : parseStr (respace σ x) = .ok (respaceDoc σ d) :=
  hσ.parse h hl hs hc

/-- C117: the same for the inputs without `&`, and for the ASCII inputs without `#`. -/
theorem C117_ascii_partial (hσ : Respacing σ) {x : Str} {d : Document} (h : parseStr x = .ok d)
    (hx : '&' ∉ x ∨ ((∀ c ∈ x, c.utf8Size = 1) ∧ '#' ∉ x)) (hc : (∀ c ∈ x, c.utf8Size = 1) ∨ ¬ c%"<!--" <:+: x) :
    parseStr (respace σ x) = .ok (respaceDoc σ d) := by
  obtain ⟨toks, D, DS, tag, rest, E, F, h1, -⟩ := (parse_iff.1 h).ex
  obtain ⟨tail, hl⟩ := lex_lexes h1
  exact C117_partial hσ h hl (simpleToks_of hl hx) (commentShown_of hσ hl hc)

/-- line ends of Unix to those of Windows -/
def crlf (c : Char) : Str := if c = '\n' then c%"\r\n" else [c]

theorem crlf_respacing : Respacing crlf := by
  refine ⟨fun c hc => ?_, fun c _ => ?_, fun c hc => ?_⟩
  · unfold crlf; rw [if_neg]; rintro rfl; exact hc (by decide)
  · unfold crlf; split <;> simp
  · unfold crlf; split
    · decide
    · simpa using hc

/-- every white space character to a space -/
def blanks (c : Char) : Str := if Sp c then c%" " else [c]

theorem blanks_respacing : Respacing blanks := by
  refine ⟨fun c hc => ?_, fun c _ => ?_, fun c hc => ?_⟩
  · unfold blanks; rw [if_neg hc]
  · unfold blanks; split <;> simp
  · unfold blanks; rw [if_pos hc]; decide

/-- an element with a prefix, attributes over several lines, a reference and a comment -/
def lines : Str := c%"<!DOCTYPE a\n[]>\n<p:a xmlns:p=\"u\nv\"\n\tb='1\n &lt;'>x\n y<!--\n--><p:b/>\n</p:a>\n"

/-- what it is read as -/
def linesDoc : Document :=
  ⟨none, [⟨c%" a\n[]"⟩],
    ⟨c%"a", [.text c%"x\n y", .comment c%"\n", .element ⟨c%"b", [], ⟨[], by decide⟩, some c%"u\nv", some c%"p", ⟨[(c%"p", c%"u\nv")], by decide⟩⟩],
      ⟨[(c%"xmlns:p", c%"u\nv"), (c%"b", c%"1\n <")], by decide⟩, some c%"u\nv", some c%"p", ⟨[(c%"p", c%"u\nv")], by decide⟩⟩⟩

set_option maxRecDepth 20000 in
theorem lines_read : parseStr lines = .ok linesDoc := rfl

example : parseStr (respace crlf lines) = .ok (respaceDoc crlf linesDoc) :=
  C117_ascii_partial crlf_respacing lines_read (.inr (by decide +kernel)) (.inl (by decide +kernel))

example : parseStr (respace blanks lines) = .ok (respaceDoc blanks linesDoc) :=
  C117_ascii_partial blanks_respacing lines_read (.inr (by decide +kernel)) (.inl (by decide +kernel))

/-- a text that is not ASCII, with a reference -/
example : parseStr (respace crlf c%"<a>é\n&lt; x\n</a>") =
    .ok (respaceDoc crlf ⟨none, [], ⟨c%"a", [.text c%"é\n< x\n"], SMap.empty, none, none, SMap.empty⟩⟩) := by
  refine C117_partial crlf_respacing rfl (toks := [([], c%"<a>"), (c%"é\n&lt; x\n", c%"</a>")]) (tail := []) (by exact lexesB_sound (toks := [([], c%"<a>"), (c%"é\n&lt; x\n", c%"</a>")]) (tail := []) (by decide)) ⟨?_, ?_⟩ ?_
  · intro t ht
    simp only [List.mem_cons, List.not_mem_nil, or_false] at ht
    rcases ht with rfl | rfl
    · exact .inl (by decide)
    · exact .inr ⟨fun c hc => by cases hc; decide, by decide⟩
  · intro t ht _ n ps hp p hpp k raw hq
    exfalso
    have hm : '=' ∈ t.2 := pieces_mem hp p hpp _ (by obtain ⟨-, q, -, rfl⟩ := hq; simp)
    simp only [List.mem_cons, List.not_mem_nil, or_false] at ht
    rcases ht with rfl | rfl <;> revert hm <;> decide
  · intro a text tag b he hc _
    have hm : (text, tag) ∈ [([], c%"<a>"), (c%"é\n&lt; x\n", c%"</a>")] := by rw [he]; simp
    simp only [List.mem_cons, List.not_mem_nil, or_false, Prod.mk.injEq] at hm
    rcases hm with ⟨-, rfl⟩ | ⟨-, rfl⟩ <;> exact absurd hc (by decide)

/-- C117 is false: a numeric reference to a line end is no white space of the input. -/
theorem C117_false : ¬ ∀ σ, Respacing σ → ∀ x d, parseStr x = .ok d → parseStr (respace σ x) = .ok (respaceDoc σ d) := by
  intro h
  have h1 : parseStr c%"<a>&#A;x</a>" = .ok ⟨none, [], ⟨c%"a", [.text c%"\nx"], SMap.empty, none, none, SMap.empty⟩⟩ := rfl
  have h2 := h crlf crlf_respacing _ _ h1
  rw [show respace crlf c%"<a>&#A;x</a>" = c%"<a>&#A;x</a>" by decide, h1] at h2
  simp only [Res.ok.injEq, respaceDoc, respaceElement, respaceNodes, respaceNode, Document.mk.injEq, ElementF.mk.injEq, List.cons.injEq,
    Node.text.injEq] at h2
  exact absurd h2.2.2.2.1.1 (by decide)

/-- C117 is false: `unescape` goes on after as many bytes as the last character has; with other line ends these are other bytes. The first
of these inputs is read, with `&amp;` not decoded; with the line ends of Windows it is decoded. -/
theorem C117_false_decoded :
    parseStr c%"<a>&lt;\n&amp;ab…</a>" = .ok ⟨none, [], ⟨c%"a", [.text c%"<\n&amp;ab…"], SMap.empty, none, none, SMap.empty⟩⟩ ∧
    parseStr (respace crlf c%"<a>&lt;\n&amp;ab…</a>") =
      .ok ⟨none, [], ⟨c%"a", [.text c%"<\r\n&ab…"], SMap.empty, none, none, SMap.empty⟩⟩ := ⟨rfl, rfl⟩

/-- C117 is false: an input that is read, and panics with the line ends of Windows (a text). -/
theorem C117_false_wide : (∃ d, parseStr c%"<a>&lt;\n&amp;…</a>" = .ok d) ∧ parseStr (respace crlf c%"<a>&lt;\n&amp;…</a>") = .panic :=
  ⟨⟨_, rfl⟩, rfl⟩

/-- C117 is false: an input that is read, and panics with the line ends of Windows (a comment before the root). -/
theorem C117_false_comment : (∃ d, parseStr c%"<!--\nééééé this comment is longer --><a/>" = .ok d) ∧
    parseStr (respace crlf c%"<!--\nééééé this comment is longer --><a/>") = .panic :=
  ⟨⟨_, rfl⟩, rfl⟩

/-- C117: the line ends of Windows are not read as those of Unix, which XML demands (W3C, 2.11); nor are line ends in attribute values read as
spaces (W3C, 3.3.3). -/
theorem C117_line_ends :
    parseStr c%"<a b='1\n2'>1\r\n2</a>" =
      .ok ⟨none, [], ⟨c%"a", [.text c%"1\r\n2"], ⟨[(c%"b", c%"1\n2")], by decide⟩, none, none, SMap.empty⟩⟩ := rfl

end KissXml.Props
