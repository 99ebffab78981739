import Verif.Proofs.Complete
import Verif.Proofs.SyntaxCheck
/-!
# C65, C66: reading from the beginning to the end; panics
-/
namespace KissXml.Props
open KissXml.Spec

/-! ## C65 -/

/-- C65, inputs in which every tag is complete: an error other than "no XML content" and "root element not closed" is final,
whatever comes after. -/
theorem C65 {x tail : Str} {toks : List (Str × Str)} {e : Err} (hx : Lexes x toks tail) (h : parseStr x = .err e)
    (h1 : e ≠ .parsing .noXmlContent none) (h2 : e ≠ .parsing .rootNotClosed none) (y : Str) : parseStr (x ++ y) = .err e :=
  (parse_err_more h y).2 toks tail hx (fun he => he.elim h1 h2)

example : parseStr (c%"<a></b>" ++ c%"</a>") = .err (.parsing (.closingMismatch c%"</b>" c%"a") (some (1, 5))) :=
  C65 (lexesB_sound (toks := [([], c%"<a>"), ([], c%"</b>")]) (tail := []) (by decide)) (by decide +kernel) (by simp) (by simp) _

/-- C65, any input: an error is final unless it is one of these four (the last two are about a `<` that is not the beginning of a
tag, or about a tag that is not one). -/
theorem C65_any {x : Str} {e : Err} (h : parseStr x = .err e) (h1 : e ≠ .parsing .noXmlContent none) (h2 : e ≠ .parsing .rootNotClosed none)
    (h3 : ∀ lc, e ≠ .parsing .unmatchedLt lc) (h4 : ∀ lc, e ≠ .parsing .invalidSyntax lc) (y : Str) : parseStr (x ++ y) = .err e :=
  (parse_err_more h y).1 (by
    rintro ((h | h) | ⟨lc, h | h⟩)
    · exact h1 h
    · exact h2 h
    · exact h3 lc h
    · exact h4 lc h)

example : parseStr (c%"<a></b><c" ++ c%"></c></a>") = .err (.parsing (.closingMismatch c%"</b>" c%"a") (some (1, 5))) :=
  C65_any (by decide +kernel) (by simp) (by simp) (by simp) (by simp) _

/-- C65: a panic is final. -/
theorem C65_panic {x : Str} (h : parseStr x = .panic) (y : Str) : parseStr (x ++ y) = .panic := parse_panic_more h y

example : parseStr (c%"<a>&lt;é<b/>" ++ c%"</a>") = .panic := C65_panic (by decide +kernel) _

/-- C65: the other errors are not final.  When all the tags are complete and no element is open, adding a root element is enough … -/
theorem C65_root {x tail : Str} {toks : List (Str × Str)} (hx : Lexes x toks tail) (h : parseStr x = .err (.parsing .noXmlContent none))
    (ht : AllWs tail) : ∃ d, parseStr (x ++ c%"<r/>") = .ok d := parse_root hx h ht

example : ∃ d, parseStr (c%"<?xml version='1.0'?><!-- c -->\n" ++ c%"<r/>") = .ok d :=
  C65_root (lexesB_sound (toks := [([], c%"<?xml version='1.0'?>"), ([], c%"<!-- c -->")]) (tail := c%"\n") (by decide)) (by decide +kernel)
    (by intro c hc; simp at hc; subst hc; decide)

/-- … and when elements `o` (innermost first; with XML names) are open, adding their closing tags is. -/
theorem C65_close {x tail : Str} {pre rest : List (Str × Str)} {o : List Str} (hx : Lexes x (pre ++ rest) tail)
    (h : parseStr x = .err (.parsing .rootNotClosed none)) (h1 : ∀ t ∈ pre, IsProlog t.2) (h2 : ∀ t r, rest = t :: r → ¬ IsProlog t.2)
    (ho : OpenAfter (rest.map Prod.snd) o) (hn : ∀ n ∈ o, XmlName n) (ht : Returns tail) :
    ∃ d, parseStr (x ++ o.flatMap (fun n => c%"</" ++ n ++ c%">")) = .ok d := by
  have := parse_close hx h h1 h2 ho hn ht
  simpa [closing] using this

example : ∃ d, parseStr (c%"<!-- c --><a><b x='1'>text" ++ c%"</b></a>") = .ok d := by
  refine C65_close (pre := [([], c%"<!-- c -->")]) (rest := [([], c%"<a>"), ([], c%"<b x='1'>")]) (o := [c%"b", c%"a"]) (tail := c%"text")
    (lexesB_sound (toks := [([], c%"<!-- c -->"), ([], c%"<a>"), ([], c%"<b x='1'>")]) (by decide)) (by decide +kernel) ?_ ?_ ?_ ?_
    ⟨c%"text", (unescape_ok_iff (ε := Unit)).1 rfl⟩
  · intro t ht; simp at ht; subst ht; exact .inr (by decide)
  · intro t r ht; simp at ht; rw [← ht.1]; unfold IsProlog; decide
  · have h1 : OpenName c%"<a>" c%"a" := by
      refine ⟨c%"a", inner_iff.2 ⟨by decide, c%"a", rfl⟩, by decide, ?_, [], rfl, .inl rfl⟩
      intro u c v h
      rcases u with _ | ⟨d, u⟩ <;> simp at h
      obtain ⟨rfl, rfl⟩ := h
      intro _; decide
    have h2 : OpenName c%"<b x='1'>" c%"b" := by
      refine ⟨c%"b x='1'", inner_iff.2 ⟨by decide, c%"b x='1'", rfl⟩, by decide, ?_, c%" x='1'", rfl, .inr ⟨' ', _, rfl, by decide, rfl⟩⟩
      intro u c v h
      rcases u with _ | ⟨d, u⟩ <;> simp at h
      obtain ⟨rfl, rfl⟩ := h
      intro _; decide
    exact .start (l := [c%"<a>"]) (.start (l := []) .nil (by decide) h1) (by decide) h2
  · intro n hn
    simp at hn
    rcases hn with rfl | rfl <;> exact xmlNameB_sound (by decide)

/-! ## C66 -/

/-- C66: the parser panics exactly when an input has tokens that the parser has no objection to, and then something that makes it
panic. -/
theorem C66 {x : Str} : parseStr x = .panic ↔
    ∃ pre rest text s, LexesTo x (pre ++ rest) (text ++ s) ∧ '<' ∉ text ∧ (∀ t ∈ pre, IsProlog t.2) ∧
      (∀ t r, rest = t :: r → ¬ IsProlog t.2) ∧ NoFaultYet (parseStr (srcOf (pre ++ rest))) ∧ Crash pre rest text s := parse_panic

/-! every kind of panic occurs -/

example : parseStr c%"&#263c;a <a/>" = .panic := by decide +kernel
example : parseStr c%"<!--123456789éééééééééééééé--><a/>" = .panic := by decide +kernel
example : parseStr c%"<a b='1' c='&lt;é'/>" = .panic := by decide +kernel
example : parseStr c%"<a>&amp;é<b/></a>" = .panic := by decide +kernel
example : parseStr c%"<a><!ELEMENT 12éééééééééééééé></a>" = .panic := by decide +kernel
example : parseStr c%"<a><b c='&lt;é'></b></a>" = .panic := by decide +kernel

/-! and what does not panic: the second comment, and a tag in which another attribute is bad before -/

example : ∃ d, parseStr c%"<!-- c --><!--123456789éééééééééééééé--><a/>" = .ok d := ⟨_, rfl⟩
example : parseStr c%"<a b='<c>' x c='&lt;é'/>" = .err (.parsing .attrForm (some (1, 2))) := by decide +kernel

end KissXml.Props
