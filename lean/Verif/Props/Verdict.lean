import Verif.Proofs.Reject
import Verif.Proofs.SyntaxCheck
/-!
# C68: the verdict of the parser, described without the parser
-/
namespace KissXml.Props
open KissXml.Spec

/-- C68, acceptance: an input is accepted exactly when nothing is wrong anywhere in it, and nothing in it makes the parser panic. -/
theorem C68_ok {x : Str} : (∃ d, parseStr x = .ok d) ↔ ∀ pre rest text s, Split x pre rest text s → ¬ Trouble pre rest text s :=
  first_ok

/-- C68, errors: the first trouble in the input is the fault that the error is about. -/
theorem C68_err {x : Str} {e : Err} (h : parseStr x = .err e) :
    ∃ pre rest text s, Split x pre rest text s ∧ First x pre rest ∧ Fault pre rest text s e := first_err h

/-- C68, errors: when the first trouble in the input is a fault, the error is about it.  (Of several bad attribute names on one tag
it is not determined which one is reported; see `Alike`.) -/
theorem C68_fault {x : Str} {pre rest : List (Str × Str)} {text s : Str} {e : Err} (h : Split x pre rest text s) (h1 : First x pre rest)
    (hf : Fault pre rest text s e) : ∃ e', parseStr x = .err e' ∧ Alike e e' := first_fault h h1 hf

/-- C68, panics: the parser panics exactly when the first trouble in the input is one that makes it panic. -/
theorem C68_panic {x : Str} :
    parseStr x = .panic ↔ ∃ pre rest text s, Split x pre rest text s ∧ First x pre rest ∧ Crash pre rest text s := first_panic

/-- C68: there is no trouble before a place of the input exactly when the parser has no objection to the tokens before it. -/
theorem C68_first {x : Str} {pre rest : List (Str × Str)} {text s : Str} (h : Split x pre rest text s) :
    First x pre rest ↔ NoFaultYet (parseStr (srcOf (pre ++ rest))) := (first_noFaultYet h).symm

/-! the hypotheses are met: a closing tag first; then a mismatch after a comment, a root tag and text -/

example : ∃ e', parseStr c%" </a><b x/>" = .err e' ∧ Alike (.parsing .startsWithClosing (some (1, 3))) e' := by
  refine C68_fault (pre := []) (rest := []) (text := c%" ") (s := c%"</a><b x/>") ⟨.done, by decide, by simp, by simp⟩
    (fun _ _ _ _ _ _ => Nat.zero_le _) (.closing (tag := c%"</a>") rfl (tagAt_of (tag := c%"</a>") (r := c%"<b x/>") (by decide) (by decide)) (by unfold AllWs; decide) (by decide) ?_)
  exact ⟨[], c%" ", rfl, .inl rfl, by decide, rfl⟩

example : ∃ e', parseStr c%"<!-- c -->\n<a>t</b></c>" = .err e' ∧ Alike (.parsing (.closingMismatch c%"</b>" c%"a") (some (2, 6))) e' := by
  have hsp : Split c%"<!-- c -->\n<a>t</b></c>" [([], c%"<!-- c -->")] [(c%"\n", c%"<a>")] c%"t" c%"</b></c>" := by
    refine ⟨?_, by decide, by simp [IsProlog], ?_⟩
    · exact .tag (text := []) (tag := c%"<!-- c -->") (rest := c%"\n<a>t</b></c>") (by decide)
        (tagAt_of (tag := c%"<!-- c -->") (r := c%"\n<a>t</b></c>") (by decide) (by decide)) rfl
        (.tag (text := c%"\n") (tag := c%"<a>") (rest := c%"t</b></c>") (by decide)
          (tagAt_of (tag := c%"<a>") (r := c%"t</b></c>") (by decide) (by decide)) rfl .done)
    · intro t r ht; simp at ht; rw [← ht.1]; unfold IsProlog; decide
  have ho : OpenName c%"<a>" c%"a" := by
    refine ⟨c%"a", inner_iff.2 ⟨by decide, c%"a", rfl⟩, by decide, ?_, [], rfl, .inl rfl⟩
    intro u c v h
    rcases u with _ | ⟨d, u⟩ <;> simp at h
    obtain ⟨rfl, rfl⟩ := h
    intro _; decide
  refine C68_fault hsp ((C68_first hsp).2 (.inr (.inr (by decide +kernel)))) (.inner (tag := c%"</b>") (o := [c%"a"]) (by simp) ?_
    (.start (l := []) .nil (by decide) ho) (.inr ⟨by simp, c%"t", (unescape_ok_iff (ε := Unit)).1 rfl⟩) (tagAt_of (tag := c%"</b>") (r := c%"</c>") (by decide) (by decide)) ?_
    (.mismatch (m := c%"b") rfl (by decide) ?_ (inner_iff.2 ⟨by decide, c%"/b", rfl⟩) (by decide)))
  · intro t r ht; simp at ht; rw [← ht.2]; decide
  · exact ⟨c%"<!-- c -->\n", c%"<a>t", rfl, .inr ⟨c%"<!-- c -->", rfl⟩, by decide, rfl⟩
  · intro hb; exact absurd (badTag_iff.1 hb) (by decide +kernel)

/-! which of several faults is reported -/

/-- text before the root and what follows it -/
example : parseStr c%"t </a>" = .err (.parsing .textOutsideRoot (some (1, 2))) := by decide +kernel
/-- the pieces of a tag from left to right -/
example : parseStr c%"<p:1 a='<c>' x y= z=w/>" = .err (.parsing .attrForm (some (1, 2))) := by decide +kernel
example : parseStr c%"<p:1 a='<c>' y=/>" = .err (.parsing .attrNoContent (some (1, 2))) := by decide +kernel
example : parseStr c%"<p:1 a='<c>' z=w x/>" = .err (.parsing .attrUnquoted (some (1, 2))) := by decide +kernel
/-- then the prefix, then the name of the element, then the names of the attributes -/
example : parseStr c%"<p:1 2='<c>'/>" = .err (.parsing (.undefinedPrefix c%"p") (some (1, 2))) := by decide +kernel
example : parseStr c%"<p:1 2='<c>' xmlns:p='u'/>" = .err (.invalidElementName c%"1") := by decide +kernel
example : parseStr c%"<p:q 2='<c>' xmlns:p='u'/>" = .err (.invalidAttributeName c%"2") := by decide +kernel
/-- after the root: text first, then the tag, then that there is no place for it -/
example : parseStr c%"<a></a> t </b>" = .err (.parsing .noRootElement (some (1, 12))) := by decide +kernel
example : parseStr c%"<a></a> <b x='<c>' y/>" = .err (.parsing .attrForm (some (1, 10))) := by decide +kernel
example : parseStr c%"<a></a> <b x='<c>'/>" = .err (.parsing .noRootElement (some (1, 10))) := by decide +kernel
/-- after a root element that is an empty-element tag nothing is looked at -/
example : parseStr c%"<a/> t </b>" = .err (.parsing .onlyOneRoot (some (1, 9))) := by decide +kernel
/-- a late declaration, and one that is not -/
example : parseStr c%"<!-- c --> <!-- d --><?xml?><a/>" = .err (.parsing .declNotAtStart (some (1, 23))) := by decide +kernel
example : ∃ d, parseStr c%"<!-- c --> <?xml?><a/>" = .ok d := ⟨_, rfl⟩

end KissXml.Props
