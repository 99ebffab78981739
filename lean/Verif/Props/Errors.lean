import Verif.Proofs.Steps
/-!
# C62: the reported error is what is wrong with the input
-/
namespace KissXml.Props
open KissXml.Spec

/-- C62: when an input is rejected, it can be split into tokens and a rest in which the reported error is: the text or tag there
has the fault the error names, and the reported line and column are those of that place (as far as `Located` and `LocatedText` go:
see C55).  It is the first fault: on the tokens before it alone the parser has nothing to complain about but that the document is
not finished. -/
theorem C62 {x : Str} {e : Err} (h : parseStr x = .err e) :
    ∃ pre rest text s, LexesTo x (pre ++ rest) (text ++ s) ∧ '<' ∉ text ∧ (∀ t ∈ pre, IsProlog t.2) ∧
      (∀ t r, rest = t :: r → ¬ IsProlog t.2) ∧ NoFaultYet (parseStr (srcOf (pre ++ rest))) ∧ Fault pre rest text s e :=
  parse_err h

/-- C62: errors that the parser never reports -/
theorem C62_never {x : Str} {e : Err} (h : parseStr x = .err e) :
    (∀ loc, e ≠ .parsing .unclosedCData loc ∧ e ≠ .parsing .invalidDecl loc ∧ e ≠ .parsing .invalidDtd loc ∧
      e ≠ .parsing .closeWithoutOpen loc) ∧ (∀ m, e ≠ .typeCast m ∧ e ≠ .doesNotExist m ∧ e ≠ .invalidContent m) ∧ e ≠ .io ∧
      ∀ i b, e ≠ .indexOutOfBounds i b := by
  obtain ⟨pre, rest, text, s, -, -, -, -, -, hf⟩ := C62 h
  have ht : ∀ {o : List Str} {tag : Str} {lc : Nat × Nat} {e : Err}, TagFault o tag lc e →
      (∀ loc, e ≠ .parsing .unclosedCData loc ∧ e ≠ .parsing .invalidDecl loc ∧ e ≠ .parsing .invalidDtd loc ∧
      e ≠ .parsing .closeWithoutOpen loc) ∧ (∀ m, e ≠ .typeCast m ∧ e ≠ .doesNotExist m ∧ e ≠ .invalidContent m) ∧ e ≠ .io ∧
      ∀ i b, e ≠ .indexOutOfBounds i b := by
    intro o tag lc e h
    cases h <;> simp
  cases hf with
  | root _ _ _ _ _ _ _ h => exact ht h
  | inner _ _ _ _ _ _ h =>
    cases h with
    | elem _ _ h => exact ht h
    | _ => simp
  | _ => simp

/-! every fault occurs -/

example : parseStr c%"<!-- only a comment -->" = .err (.parsing .noXmlContent none) := by decide +kernel
example : parseStr c%"</a>" = .err (.parsing .startsWithClosing (some (1, 2))) := by decide +kernel
example : parseStr c%"<?xml version=\"1.0\"?>\n<a" = .err (.parsing .unmatchedLt (some (2, 2))) := by decide +kernel
example : parseStr c%"<!-- c --> x <a/>" = .err (.parsing .textOutsideRoot (some (1, 12))) := by decide +kernel
example : parseStr c%"<!-- c -->\nx <a/>" = .err (.parsing .textOutsideRoot (some (2, 1))) := by decide +kernel
example : parseStr c%"<!-- c --><!-- d --><?xml?><a/>" = .err (.parsing .declNotAtStart (some (1, 22))) := by decide +kernel
example : parseStr c%"<!-- c --><1/>" = .err (.parsing .invalidSyntax (some (1, 12))) := by decide +kernel
example : parseStr ['<', '\u1680', '>'] = .err (.parsing .emptyTag (some (1, 2))) := by decide +kernel
example : parseStr c%"<a b='<c>' d/>" = .err (.parsing .attrForm (some (1, 2))) := by decide +kernel
example : parseStr c%"<a b='<c>' d=/>" = .err (.parsing .attrNoContent (some (1, 2))) := by decide +kernel
example : parseStr c%"<a b='<c>' d=e/>" = .err (.parsing .attrUnquoted (some (1, 2))) := by decide +kernel
example : parseStr c%"<p:a/>" = .err (.parsing (.undefinedPrefix c%"p") (some (1, 2))) := by decide +kernel
example : parseStr c%"<1 b='<c>'/>" = .err (.invalidElementName c%"1") := by decide +kernel
example : parseStr c%"<a 1='<c>'/>" = .err (.invalidAttributeName c%"1") := by decide +kernel
example : parseStr c%"<a>\n x <b" = .err (.parsing .invalidSyntax (some (2, 5))) := by decide +kernel
example : parseStr c%"<a/>\n<b/>" = .err (.parsing .onlyOneRoot (some (2, 2))) := by decide +kernel
example : parseStr c%"<a></a> x <b></b>" = .err (.parsing .noRootElement (some (1, 12))) := by decide +kernel
example : parseStr c%"<a></a><!-- c -->" = .err (.parsing .noRootElement (some (1, 9))) := by decide +kernel
example : parseStr c%"<a></a><!---->" = .err (.parsing .noRootElement none) := by decide +kernel
example : parseStr c%"<a><!--></a>" = .err (.parsing .invalidComment (some (1, 5))) := by decide +kernel
example : parseStr c%"<a><!DOCTYPE b></a>" = .err (.notSupported c%"<!DOCTYPE b>" (some (1, 5))) := by decide +kernel
example : parseStr c%"<a><1/></a>" = .err (.parsing .invalidElementTag (some (1, 5))) := by decide +kernel
example : parseStr c%"<a></a></a>" = .err (.parsing .rootAlreadyClosed (some (1, 9))) := by decide +kernel
example : parseStr c%"<a><b></a></b>" = .err (.parsing (.closingMismatch c%"</a>" c%"b") (some (1, 8))) := by decide +kernel
example : parseStr c%"<a><b></b>" = .err (.parsing .rootNotClosed none) := by decide +kernel

end KissXml.Props
