import Verif.Proofs.Message
import Verif.Props.Dom
import Verif.Props.Errors
import Verif.Props.Misc
/-!
# C74, C75: what errors say
-/
namespace KissXml.Props
open KissXml KissXml.Spec

/-! ## C74: index errors -/

/-- an element with two children, one of them an element -/
def twoKids : Element := ⟨c%"r", [.comment c%"x", .element ⟨c%"a", [], .empty, none, none, .empty⟩], .empty, none, none, .empty⟩

/-- C74 is false: `remove` and `remove_element` call an index valid that they reject, and huge indices are reported as negative
numbers. -/
theorem C74_false :
    (twoKids.remove 2 = .err (.indexOutOfBounds 2 (some (0, 2)))) ∧ (twoKids.removeElement 1 = .err (.indexOutOfBounds 1 (some (0, 1)))) ∧
    twoKids.insert (2 ^ 64 - 1) (.text c%"t") = .err (.indexOutOfBounds (-1) (some (0, 2))) := ⟨rfl, rfl, rfl⟩

/-- C74 for `insert` and indices below 2^63 (no vector is longer than that): the error has the index and exactly the range of the
valid indices.
Missing: larger indices, `remove` and `remove_element`; see `C74_false`. -/
theorem C74_insert_partial (e : Element) (i : Nat) (n : Node) (hl : e.children.length < 2 ^ 63) (hi : i < 2 ^ 63) (er : Err)
    (h : e.insert i n = .err er) :
    ∃ hi : Int, er = .indexOutOfBounds i (some (0, hi)) ∧ ∀ j : Nat, (0 ≤ (j : Int) ∧ (j : Int) ≤ hi) ↔ ∃ e', e.insert j n = .ok e' := by
  have hlen : e.children.length < i := by
    by_contra hlt
    obtain ⟨l, last, last', -, -, h2⟩ := (C17_insert e i n).2 (by omega)
    rw [h2] at h
    cases h
  rw [(C17_insert e i n).1 hlen] at h
  cases h
  refine ⟨e.children.length, by simp only [asIsize, if_pos hi, if_pos hl], fun j => ?_⟩
  by_cases hj : e.children.length < j
  · rw [(C17_insert e j n).1 hj]
    simp; omega
  · obtain ⟨l, last, last', -, -, h2⟩ := (C17_insert e j n).2 (by omega)
    rw [h2]
    simp; omega

/-- C74 for `remove` and indices below 2^63: the error has the index; the range ends one after the last valid index.
Missing: the end of the range; see `C74_false`. -/
theorem C74_remove_partial (e : Element) (i : Nat) (hl : e.children.length < 2 ^ 63) (hi : i < 2 ^ 63) (er : Err)
    (h : e.remove i = .err er) :
    ∃ hi : Int, er = .indexOutOfBounds i (some (0, hi)) ∧ ∀ j : Nat, (0 ≤ (j : Int) ∧ (j : Int) < hi) ↔ ∃ r, e.remove j = .ok r := by
  have hlen : e.children.length ≤ i := by
    by_contra hlt
    obtain ⟨A, n, B, -, -, h2⟩ := C19_total e i (by omega)
    rw [h2] at h
    cases h
  rw [(C19_remove e i).1 hlen] at h
  cases h
  refine ⟨e.children.length, by simp only [asIsize, if_pos hi, if_pos hl], fun j => ?_⟩
  by_cases hj : e.children.length ≤ j
  · rw [(C19_remove e j).1 hj]
    simp; omega
  · obtain ⟨A, n, B, -, -, h2⟩ := C19_total e j (by omega)
    rw [h2]
    simp; omega

/-- C74 for `remove_element` and indices below 2^63: likewise. -/
theorem C74_remove_element_partial (e : Element) (i : Nat) (hl : e.children.length < 2 ^ 63) (hi : i < 2 ^ 63) (er : Err)
    (h : e.removeElement i = .err er) :
    ∃ hi : Int, er = .indexOutOfBounds i (some (0, hi)) ∧
      ∀ j : Nat, (0 ≤ (j : Int) ∧ (j : Int) < hi) ↔ ∃ r, e.removeElement j = .ok r := by
  have hle : (e.children.filterMap element?).length ≤ e.children.length := List.length_filterMap_le ..
  have hlen : (e.children.filterMap element?).length ≤ i := by
    by_contra hlt
    obtain ⟨A, c, B, -, -, h2⟩ := (C22_remove_element e i).2 (by omega)
    rw [h2] at h
    cases h
  rw [(C22_remove_element e i).1 hlen] at h
  cases h
  refine ⟨(e.children.filterMap element?).length, by simp only [asIsize, if_pos hi]; rw [if_pos (by omega)], fun j => ?_⟩
  by_cases hj : (e.children.filterMap element?).length ≤ j
  · rw [(C22_remove_element e j).1 hj]
    simp; omega
  · obtain ⟨A, n, B, -, -, h2⟩ := (C22_remove_element e j).2 (by omega)
    rw [h2]
    simp; omega

example : twoKids.insert 3 (.text c%"t") = .err (.indexOutOfBounds 3 (some (0, 2))) := rfl
example : twoKids.remove 5 = .err (.indexOutOfBounds 5 (some (0, 2))) := rfl
example : twoKids.removeElement 5 = .err (.indexOutOfBounds 5 (some (0, 1))) := rfl

/-- C74: the text of an index error has these numbers in decimal notation. -/
theorem C74_text (i : Int) (b : Option (Int × Int)) : ∃ s, DecimalInt s i ∧
    ((b = none ∧ (Err.indexOutOfBounds i b).display = some (c%"Index " ++ s ++ c%" is out of bounds")) ∨
     ∃ lo hi l h, b = some (lo, hi) ∧ DecimalInt l lo ∧ DecimalInt h hi ∧ (Err.indexOutOfBounds i b).display =
       some (c%"Index " ++ s ++ c%" is out of bounds (valid range: " ++ l ++ c%" - " ++ h ++ c%")")) := by
  refine ⟨_, showInt_decimal i, ?_⟩
  cases b with
  | none => exact .inl ⟨rfl, rfl⟩
  | some b => exact .inr ⟨_, _, _, _, rfl, showInt_decimal _, showInt_decimal _, rfl⟩

example : (Err.indexOutOfBounds (-12) (some (0, 340))).display = some c%"Index -12 is out of bounds (valid range: 0 - 340)" := by decide

/-! ## C75: texts of parse errors -/

theorem parsingErrorNew_of {s : Str} (h : ¬ c%"ParsingError: " <+: s) : parsingErrorNew s = s := by
  obtain ⟨k, hk⟩ := (C57_message s).2.2
  cases k with
  | zero => simpa using hk.symm
  | succ k => exact absurd ⟨_, by rw [List.replicate_succ, List.flatten_cons, List.append_assoc] at hk; exact hk.symm⟩ h

/-- no message begins with the name of the error -/
theorem text_prefix (m : PMsg) (loc : Option (Nat × Nat)) : ¬ c%"ParsingError: " <+: m.text loc := by
  rintro ⟨r, hr⟩
  cases m <;> simp [PMsg.text] at hr

/-- What the program does in `rewrap`: the text of the error, a position, and `ParsingError::new` on that. -/
theorem rewrap_text (x : Str) (pos : Nat) (m : PMsg) (h : m = .noRootElement ∨ m = .invalidElementTag) :
    (rewrap x pos (.parsing m none)).display = (Err.parsing m none).display.map fun t =>
      parsingErrorDisplay (parsingErrorNew (t ++ c%" (syntax error on " ++ showPlace (lineAndColumn x pos) ++ c%")")) := by
  have key : ∀ a : Str, ¬ c%"ParsingError: " <+: a → parsingErrorNew (c%"ParsingError: " ++ a) = a := by
    intro a ha
    have := (C57_message a).1
    rwa [parsingErrorNew_of ha] at this
  have h1 := text_prefix m none
  have h2 := text_prefix m (some (lineAndColumn x pos))
  have h3 : m.text (some (lineAndColumn x pos)) = m.text none ++ c%" (syntax error on " ++ showPlace (lineAndColumn x pos) ++ c%")" := by
    rcases h with rfl | rfl <;> simp [PMsg.text, syntaxErrorAt]
  simp only [rewrap, errAt, Err.display, Option.map_some, Option.some.injEq]
  rw [parsingErrorNew_of h1, parsingErrorNew_of h2]
  congr 1
  rw [h3] at h2 ⊢
  rw [← key _ h2]
  congr 1

theorem display_parsing (m : PMsg) (loc : Option (Nat × Nat)) :
    (Err.parsing m loc).display = some (c%"ParsingError: " ++ m.text loc) := by
  rw [Err.display, parsingErrorNew_of (text_prefix m loc)]
  rfl

/-- C75: the text of an error of the parser names the kind of error, once, in front of the message. -/
theorem C75_kind {x : Str} {e : Err} (h : parseStr x = .err e) : ∃ k msg, e.display = some (k ++ c%": " ++ msg) ∧
    (k = c%"ParsingError" ∨ k = c%"NotSupportedError" ∨ k = c%"InvalidElementName" ∨ k = c%"InvalidAttributeName") ∧
    ¬ (k ++ c%": ") <+: msg := by
  obtain ⟨-, h1, h2, h3⟩ := C62_never h
  cases e with
  | parsing m loc => exact ⟨_, m.text loc, display_parsing m loc, .inl rfl, text_prefix m loc⟩
  | typeCast m => exact absurd rfl (h1 m).1
  | doesNotExist m => exact absurd rfl (h1 m).2.1
  | invalidContent m => exact absurd rfl (h1 m).2.2
  | indexOutOfBounds i b => exact absurd rfl (h3 i b)
  | io => exact absurd rfl h2
  | invalidAttributeName n => exact ⟨c%"InvalidAttributeName", _, rfl, by simp, by rintro ⟨r, hr⟩; simp at hr⟩
  | invalidElementName n => exact ⟨c%"InvalidElementName", _, rfl, by simp, by rintro ⟨r, hr⟩; simp at hr⟩
  | notSupported w loc => exact ⟨c%"NotSupportedError", _, rfl, by simp, by rintro ⟨r, hr⟩; simp at hr⟩

/-- C75, any error: its text begins with its kind and has in it what the error is about. -/
theorem C75_about (e : Err) (k : Str) (hk : kindName e = some k) :
    ∃ msg, e.display = some (k ++ c%": " ++ msg) ∧ ∀ a, About e a → a <:+: msg := by
  cases e with
  | parsing m loc =>
    cases hk
    refine ⟨m.text loc, display_parsing m loc, fun a ha => ?_⟩
    cases ha with
    | prefix_ p => exact ⟨c%"invalid XML syntax" ++ onPlace loc ++ c%": XML namespace prefix ", _, by simp [PMsg.text]; rfl⟩
    | close t n => exact ⟨c%"closing tag ", syntaxErrorAt loc, by simp [PMsg.text]⟩
  | typeCast m => cases hk; exact ⟨m, rfl, by rintro a ⟨⟩; exact List.infix_rfl⟩
  | doesNotExist m => cases hk; exact ⟨m, rfl, by rintro a ⟨⟩; exact List.infix_rfl⟩
  | invalidContent m => cases hk; exact ⟨m, rfl, by rintro a ⟨⟩; exact List.infix_rfl⟩
  | invalidAttributeName n => cases hk; exact ⟨_, rfl, by rintro a ⟨⟩; exact ⟨[], c%" is not a valid attribute name", by simp⟩⟩
  | invalidElementName n => cases hk; exact ⟨_, rfl, by rintro a ⟨⟩; exact ⟨[], c%" is not a valid name", by simp⟩⟩
  | notSupported w loc => cases hk; exact ⟨_, rfl, by rintro a ⟨⟩; exact ⟨c%"kiss-xml does not support ", _, by simp; rfl⟩⟩
  | indexOutOfBounds i b => cases hk
  | io => cases hk

example : About (.doesNotExist c%"no such element") c%"no such element" ∧
    (Err.doesNotExist c%"no such element").display = some c%"DoesNotExistError: no such element" := ⟨.doesNotExist _, rfl⟩
example : (Err.invalidElementName c%"1a").display = some c%"InvalidElementName: '1a' is not a valid name" := rfl

theorem text_where (m : PMsg) (lc : Nat × Nat) (h1 : m ≠ .noXmlContent) (h2 : m ≠ .rootNotClosed) (h3 : m ≠ .closeWithoutOpen)
    (h4 : m ≠ .invalidDecl) (h5 : m ≠ .invalidDtd) : SaysWhere (c%"ParsingError: " ++ m.text (some lc)) lc := by
  have key : ∀ (t a b : Str), t = a ++ showPlace lc ++ b → (∀ d r, b = d :: r → ¬ (48 ≤ d.toNat ∧ d.toNat ≤ 57)) →
      SaysWhere t lc := fun t a b ht hb => ht ▸ saysWhere_place a b lc hb
  have close : ∀ d r, c%")" = d :: r → ¬ (48 ≤ d.toNat ∧ d.toNat ≤ 57) := by rintro d r ⟨⟩; decide
  have colon : ∀ (s : Str) d r, ':' :: s = d :: r → ¬ (48 ≤ d.toNat ∧ d.toNat ≤ 57) := by rintro s d r ⟨⟩; decide
  cases m <;> simp only [PMsg.text, syntaxErrorAt, onPlace, ne_eq, not_true_eq_false] at *
  case invalidSyntax => exact key _ (c%"ParsingError: " ++ c%"invalid XML syntax" ++ c%" on ") [] (by simp) (by simp)
  case invalidComment => exact key _ (c%"ParsingError: " ++ c%"invalid comment syntax" ++ c%" on ") [] (by simp) (by simp)
  case emptyTag => exact key _ (c%"ParsingError: " ++ c%"invalid XML syntax" ++ c%" on ") _ (by simp; rfl) (colon _)
  case attrForm => exact key _ (c%"ParsingError: " ++ c%"invalid XML syntax" ++ c%" on ") _ (by simp; rfl) (colon _)
  case attrNoContent => exact key _ (c%"ParsingError: " ++ c%"invalid XML syntax" ++ c%" on ") _ (by simp; rfl) (colon _)
  case attrUnquoted => exact key _ (c%"ParsingError: " ++ c%"invalid XML syntax" ++ c%" on ") _ (by simp; rfl) (colon _)
  case undefinedPrefix p => exact key _ (c%"ParsingError: " ++ c%"invalid XML syntax" ++ c%" on ") _ (by simp; rfl) (colon _)
  case closingMismatch tag name =>
    exact key _ (c%"ParsingError: " ++ (c%"closing tag " ++ tag ++ c%" does not match <" ++ name ++ c%">") ++ c%" (syntax error on ") c%")" (by simp) close
  case unmatchedLt => exact key _ (c%"ParsingError: " ++ c%"'<' has not matching '>'" ++ c%" (syntax error on ") c%")" (by simp) close
  case textOutsideRoot =>
    exact key _ (c%"ParsingError: " ++ c%"Text outside the root element is not supported" ++ c%" (syntax error on ") c%")" (by simp) close
  case declNotAtStart =>
    exact key _ (c%"ParsingError: " ++ c%"<?xml ...?> declaration must at start of XML" ++ c%" (syntax error on ") c%")" (by simp) close
  case startsWithClosing => exact key _ (c%"ParsingError: " ++ c%"cannot start with closing tag" ++ c%" (syntax error on ") c%")" (by simp) close
  case onlyOneRoot => exact key _ (c%"ParsingError: " ++ c%"only 1 root element is allowed" ++ c%" (syntax error on ") c%")" (by simp) close
  case noRootElement => exact key _ (c%"ParsingError: " ++ c%"no root element" ++ c%" (syntax error on ") c%")" (by simp) close
  case unclosedCData =>
    exact key _ (c%"ParsingError: " ++ c%"Unclosed CDATA. '<![CDATA[' must be followed by ']]>'" ++ c%" (syntax error on ") c%")" (by simp) close
  case invalidElementTag => exact key _ (c%"ParsingError: " ++ c%"Invalid XML Element" ++ c%" (syntax error on ") c%")" (by simp) close
  case rootAlreadyClosed => exact key _ (c%"ParsingError: " ++ c%"root element already closed" ++ c%" (syntax error on ") c%")" (by simp) close

/-- C75: the text of an error of the parser says where it is; the line and column are the ones of C55 and C62.  The exceptions are:
a document without or with an unclosed root element, bad names, and an empty comment after the root element. -/
theorem C75_where {x : Str} {e : Err} (h : parseStr x = .err e) :
    (∃ t lc, e.display = some t ∧ place e = some lc ∧ SaysWhere t lc) ∨ e = .parsing .noXmlContent none ∨
    e = .parsing .rootNotClosed none ∨ (∃ n, e = .invalidElementName n) ∨ (∃ n, e = .invalidAttributeName n) ∨
    e = .parsing .noRootElement none := by
  obtain ⟨pre, rest, text, s, -, -, -, -, -, hf⟩ := C62 h
  have hp : ∀ (m : PMsg) (lc : Nat × Nat), m ≠ .noXmlContent → m ≠ .rootNotClosed → m ≠ .closeWithoutOpen → m ≠ .invalidDecl →
      m ≠ .invalidDtd → ∃ t lc', (Err.parsing m (some lc)).display = some t ∧ place (.parsing m (some lc)) = some lc' ∧ SaysWhere t lc' :=
    fun m lc h1 h2 h3 h4 h5 => ⟨_, lc, display_parsing m _, rfl, text_where m lc h1 h2 h3 h4 h5⟩
  have ht : ∀ {o : List Str} {tag : Str} {lc : Nat × Nat} {e : Err}, TagFault o tag lc e →
      (∃ t lc, e.display = some t ∧ place e = some lc ∧ SaysWhere t lc) ∨ (∃ n, e = .invalidElementName n) ∨
      (∃ n, e = .invalidAttributeName n) := by
    intro o tag lc e h
    cases h with
    | name => exact .inr (.inl ⟨_, rfl⟩)
    | attrName => exact .inr (.inr ⟨_, rfl⟩)
    | _ => exact .inl (hp _ _ (by simp) (by simp) (by simp) (by simp) (by simp))
  cases hf with
  | noRoot => exact .inr (.inl rfl)
  | notClosed => exact .inr (.inr (.inl rfl))
  | root _ _ _ _ _ _ _ h =>
    rcases ht h with h | h | h
    · exact .inl h
    · exact .inr (.inr (.inr (.inl h)))
    · exact .inr (.inr (.inr (.inr (.inl h))))
  | @inner tag o lc e _ _ _ _ _ _ h =>
    cases h with
    | elem _ _ h =>
      rcases ht h with h | h | h
      · exact .inl h
      · exact .inr (.inr (.inr (.inl h)))
      · exact .inr (.inr (.inr (.inr (.inl h))))
    | outside0 => exact .inr (.inr (.inr (.inr (.inr rfl))))
    | @unsupported what =>
      refine .inl ⟨_, _, rfl, rfl, ?_⟩
      have := saysWhere_place (c%"NotSupportedError: kiss-xml does not support '" ++ what ++ c%"' (error on ") c%")" lc
        (by rintro d r ⟨⟩; decide)
      simpa using this
    | _ => exact .inl (hp _ _ (by simp) (by simp) (by simp) (by simp) (by simp))
  | _ => exact .inl (hp _ _ (by simp) (by simp) (by simp) (by simp) (by simp))

/-- the text of the error of an input -/
def complaint (x : Str) : Option Str := match parseStr x with | .err e => e.display | _ => none

example : complaint c%"<a>\n <b></a></b>" =
    some c%"ParsingError: closing tag </a> does not match <b> (syntax error on line 2, column 6)" := by decide +kernel
example : complaint c%"<p:a/>" = some
    c%"ParsingError: invalid XML syntax on line 1, column 2: XML namespace prefix 'p' has no defined namespace (missing 'xmlns:p=\"...\"')" := by
  decide +kernel
example : complaint c%"<a></a><!-- c -->" = some c%"ParsingError: no root element (syntax error on line 1, column 9)" := by decide +kernel
example : complaint c%"<a><!ELEMENT abcdefghijklmnopqrstuvwxyz></a>" = some
    c%"NotSupportedError: kiss-xml does not support '<!ELEMENT abcde…lmnopqrstuvwxyz>' (error on line 1, column 5)" := by decide +kernel
example : complaint c%"<1 b='<c>'/>" = some c%"InvalidElementName: '1' is not a valid name" := by decide +kernel
example : complaint c%"<a></a><!---->" = some c%"ParsingError: no root element" := by decide +kernel

end KissXml.Props
