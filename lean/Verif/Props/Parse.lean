import Verif.Proofs.Panic
import Verif.Proofs.Invariant
/-!
# The parser as a whole: C26, C33, C34, C44
-/
namespace KissXml.Props
open KissXml KissXml.Spec

/-! ## C33 -/

/-- C33: the loops of `parse_str` stop within their fuel, the number of bytes of the input (plus one). -/
theorem C33_terminates (x : Str) : parseStr x ≠ .diverge := (np_parseStr x).1

/-- C33: each search that finds a tag ends at least one byte after it started. -/
theorem C33_progress (pre r : Str) (s e : Nat) (h : nextTag (pre ++ r) (blen pre) = some (some s, some e)) :
    blen pre ≤ s ∧ s < e ∧ e ≤ blen (pre ++ r) := by
  rcases split_lt r with hr | ⟨t, u, rfl, h1, h2⟩
  · rw [nextTag_none hr] at h; cases h
  · rw [nextTag_some h1 h2] at h
    simp only [Option.some.injEq, Prod.mk.injEq, Option.map_eq_some_iff] at h
    obtain ⟨rfl, n, hn, rfl⟩ := h
    obtain ⟨tag, ht, rfl⟩ := (tagLen_iff h2 n).1 hn
    obtain ⟨v, rfl⟩ := tagAt_prefix ht
    have := tagAt_pos ht
    have := length_le_blen tag
    simp only [blen_append]
    omega

example : nextTag (c%"ab" ++ c%"c<d>e") (blen c%"ab") = some (some 3, some 6) := by decide

/-! ## C34 -/

/-- C34 is false: well-formed documents that panic — a reference followed by a non-ASCII character, a numeric reference
to a non-ASCII character, the same in an attribute value, a long comment in the prolog, a declaration inside the root. -/
theorem C34_false :
    parseStr c%"<r>&amp;x☼</r>" = .panic ∧
    parseStr c%"<r>&#263c;a</r>" = .panic ∧
    parseStr c%"<r a=\"&quot;x☼\"/>" = .panic ∧
    parseStr c%"<!--3456789abc☼def0123456789abcdef--><r/>" = .panic ∧
    parseStr c%"<r><!ELEMENT 789a☼bcdef0123456789abcdef></r>" = .panic :=
  ⟨by rfl, by rfl, by rfl, by rfl, by rfl⟩

/-- C34 for the other inputs: a panic needs a non-ASCII character together with an `&` or a `<!`, or a numeric reference to
a non-ASCII character.
Missing: inputs with these (some of them do panic, see `C34_false`). -/
theorem C34_partial (x : Str) (h : parseStr x = .panic) :
    ((∃ c ∈ x, c.utf8Size ≠ 1) ∧ ('&' ∈ x ∨ c%"<!" <:+: x)) ∨
    (∃ r c, r <:+: x ∧ Ref r c ∧ c.utf8Size ≠ 1) := panic_cause h

/-- in particular: ASCII input without numeric references -/
theorem C34_ascii_partial (x : Str) (h1 : ∀ c ∈ x, c.utf8Size = 1) (h2 : ¬ c%"&#" <:+: x) :
    (∃ d, parseStr x = .ok d) ∨ ∃ e, parseStr x = .err e := by
  cases hp : parseStr x with
  | ok d => exact .inl ⟨d, rfl⟩
  | err e => exact .inr ⟨e, rfl⟩
  | diverge => exact absurd hp (C33_terminates x)
  | panic =>
    exfalso
    rcases C34_partial x hp with ⟨⟨c, hc, hw⟩, -⟩ | ⟨r, c, hr, hrc, hw⟩
    · exact hw (h1 c hc)
    · cases hrc with
      | entity he => exact hw (entity_ascii he)
      | hex => exact h2 (List.IsInfix.trans ⟨[], _, by rw [List.nil_append, List.append_assoc]⟩ hr)
      | @hexPlus h c =>
        exact h2 (List.IsInfix.trans ⟨[], c%"+" ++ h ++ c%";", by simp⟩ hr)

example : (∃ c ∈ c%"<r>☼</r>", c.utf8Size ≠ 1) ∧ ¬ ('&' ∈ c%"<r>☼</r>" ∨ c%"<!" <:+: c%"<r>☼</r>") := by decide
example : (match parseStr c%"<r a='1'>&lt;<b/>]]></r" with | .err (.parsing .invalidSyntax (some (1, 22))) => true | _ => false) = true := by
  rfl

/-! ## C44 -/

/-- C44: below (and at) the root of an accepted document no element has two adjacent text children, and every text has a
character that is not white space. -/
theorem C44_normal_form (x : Str) (d : Document) (h : parseStr x = .ok d) :
    TextNormal d.root.children ∧ ∀ e, Node.element e ∈ descendants d.root → TextNormal e.children := by
  obtain ⟨h1, h2⟩ := deep_element.1 (parse_normal h)
  refine ⟨h1, fun e he => ?_⟩
  obtain ⟨c, hc, hm⟩ := mem_docOrderL.1 he
  exact h2 c hc _ hm

-- the text of the reference is a space; it is dropped
example : (match parseStr c%"<r> <a> x<!--y-->z&#20;</a>&#20;<b/></r>" with
    | .ok d => d.root.children.map Node.textOf | _ => []) = [c%" xz ", []] := by rfl

/-! ## C26 -/

/-- C26: in every value made by parsing and API calls, at every node, element and attribute names match `[_a-zA-Z]\S*`,
comments have no `-->` and CDATA sections no `]]>`. -/
theorem C26_reachable_valid (n : Node) (h : Api n) : ∀ m ∈ docOrder n, Valid m := api_valid h

example : ∃ e, Api (.element e) ∧ e.toString = c%"<r a=\"1\"><!--x--></r>" := by
  obtain ⟨e, he⟩ : ∃ e, (do let e ← ElementF.newFromName c%"r"; e.setAttr c%"a" c%"1" : R Element) = .ok e := ⟨_, rfl⟩
  obtain ⟨e0, h0, h1⟩ := bind_eq_ok.1 he
  obtain ⟨e1, h2⟩ : ∃ e1, e.append (.comment c%"x") = .ok e1 := ⟨_, append_eq _ _⟩
  refine ⟨e1, .append (.setAttr (.newFromName h0) h1) (.comment (a := c%"x") rfl) h2, ?_⟩
  cases h0
  cases h1
  cases h2
  rfl

end KissXml.Props
