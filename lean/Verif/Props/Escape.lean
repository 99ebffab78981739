import Verif.Proofs.UnescapeExact
/-!
# Escaping properties C01-C07
-/
namespace KissXml.Props
open KissXml KissXml.Spec

variable {ε : Type}

/-! ## C01: `unescape (text_escape s) = s` -/

/-- C01 is false: a non-ASCII last character makes `unescape` skip or cut characters. -/
theorem C01_false : ¬ ∀ s : Str, (unescape (textEscape s) : Res Unit Str) = .ok s := by
  intro h; exact absurd (h c%"&x☼") (by decide)

/-- C01 fails by a panic … -/
theorem C01_panic : (unescape (textEscape c%"&x☼") : Res Unit Str) = .panic := by decide
/-- … and by a silently wrong result. -/
theorem C01_corrupt : (unescape (textEscape c%"&<☼") : Res Unit Str) = .ok c%"&&lt;☼" := by decide

theorem skipsOk_text {k : Nat} {s : Str} :
    SkipsOk spText k s ↔ ClearAfter ['&', '<', '>'] (k - 1) s := by
  have h : ∀ c, spText c = true ↔ c ∈ ['&', '<', '>'] := by intro c; simp [spText, or_assoc]
  have h' : ∀ c, spText c = false ↔ c ∉ ['&', '<', '>'] := by
    intro c; rw [← h]; simp
  simp only [SkipsOk, ClearAfter, h, h']

theorem skipsOk_attr {k : Nat} {s : Str} :
    SkipsOk spAttr k s ↔ ClearAfter ['&', '<', '>', '\'', '"'] (k - 1) s := by
  have h : ∀ c, spAttr c = true ↔ c ∈ ['&', '<', '>', '\'', '"'] := by
    intro c; simp [spAttr, or_assoc]
  have h' : ∀ c, spAttr c = false ↔ c ∉ ['&', '<', '>', '\'', '"'] := by
    intro c; rw [← h]; simp
  simp only [SkipsOk, ClearAfter, h, h']

theorem inverse_iff {f : Char → Str} {sp : Char → Bool} (H : IsEsc f sp) (s : Str) (z : Char) :
    (unescape ((s ++ [z]).flatMap f) : Res ε Str) = .ok (s ++ [z]) ↔ SkipsOk sp z.utf8Size (s ++ [z]) := by
  have := esc_iff (ε := ε) H (lastW 1 ((s ++ [z]).flatMap f)) _ [] (s ++ [z]) (Nat.lt_succ_self _) (fun _ => rfl)
  simp only [List.nil_append, blen_nil] at this
  rw [unescape, this]
  have hz : lastW 1 ((s ++ [z]).flatMap f) = lastW 1 (f z) := by
    rw [lastW_esc_suffix H (by simp)]; simp
  rw [hz]
  cases hs : sp z with
  | false => simp [(H.keep z hs).1]
  | true =>
    obtain ⟨m, hm, -, -, -, -, -, hw⟩ := entity_form (H.ent z hs)
    rw [hm, hw, show '&' :: (m ++ [';']) = ('&' :: m) ++ [';'] by simp, lastW_append _ (by simp)]
    exact Iff.rfl

/-- C01, exactly: for a string ending in `z`, unescaping the escaped text gives the string back iff after
each of `& < >` the next `width z - 1` bytes are whole characters, none of them special.
Missing from the full claim: the strings that violate this condition (where the code fails, see
`C01_panic`, `C01_corrupt`). -/
theorem C01_partial (s : Str) (z : Char) :
    (unescape (textEscape (s ++ [z])) : Res ε Str) = .ok (s ++ [z]) ↔
      ClearAfter ['&', '<', '>'] (z.utf8Size - 1) (s ++ [z]) := by
  rw [textEscape_eq, inverse_iff isEsc_text, skipsOk_text]

/-- the empty string, not covered by `C01_partial` -/
theorem C01_empty_partial : (unescape (textEscape []) : Res ε Str) = .ok [] := rfl

/-- C01 for every string that ends in an ASCII character -/
theorem C01_ascii_end_partial (s : Str) (h : AsciiEnd s) :
    (unescape (textEscape s) : Res ε Str) = .ok s := by
  rcases List.eq_nil_or_concat s with rfl | ⟨s, z, rfl⟩
  · rfl
  · rw [List.concat_eq_append] at *
    rw [C01_partial]
    intro a c b _ _
    exact ⟨[], b, rfl, by simp [h z (by simp)], by simp⟩

example : AsciiEnd c%"☼<a & b>!" := by intro c h; simp at h; subst h; decide
example : (unescape (textEscape c%"☼<a & b>!") : Res Unit Str) = .ok c%"☼<a & b>!" :=
  C01_ascii_end_partial _ (by intro c h; simp at h; subst h; decide)
example : ClearAfter ['&', '<', '>'] ('☼'.utf8Size - 1) c%"a&bc☼" := by
  rw [← skipsOk_text, show c%"a&bc☼" = c%"a&bc" ++ ['☼'] from rfl,
    ← inverse_iff (ε := Unit) isEsc_text c%"a&bc" '☼', ← textEscape_eq]
  decide
/-- the condition is not always met -/
example : ¬ ClearAfter ['&', '<', '>'] ('☼'.utf8Size - 1) c%"a&b☼" := by
  rw [← skipsOk_text, show c%"a&b☼" = c%"a&b" ++ ['☼'] from rfl,
    ← inverse_iff (ε := Unit) isEsc_text c%"a&b" '☼', ← textEscape_eq]
  decide

/-! ## C02: the same for attribute escaping -/

theorem C02_false : ¬ ∀ s : Str, (unescape (escape s) : Res Unit Str) = .ok s := by
  intro h; exact absurd (h c%"\"x☼") (by decide)

theorem C02_panic : (unescape (attributeEscape c%"\"x☼") : Res Unit Str) = .panic := by decide
theorem C02_corrupt : (unescape (attributeEscape c%"''☼") : Res Unit Str) = .ok c%"'&apos;☼" := by decide

/-- C02, exactly; see `C01_partial`. -/
theorem C02_partial (s : Str) (z : Char) :
    ((unescape (escape (s ++ [z])) : Res ε Str) = .ok (s ++ [z]) ↔
      ClearAfter ['&', '<', '>', '\'', '"'] (z.utf8Size - 1) (s ++ [z])) ∧
    ((unescape (attributeEscape (s ++ [z])) : Res ε Str) = .ok (s ++ [z]) ↔
      ClearAfter ['&', '<', '>', '\'', '"'] (z.utf8Size - 1) (s ++ [z])) := by
  rw [attributeEscape, escape_eq, inverse_iff isEsc_attr, skipsOk_attr]
  exact ⟨Iff.rfl, Iff.rfl⟩

theorem C02_empty_partial : (unescape (escape []) : Res ε Str) = .ok [] ∧
    (unescape (attributeEscape []) : Res ε Str) = .ok [] := ⟨rfl, rfl⟩

theorem C02_ascii_end_partial (s : Str) (h : AsciiEnd s) :
    (unescape (escape s) : Res ε Str) = .ok s ∧ (unescape (attributeEscape s) : Res ε Str) = .ok s := by
  rcases List.eq_nil_or_concat s with rfl | ⟨s, z, rfl⟩
  · exact ⟨rfl, rfl⟩
  · rw [List.concat_eq_append] at *
    have : ClearAfter ['&', '<', '>', '\'', '"'] (z.utf8Size - 1) (s ++ [z]) := by
      intro a c b _ _
      exact ⟨[], b, rfl, by simp [h z (by simp)], by simp⟩
    exact ⟨(C02_partial s z).1.2 this, (C02_partial s z).2.2 this⟩

example : (unescape (attributeEscape c%"it's ☼ \"q\" & <t>") : Res Unit Str) = .ok c%"it's ☼ \"q\" & <t>" :=
  (C02_ascii_end_partial _ (by intro c h; simp at h; subst h; decide)).2

/-! ## C03, C04: escaped strings contain no markup -/

theorem esc_no_mem {f : Char → Str} (x : Char) (h : ∀ c, x ∉ f c) (s : Str) : x ∉ s.flatMap f := by
  simp only [List.mem_flatMap, not_exists, not_and]
  exact fun c _ => h c

theorem escText_cases (c : Char) :
    (c = '&' ∧ escText c = c%"&amp;") ∨ (c = '<' ∧ escText c = c%"&lt;") ∨ (c = '>' ∧ escText c = c%"&gt;") ∨
    (c ≠ '&' ∧ c ≠ '<' ∧ c ≠ '>' ∧ escText c = [c]) := by
  unfold escText; split <;> simp_all

theorem escAttr_cases (c : Char) :
    (c = '&' ∧ escAttr c = c%"&amp;") ∨ (c = '<' ∧ escAttr c = c%"&lt;") ∨ (c = '>' ∧ escAttr c = c%"&gt;") ∨
    (c = '\'' ∧ escAttr c = c%"&apos;") ∨ (c = '"' ∧ escAttr c = c%"&quot;") ∨
    (c ≠ '&' ∧ c ≠ '<' ∧ c ≠ '>' ∧ c ≠ '\'' ∧ c ≠ '"' ∧ escAttr c = [c]) := by
  unfold escAttr; split <;> simp_all

/-- C03: no `<`, no `>`, every `&` starts one of three entities, and the text is the per-character
replacement (so all other characters are kept, in order). -/
theorem C03_text_escape (s : Str) :
    '<' ∉ textEscape s ∧ '>' ∉ textEscape s ∧
    (∀ a b, textEscape s = a ++ '&' :: b →
      ∃ r ∈ [c%"&amp;", c%"&lt;", c%"&gt;"], r <+: '&' :: b) ∧
    textEscape s = s.flatMap escText ∧
    (∀ c, c ≠ '&' → c ≠ '<' → c ≠ '>' → textEscape [c] = [c]) := by
  rw [textEscape_eq]
  refine ⟨?_, ?_, ?_, rfl, ?_⟩
  · apply esc_no_mem; intro c
    rcases escText_cases c with ⟨-, h⟩ | ⟨-, h⟩ | ⟨-, h⟩ | ⟨h1, h2, h3, h⟩ <;> rw [h] <;> simp [*, Ne.symm]
  · apply esc_no_mem; intro c
    rcases escText_cases c with ⟨-, h⟩ | ⟨-, h⟩ | ⟨-, h⟩ | ⟨h1, h2, h3, h⟩ <;> rw [h] <;> simp [*, Ne.symm]
  · intro a b h
    obtain ⟨b1, c, b2, -, hc, -, hr⟩ := esc_amp isEsc_text h
    refine ⟨escText c, ?_, by rw [hr]; exact List.prefix_append _ _⟩
    simp only [spText, Bool.or_eq_true, decide_eq_true_eq, or_assoc] at hc
    rcases hc with rfl | rfl | rfl <;> decide
  · intro c h1 h2 h3
    rw [textEscape_eq]
    rcases escText_cases c with ⟨h, -⟩ | ⟨h, -⟩ | ⟨h, -⟩ | ⟨-, -, -, h⟩
    · exact absurd h h1
    · exact absurd h h2
    · exact absurd h h3
    · simp [h]

example : textEscape c%"1 < 2 & \"x\" > 0" = c%"1 &lt; 2 &amp; \"x\" &gt; 0" := by decide

/-- C04 -/
theorem C04_attribute_escape (s : Str) :
    '<' ∉ attributeEscape s ∧ '>' ∉ attributeEscape s ∧ '\'' ∉ attributeEscape s ∧ '"' ∉ attributeEscape s ∧
    (∀ a b, attributeEscape s = a ++ '&' :: b →
      ∃ r ∈ [c%"&amp;", c%"&lt;", c%"&gt;", c%"&apos;", c%"&quot;"], r <+: '&' :: b) ∧
    attributeEscape s = s.flatMap escAttr := by
  rw [attributeEscape, escape_eq]
  refine ⟨?_, ?_, ?_, ?_, ?_, rfl⟩
  iterate 4
    · apply esc_no_mem; intro c
      rcases escAttr_cases c with ⟨-, h⟩ | ⟨-, h⟩ | ⟨-, h⟩ | ⟨-, h⟩ | ⟨-, h⟩ | ⟨h1, h2, h3, h4, h5, h⟩ <;>
        rw [h] <;> simp [*, Ne.symm]
  · intro a b h
    obtain ⟨b1, c, b2, -, hc, -, hr⟩ := esc_amp isEsc_attr h
    refine ⟨escAttr c, ?_, by rw [hr]; exact List.prefix_append _ _⟩
    simp only [spAttr, Bool.or_eq_true, decide_eq_true_eq, or_assoc] at hc
    rcases hc with rfl | rfl | rfl | rfl | rfl <;> decide

example : attributeEscape c%"a='1'>\"b\"" = c%"a=&apos;1&apos;&gt;&quot;b&quot;" := by decide

/-! ## C05: injective and compositional -/

theorem decodes_esc {f : Char → Str} {sp : Char → Bool} (H : IsEsc f sp) (s : Str) : Decodes (s.flatMap f) s := by
  induction s with
  | nil => exact .nil
  | cons c s ih =>
    cases h : sp c with
    | false =>
      obtain ⟨h1, h2⟩ := H.keep c h
      simpa [h1] using Decodes.char h2 ih
    | true => simpa using Decodes.ref (.entity (H.ent c h)) ih

/-- C05 -/
theorem C05_injective_compositional :
    (∀ s t, textEscape s = textEscape t → s = t) ∧ (∀ s t, escape s = escape t → s = t) ∧
    (∀ s t, textEscape (s ++ t) = textEscape s ++ textEscape t) ∧
    (∀ s t, escape (s ++ t) = escape s ++ escape t) := by
  refine ⟨?_, ?_, ?_, ?_⟩
  · intro s t h
    rw [textEscape_eq, textEscape_eq] at h
    have := decodes_esc isEsc_text s
    rw [h] at this
    exact decodes_unique this (decodes_esc isEsc_text t)
  · intro s t h
    rw [escape_eq, escape_eq] at h
    have := decodes_esc isEsc_attr s
    rw [h] at this
    exact decodes_unique this (decodes_esc isEsc_attr t)
  · intro s t; simp [textEscape_eq]
  · intro s t; simp [escape_eq]

/-- the naive order of replacement (`&` last) would not be injective: `<` and `&lt;` must differ -/
example : textEscape c%"<" ≠ textEscape c%"&lt;" := by decide

/-! ## C06: termination and size -/

/-- C06: the loop stops, there is no error result, and a result has at most as many bytes as the input. -/
theorem C06_terminates (s : Str) :
    (unescape s : Res ε Str) ≠ .diverge ∧ (∀ e, (unescape s : Res ε Str) ≠ .err e) ∧
    ∀ t, (unescape s : Res ε Str) = .ok t → blen t ≤ blen s :=
  unescapeLoop_bound _ _ _ (by omega) (by omega)

example : (unescape c%"&lt;&amp;&bogus;&" : Res Unit Str) = .ok c%"<&&bogus;&" := by decide

/-! ## C07: one-pass decoding -/

/-- C07 is false in general: panic on ordinary text, and references left undecoded. -/
theorem C07_false :
    (unescape c%"&#263c;a" : Res Unit Str) = .panic ∧
    (unescape c%"&amp;&lt;☼" : Res Unit Str) = .ok c%"&&lt;☼" ∧
    Decodes c%"&amp;&lt;☼" c%"&<☼" := by
  refine ⟨by decide, by decide, ?_⟩
  exact .ref (r := c%"&amp;") (.entity .amp) (.ref (r := c%"&lt;") (.entity .lt) (.char (by decide) .nil))

/-- C07 for strings that end in an ASCII character and have non-ASCII references at the very end only:
`unescape` returns exactly the one-pass decoding.
Missing: strings with a non-ASCII last character and an `&`, and non-ASCII references elsewhere (the code
fails on some of them, see `C07_false`). -/
theorem C07_partial (s : Str) (h1 : AsciiEnd s) (h2 : WideRefsLast s) (t : Str) :
    (unescape s : Res ε Str) = .ok t ↔ Decodes s t := by
  obtain ⟨t', h, hu⟩ := unescapeLoop_decodes (ε := ε) (blen s + 1) [] s (Nat.lt_succ_self _) h1 h2
  simp only [List.nil_append, blen_nil] at hu
  rw [unescape, hu]
  constructor
  · intro e; simp at e; subst e; exact h
  · intro h'; rw [decodes_unique h h']

/-- C07 without `&`: nothing changes, whatever the characters. -/
theorem C07_no_amp_partial (s : Str) (h : '&' ∉ s) : (unescape s : Res ε Str) = .ok s := by
  have := unescapeLoop_done (ε := ε) (blen s) [] s h
  simpa [unescape] using this

/-- C07 for all texts in which no `&` is followed too closely by another one or by the beginning of a wide character (how closely
depends on the width `w` of the last character). -/
theorem C07_spaced_partial {s : Str} {w : Nat} (hw : ∀ c, s.getLast? = some c → w = c.utf8Size) (h : Spaced w s) (t : Str) :
    (unescape s : Res ε Str) = .ok t ↔ Decodes s t := by
  obtain ⟨t', ht⟩ := decodes_total s
  have hu := unescape_ok_iff (ε := ε).2 (legible_spaced hw h t' ht)
  rw [hu]
  constructor
  · intro e; simp at e; subst e; exact ht
  · intro h'; rw [decodes_unique ht h']

example : AsciiEnd c%"x&lt;&#41;&bad;☼y" ∧ WideRefsLast c%"x&lt;&#41;&bad;☼y" :=
  ⟨by intro c h; simp at h; subst h; decide, wideRefsLast_of (by decide)⟩
example : (unescape c%"x&lt;&#41;&bad;☼y&#263c;" : Res Unit Str) = .ok c%"x<A&bad;☼y☼" := by decide

/-! ## C67: exactly what `unescape` does -/

/-- C67: `unescape` returns `t` exactly when reading in steps of the width of the last character gives `t`, and panics exactly when
one of these steps ends inside a character. -/
theorem C67 (s : Str) :
    (∀ t, (unescape s : Res ε Str) = .ok t ↔ Unesc s (some t)) ∧ ((unescape s : Res ε Str) = .panic ↔ Unesc s none) :=
  ⟨fun _ => unescape_ok_iff, unescape_panic_iff⟩

/-- C67: one of the two happens, and it is determined by the text. -/
theorem C67_unique (s : Str) : ∃ t, Unesc s t ∧ ∀ t', Unesc s t' → t' = t := by
  obtain ⟨t, h⟩ := unesc_total s
  exact ⟨t, h, fun t' h' => unesc_unique h' h⟩

/-- C67: which texts are decoded as they should -/
theorem C67_legible (s : Str) : Legible s ↔ ∃ t, (unescape s : Res Unit Str) = .ok t ∧ Decodes s t := by
  constructor
  · intro h
    obtain ⟨t, ht⟩ := decodes_total s
    exact ⟨t, unescape_ok_iff.2 (h t ht), ht⟩
  · rintro ⟨t, h1, h2⟩ t' ht
    rw [decodes_unique ht h2]
    exact unescape_ok_iff.1 h1

/-- three bytes at a time: the second reference is skipped … -/
example : Unesc c%"&amp;&lt;☼" (some c%"&&lt;☼") := (C67 (ε := Unit) _).1 _ |>.1 (by decide)
/-- … the step ends inside `☼` … -/
example : Unesc c%"&x☼" none := (C67 (ε := Unit) _).2.1 (by decide)
/-- … and here all is well: two references and a `&` that is none, with enough in between. -/
example : Legible c%"&lt;ab&gt;c &d ☼" := by
  rw [C67_legible]
  refine ⟨c%"<ab>c &d ☼", by decide, ?_⟩
  refine .ref (r := c%"&lt;") (.entity .lt) (.char (by decide) (.char (by decide) (.ref (r := c%"&gt;") (.entity .gt)
    (.char (by decide) (.char (by decide) (.amp ?_ (decodes_noamp (by decide))))))))
  exact decode1_none (b := c%"d ☼") (by decide)

end KissXml.Props
