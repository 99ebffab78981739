import Verif.Props.Parse
/-!
# The tests of `/repo/tests/no_panic_tests.rs`

The inputs of the tests are ASCII; by C34 they cannot make the parser panic unless they have a numeric reference, which only one of
them has.
-/
namespace KissXml.Tests
open KissXml KissXml.Spec KissXml.Props

/-- `#` and a hexadecimal digit or `+` -/
def refHead : Str → Bool
  | '#' :: d :: _ => d == '+' || (hexDigit d).isSome
  | _ => false

/-- no `&#` before a hexadecimal digit or `+` -/
def noRef : Str → Bool
  | [] => true
  | c :: s => !(c == '&' && refHead s) && noRef s

theorem noRef_infix {a b x : Str} {d : Char} (h : noRef x = true) (hd : d = '+' ∨ (hexDigit d).isSome = true) : x ≠ a ++ c%"&#" ++ d :: b := by
  rintro rfl
  induction a with
  | nil =>
    rcases hd with rfl | hd
    · simp [noRef, refHead] at h
    · simp [noRef, refHead, hd] at h
  | cons y a ih =>
    refine ih ?_
    simp only [List.cons_append, noRef, Bool.and_eq_true] at h
    exact h.2

theorem hexValue_head {h : Str} {n : Nat} (hv : HexValue h n) : ∃ c t, h = c :: t ∧ ∃ d, HexDigit c d := by
  induction hv with
  | @one c d hd => exact ⟨c, [], rfl, d, hd⟩
  | snoc _ _ ih =>
    obtain ⟨c, t, rfl, hd⟩ := ih
    exact ⟨c, _, rfl, hd⟩

/-- ASCII input without numeric references does not panic -/
theorem calm_ascii {x : Str} (h1 : x.all (fun c => decide (c.utf8Size = 1)) = true) (h2 : noRef x = true) : parseStr x ≠ .panic := by
  intro hp
  have h1 : ∀ c ∈ x, c.utf8Size = 1 := by simpa using h1
  rcases C34_partial x hp with ⟨⟨c, hc, hw⟩, -⟩ | ⟨r, c, ⟨a, b, hr⟩, hrc, hw⟩
  · exact hw (h1 c hc)
  · cases hrc with
    | entity he => exact hw (entity_ascii he)
    | @hex h _ hv =>
      obtain ⟨y, t, rfl, d, hd⟩ := hexValue_head hv
      refine noRef_infix (a := a) (b := t ++ c%";" ++ b) (d := y) h2 (.inr ?_) (by rw [← hr]; simp)
      rw [hexDigit_iff.2 hd]; rfl
    | @hexPlus h _ hv => exact noRef_infix (a := a) (b := h ++ c%";" ++ b) (d := '+') h2 (.inl rfl) (by rw [← hr]; simp)

/-- no panic -/
def calmly : R Document → Bool | .panic => false | _ => true
theorem calmly_ne {r : R Document} (h : calmly r = true) : r ≠ .panic := by
  rintro rfl
  exact Bool.noConfusion h

/-- `FULLY_FEATURED_XML` -/
def fullyFeatured : Str := c%"<?xml version=\"1.0\" encoding=\"UTF-8\" standalone=\"no\"?>\n<!-- This comment is not allowed and will be ignored -->\n<!ENTITY nbsp \"&#xA0;\">\n<!ENTITY copyright \"Copyright: Public domain.\">\n<svg width=\"100\" height=\"100\" viewBox=\"0 0 100 100\" xmlns=\"http://www.w3.org/2000/svg\" xmlns:doc=\"internal://ns/a\">\n<!-- Blue triangle SVG graphic -->\n  <g id=\"layer1\">\n    <path style=\"fill:#00a6c2;fill-opacity:1;stroke:none\"\n       d=\"M 3,58 57,11 42,64 Z\" id=\"triangle\" />\n    <doc:note>blue triangle</doc:note>\n  </g>\n</svg>"

theorem ascii_full : fullyFeatured.all (fun c => decide (c.utf8Size = 1)) = true := by decide +kernel

theorem noRef_drop {x : Str} (h : noRef x = true) (i : Nat) : noRef (x.drop i) = true := by
  induction x generalizing i with
  | nil => simp [noRef]
  | cons c x ih =>
    cases i with
    | zero => exact h
    | succ i => rw [List.drop_succ_cons]; exact ih (by simp only [noRef, Bool.and_eq_true] at h; exact h.2) i

theorem noRef_take {x : Str} (h : noRef x = true) (i : Nat) : noRef (x.take i) = true := by
  induction x generalizing i with
  | nil => simp [noRef]
  | cons c x ih =>
    cases i with
    | zero => rfl
    | succ i =>
      simp only [noRef, Bool.and_eq_true] at h
      rw [List.take_succ_cons, noRef, ih h.2 i, Bool.and_true]
      by_cases hr : refHead (x.take i) = true
      · have : refHead x = true := by
          match x, i with
          | [], _ => simp [refHead] at hr
          | d :: x, 0 => simp [refHead] at hr
          | [d], i + 1 => simp [refHead] at hr
          | d :: e :: x, 1 => simp [refHead] at hr
          | d :: e :: x, i + 2 =>
            by_cases hd : d = '#'
            · subst hd; simpa [refHead] using hr
            · simp [refHead, hd] at hr
        have h1 := h.1
        rw [this] at h1
        rw [hr]; exact h1
      · simp [hr]

theorem noRef_of_not_mem {x : Str} (h : '&' ∉ x) : noRef x = true := by
  induction x with
  | nil => rfl
  | cons c x ih =>
    simp only [List.mem_cons, not_or] at h
    simp [noRef, ih h.2, Ne.symm h.1]

theorem noRef_append {a b : Str} (h : '&' ∉ a) (hb : noRef b = true) : noRef (a ++ b) = true := by
  induction a with
  | nil => exact hb
  | cons c a ih =>
    simp only [List.mem_cons, not_or] at h
    simp [noRef, ih h.2, Ne.symm h.1]

/-- the only `&` -/
theorem one_ref : fullyFeatured = fullyFeatured.take 127 ++ '&' :: '#' :: 'x' :: fullyFeatured.drop 130 ∧
    '&' ∉ fullyFeatured.take 127 ∧ '&' ∉ fullyFeatured.drop 130 ∧ (fullyFeatured.take 127).length = 127 := by decide +kernel

theorem noRef_full : noRef fullyFeatured = true := by
  rw [one_ref.1]
  refine noRef_append one_ref.2.1 ?_
  have := noRef_of_not_mem one_ref.2.2.1
  simp [noRef, this]; decide

/-- `test_no_panic_truncate` -/
example : ∀ i < fullyFeatured.length, parseStr (fullyFeatured.drop i) ≠ .panic ∧ parseStr (fullyFeatured.take i) ≠ .panic := by
  have a := List.all_eq_true.1 ascii_full
  intro i hi
  exact ⟨calm_ascii (List.all_eq_true.2 fun c hc => a c (List.mem_of_mem_drop hc)) (noRef_drop noRef_full i),
    calm_ascii (List.all_eq_true.2 fun c hc => a c (List.mem_of_mem_take hc)) (noRef_take noRef_full i)⟩

theorem noRef_del (i : Nat) (hi : i ≠ 129) : noRef (fullyFeatured.eraseIdx i) = true := by
  obtain ⟨h1, h2, h3, h4⟩ := one_ref
  generalize fullyFeatured.take 127 = a at h1 h2 h4
  generalize fullyFeatured.drop 130 = b at h1 h3
  rw [h1]
  have hb := noRef_of_not_mem h3
  rcases Nat.lt_or_ge i 127 with h | h
  · rw [List.eraseIdx_append_of_lt_length (by omega)]
    refine noRef_append (fun hm => h2 (List.mem_of_mem_eraseIdx hm)) ?_
    simp [noRef, refHead, hb]; decide
  · rw [List.eraseIdx_append_of_length_le (by omega)]
    refine noRef_append h2 ?_
    obtain ⟨j, rfl⟩ := Nat.exists_eq_add_of_le h
    rw [h4, Nat.add_sub_cancel_left]
    match j with
    | 0 => simp [noRef, hb]
    | 1 =>
      cases b <;> simp_all [noRef, refHead]
    | 2 => exact absurd rfl hi
    | j + 3 =>
      have := noRef_of_not_mem (fun hm => h3 (List.mem_of_mem_eraseIdx (i := j) hm))
      simp [noRef, refHead, this]; decide

/-- `test_no_panic_del_char`: only the `x` of `&#xA0;` needs a run of the parser -/
example : ∀ i < fullyFeatured.length - 1, parseStr (fullyFeatured.take i ++ fullyFeatured.drop (i + 1)) ≠ .panic := by
  have a := List.all_eq_true.1 ascii_full
  intro i hi
  by_cases h : i = 129
  · subst h
    have : calmly (parseStr (fullyFeatured.take 129 ++ fullyFeatured.drop 130)) = true := by decide +kernel
    exact calmly_ne this
  · refine calm_ascii (List.all_eq_true.2 fun c hc => ?_) ?_
    · rcases List.mem_append.1 hc with hc | hc
      · exact a c (List.mem_of_mem_take hc)
      · exact a c (List.mem_of_mem_drop hc)
    · rw [← List.eraseIdx_eq_take_drop_succ]
      exact noRef_del i h

/-- `TOKENS` -/
def tokens : List Str := [c%"<", c%">", c%"a", c%"xmlns:", c%":", c%"\"", c%"=", c%"&", c%";", c%"-", c%"!", c%"/", c%"<a ", c%"</a>", c%"<!--", c%"-->"]

/-- `test_no_panic_many_permutations`, for any number of tokens -/
example (l : List Str) (hl : ∀ t ∈ l, t ∈ tokens) : parseStr l.flatten ≠ .panic := by
  have ht : ∀ t ∈ tokens, ∀ c ∈ t, c.utf8Size = 1 ∧ c ≠ '#' := by decide
  refine calm_ascii (List.all_eq_true.2 fun c hc => ?_) ?_
  · obtain ⟨t, h1, h2⟩ := List.mem_flatten.1 hc
    simpa using (ht t (hl t h1) c h2).1
  · have hno : ∀ x : Str, '#' ∉ x → noRef x = true := by
      intro x hx
      induction x with
      | nil => rfl
      | cons c x ih =>
        simp only [List.mem_cons, not_or] at hx
        rw [noRef, ih hx.2, Bool.and_true]
        cases x with
        | nil => simp [refHead]
        | cons d x =>
          have : d ≠ '#' := fun h => hx.2 (by simp [h])
          simp [refHead, this]
    refine hno _ fun hm => ?_
    obtain ⟨t, h1, h2⟩ := List.mem_flatten.1 hm
    exact (ht t (hl t h1) _ h2).2 rfl

end KissXml.Tests
