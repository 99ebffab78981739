import Verif.Proofs.CopyCost
/-!
# C125: what `unescape` copies

The bytes copied as counted in `Model/CopyCost.lean`.
-/
namespace KissXml.Props
open KissXml KissXml.Spec

/-- **C125** (same results). `unescape` with a counter gives the results of `unescape` without it. -/
theorem C125_same {ε : Type} (t : Str) : (unescapeB t : Res ε Str × Nat).1 = unescape t := unescapeLoopB_same _ _ _

/-- **C125** (bounds). For every ampersand no more is copied than three times the text, and at least as much as there are rounds in C94;
nothing is copied without ampersands. -/
theorem C125_bounds {ε : Type} (t : Str) :
    (unescapeC t : Res ε Str × Nat).2 ≤ (unescapeB t : Res ε Str × Nat).2 ∧
    (unescapeB t : Res ε Str × Nat).2 ≤ t.count '&' * (3 * blen t) := unescapeLoopB_le (ε := ε) _ [] t

/-- **C125** (references). To decode `m` times `&amp;`, which are `5 m` bytes, `(15 m (m + 1) - 18 m) / 2` bytes are copied. -/
theorem C125_references {ε : Type} (m : Nat) :
    2 * (unescapeB (List.replicate m c%"&amp;").flatten : Res ε Str × Nat).2 + 18 * m = 15 * m * (m + 1) := by
  have e : (List.replicate m c%"&amp;").flatten = ampRefs m := by
    induction m with
    | zero => rfl
    | succ m ih => rw [List.replicate_succ, List.flatten_cons, ih]; rfl
  rw [e]
  refine unescapeLoopB_ampRefs m _ [] ?_
  have := length_le_blen (ampRefs m)
  rw [ampRefs_length] at this
  omega

/-- **C125** (exactly). In a text without references by number, which does not end with a character of several bytes, for every ampersand the
text from there on is copied; if it begins a reference by name, what follows the reference is copied twice, and the character. -/
theorem C125_exact {ε : Type} (t : Str) (hn : ¬ c%"&#" <:+: t) (hl : ∀ s c, t = s ++ [c] → c.utf8Size = 1) :
    (unescapeB t : Res ε Str × Nat).2 = copies t := by
  refine unescapeLoopB_exact _ [] t ?_ ?_ hn
  · have := length_le_blen t
    omega
  · rcases List.eq_nil_or_concat t with rfl | ⟨s, c, rfl⟩
    · rfl
    · rw [List.concat_eq_append] at hl ⊢
      rw [lastW_append s (by simp), lastW_cons, lastW_nil]
      exact hl s c rfl

/-- two references and two other ampersands -/
example : ¬ c%"&#" <:+: c%"&a&lt;é&;b&quot;c" ∧ copies c%"&a&lt;é&;b&quot;c" = 18 + (16 + 2 * 12 + 1) + 10 + (7 + 2 * 1 + 1) ∧
    (unescapeB c%"&a&lt;é&;b&quot;c" : Res Unit Str × Nat) = (.ok c%"&a<é&;b\"c", 79) := by decide +kernel

/-- Both hypotheses are needed: a reference by number, and a last character of two bytes behind which the scan goes on too late. -/
example : (unescapeB c%"a&#41;b" : Res Unit Str × Nat).2 = 6 + (1 + 2 * 1 + 1) ∧ copies c%"a&#41;b" = 6 ∧
    (unescapeB c%"&&é" : Res Unit Str × Nat).2 = 4 ∧ copies c%"&&é" = 7 := by decide +kernel

/-- a text at which `unescape` panics; a reference by name, one by number and an ampersand that begins none; a character of two bytes -/
example : (unescapeB c%"&amp;ab&#e9;cd &e f; &#;xyz" : Res Unit Str × Nat).1 = .panic ∧
    (unescapeB c%"&lt;ab&#41;c & d" : Res Unit Str × Nat) = (.ok c%"<abAc & d", 16 + (2 * 12 + 1) + 10 + (2 * 5 + 1 + 1) + 3) ∧
    (unescapeB c%"ab&#e9;" : Res Unit Str × Nat) = (.ok c%"abé", 5 + (0 + 2 + 2)) := by decide +kernel

/-- three references -/
example : (unescapeB c%"&amp;&amp;&amp;" : Res Unit Str × Nat) = (.ok c%"&&&", 63) := by decide +kernel

/-- the bounds for a text with three ampersands and 16 bytes -/
example : (unescapeC c%"&lt;ab&#41;c & d" : Res Unit Str × Nat).2 = 29 ∧ (c%"&lt;ab&#41;c & d").count '&' * (3 * blen c%"&lt;ab&#41;c & d") = 144 := by
  decide +kernel

end KissXml.Props
