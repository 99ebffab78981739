import Verif.Proofs.DigitCost
/-!
# C126: numbers in references are read again at every semicolon

The characters looked at by `u32::from_str_radix` as counted in `Model/DigitCost.lean`.
-/
namespace KissXml.Props
open KissXml

/-- **C126** (same results). `unescape` with a counter gives the results of `unescape` without it. -/
theorem C126_same {ε : Type} (t : Str) : (unescapeD t : Res ε Str × Nat).1 = unescape t := unescapeLoopD_same _ _ _

/-- **C126** (bound). No more characters are looked at than the text has, for every semicolon. -/
theorem C126_bound {ε : Type} (t : Str) : (unescapeD t : Res ε Str × Nat).2 ≤ t.count ';' * t.length :=
  Nat.le_trans (unescapeLoopD_le (ε := ε) _ [] t) (Nat.mul_le_mul_left _ (numWidths_le _ t (Nat.le_refl _)))

/-- **C126** (one reference). One reference with `m + 1` digits that `k` semicolons follow: the digits are read at each of the `k + 1`
semicolons, and at all but the first of them the character behind the digits. -/
theorem C126_one {ε : Type} (m k : Nat) :
    (unescapeD (c%"&#" ++ List.replicate (m + 1) '0' ++ c%";" ++ List.replicate k ';') : Res ε Str × Nat).2 = (k + 1) * (m + 1) + k := by
  have h := padded_digits (ε := ε) (blen (padded m ++ List.replicate (k + 1) ';')) m k
  have e : c%"&#" ++ List.replicate (m + 1) '0' ++ c%";" ++ List.replicate k ';' = padded m ++ List.replicate (k + 1) ';' := by
    simp [padded, List.replicate_succ]
  rw [e]
  have h2 : (k + 1) * (m + 2) = (k + 1) * (m + 1) + (k + 1) := by
    rw [show m + 2 = (m + 1) + 1 from rfl, Nat.mul_add, Nat.mul_one]
  unfold unescapeD
  omega

/-- three digits, five semicolons -/
example : (unescapeD c%"&#000;;;;;" : Res Unit Str × Nat) = (.ok ('\x00' :: c%";;;;"), 19) ∧ (4 + 1) * (2 + 1) + 4 = 19 := by decide +kernel

/-- Numbers with a sign, too large, and without digits; a name. The first is read at five semicolons, the others at those behind them. -/
example : (unescapeD c%"&#+41;&#fffffffff;&#;&lt;;" : Res Unit Str × Nat).1 = .ok c%"A&#fffffffff;&#;<;" ∧
    (unescapeD c%"&#+41;&#fffffffff;&#;&lt;;" : Res Unit Str × Nat).2 = (2 + 4 * 3) + 4 * 9 + (0 + 2 * 1) ∧
    (c%"&#+41;&#fffffffff;&#;&lt;;").count ';' * (c%"&#+41;&#fffffffff;&#;&lt;;").length = 130 := by decide +kernel

end KissXml.Props
