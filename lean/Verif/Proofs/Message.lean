import Verif.Model.Message
import Verif.Spec.Message
import Verif.Proofs.Str
import Mathlib.Tactic.IntervalCases
/-!
# Texts of errors
-/
namespace KissXml
open Spec

theorem digit_toNat (n : Nat) : (Char.ofNat (48 + n % 10)).toNat = 48 + n % 10 := by
  have h : n % 10 < 10 := Nat.mod_lt _ (by decide)
  generalize n % 10 = k at h
  interval_cases k <;> rfl

theorem decimalValue_concat (s : Str) (c : Char) : decimalValue (s ++ [c]) = 10 * decimalValue s + (c.toNat - 48) := by
  simp [decimalValue]

theorem digitsF_decimal (f : Nat) : ∀ n, n < f → Decimal (digitsF f n) n := by
  induction f with
  | zero => intro n h; omega
  | succ f ih =>
    intro n hn
    unfold digitsF
    by_cases h : n < 10
    · rw [if_pos h, List.nil_append]
      refine ⟨by simp, ?_, ?_, ?_⟩
      · intro c hc
        rw [List.mem_singleton.1 hc, digit_toNat]
        omega
      · rw [show [Char.ofNat (48 + n % 10)] = [] ++ [Char.ofNat (48 + n % 10)] from rfl, decimalValue_concat, digit_toNat]
        simp [decimalValue]; omega
      · rintro ⟨t, ht⟩
        simp only [List.cons_append, List.nil_append, List.cons.injEq] at ht
        rw [← ht.1]
    · rw [if_neg h]
      obtain ⟨h1, h2, h3, h4⟩ := ih (n / 10) (by omega)
      refine ⟨by simp, ?_, ?_, ?_⟩
      · intro c hc
        rcases List.mem_append.1 hc with hc | hc
        · exact h2 c hc
        · rw [List.mem_singleton.1 hc, digit_toNat]
          omega
      · rw [decimalValue_concat, h3, digit_toNat]
        omega
      · intro h0
        exfalso
        have : c%"0" <+: digitsF f (n / 10) := by
          cases hd : digitsF f (n / 10) with
          | nil => exact absurd hd h1
          | cons a t =>
            rw [hd] at h0
            obtain ⟨r, hr⟩ := h0
            simp only [List.cons_append, List.nil_append, List.cons.injEq] at hr
            exact ⟨t, by simp [← hr.1]⟩
        rw [h4 this] at h3
        have : decimalValue c%"0" = 0 := by decide
        omega

theorem showNat_decimal (n : Nat) : Decimal (showNat n) n := digitsF_decimal _ n (by omega)

theorem showInt_decimal (i : Int) : DecimalInt (showInt i) i := by
  cases i with
  | ofNat n => exact .inl ⟨by simp, showNat_decimal n⟩
  | negSucc n => exact .inr ⟨by omega, _, rfl, by simpa using showNat_decimal (n + 1)⟩

theorem saysWhere_place (a b : Str) (lc : Nat × Nat) (h : ∀ d r, b = d :: r → ¬ (48 ≤ d.toNat ∧ d.toNat ≤ 57)) :
    SaysWhere (a ++ showPlace lc ++ b) lc :=
  ⟨a, b, _, _, by simp [showPlace], showNat_decimal _, showNat_decimal _, h⟩

end KissXml
