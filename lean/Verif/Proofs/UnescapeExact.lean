import Verif.Proofs.EscInverse
import Verif.Model.Dom
/-!
# `unescape`: exactly what it does
-/
namespace KissXml
open Spec

/-- result of the loop from a position on -/
def readOut {ε : Type} (P : Str) : Option Str → Res ε Str
  | none => .panic
  | some t => .ok (P ++ t)

theorem lastW_of {s : Str} {w d : Nat} (hs : s ≠ []) (h : ∀ c, s.getLast? = some c → w = c.utf8Size) : lastW d s = w := by
  unfold lastW
  cases hl : s.getLast? with
  | none => exact absurd (List.getLast?_eq_none_iff.1 hl) hs
  | some c => exact (h c hl).symm

theorem last_suffix {a b : Str} {w : Nat} (h : ∀ c, (a ++ b).getLast? = some c → w = c.utf8Size) :
    ∀ c, b.getLast? = some c → w = c.utf8Size := by
  intro c hc
  apply h
  rw [List.getLast?_append, hc]
  rfl

theorem blen_pos {s : Str} (h : s ≠ []) : 0 < blen s := by
  rcases Nat.eq_zero_or_pos (blen s) with h' | h'
  · exact absurd (blen_eq_zero.1 h') h
  · exact h'

/-- the whole text is a reference -/
theorem step_last {b r : Str} {c : Char} (h : Ref r c) (e : '&' :: b = r) : after b = [c] ∧ jump b = c.utf8Size := by
  obtain ⟨m, rfl, hm, hc⟩ := ref_cases h
  simp only [List.cons_append, List.cons.injEq, true_and] at e
  subst e
  have hd := decode1_of (rest := []) hm hc
  refine ⟨by simp [after, hd], ?_⟩
  simp only [jump, hd, lastW_nil]
  split
  · rfl
  · rename_i hn
    exact ((refChar_width hc).1 (by simpa using hn)).symm

theorem step_at {s s' : Str} {w : Nat} (h : AtAmp s s') (hw : ∀ c, s.getLast? = some c → w = c.utf8Size) :
    ∃ b, s = '&' :: b ∧ after b = s' ∧ jump b = w := by
  rcases h with ⟨r, c, rest, hr, hne, rfl, rfl⟩ | ⟨⟨b, rfl⟩, hn, rfl⟩
  · obtain ⟨m, rfl, hm, hc⟩ := ref_cases hr
    have hd := decode1_of (rest := rest) hm hc
    refine ⟨m ++ ';' :: rest, by simp, by simp [after, hd], ?_⟩
    simp only [jump, hd]
    exact lastW_of hne (last_suffix hw)
  · have hd : decode1 b = none := by
      cases hd : decode1 b with
      | none => rfl
      | some p =>
        obtain ⟨u, rest, num⟩ := p
        obtain ⟨r, hr, he⟩ := decode1_ref hd
        exact absurd ⟨rest, he.symm⟩ (hn r u hr)
    refine ⟨b, rfl, by simp [after, hd], ?_⟩
    simp only [jump, hd]
    cases hb : b with
    | nil => subst hb; exact (hw '&' (by simp)).symm
    | cons x y =>
      rw [← hb]
      exact lastW_of (by simp [hb]) (last_suffix (a := c%"&") hw)

theorem last_at {s u v : Str} {w : Nat} (h : AtAmp s (u ++ v)) (hu : u ≠ []) (hw : ∀ c, s.getLast? = some c → w = c.utf8Size) :
    ∀ c, v.getLast? = some c → w = c.utf8Size := by
  rcases h with ⟨r, c, rest, hr, hne, rfl, e⟩ | ⟨-, -, rfl⟩
  · obtain ⟨x, u', rfl⟩ := List.exists_cons_of_ne_nil hu
    simp only [List.cons_append, List.cons.injEq] at e
    obtain ⟨-, rfl⟩ := e
    exact last_suffix (a := r ++ u') (by simpa using hw)
  · exact last_suffix hw

theorem reads_loop {ε : Type} {w : Nat} {s : Str} {t : Option Str} (h : Reads w s t) (fuel : Nat) (P : Str) (hf : blen s < fuel)
    (hw : ∀ c, s.getLast? = some c → w = c.utf8Size) : (unescapeLoop fuel (P ++ s) (blen P) : Res ε Str) = readOut P t := by
  induction h generalizing fuel P with
  | plain ha =>
    obtain ⟨fuel, rfl⟩ : ∃ n, fuel = n + 1 := ⟨fuel - 1, by omega⟩
    exact unescapeLoop_done _ _ _ ha
  | @last a r c ha hr =>
    obtain ⟨fuel, rfl⟩ : ∃ n, fuel = n + 1 := ⟨fuel - 1, by omega⟩
    obtain ⟨b, rfl⟩ := ref_head hr
    obtain ⟨h1, h2⟩ := step_last hr rfl
    rw [unescapeLoop_step _ _ _ _ ha, h1, h2]
    obtain ⟨fuel, rfl⟩ : ∃ n, fuel = n + 1 := ⟨fuel - 1, by simp at hf; have := utf8Size_pos '&'; omega⟩
    rw [unescapeLoop_over _ _ _ (by simp; omega)]
    rfl
  | @go a s u v t ha hs hu hv ih =>
    obtain ⟨fuel, rfl⟩ : ∃ n, fuel = n + 1 := ⟨fuel - 1, by omega⟩
    have hw' := last_suffix hw
    obtain ⟨b, rfl, h1, h2⟩ := step_at hs hw'
    rw [unescapeLoop_step _ _ _ _ ha, h1, h2]
    have hpos : 0 < w := by rw [← h2]; exact jump_pos b
    have hune : u ≠ [] := by rintro rfl; simp at hu; omega
    have hle := blen_after_le b
    rw [h1] at hle
    have := ih fuel (P ++ a ++ u) (by simp at *; omega) (last_at hs hune hw')
    rw [← hu]
    simp only [blen_append, List.append_assoc] at this ⊢
    rw [Nat.add_assoc, this]
    cases t <;> simp [readOut]
  | @cut a s s' ha hs hc =>
    obtain ⟨fuel, rfl⟩ : ∃ n, fuel = n + 1 := ⟨fuel - 1, by omega⟩
    have hw' := last_suffix hw
    obtain ⟨b, rfl, h1, h2⟩ := step_at hs hw'
    rw [unescapeLoop_step _ _ _ _ ha, h1, h2]
    have hpos : 0 < w := by rw [← h2]; exact jump_pos b
    obtain ⟨fuel, rfl⟩ : ∃ n, fuel = n + 1 := ⟨fuel - 1, by simp at hf; have := utf8Size_pos '&'; omega⟩
    have hlt : w < blen s' := by
      have hne : s' ≠ [] := by
        rcases hs with ⟨r, c, rest, -, -, -, rfl⟩ | ⟨-, -, rfl⟩ <;> simp
      have hl : w = lastW 1 s' := by
        symm
        apply lastW_of hne
        rcases hs with ⟨r, c, rest, -, hr, e, rfl⟩ | ⟨-, -, rfl⟩
        · rw [e] at hw'
          have := last_suffix hw'
          intro d hd
          apply this
          rw [show c :: rest = [c] ++ rest from rfl, List.getLast?_append_of_ne_nil _ hr] at hd
          exact hd
        · exact hw'
      have := lastW_le (d := 1) s' hne
      rw [← hl] at this
      rcases Nat.lt_or_ge w (blen s') with h | h
      · exact h
      · exact absurd (by omega) (hc s' [] (by simp))
    rw [unescapeLoop_split _ _ _ (by simp; omega)]
    · rfl
    · rw [show blen P + blen a + w = blen (P ++ a) + w by simp, ← List.append_assoc, dropB_append_add]
      cases hd : dropB w s' with
      | none => rfl
      | some v =>
        obtain ⟨u, rfl, hu⟩ := dropB_eq_some.1 hd
        exact absurd hu (hc u v rfl)

theorem reads_total {w : Nat} (n : Nat) (s : Str) (hn : blen s < n) (hw : ∀ c, s.getLast? = some c → w = c.utf8Size) :
    ∃ t, Reads w s t := by
  induction n generalizing s with
  | zero => omega
  | succ n ih =>
    by_cases hs : '&' ∈ s
    · obtain ⟨a, b, rfl, ha⟩ := mem_split_first hs
      by_cases hl : ∃ c, Ref ('&' :: b) c
      · obtain ⟨c, hl⟩ := hl
        exact ⟨_, .last ha hl⟩
      · have hat : AtAmp ('&' :: b) (after b) := by
          cases hd : decode1 b with
          | none => exact .inr ⟨⟨b, rfl⟩, decode1_none hd, by simp [after, hd]⟩
          | some p =>
            obtain ⟨u, rest, num⟩ := p
            obtain ⟨r, hr, he⟩ := decode1_ref hd
            refine .inl ⟨r, u, rest, hr, ?_, he, by simp [after, hd]⟩
            rintro rfl
            rw [List.append_nil] at he
            exact hl ⟨u, he ▸ hr⟩
        by_cases hc : ∃ u v, after b = u ++ v ∧ blen u = w
        · obtain ⟨u, v, e, hu⟩ := hc
          have hw' := last_suffix hw
          obtain ⟨b', hb', -, h2⟩ := step_at hat hw'
          have hpos : 0 < w := by rw [← h2]; exact jump_pos b'
          have hune : u ≠ [] := by rintro rfl; simp at hu; omega
          have hle := blen_after_le b
          rw [e] at hle hat
          obtain ⟨t, ht⟩ := ih v (by simp at *; omega) (last_at hat hune hw')
          exact ⟨_, .go ha hat hu ht⟩
        · refine ⟨_, .cut ha hat ?_⟩
          intro u v e hu
          exact hc ⟨u, v, e, hu⟩
    · exact ⟨_, .plain hs⟩

theorem unesc_total (s : Str) : ∃ t, Unesc s t := by
  obtain ⟨t, ht⟩ := reads_total (w := lastW 1 s) (blen s + 1) s (by omega) (by
    intro c hc; unfold lastW; rw [hc])
  exact ⟨t, _, by intro c hc; unfold lastW; rw [hc], ht⟩

theorem unesc_out {ε : Type} {s : Str} {t : Option Str} (h : Unesc s t) : (unescape s : Res ε Str) = readOut [] t := by
  obtain ⟨w, hw, h⟩ := h
  simpa [unescape] using reads_loop (ε := ε) h (blen s + 1) [] (by omega) hw

theorem unescape_ok_iff {ε : Type} {s t : Str} : (unescape s : Res ε Str) = .ok t ↔ Unesc s (some t) := by
  constructor
  · intro h
    obtain ⟨t', ht⟩ := unesc_total s
    rw [unesc_out ht] at h
    cases t' with
    | none => simp [readOut] at h
    | some t' => simp [readOut] at h; subst h; exact ht
  · intro h; rw [unesc_out h]; rfl

theorem unescape_panic_iff {ε : Type} {s : Str} : (unescape s : Res ε Str) = .panic ↔ Unesc s none := by
  constructor
  · intro h
    obtain ⟨t', ht⟩ := unesc_total s
    rw [unesc_out ht] at h
    cases t' with
    | none => exact ht
    | some t' => simp [readOut] at h
  · intro h; rw [unesc_out h]; rfl

theorem unesc_unique {s : Str} {t t' : Option Str} (h : Unesc s t) (h' : Unesc s t') : t = t' := by
  have h1 := unesc_out (ε := Unit) h
  have h2 := unesc_out (ε := Unit) h'
  rw [h1] at h2
  cases t <;> cases t' <;> simp [readOut] at h2 ⊢
  exact h2

/-! ## texts that are decoded -/

theorem spaced_suffix {w : Nat} {a b : Str} (h : Spaced w (a ++ b)) : Spaced w b := by
  intro a' b1 b' e hb
  exact h (a ++ a') b1 b' (by rw [e, List.append_assoc]) hb

theorem decodes_at {b b' : Str} {c : Char} {u v t : Str} (h : AtAmp b b') (e : b' = c :: u ++ v) (hu : '&' ∉ u) (hv : Decodes v t) :
    Decodes b (c :: u ++ t) := by
  have hd : Decodes (u ++ v) (u ++ t) := decodes_append_noamp hu hv
  rcases h with ⟨r, c', rest, hr, hne, rfl, rfl⟩ | ⟨⟨b, rfl⟩, hn, rfl⟩
  · simp only [List.cons_append, List.cons.injEq] at e
    obtain ⟨rfl, rfl⟩ := e
    exact .ref hr hd
  · simp only [List.cons_append, List.nil_append, List.cons.injEq] at e
    obtain ⟨rfl, rfl⟩ := e
    exact .amp hn hd

theorem reads_spaced {w : Nat} (n : Nat) (s : Str) (hn : s.length < n) (h : Spaced w s) : ∃ t, Decodes s t ∧ Reads w s (some t) := by
  induction n generalizing s with
  | zero => omega
  | succ n ih =>
    by_cases hs : '&' ∈ s
    · obtain ⟨a, b, rfl, ha⟩ := mem_split_first hs
      by_cases hl : ∃ c, Ref ('&' :: b) c
      · obtain ⟨c, hl⟩ := hl
        refine ⟨_, ?_, .last ha hl⟩
        have := Decodes.ref hl .nil
        rw [List.append_nil] at this
        exact decodes_append_noamp ha this
      · have hat : ∃ b', AtAmp ('&' :: b) b' := by
          cases hd : decode1 b with
          | none => exact ⟨_, .inr ⟨⟨b, rfl⟩, decode1_none hd, rfl⟩⟩
          | some p =>
            obtain ⟨u, rest, num⟩ := p
            obtain ⟨r, hr, he⟩ := decode1_ref hd
            refine ⟨_, .inl ⟨r, u, rest, hr, ?_, he, rfl⟩⟩
            rintro rfl
            rw [List.append_nil] at he
            exact hl ⟨u, he ▸ hr⟩
        obtain ⟨b', hat⟩ := hat
        obtain ⟨c, u, v, rfl, hw, hu⟩ := h a _ _ rfl hat
        have hv : ∃ x, '&' :: b = x ++ v ∧ x ≠ [] := by
          rcases hat with ⟨r, c', rest, hr, hne, e1, e2⟩ | ⟨-, hn, e⟩
          · simp only [List.cons_append, List.cons.injEq] at e2
            refine ⟨r ++ u, by rw [e1, ← e2.2, List.append_assoc], ?_⟩
            obtain ⟨x, rfl⟩ := ref_head hr
            simp
          · exact ⟨c :: u, e.symm, by simp⟩
        obtain ⟨x, hx, hxn⟩ := hv
        have hxl : 0 < x.length := List.length_pos_iff.2 hxn
        obtain ⟨t, ht, hr⟩ := ih v (by rw [hx] at hn; simp at hn; omega) (by
          rw [hx, ← List.append_assoc] at h
          exact spaced_suffix h)
        refine ⟨a ++ (c :: u ++ t), decodes_append_noamp ha (decodes_at hat rfl hu ht), ?_⟩
        have := Reads.go (u := c :: u) ha hat hw hr
        simpa using this
    · exact ⟨s, decodes_noamp hs, .plain hs⟩

theorem legible_spaced {w : Nat} {s : Str} (hw : ∀ c, s.getLast? = some c → w = c.utf8Size) (h : Spaced w s) : Legible s := by
  intro t ht
  obtain ⟨t', h1, h2⟩ := reads_spaced (s.length + 1) s (by omega) h
  rw [decodes_unique ht h1]
  exact ⟨w, hw, h2⟩

theorem legible_noamp {s : Str} (h : '&' ∉ s) : Legible s := by
  intro t ht
  rw [decodes_unique ht (decodes_noamp h)]
  exact ⟨lastW 1 s, by intro c hc; unfold lastW; rw [hc], .plain h⟩

theorem legible_of {s t : Str} (h : (unescape s : R Str) = .ok t) (hd : Decodes s t) : Legible s := by
  intro t' ht
  rw [decodes_unique ht hd]
  exact unescape_ok_iff.1 h

end KissXml
