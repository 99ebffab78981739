import Verif.Model.Cost
import Verif.Proofs.Unescape
import Verif.Proofs.Machine
/-!
# Lemmas for the counted loops
-/
namespace KissXml

/-! ## `unescape` -/

theorem unescapeInnerC_same (i : Nat) (slice : Str) (j : Nat) (rest buf : Str) (cs : Nat) :
    (unescapeInnerC i slice j rest buf cs).1 = unescapeInner i slice j rest buf cs := by
  induction rest generalizing j buf cs with
  | nil => rfl
  | cons k rest ih =>
    unfold unescapeInnerC unescapeInner
    simp only
    split
    · split
      · rename_i h; simp [h]
      · rename_i h
        split
        · rename_i h'; simp [h, h']
        · rename_i h'; simp [h, h', ih]
    · exact ih _ _ _

theorem unescapeInnerC_count (i : Nat) (slice : Str) (j : Nat) (rest buf : Str) (cs : Nat)
    (h : unescapeInner i slice j rest buf cs ≠ none) : (unescapeInnerC i slice j rest buf cs).2 = rest.length := by
  induction rest generalizing j buf cs with
  | nil => rfl
  | cons k rest ih =>
    unfold unescapeInner at h
    unfold unescapeInnerC
    simp only at h ⊢
    split at h
    · rename_i hk
      rw [if_pos hk]
      split at h
      · exact absurd rfl h
      · rename_i h1
        split at h
        · exact absurd rfl h
        · rename_i h2
          simp only [h1, h2]
          rw [ih _ _ _ h]; rfl
    · rename_i hk
      rw [if_neg hk]
      simp only
      rw [ih _ _ _ h]; rfl

theorem unescapeLoopC_same {ε : Type} (fuel : Nat) (B : Str) (n : Nat) :
    (unescapeLoopC fuel B n : Res ε Str × Nat).1 = unescapeLoop fuel B n := by
  induction fuel generalizing B n with
  | zero => rfl
  | succ fuel ih =>
    unfold unescapeLoopC unescapeLoop
    split
    · rfl
    · rcases dropB n B with _ | tail
      · rfl
      · simp only
        rcases find c%"&" tail with _ | i0
        · rfl
        · simp only
          rcases dropB (i0 + n) B with _ | slice
          · rfl
          · simp only
            rw [← unescapeInnerC_same]
            rcases unescapeInnerC (i0 + n) slice 0 slice B 1 with ⟨_ | ⟨b, c⟩, m⟩
            · rfl
            · exact ih _ _

/-- one round -/
theorem unescapeLoopC_step {ε : Type} (fuel : Nat) (P a b : Str) (ha : '&' ∉ a) :
    (unescapeLoopC (fuel + 1) (P ++ (a ++ '&' :: b)) (blen P) : Res ε Str × Nat).2 =
      (unescapeLoopC fuel (P ++ (a ++ after b)) (blen P + blen a + jump b) : Res ε Str × Nat).2 + (b.length + 1) := by
  have key : unescapeInner (blen (P ++ a)) ('&' :: b) 0 ('&' :: b) ((P ++ a) ++ '&' :: b) 1 = some (P ++ (a ++ after b), jump b) := by
    unfold after jump decode1
    cases hs : splitSemi b with
    | none =>
      have hn : ';' ∉ b := splitOnce_eq_none.1 hs
      rw [unescapeInner_none _ _ _ _ _ _ (by simp [hn])]
      simp; rfl
    | some p =>
      obtain ⟨m, r2⟩ := p
      obtain ⟨rfl, hm⟩ := splitOnce_eq_some.1 hs
      have := unescapeInner_first (P ++ a) [] ('&' :: m) r2 1 (by simp [hm])
      simp only [List.nil_append, List.cons_append, blen_nil] at this
      rw [this]
      cases hr : refChar ('&' :: m) with
      | none =>
        simp [hr]
        rw [lastW_append m (by simp)]
        simp
        rfl
      | some u => simp [hr]
  conv_lhs => unfold unescapeLoopC
  have h0 : ¬ blen P ≥ blen (P ++ (a ++ '&' :: b)) := by
    have := utf8Size_pos '&'
    simp; omega
  have hf : find c%"&" (a ++ '&' :: b) = some (blen a) := find_single.2 ⟨a, b, rfl, rfl, ha⟩
  have hd : dropB (blen a + blen P) (P ++ (a ++ '&' :: b)) = some ('&' :: b) :=
    dropB_eq_some.2 ⟨P ++ a, by simp, by simp [Nat.add_comm]⟩
  simp only [h0, if_false, dropB_append, hf, hd]
  have hi : blen a + blen P = blen (P ++ a) := by simp [Nat.add_comm]
  have hbuf : P ++ (a ++ '&' :: b) = (P ++ a) ++ ('&' :: b) := by simp
  rw [hi, hbuf]
  have h1 := unescapeInnerC_same (blen (P ++ a)) ('&' :: b) 0 ('&' :: b) ((P ++ a) ++ '&' :: b) 1
  have h2 := unescapeInnerC_count (blen (P ++ a)) ('&' :: b) 0 ('&' :: b) ((P ++ a) ++ '&' :: b) 1 (by rw [key]; simp)
  rw [key] at h1
  revert h1 h2
  rcases unescapeInnerC (blen (P ++ a)) ('&' :: b) 0 ('&' :: b) ((P ++ a) ++ '&' :: b) 1 with ⟨r, m⟩
  rintro rfl rfl
  simp only [blen_append]
  rfl

theorem unescapeLoopC_idle {ε : Type} (fuel : Nat) (P a : Str) (ha : '&' ∉ a) :
    (unescapeLoopC fuel (P ++ a) (blen P) : Res ε Str × Nat).2 = 0 := by
  cases fuel with
  | zero => rfl
  | succ fuel =>
    unfold unescapeLoopC
    split
    · rfl
    · simp only [dropB_append, find_single_none.2 ha]

theorem unescapeLoopC_out {ε : Type} (fuel : Nat) (B : Str) (n : Nat) (h : dropB n B = none) :
    (unescapeLoopC fuel B n : Res ε Str × Nat).2 = 0 := by
  cases fuel with
  | zero => rfl
  | succ fuel =>
    unfold unescapeLoopC
    split
    · rfl
    · rw [h]

theorem length_after_le (b : Str) : (after b).length ≤ b.length + 1 ∧ (∃ u r, after b = u :: r ∧ r <:+ b) := by
  unfold after
  split
  · exact ⟨by simp, '&', b, rfl, List.suffix_refl _⟩
  · rename_i u rest num h
    obtain ⟨m, rfl, -, hr, -⟩ := decode1_some h
    refine ⟨?_, u, rest, rfl, m ++ [';'], by simp⟩
    simp; omega

theorem split_past {P a s : Str} {u : Char} {r : Str} {n : Nat} (hn : 0 < n) (e : P ++ (a ++ u :: r) = s ++ t)
    (hs : blen s = blen P + blen a + n) : t <:+ r := by
  have e' : (P ++ a) ++ (u :: r) = s ++ t := by rw [← e]; simp
  rcases List.append_eq_append_iff.1 e' with ⟨c, rfl, hc⟩ | ⟨c, hc, rfl⟩
  · cases c with
    | nil => simp at hs; omega
    | cons x c =>
      obtain ⟨rfl, h⟩ := List.cons.inj hc
      exact ⟨c, h.symm⟩
  · have : blen (P ++ a) = blen s + blen c := by rw [hc]; simp
    simp at this
    omega

/-- what one round leaves -/
theorem unescapeLoopC_next {ε : Type} (fuel : Nat) (P a b : Str) :
    ∃ P' S', S' <:+ b ∧ (unescapeLoopC fuel (P ++ (a ++ after b)) (blen P + blen a + jump b) : Res ε Str × Nat).2 =
        (unescapeLoopC fuel (P' ++ S') (blen P') : Res ε Str × Nat).2 := by
  obtain ⟨-, u, r, he, hr⟩ := length_after_le b
  cases hd : dropB (blen P + blen a + jump b) (P ++ (a ++ after b)) with
  | none =>
    refine ⟨[], [], List.nil_suffix, ?_⟩
    rw [unescapeLoopC_out _ _ _ hd]
    exact (unescapeLoopC_idle fuel [] [] (by simp)).symm
  | some t =>
    obtain ⟨s, e, hs⟩ := dropB_eq_some.1 hd
    refine ⟨s, t, ?_, by rw [e, hs]⟩
    rw [he] at e
    exact (split_past (jump_pos b) e hs).trans hr

theorem unescapeLoopC_le {ε : Type} (fuel : Nat) (P S : Str) :
    2 * (unescapeLoopC fuel (P ++ S) (blen P) : Res ε Str × Nat).2 ≤ S.length * (S.length + 1) ∧
    (unescapeLoopC fuel (P ++ S) (blen P) : Res ε Str × Nat).2 ≤ S.count '&' * S.length := by
  induction fuel generalizing P S with
  | zero => exact ⟨by simp [unescapeLoopC], by simp [unescapeLoopC]⟩
  | succ fuel ih =>
    by_cases hs : '&' ∈ S
    · obtain ⟨a, b, rfl, ha⟩ := mem_split_first hs
      rw [unescapeLoopC_step _ _ _ _ ha]
      obtain ⟨P', S', hsuf, e⟩ := unescapeLoopC_next (ε := ε) fuel P a b
      rw [e]
      obtain ⟨h1, h2⟩ := ih P' S'
      have hl := hsuf.length_le
      have hc : S'.count '&' ≤ b.count '&' := hsuf.sublist.count_le _
      have hca : a.count '&' = 0 := List.count_eq_zero.2 ha
      generalize (unescapeLoopC fuel (P' ++ S') (blen P') : Res ε Str × Nat).2 = w at *
      simp only [List.length_append, List.length_cons, List.count_append, List.count_cons_self, hca]
      generalize S'.length = l' at *
      generalize S'.count '&' = k' at *
      generalize b.length = l at *
      generalize b.count '&' = k at *
      generalize a.length = m
      constructor
      · have h3 : l' * (l' + 1) ≤ l * (l + 1) := Nat.mul_le_mul hl (by omega)
        have h4 : (l + 1) * (l + 1 + 1) ≤ (m + (l + 1)) * (m + (l + 1) + 1) := Nat.mul_le_mul (by omega) (by omega)
        have h5 : (l + 1) * (l + 1 + 1) = l * (l + 1) + 2 * (l + 1) := by
          rw [show l + 1 + 1 = l + 2 from rfl, Nat.mul_add, Nat.mul_comm (l + 1) l, Nat.mul_comm (l + 1) 2]
        omega
      · have h3 : k' * l' ≤ k * (m + (l + 1)) := Nat.mul_le_mul hc (by omega)
        have h4 : (0 + (k + 1)) * (m + (l + 1)) = k * (m + (l + 1)) + (m + (l + 1)) := by
          rw [Nat.zero_add, Nat.add_mul, Nat.one_mul]
        omega
    · rw [unescapeLoopC_idle _ _ _ hs]
      simp

/-- a text of `&` only -/
theorem unescapeLoopC_amps {ε : Type} (n fuel : Nat) (P : Str) (h : n ≤ fuel) :
    2 * (unescapeLoopC fuel (P ++ List.replicate n '&') (blen P) : Res ε Str × Nat).2 = n * (n + 1) := by
  induction n generalizing fuel P with
  | zero => simp only [List.replicate_zero]; rw [unescapeLoopC_idle _ _ _ (by simp)]
  | succ n ih =>
    obtain ⟨fuel, rfl⟩ : ∃ m, fuel = m + 1 := ⟨fuel - 1, by omega⟩
    have := unescapeLoopC_step (ε := ε) fuel P [] (List.replicate n '&') (by simp)
    simp only [List.nil_append, ← List.replicate_succ] at this
    rw [this]
    have hd : decode1 (List.replicate n '&') = none := by
      have : splitSemi (List.replicate n '&') = none := splitOnce_eq_none.2 (by simp [List.mem_replicate])
      unfold decode1
      rw [this]; rfl
    have ha : after (List.replicate n '&') = '&' :: List.replicate n '&' := by unfold after; rw [hd]
    have hj : jump (List.replicate n '&') = 1 := by
      unfold jump; rw [hd]
      cases n with
      | zero => rfl
      | succ n => simp only [lastW, List.getLast?_replicate]; rfl
    rw [ha, hj]
    have e : blen P + blen [] + 1 = blen (P ++ ['&']) := by simp only [blen_append]; rfl
    have e2 : P ++ '&' :: List.replicate n '&' = (P ++ ['&']) ++ List.replicate n '&' := by simp
    rw [e, e2]
    have := ih fuel (P ++ ['&']) (by omega)
    simp only [List.length_replicate]
    have h5 : (n + 1) * (n + 1 + 1) = n * (n + 1) + 2 * (n + 1) := by
      rw [show n + 1 + 1 = n + 2 from rfl, Nat.mul_add, Nat.mul_comm (n + 1) n, Nat.mul_comm (n + 1) 2]
    omega

/-- a text of `n` times `&amp;` -/
def ampRefs : Nat → Str
  | 0 => []
  | n + 1 => c%"&amp;" ++ ampRefs n

theorem ampRefs_length (n : Nat) : (ampRefs n).length = 5 * n := by
  induction n with
  | zero => rfl
  | succ n ih => simp [ampRefs, ih]; omega

theorem ampRefs_last (n : Nat) : lastW 1 (ampRefs n) = 1 := by
  induction n with
  | zero => rfl
  | succ n ih =>
    simp only [ampRefs, List.cons_append, List.nil_append, lastW_cons]
    exact ih

theorem unescapeLoopC_ampRefs {ε : Type} (n fuel : Nat) (P : Str) (h : n ≤ fuel) :
    2 * (unescapeLoopC fuel (P ++ ampRefs n) (blen P) : Res ε Str × Nat).2 = 5 * n * (n + 1) := by
  induction n generalizing fuel P with
  | zero => simp only [ampRefs]; rw [unescapeLoopC_idle _ _ _ (by simp)]
  | succ n ih =>
    obtain ⟨fuel, rfl⟩ : ∃ m, fuel = m + 1 := ⟨fuel - 1, by omega⟩
    have := unescapeLoopC_step (ε := ε) fuel P [] (c%"amp;" ++ ampRefs n) (by simp)
    have hd : decode1 (c%"amp;" ++ ampRefs n) = some ('&', ampRefs n, false) :=
      decode1_of (m := c%"amp") (rest := ampRefs n) (by decide) (by decide)
    have ha : after (c%"amp;" ++ ampRefs n) = '&' :: ampRefs n := by unfold after; rw [hd]
    have hj : jump (c%"amp;" ++ ampRefs n) = 1 := by
      unfold jump; rw [hd]; exact ampRefs_last n
    rw [ha, hj] at this
    have e : blen P + blen [] + 1 = blen (P ++ ['&']) := by simp only [blen_append]; rfl
    have e2 : P ++ ([] ++ '&' :: ampRefs n) = (P ++ ['&']) ++ ampRefs n := by simp
    rw [e, e2] at this
    have e3 : P ++ ampRefs (n + 1) = P ++ ([] ++ '&' :: (c%"amp;" ++ ampRefs n)) := rfl
    rw [e3, this]
    have := ih fuel (P ++ ['&']) (by omega)
    simp only [List.length_append, ampRefs_length]
    have h5 : 5 * (n + 1) * (n + 1 + 1) = 5 * n * (n + 1) + 10 * (n + 1) := by
      rw [Nat.mul_assoc, Nat.mul_assoc, show n + 1 + 1 = n + 2 from rfl, Nat.mul_add, Nat.mul_comm (n + 1) n, Nat.mul_comm (n + 1) 2]
      omega
    rw [h5]
    have h6 : c%"amp;".length = 4 := rfl
    omega

/-! ## `next_tag` -/

theorem findC_same (pat s : Str) : (findC pat s).1 = find pat s := by
  induction s with
  | nil => rfl
  | cons c s ih => unfold findC find; split <;> simp [ih]

theorem findC_le (pat s : Str) : (findC pat s).2 ≤ blen s ∧ ∀ i, find pat s = some i → (findC pat s).2 ≤ i + 1 := by
  induction s with
  | nil => exact ⟨by simp [findC], by simp [findC]⟩
  | cons c s ih =>
    have := utf8Size_pos c
    unfold findC find
    split
    · exact ⟨by simp; omega, by simp⟩
    · refine ⟨by simp; omega, ?_⟩
      intro i hi
      cases hf : find pat s with
      | none => simp [hf] at hi
      | some j =>
        have h2 := ih.2 j hf
        simp [hf] at hi
        simp only
        omega

theorem qafLoopC_same (pat : Str) (i : Nat) (q : Option Char) (s : Str) : (qafLoopC pat i q s).1 = qafLoop pat i q s := by
  induction s generalizing i q with
  | nil => cases q <;> rfl
  | cons c s ih =>
    cases q with
    | some q => unfold qafLoopC qafLoop; simp only; split <;> exact ih _ _
    | none =>
      unfold qafLoopC qafLoop; simp only
      split
      · exact ih _ _
      · split
        · exact ih _ _
        · split
          · rfl
          · exact ih _ _

theorem qafLoopC_le (pat : Str) (i : Nat) (q : Option Char) (s : Str) :
    (qafLoopC pat i q s).2 ≤ blen s ∧ ∀ j, qafLoop pat i q s = some j → i + (qafLoopC pat i q s).2 ≤ j + 1 := by
  induction s generalizing i q with
  | nil => cases q <;> exact ⟨by simp [qafLoopC], by simp [qafLoop]⟩
  | cons c s ih =>
    have := utf8Size_pos c
    have step : ∀ q', (qafLoopC pat (i + c.utf8Size) q' s).2 + 1 ≤ blen (c :: s) ∧
        ∀ j, qafLoop pat (i + c.utf8Size) q' s = some j → i + ((qafLoopC pat (i + c.utf8Size) q' s).2 + 1) ≤ j + 1 := by
      intro q'
      obtain ⟨h1, h2⟩ := ih (i + c.utf8Size) q'
      refine ⟨by simp; omega, fun j hj => ?_⟩
      have := h2 j hj
      omega
    cases q with
    | some q =>
      unfold qafLoopC qafLoop; simp only
      split <;> exact step _
    | none =>
      unfold qafLoopC qafLoop; simp only
      split
      · exact step _
      · split
        · exact step _
        · split
          · exact ⟨by simp; omega, by simp⟩
          · exact step _

theorem nestedLoopC_same (i d : Nat) (q : Option Char) (s : Str) : (nestedLoopC i d q s).1 = nestedLoop i d q s := by
  induction s generalizing i d q with
  | nil => cases q <;> rfl
  | cons c s ih =>
    cases q with
    | some q => unfold nestedLoopC nestedLoop; simp only; split <;> exact ih _ _ _
    | none =>
      unfold nestedLoopC nestedLoop; simp only
      split
      · exact ih _ _ _
      · split
        · exact ih _ _ _
        · split
          · exact ih _ _ _
          · split
            · cases d with
              | zero => rfl
              | succ d => exact ih _ _ _
            · exact ih _ _ _

theorem nestedLoopC_le (i d : Nat) (q : Option Char) (s : Str) :
    (nestedLoopC i d q s).2 ≤ blen s ∧ ∀ j, nestedLoop i d q s = some j → i + (nestedLoopC i d q s).2 ≤ j + 1 := by
  induction s generalizing i d q with
  | nil => cases q <;> exact ⟨by simp [nestedLoopC], by simp [nestedLoop]⟩
  | cons c s ih =>
    have := utf8Size_pos c
    have step : ∀ d' q', (nestedLoopC (i + c.utf8Size) d' q' s).2 + 1 ≤ blen (c :: s) ∧
        ∀ j, nestedLoop (i + c.utf8Size) d' q' s = some j → i + ((nestedLoopC (i + c.utf8Size) d' q' s).2 + 1) ≤ j + 1 := by
      intro d' q'
      obtain ⟨h1, h2⟩ := ih (i + c.utf8Size) d' q'
      refine ⟨by simp; omega, fun j hj => ?_⟩
      have := h2 j hj
      omega
    cases q with
    | some q =>
      unfold nestedLoopC nestedLoop; simp only
      split <;> exact step _ _
    | none =>
      unfold nestedLoopC nestedLoop; simp only
      split
      · exact step _ _
      · split
        · exact step _ _
        · split
          · exact step _ _
          · split
            · cases d with
              | zero => exact ⟨by simp; omega, by simp⟩
              | succ d => exact step _ _
            · exact step _ _

theorem nextTagC_same (x : Str) (n : Nat) : (nextTagC x n).map (·.1) = nextTag x n := by
  unfold nextTagC nextTag
  rcases dropB n x with _ | tail
  · rfl
  · simp only [Option.bind_some]
    rw [← findC_same]
    rcases findC c%"<" tail with ⟨_ | i, m⟩
    · rfl
    · simp only
      rcases dropB (i + n) x with _ | sub
      · rfl
      · simp only [Option.bind_some]
        split
        · simp [findC_same]
        · split
          · unfold quoteAwareFindC quoteAwareFind
            rcases dropB 2 sub with _ | y
            · rfl
            · simp [qafLoopC_same]
          · split
            · simp [findC_same]
            · split
              · unfold nestedQuoteAwareFindCloseC nestedQuoteAwareFindClose
                rcases dropB 2 sub with _ | y
                · rfl
                · simp [nestedLoopC_same]
              · unfold quoteAwareFindC quoteAwareFind
                rcases dropB 1 sub with _ | y
                · rfl
                · simp [qafLoopC_same]

theorem nextTagC_le {x : Str} {n m : Nat} {st en : Option Nat} (h : nextTagC x n = some ((st, en), m)) :
    n + m ≤ blen x + 1 ∧ ∀ e, en = some e → n + m ≤ e := by
  unfold nextTagC at h
  cases hd : dropB n x with
  | none => simp [hd] at h
  | some tail =>
    have hx := dropB_length hd
    simp only [hd, Option.bind_some] at h
    obtain ⟨f1, f2⟩ := findC_le c%"<" tail
    rw [← findC_same] at f2
    revert h f1 f2
    rcases findC c%"<" tail with ⟨_ | i, k⟩
    · intro h f1 _
      simp only [Option.some.injEq, Prod.mk.injEq] at h f1
      obtain ⟨⟨rfl, rfl⟩, rfl⟩ := h
      exact ⟨by omega, by simp⟩
    · intro h _ f2
      have f2 : k ≤ i + 1 := f2 i rfl
      simp only at h
      cases hs : dropB (i + n) x with
      | none => simp [hs] at h
      | some sub =>
        have hy := dropB_length hs
        simp only [hs, Option.bind_some] at h
        have viaFind : ∀ pat : Str, some ((some (i + n), (findC pat sub).1.map (· + (i + n) + 3)), k + (findC pat sub).2) = some ((st, en), m) →
            n + m ≤ blen x + 1 ∧ ∀ e, en = some e → n + m ≤ e := by
          intro pat h
          obtain ⟨g1, g2⟩ := findC_le pat sub
          rw [findC_same] at h
          simp only [Option.some.injEq, Prod.mk.injEq] at h
          obtain ⟨⟨rfl, rfl⟩, rfl⟩ := h
          refine ⟨by omega, ?_⟩
          intro e he
          cases hf : find pat sub with
          | none => simp [hf] at he
          | some j =>
            have := g2 j hf
            simp [hf] at he
            omega
        have viaQ : ∀ (pat : Str) (o w : Nat), 1 ≤ o → 1 ≤ w → (quoteAwareFindC sub pat o).map
              (fun r => ((some (i + n), r.1.map (· + (i + n) + w)), k + r.2)) = some ((st, en), m) →
            n + m ≤ blen x + 1 ∧ ∀ e, en = some e → n + m ≤ e := by
          intro pat o w ho hw h
          unfold quoteAwareFindC at h
          cases hz : dropB o sub with
          | none => simp [hz] at h
          | some y =>
            have hz' := dropB_length hz
            obtain ⟨g1, g2⟩ := qafLoopC_le pat o none y
            simp only [hz, Option.map_some, qafLoopC_same, Option.some.injEq, Prod.mk.injEq] at h
            obtain ⟨⟨rfl, rfl⟩, rfl⟩ := h
            refine ⟨by omega, ?_⟩
            intro e he
            cases hf : qafLoop pat o none y with
            | none => simp [hf] at he
            | some j =>
              have := g2 j hf
              simp [hf] at he
              omega
        have viaN : (nestedQuoteAwareFindCloseC sub 2).map
              (fun r => ((some (i + n), r.1.map (· + (i + n) + 1)), k + r.2)) = some ((st, en), m) →
            n + m ≤ blen x + 1 ∧ ∀ e, en = some e → n + m ≤ e := by
          intro h
          unfold nestedQuoteAwareFindCloseC at h
          cases hz : dropB 2 sub with
          | none => simp [hz] at h
          | some y =>
            have hz' := dropB_length hz
            obtain ⟨g1, g2⟩ := nestedLoopC_le 2 0 none y
            simp only [hz, Option.map_some, nestedLoopC_same, Option.some.injEq, Prod.mk.injEq] at h
            obtain ⟨⟨rfl, rfl⟩, rfl⟩ := h
            refine ⟨by omega, ?_⟩
            intro e he
            cases hf : nestedLoop 2 0 none y with
            | none => simp [hf] at he
            | some j =>
              have := g2 j hf
              simp [hf] at he
              omega
        split at h
        · exact viaFind _ h
        · split at h
          · exact viaQ _ 2 2 (by omega) (by omega) h
          · split at h
            · exact viaFind _ h
            · split at h
              · exact viaN h
              · exact viaQ _ 1 1 (by omega) (by omega) h

theorem nextTagC_end {x : Str} {n m e : Nat} {st : Option Nat} (h : nextTagC x n = some ((st, some e), m)) : e ≤ blen x := by
  have h1 : nextTag x n = some (st, some e) := by rw [← nextTagC_same, h]; rfl
  cases st with
  | none =>
    unfold nextTag at h1
    rcases hd : dropB n x with _ | tail
    · simp [hd] at h1
    · simp only [hd, Option.bind_some] at h1
      rcases hf : find c%"<" tail with _ | i
      · simp [hf] at h1
      · simp only [hf] at h1
        rcases hs : dropB (i + n) x with _ | sub
        · simp [hs] at h1
        · simp only [hs, Option.bind_some] at h1
          have no : ∀ {o : Option (Option Nat)} {f : Nat → Nat}, o.map (fun r => (some (i + n), r.map f)) ≠ some (none, some e) := by
            intro o f
            cases o <;> simp
          split at h1
          · simp at h1
          · split at h1
            · exact absurd h1 no
            · split at h1
              · simp at h1
              · split at h1
                · exact absurd h1 no
                · exact absurd h1 no
  | some s =>
    exact (nextTag_bounds h1).2.2 e rfl |>.2

theorem tagsC_le (k : Nat) (x : Str) (n : Nat) (h : n ≤ blen x) : n + tagsC k x n ≤ blen x + 1 := by
  induction k generalizing n with
  | zero => simp [tagsC]; omega
  | succ k ih =>
    unfold tagsC
    split
    · omega
    · rename_i hh
      exact (nextTagC_le hh).1
    · rename_i e m hh
      have h1 := (nextTagC_le hh).2 e rfl
      have h2 := nextTagC_end hh
      have := ih e h2
      omega

end KissXml
