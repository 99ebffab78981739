import Verif.Model.DigitCost
import Verif.Proofs.Cost
/-!
# Lemmas for the digits read by `unescape`
-/
namespace KissXml

theorem hexLoopD_same (acc : Nat) (s : Str) : (hexLoopD acc s).1 = hexLoop acc s := by
  induction s generalizing acc with
  | nil => rfl
  | cons c s ih =>
    unfold hexLoopD hexLoop
    cases hexDigit c with
    | none => rfl
    | some d =>
      simp only
      split
      · exact ih _
      · rfl

theorem parseHexU32D_same (s : Str) : (parseHexU32D s).1 = parseHexU32 s := by
  unfold parseHexU32D parseHexU32
  cases s with
  | nil => rfl
  | cons c s =>
    simp only
    split
    · split
      · rfl
      · exact hexLoopD_same _ _
    · exact hexLoopD_same _ _

theorem unescapeAtD_same (buffer : Str) (cs a b : Nat) (sl : Str) : (unescapeAtD buffer cs a b sl).1 = unescapeAt buffer cs a b sl := by
  unfold unescapeAtD unescapeAt
  split
  · rfl
  split
  · rfl
  split
  · rfl
  split
  · rfl
  split
  · rfl
  split
  · cases dropB 2 sl with
    | none => rfl
    | some digits =>
      dsimp only
      rw [← parseHexU32D_same]
      rcases parseHexU32D digits with ⟨_ | cp, n⟩
      · rfl
      · dsimp only
        cases charFromU32 cp <;> rfl
  · rfl

theorem unescapeInnerD_same (i : Nat) (slice : Str) (j : Nat) (rest buf : Str) (cs : Nat) :
    (unescapeInnerD i slice j rest buf cs).1 = unescapeInner i slice j rest buf cs := by
  induction rest generalizing j buf cs with
  | nil => rfl
  | cons k rest ih =>
    unfold unescapeInnerD unescapeInner
    simp only
    split
    · cases takeB j slice with
      | none => rfl
      | some sl =>
        simp only
        rw [← unescapeAtD_same]
        rcases unescapeAtD buf k.utf8Size i (i + j + 1) sl with ⟨_ | ⟨b, c⟩, n⟩
        · rfl
        · exact ih _ _ _
    · exact ih _ _ _

theorem unescapeLoopD_same {ε : Type} (fuel : Nat) (B : Str) (n : Nat) :
    (unescapeLoopD fuel B n : Res ε Str × Nat).1 = unescapeLoop fuel B n := by
  induction fuel generalizing B n with
  | zero => rfl
  | succ fuel ih =>
    unfold unescapeLoopD unescapeLoop
    split
    · rfl
    · rcases dropB n B with _ | tail
      · rfl
      · simp only
        rcases find c%"&" tail with _ | i0
        · rfl
        · simp only
          rcases dropB (i0 + n) B with _ | slice
          · rfl
          · simp only
            rw [← unescapeInnerD_same]
            rcases unescapeInnerD (i0 + n) slice 0 slice B 1 with ⟨_ | ⟨b, c⟩, m⟩
            · rfl
            · exact ih _ _

/-! ## how many at one semicolon -/

/-- characters of numbers -/
def numChar (c : Char) : Bool := c = '+' || (hexDigit c).isSome

theorem hexLoopD_le (acc : Nat) (s t : Str) : (hexLoopD acc s).2 ≤ ((s ++ t).takeWhile numChar).length + 1 := by
  induction s generalizing acc with
  | nil => simp [hexLoopD]
  | cons c s ih =>
    unfold hexLoopD
    cases h : hexDigit c with
    | none => simp
    | some d =>
      have hc : numChar c = true := by simp [numChar, h]
      simp only
      split
      · have := ih (acc * 16 + d)
        rw [List.cons_append, List.takeWhile_cons_of_pos hc, List.length_cons]
        simp only
        omega
      · simp

theorem parseHexU32D_le (s t : Str) : (parseHexU32D s).2 ≤ ((s ++ t).takeWhile numChar).length + 1 := by
  unfold parseHexU32D
  cases s with
  | nil => simp
  | cons c s =>
    simp only
    split
    · rename_i hc
      split
      · simp
      · have := hexLoopD_le 0 s t
        rw [List.cons_append, List.takeWhile_cons_of_pos (by simp [numChar, hc]), List.length_cons]
        omega
    · exact hexLoopD_le 0 (c :: s) t

/-- the number sign and the characters of a number behind it -/
def numWidth : Str → Nat
  | '#' :: r => (r.takeWhile numChar).length + 1
  | _ => 0

theorem unescapeAtD_le (buf : Str) (cs a b : Nat) {sl t s : Str} (h : sl ++ t = '&' :: s) : (unescapeAtD buf cs a b sl).2 ≤ numWidth s := by
  unfold unescapeAtD
  split
  · exact Nat.zero_le _
  split
  · exact Nat.zero_le _
  split
  · exact Nat.zero_le _
  split
  · exact Nat.zero_le _
  split
  · exact Nat.zero_le _
  split
  · rename_i h'
    obtain ⟨r, rfl⟩ := startsWith_iff.1 h'
    rw [drop2_of_startsWith h']
    have hs : s = '#' :: (r ++ t) := by simpa using h.symm
    have := parseHexU32D_le r t
    have hw : numWidth s = ((r ++ t).takeWhile numChar).length + 1 := by rw [hs]; rfl
    rw [hw]
    show (match parseHexU32D r with
      | (none, n) => (some (buf, cs), n)
      | (some cp, n) =>
        match charFromU32 cp with
        | none => (some (buf, cs), n)
        | some u => ((stringInsert buf a b [u]).map (·, u.utf8Size), n)).2 ≤ _
    revert this
    rcases parseHexU32D r with ⟨_ | cp, n⟩
    · exact id
    · dsimp only
      cases charFromU32 cp <;> exact id
  · exact Nat.zero_le _

theorem unescapeInnerD_le (i : Nat) (s : Str) (pre rest buf : Str) (cs : Nat) (h : pre ++ rest = '&' :: s) :
    (unescapeInnerD i ('&' :: s) (blen pre) rest buf cs).2 ≤ rest.count ';' * numWidth s := by
  induction rest generalizing pre buf cs with
  | nil => simp [unescapeInnerD]
  | cons k rest ih =>
    have hb : blen pre + k.utf8Size = blen (pre ++ [k]) := by simp
    unfold unescapeInnerD
    simp only
    split
    · rename_i hk
      subst hk
      have ht : takeB (blen pre) ('&' :: s) = some pre := by rw [← h]; exact takeB_append ..
      rw [ht]
      simp only
      have h1 := unescapeAtD_le buf (';').utf8Size i (i + blen pre + 1) h
      rw [List.count_cons_self, Nat.add_mul, Nat.one_mul]
      revert h1
      rcases unescapeAtD buf (';').utf8Size i (i + blen pre + 1) pre with ⟨_ | ⟨b, c⟩, n⟩
      · intro h1
        simp only at h1 ⊢
        omega
      · intro h1
        have := ih (pre ++ [';']) b c (by rw [← h]; simp)
        simp only at h1 ⊢
        rw [hb]
        omega
    · rename_i hk
      rw [hb]
      have := ih (pre ++ [k]) buf k.utf8Size (by rw [← h]; simp)
      rwa [List.count_cons_of_ne hk]

/-! ## the whole text -/

/-- the widths of all ampersands -/
def numWidths : Str → Nat
  | [] => 0
  | c :: s => (if c = '&' then numWidth s else 0) + numWidths s

theorem numWidths_suffix {s t : Str} (h : s <:+ t) : numWidths s ≤ numWidths t := by
  obtain ⟨a, rfl⟩ := h
  induction a with
  | nil => exact Nat.le_refl _
  | cons c a ih => rw [List.cons_append, numWidths]; omega

theorem numWidths_free {a : Str} (h : '&' ∉ a) (b : Str) : numWidths (a ++ b) = numWidths b := by
  induction a with
  | nil => rfl
  | cons c a ih =>
    have hc : c ≠ '&' := by rintro rfl; simp at h
    rw [List.cons_append, numWidths, if_neg hc, ih (fun h' => h (List.mem_cons_of_mem _ h')), Nat.zero_add]

theorem numWidths_le (n : Nat) (s : Str) (h : s.length ≤ n) : numWidths s ≤ s.length := by
  induction n generalizing s with
  | zero =>
    have : s = [] := List.length_eq_zero_iff.1 (by omega)
    subst this; exact Nat.le_refl _
  | succ n ih =>
    cases s with
    | nil => exact Nat.le_refl _
    | cons c s =>
      rw [List.length_cons] at h ⊢
      rw [numWidths]
      have h0 := ih s (by omega)
      split
      · unfold numWidth
        split
        · rename_i r
          have e : '#' :: r = ('#' :: r.takeWhile numChar) ++ r.dropWhile numChar := by simp
          have hf : '&' ∉ '#' :: r.takeWhile numChar := by
            intro hm
            rcases List.mem_cons.1 hm with hm | hm
            · exact absurd hm (by decide)
            · have := List.all_eq_true.1 List.all_takeWhile _ hm
              exact absurd this (by decide)
          have hw : numWidths ('#' :: r) = numWidths (r.dropWhile numChar) := by
            conv_lhs => rw [e]
            exact numWidths_free hf _
          have hl : (r.takeWhile numChar).length + (r.dropWhile numChar).length = r.length := by
            rw [← List.length_append, List.takeWhile_append_dropWhile]
          have := ih (r.dropWhile numChar) (by rw [List.length_cons] at h; omega)
          rw [hw, List.length_cons]
          omega
        · omega
      · omega

theorem unescapeLoopD_step {ε : Type} (fuel : Nat) (P a b : Str) (ha : '&' ∉ a) :
    (unescapeLoopD (fuel + 1) (P ++ (a ++ '&' :: b)) (blen P) : Res ε Str × Nat).2 =
      (unescapeLoopD fuel (P ++ (a ++ after b)) (blen P + blen a + jump b) : Res ε Str × Nat).2 +
        (unescapeInnerD (blen (P ++ a)) ('&' :: b) 0 ('&' :: b) ((P ++ a) ++ '&' :: b) 1).2 := by
  have key : unescapeInner (blen (P ++ a)) ('&' :: b) 0 ('&' :: b) ((P ++ a) ++ '&' :: b) 1 = some (P ++ (a ++ after b), jump b) := by
    unfold after jump decode1
    cases hs : splitSemi b with
    | none =>
      have hn : ';' ∉ b := splitOnce_eq_none.1 hs
      rw [unescapeInner_none _ _ _ _ _ _ (by simp [hn])]
      simp; rfl
    | some p =>
      obtain ⟨m, r2⟩ := p
      obtain ⟨rfl, hm⟩ := splitOnce_eq_some.1 hs
      have := unescapeInner_first (P ++ a) [] ('&' :: m) r2 1 (by simp [hm])
      simp only [List.nil_append, List.cons_append, blen_nil] at this
      rw [this]
      cases hr : refChar ('&' :: m) with
      | none =>
        simp [hr]
        rw [lastW_append m (by simp)]
        simp
        rfl
      | some u => simp [hr]
  conv_lhs => unfold unescapeLoopD
  have h0 : ¬ blen P ≥ blen (P ++ (a ++ '&' :: b)) := by
    have := utf8Size_pos '&'
    simp; omega
  have hf : find c%"&" (a ++ '&' :: b) = some (blen a) := find_single.2 ⟨a, b, rfl, rfl, ha⟩
  have hd : dropB (blen a + blen P) (P ++ (a ++ '&' :: b)) = some ('&' :: b) :=
    dropB_eq_some.2 ⟨P ++ a, by simp, by simp [Nat.add_comm]⟩
  simp only [h0, if_false, dropB_append, hf, hd]
  have hi : blen a + blen P = blen (P ++ a) := by simp [Nat.add_comm]
  have hbuf : P ++ (a ++ '&' :: b) = (P ++ a) ++ ('&' :: b) := by simp
  rw [hi, hbuf]
  have h1 := unescapeInnerD_same (blen (P ++ a)) ('&' :: b) 0 ('&' :: b) ((P ++ a) ++ '&' :: b) 1
  rw [key] at h1
  revert h1
  rcases unescapeInnerD (blen (P ++ a)) ('&' :: b) 0 ('&' :: b) ((P ++ a) ++ '&' :: b) 1 with ⟨r, m⟩
  rintro rfl
  simp only [blen_append]

theorem unescapeLoopD_idle {ε : Type} (fuel : Nat) (P a : Str) (ha : '&' ∉ a) :
    (unescapeLoopD fuel (P ++ a) (blen P) : Res ε Str × Nat).2 = 0 := by
  cases fuel with
  | zero => rfl
  | succ fuel =>
    unfold unescapeLoopD
    split
    · rfl
    · simp only [dropB_append, find_single_none.2 ha]

theorem unescapeLoopD_out {ε : Type} (fuel : Nat) (B : Str) (n : Nat) (h : dropB n B = none) :
    (unescapeLoopD fuel B n : Res ε Str × Nat).2 = 0 := by
  cases fuel with
  | zero => rfl
  | succ fuel =>
    unfold unescapeLoopD
    split
    · rfl
    · rw [h]

theorem unescapeLoopD_next {ε : Type} (fuel : Nat) (P a b : Str) :
    ∃ P' S', S' <:+ b ∧ (unescapeLoopD fuel (P ++ (a ++ after b)) (blen P + blen a + jump b) : Res ε Str × Nat).2 =
        (unescapeLoopD fuel (P' ++ S') (blen P') : Res ε Str × Nat).2 := by
  obtain ⟨-, u, r, he, hr⟩ := length_after_le b
  cases hd : dropB (blen P + blen a + jump b) (P ++ (a ++ after b)) with
  | none =>
    refine ⟨[], [], List.nil_suffix, ?_⟩
    rw [unescapeLoopD_out _ _ _ hd]
    exact (unescapeLoopD_idle fuel [] [] (by simp)).symm
  | some t =>
    obtain ⟨s, e, hs⟩ := dropB_eq_some.1 hd
    refine ⟨s, t, ?_, by rw [e, hs]⟩
    rw [he] at e
    exact (split_past (jump_pos b) e hs).trans hr

theorem unescapeLoopD_le {ε : Type} (fuel : Nat) (P S : Str) :
    (unescapeLoopD fuel (P ++ S) (blen P) : Res ε Str × Nat).2 ≤ S.count ';' * numWidths S := by
  induction fuel generalizing P S with
  | zero => simp [unescapeLoopD]
  | succ fuel ih =>
    by_cases hs : '&' ∈ S
    · obtain ⟨a, b, rfl, ha⟩ := mem_split_first hs
      rw [unescapeLoopD_step _ _ _ _ ha]
      obtain ⟨P', S', hsuf, e⟩ := unescapeLoopD_next (ε := ε) fuel P a b
      rw [e]
      have h1 := ih P' S'
      have h2 := unescapeInnerD_le (blen (P ++ a)) b [] ('&' :: b) ((P ++ a) ++ '&' :: b) 1 rfl
      rw [blen_nil, List.count_cons_of_ne (by decide)] at h2
      have hc : S'.count ';' ≤ b.count ';' := hsuf.sublist.count_le _
      have h3 : S'.count ';' * numWidths S' ≤ b.count ';' * numWidths b := Nat.mul_le_mul hc (numWidths_suffix hsuf)
      have h4 : b.count ';' * (numWidth b + numWidths b) ≤ (a ++ '&' :: b).count ';' * (numWidth b + numWidths b) := by
        apply Nat.mul_le_mul_right
        rw [List.count_append, List.count_cons_of_ne (by decide)]
        omega
      rw [numWidths_free ha, numWidths, if_pos rfl]
      rw [Nat.mul_add] at h4
      omega
    · rw [unescapeLoopD_idle _ _ _ hs]
      exact Nat.zero_le _

/-! ## a number and many semicolons -/

theorem hexLoopD_zeros (m : Nat) (s : Str) (hs : s = [] ∨ ∃ r, s = ';' :: r) :
    (hexLoopD 0 (List.replicate m '0' ++ s)).2 = m + (if s = [] then 0 else 1) := by
  induction m with
  | zero =>
    rcases hs with rfl | ⟨r, rfl⟩
    · rfl
    · simp [hexLoopD, show hexDigit ';' = none from by decide]
  | succ m ih =>
    rw [List.replicate_succ, List.cons_append, hexLoopD, show hexDigit '0' = some 0 from by decide]
    simp only [Nat.zero_mul, Nat.zero_add, show (0 : Nat) < 4294967296 from by decide, if_true]
    rw [ih]
    omega

/-- a padded number without its semicolon -/
def padded (m : Nat) : Str := c%"&#0" ++ List.replicate m '0'

theorem unescapeAtD_padded (buf : Str) (cs a b m k : Nat) :
    (unescapeAtD buf cs a b (padded m ++ List.replicate k ';')).2 = m + 1 + (if k = 0 then 0 else 1) := by
  have hd : ∀ s : Str, dropB 2 ('&' :: '#' :: s) = some s := fun s => dropB_append c%"&#" s
  have hp : (parseHexU32D ('0' :: (List.replicate m '0' ++ List.replicate k ';'))).2 = m + 1 + (if k = 0 then 0 else 1) := by
    unfold parseHexU32D
    simp only
    rw [if_neg (by decide)]
    have := hexLoopD_zeros (m + 1) (List.replicate k ';') (by
      cases k with
      | zero => exact .inl rfl
      | succ k => exact .inr ⟨_, rfl⟩)
    rw [List.replicate_succ, List.cons_append] at this
    rw [this]
    cases k <;> simp
  have hs : startsWith ('&' :: '#' :: '0' :: (List.replicate m '0' ++ List.replicate k ';')) c%"&#" = true := startsWith_iff.2 ⟨_, rfl⟩
  have e : padded m ++ List.replicate k ';' = '&' :: '#' :: '0' :: (List.replicate m '0' ++ List.replicate k ';') := rfl
  rw [e]
  unfold unescapeAtD
  rw [if_neg (by simp), if_neg (by simp), if_neg (by simp), if_neg (by simp), if_neg (by simp), if_pos hs, hd]
  simp only
  revert hp
  rcases parseHexU32D ('0' :: (List.replicate m '0' ++ List.replicate k ';')) with ⟨_ | cp, n⟩
  · exact id
  · dsimp only
    cases charFromU32 cp <;> exact id

theorem unescapeInnerD_semis (i m r j : Nat) (buf : Str) (cs : Nat)
    (h : unescapeInner i (padded m ++ List.replicate (j + r) ';') (blen (padded m ++ List.replicate j ';')) (List.replicate r ';') buf cs ≠ none) :
    (unescapeInnerD i (padded m ++ List.replicate (j + r) ';') (blen (padded m ++ List.replicate j ';')) (List.replicate r ';') buf cs).2 +
      (if j = 0 ∧ 0 < r then 1 else 0) = r * (m + 2) := by
  induction r generalizing j buf cs with
  | zero => simp [unescapeInnerD]
  | succ r ih =>
    have hb : blen (padded m ++ List.replicate j ';') + (';').utf8Size = blen (padded m ++ List.replicate (j + 1) ';') := by
      rw [List.replicate_succ', ← List.append_assoc, blen_append _ [';']]
      rfl
    have hj : j + (r + 1) = j + 1 + r := by omega
    have ht : takeB (blen (padded m ++ List.replicate j ';')) (padded m ++ List.replicate (j + 1 + r) ';') =
        some (padded m ++ List.replicate j ';') := by
      have : padded m ++ List.replicate (j + 1 + r) ';' = (padded m ++ List.replicate j ';') ++ List.replicate (1 + r) ';' := by
        rw [List.append_assoc, List.replicate_append_replicate, Nat.add_assoc]
      rw [this]
      exact takeB_append ..
    have h0 := unescapeAtD_padded buf (';').utf8Size i (i + blen (padded m ++ List.replicate j ';') + 1) m j
    rw [hj] at h ⊢
    rw [← unescapeInnerD_same] at h
    rw [List.replicate_succ] at h ⊢
    unfold unescapeInnerD at h ⊢
    simp only [if_true, ht] at h ⊢
    rw [hb] at h ⊢
    revert h h0
    rcases unescapeAtD buf (';').utf8Size i (i + blen (padded m ++ List.replicate j ';') + 1) (padded m ++ List.replicate j ';') with ⟨_ | ⟨b, c⟩, n⟩
    · intro _ h
      exact absurd rfl h
    · intro h0 h
      simp only at h0 h ⊢
      rw [unescapeInnerD_same] at h
      have := ih (j + 1) b c h
      rw [if_neg (by omega)] at this
      rw [Nat.add_mul, Nat.one_mul]
      split at h0
      · rw [if_pos (by omega)]; omega
      · rw [if_neg (by omega)]; omega

theorem unescapeInnerD_skip (i : Nat) (slice : Str) (j : Nat) (m rest buf : Str) (cs : Nat) (h : ';' ∉ m) :
    ∃ cs', unescapeInnerD i slice j (m ++ rest) buf cs = unescapeInnerD i slice (j + blen m) rest buf cs' := by
  induction m generalizing j cs with
  | nil => exact ⟨cs, rfl⟩
  | cons k m ih =>
    have hk : k ≠ ';' := by rintro rfl; simp at h
    obtain ⟨cs', e⟩ := ih (j + k.utf8Size) k.utf8Size (fun h' => h (List.mem_cons_of_mem _ h'))
    refine ⟨cs', ?_⟩
    rw [List.cons_append]
    conv_lhs => unfold unescapeInnerD
    simp only [hk, if_false]
    rw [e, Nat.add_assoc]
    simp

theorem padded_digits {ε : Type} (fuel m k : Nat) :
    (unescapeLoopD (fuel + 1) (padded m ++ List.replicate (k + 1) ';') 0 : Res ε Str × Nat).2 + 1 = (k + 1) * (m + 2) := by
  have hp : padded m ++ List.replicate (k + 1) ';' = '&' :: ('#' :: '0' :: (List.replicate m '0' ++ List.replicate (k + 1) ';')) := rfl
  have hs := unescapeLoopD_step (ε := ε) fuel [] [] ('#' :: '0' :: (List.replicate m '0' ++ List.replicate (k + 1) ';')) (by simp)
  obtain ⟨P', S', hsuf, e⟩ := unescapeLoopD_next (ε := ε) fuel [] [] ('#' :: '0' :: (List.replicate m '0' ++ List.replicate (k + 1) ';'))
  have hamp : '&' ∉ S' := by
    intro hm
    have := hsuf.subset hm
    simp [List.mem_replicate] at this
  rw [e, unescapeLoopD_idle _ _ _ hamp, Nat.zero_add] at hs
  simp only [List.nil_append, blen_nil] at hs
  rw [hp, hs, ← hp]
  have hsemi : ';' ∉ padded m := by simp [padded, List.mem_replicate]
  have hne : (unescapeInnerD 0 (padded m ++ List.replicate (k + 1) ';') 0 (padded m ++ List.replicate (k + 1) ';')
      (padded m ++ List.replicate (k + 1) ';') 1).1 ≠ none := by
    rw [unescapeInnerD_same]
    have := unescapeInner_first [] [] (padded m) (List.replicate k ';') 1 hsemi
    simp only [List.nil_append, blen_nil] at this
    rw [List.replicate_succ, this]
    simp
  obtain ⟨cs', e'⟩ := unescapeInnerD_skip 0 (padded m ++ List.replicate (k + 1) ';') 0 (padded m) (List.replicate (k + 1) ';')
    (padded m ++ List.replicate (k + 1) ';') 1 hsemi
  rw [e', unescapeInnerD_same] at hne
  rw [e']
  have := unescapeInnerD_semis 0 m (k + 1) 0 (padded m ++ List.replicate (k + 1) ';') cs'
  simp only [List.replicate_zero, List.append_nil, Nat.zero_add] at this hne ⊢
  have := this hne
  simpa using this

end KissXml
