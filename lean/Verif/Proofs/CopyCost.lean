import Verif.Model.CopyCost
import Verif.Spec.CopyCost
import Verif.Proofs.Cost
/-!
# Lemmas for the copies made by `unescape`
-/
namespace KissXml
open Spec

theorem stringInsertB_same (buffer : Str) (a b : Nat) (x : Str) : (stringInsertB buffer a b x).1 = stringInsert buffer a b x := by
  unfold stringInsertB stringInsert
  cases dropB b buffer with
  | none => rfl
  | some back => cases truncateB a buffer <;> rfl

theorem unescapeAtB_same (buffer : Str) (cs a b : Nat) (sl : Str) : (unescapeAtB buffer cs a b sl).1 = unescapeAt buffer cs a b sl := by
  unfold unescapeAtB unescapeAt
  simp only [stringInsertB_same]
  split
  · rfl
  split
  · rfl
  split
  · rfl
  split
  · rfl
  split
  · rfl
  split
  · cases dropB 2 sl with
    | none => rfl
    | some digits =>
      dsimp only
      cases parseHexU32 digits with
      | none => rfl
      | some cp =>
        dsimp only
        cases charFromU32 cp <;> rfl
  · rfl

theorem unescapeInnerB_same (i : Nat) (slice : Str) (j : Nat) (rest buf : Str) (cs : Nat) :
    (unescapeInnerB i slice j rest buf cs).1 = unescapeInner i slice j rest buf cs := by
  induction rest generalizing j buf cs with
  | nil => rfl
  | cons k rest ih =>
    unfold unescapeInnerB unescapeInner
    simp only
    split
    · cases takeB j slice with
      | none => rfl
      | some sl =>
        simp only
        rw [← unescapeAtB_same]
        rcases unescapeAtB buf k.utf8Size i (i + j + 1) sl with ⟨_ | ⟨b, c⟩, n⟩
        · rfl
        · exact ih _ _ _
    · exact ih _ _ _

theorem unescapeLoopB_same {ε : Type} (fuel : Nat) (B : Str) (n : Nat) :
    (unescapeLoopB fuel B n : Res ε Str × Nat).1 = unescapeLoop fuel B n := by
  induction fuel generalizing B n with
  | zero => rfl
  | succ fuel ih =>
    unfold unescapeLoopB unescapeLoop
    split
    · rfl
    · rcases dropB n B with _ | tail
      · rfl
      · simp only
        rcases find c%"&" tail with _ | i0
        · rfl
        · simp only
          rcases dropB (i0 + n) B with _ | slice
          · rfl
          · simp only
            rw [← unescapeInnerB_same]
            rcases unescapeInnerB (i0 + n) slice 0 slice B 1 with ⟨_ | ⟨b, c⟩, m⟩
            · rfl
            · exact ih _ _

/-! ## one round -/

/-- what is copied to put `u` before `rest` -/
def putCost (u : Char) (rest : Str) (num : Bool) : Nat :=
  (if num then u.utf8Size else 0) + (blen rest + u.utf8Size + blen rest)

theorem unescapeAtB_cost (Q m r2 : Str) (cs : Nat) :
    (unescapeAtB (Q ++ (m ++ ';' :: r2)) cs (blen Q) (blen Q + blen m + 1) m).2 =
      match refChar m with
      | none => 0
      | some u => putCost u r2 (isNumRef m) := by
  have hins : ∀ x : Str, (stringInsertB (Q ++ (m ++ ';' :: r2)) (blen Q) (blen Q + blen m + 1) x).2 =
      blen r2 + blen x + blen r2 := by
    intro x
    unfold stringInsertB
    have h1 : dropB (blen Q + blen m + 1) (Q ++ (m ++ ';' :: r2)) = some r2 := by
      apply dropB_eq_some.2
      exact ⟨Q ++ m ++ [';'], by simp, by simp [Nat.add_assoc]; rfl⟩
    have h2 : truncateB (blen Q) (Q ++ (m ++ ';' :: r2)) = some Q := by
      unfold truncateB
      have : ¬ blen Q ≥ blen (Q ++ (m ++ ';' :: r2)) := by
        have := utf8Size_pos ';'
        simp; omega
      simp only [this, if_false, takeB_append]
    simp [h1, h2]
  unfold unescapeAtB refChar isNumRef putCost
  simp only [hins]
  split
  · rename_i h; subst h; simp; decide
  split
  · rename_i h; subst h; simp; decide
  split
  · rename_i h; subst h; simp; decide
  split
  · rename_i h; subst h; simp; decide
  split
  · rename_i h; subst h; simp; decide
  split
  · rename_i h
    rw [drop2_of_startsWith h]
    dsimp only
    cases parseHexU32 (m.drop 2) with
    | none => rfl
    | some cp =>
      dsimp only [Option.bind_some]
      cases charFromU32 cp with
      | none => rfl
      | some u => simp
  · rfl

theorem unescapeAtB_noop {buf sl : Str} {cs a b : Nat} (h : ';' ∈ sl) : (unescapeAtB buf cs a b sl).2 = 0 := by
  unfold unescapeAtB
  simp only
  split
  · rename_i h'; subst h'; exact absurd h (by decide)
  split
  · rename_i h'; subst h'; exact absurd h (by decide)
  split
  · rename_i h'; subst h'; exact absurd h (by decide)
  split
  · rename_i h'; subst h'; exact absurd h (by decide)
  split
  · rename_i h'; subst h'; exact absurd h (by decide)
  split
  · rename_i h'
    rw [drop2_of_startsWith h']
    obtain ⟨t, rfl⟩ := startsWith_iff.1 h'
    have : ';' ∈ t := by simpa using h
    simp [parseHexU32_semicolon this]
  · rfl

theorem unescapeInnerB_noop (i : Nat) (pre rest buf : Str) (cs : Nat) (h : ';' ∈ pre) :
    (unescapeInnerB i (pre ++ rest) (blen pre) rest buf cs).2 = 0 := by
  induction rest generalizing pre cs buf with
  | nil => simp [unescapeInnerB]
  | cons k rest ih =>
    have e : pre ++ k :: rest = (pre ++ [k]) ++ rest := by simp
    have hb : blen pre + k.utf8Size = blen (pre ++ [k]) := by simp
    unfold unescapeInnerB
    simp only
    split
    · rw [takeB_append]
      have h0 := unescapeAtB_noop (buf := buf) (cs := k.utf8Size) (a := i) (b := i + blen pre + 1) h
      simp only
      revert h0
      rcases unescapeAtB buf k.utf8Size i (i + blen pre + 1) pre with ⟨_ | ⟨b, c⟩, n⟩
      · exact id
      · rintro rfl
        simp only
        rw [e, hb, ih (pre ++ [k]) _ _ (by simp [h])]
    · rw [e, hb, ih (pre ++ [k]) _ _ (by simp [h])]

theorem unescapeInnerB_none (i : Nat) (slice : Str) (j : Nat) (rest buf : Str) (cs : Nat) (h : ';' ∉ rest) :
    (unescapeInnerB i slice j rest buf cs).2 = 0 := by
  induction rest generalizing j cs with
  | nil => simp [unescapeInnerB]
  | cons k rest ih =>
    have hk : k ≠ ';' := by rintro rfl; simp at h
    have hr : ';' ∉ rest := fun h' => h (List.mem_cons_of_mem _ h')
    unfold unescapeInnerB
    simp [hk, ih _ _ hr]

theorem unescapeInnerB_first (Q pre m r2 : Str) (cs : Nat) (h : ';' ∉ m) :
    (unescapeInnerB (blen Q) (pre ++ (m ++ ';' :: r2)) (blen pre) (m ++ ';' :: r2) (Q ++ (pre ++ (m ++ ';' :: r2))) cs).2 =
      match refChar (pre ++ m) with
        | none => 0
        | some u => putCost u r2 (isNumRef (pre ++ m)) := by
  induction m generalizing pre cs with
  | nil =>
    simp only [List.nil_append, List.append_nil]
    unfold unescapeInnerB
    simp only [if_true, takeB_append]
    have h0 := unescapeAtB_cost Q pre r2 (';').utf8Size
    have h1 := (unescapeAtB_same (Q ++ (pre ++ ';' :: r2)) (';').utf8Size (blen Q) (blen Q + blen pre + 1) pre).trans (unescapeAt_eq Q pre r2 _)
    have e : pre ++ ';' :: r2 = (pre ++ [';']) ++ r2 := by simp
    have hb : blen pre + (';').utf8Size = blen (pre ++ [';']) := by simp
    rw [← h0]
    revert h1
    rcases unescapeAtB (Q ++ (pre ++ ';' :: r2)) (';').utf8Size (blen Q) (blen Q + blen pre + 1) pre with ⟨_ | ⟨b, c⟩, n⟩
    · intro h1; exact absurd h1 (by simp)
    · intro _
      simp only
      rw [hb, e, unescapeInnerB_noop _ _ _ _ _ (by simp), Nat.zero_add]
  | cons k m ih =>
    have hk : k ≠ ';' := by rintro rfl; simp at h
    have hr : ';' ∉ m := fun h' => h (List.mem_cons_of_mem _ h')
    have hb : blen pre + k.utf8Size = blen (pre ++ [k]) := by simp
    rw [List.cons_append]
    unfold unescapeInnerB
    simp only [hk, if_false]
    have := ih (pre ++ [k]) k.utf8Size hr
    rw [hb]
    simpa using this

/-- what the inner loop copies at a `&` followed by `b` -/
def roundCost (b : Str) : Nat :=
  match decode1 b with
  | none => 0
  | some (u, rest, num) => putCost u rest num

theorem unescapeInnerB_round (Q b : Str) :
    (unescapeInnerB (blen Q) ('&' :: b) 0 ('&' :: b) (Q ++ '&' :: b) 1).2 = roundCost b := by
  unfold roundCost decode1
  cases hs : splitSemi b with
  | none =>
    have hn : ';' ∉ b := splitOnce_eq_none.1 hs
    rw [unescapeInnerB_none _ _ _ _ _ _ (by simp [hn])]
    simp
  | some p =>
    obtain ⟨m, r2⟩ := p
    obtain ⟨rfl, hm⟩ := splitOnce_eq_some.1 hs
    have := unescapeInnerB_first Q [] ('&' :: m) r2 1 (by simp [hm])
    simp only [List.nil_append, List.cons_append, blen_nil] at this
    rw [this]
    cases hr : refChar ('&' :: m) with
    | none => simp [hr]
    | some u => simp [hr]

theorem unescapeLoopB_step {ε : Type} (fuel : Nat) (P a b : Str) (ha : '&' ∉ a) :
    (unescapeLoopB (fuel + 1) (P ++ (a ++ '&' :: b)) (blen P) : Res ε Str × Nat).2 =
      (unescapeLoopB fuel (P ++ (a ++ after b)) (blen P + blen a + jump b) : Res ε Str × Nat).2 + (blen ('&' :: b) + roundCost b) := by
  have key : unescapeInner (blen (P ++ a)) ('&' :: b) 0 ('&' :: b) ((P ++ a) ++ '&' :: b) 1 = some (P ++ (a ++ after b), jump b) := by
    unfold after jump decode1
    cases hs : splitSemi b with
    | none =>
      have hn : ';' ∉ b := splitOnce_eq_none.1 hs
      rw [unescapeInner_none _ _ _ _ _ _ (by simp [hn])]
      simp; rfl
    | some p =>
      obtain ⟨m, r2⟩ := p
      obtain ⟨rfl, hm⟩ := splitOnce_eq_some.1 hs
      have := unescapeInner_first (P ++ a) [] ('&' :: m) r2 1 (by simp [hm])
      simp only [List.nil_append, List.cons_append, blen_nil] at this
      rw [this]
      cases hr : refChar ('&' :: m) with
      | none =>
        simp [hr]
        rw [lastW_append m (by simp)]
        simp
        rfl
      | some u => simp [hr]
  conv_lhs => unfold unescapeLoopB
  have h0 : ¬ blen P ≥ blen (P ++ (a ++ '&' :: b)) := by
    have := utf8Size_pos '&'
    simp; omega
  have hf : find c%"&" (a ++ '&' :: b) = some (blen a) := find_single.2 ⟨a, b, rfl, rfl, ha⟩
  have hd : dropB (blen a + blen P) (P ++ (a ++ '&' :: b)) = some ('&' :: b) :=
    dropB_eq_some.2 ⟨P ++ a, by simp, by simp [Nat.add_comm]⟩
  simp only [h0, if_false, dropB_append, hf, hd]
  have hi : blen a + blen P = blen (P ++ a) := by simp [Nat.add_comm]
  have hbuf : P ++ (a ++ '&' :: b) = (P ++ a) ++ ('&' :: b) := by simp
  rw [hi, hbuf]
  have h1 := unescapeInnerB_same (blen (P ++ a)) ('&' :: b) 0 ('&' :: b) ((P ++ a) ++ '&' :: b) 1
  have h2 := unescapeInnerB_round (P ++ a) b
  rw [key] at h1
  revert h1 h2
  rcases unescapeInnerB (blen (P ++ a)) ('&' :: b) 0 ('&' :: b) ((P ++ a) ++ '&' :: b) 1 with ⟨r, m⟩
  rintro rfl rfl
  simp only [blen_append]

theorem unescapeLoopB_idle {ε : Type} (fuel : Nat) (P a : Str) (ha : '&' ∉ a) :
    (unescapeLoopB fuel (P ++ a) (blen P) : Res ε Str × Nat).2 = 0 := by
  cases fuel with
  | zero => rfl
  | succ fuel =>
    unfold unescapeLoopB
    split
    · rfl
    · simp only [dropB_append, find_single_none.2 ha]

theorem unescapeLoopB_out {ε : Type} (fuel : Nat) (B : Str) (n : Nat) (h : dropB n B = none) :
    (unescapeLoopB fuel B n : Res ε Str × Nat).2 = 0 ∧ (unescapeLoopC fuel B n : Res ε Str × Nat).2 = 0 := by
  refine ⟨?_, unescapeLoopC_out fuel B n h⟩
  cases fuel with
  | zero => rfl
  | succ fuel =>
    unfold unescapeLoopB
    split
    · rfl
    · rw [h]

/-- what one round leaves -/
theorem unescapeLoopB_next {ε : Type} (fuel : Nat) (P a b : Str) :
    ∃ P' S', S' <:+ b ∧ (unescapeLoopB fuel (P ++ (a ++ after b)) (blen P + blen a + jump b) : Res ε Str × Nat).2 =
        (unescapeLoopB fuel (P' ++ S') (blen P') : Res ε Str × Nat).2 ∧
      (unescapeLoopC fuel (P ++ (a ++ after b)) (blen P + blen a + jump b) : Res ε Str × Nat).2 =
        (unescapeLoopC fuel (P' ++ S') (blen P') : Res ε Str × Nat).2 := by
  obtain ⟨-, u, r, he, hr⟩ := length_after_le b
  cases hd : dropB (blen P + blen a + jump b) (P ++ (a ++ after b)) with
  | none =>
    refine ⟨[], [], List.nil_suffix, ?_, ?_⟩
    · rw [(unescapeLoopB_out _ _ _ hd).1]
      exact (unescapeLoopB_idle fuel [] [] (by simp)).symm
    · rw [(unescapeLoopB_out _ _ _ hd).2]
      exact (unescapeLoopC_idle fuel [] [] (by simp)).symm
  | some t =>
    obtain ⟨s, e, hs⟩ := dropB_eq_some.1 hd
    refine ⟨s, t, ?_, by rw [e, hs], by rw [e, hs]⟩
    rw [he] at e
    exact (split_past (jump_pos b) e hs).trans hr

theorem roundCost_le (b : Str) : roundCost b ≤ 2 * blen ('&' :: b) := by
  have l1 : blen ('&' :: b) = 1 + blen b := rfl
  unfold roundCost
  split
  · exact Nat.zero_le _
  · rename_i u rest num h
    obtain ⟨m, rfl, hm, hr, hn⟩ := decode1_some h
    have h1 := (refChar_width hr).2
    have l2 : blen ('&' :: m) = 1 + blen m := rfl
    have l3 : blen (m ++ ';' :: rest) = blen m + (1 + blen rest) := by rw [blen_append]; rfl
    unfold putCost
    split <;> omega

theorem unescapeLoopB_le {ε : Type} (fuel : Nat) (P S : Str) :
    (unescapeLoopC fuel (P ++ S) (blen P) : Res ε Str × Nat).2 ≤ (unescapeLoopB fuel (P ++ S) (blen P) : Res ε Str × Nat).2 ∧
    (unescapeLoopB fuel (P ++ S) (blen P) : Res ε Str × Nat).2 ≤ S.count '&' * (3 * blen S) := by
  induction fuel generalizing P S with
  | zero => exact ⟨by simp [unescapeLoopC], by simp [unescapeLoopB]⟩
  | succ fuel ih =>
    by_cases hs : '&' ∈ S
    · obtain ⟨a, b, rfl, ha⟩ := mem_split_first hs
      rw [unescapeLoopB_step _ _ _ _ ha, unescapeLoopC_step _ _ _ _ ha]
      obtain ⟨P', S', hsuf, e, e'⟩ := unescapeLoopB_next (ε := ε) fuel P a b
      rw [e, e']
      obtain ⟨h1, h2⟩ := ih P' S'
      have hl : blen S' ≤ blen b := by
        obtain ⟨t, rfl⟩ := hsuf
        rw [blen_append]; omega
      have hc : S'.count '&' ≤ b.count '&' := hsuf.sublist.count_le _
      have hca : a.count '&' = 0 := List.count_eq_zero.2 ha
      have hr := roundCost_le b
      have hlen := length_le_blen ('&' :: b)
      have l1 : blen ('&' :: b) = 1 + blen b := rfl
      rw [List.length_cons] at hlen
      generalize (unescapeLoopB fuel (P' ++ S') (blen P') : Res ε Str × Nat).2 = w at *
      generalize (unescapeLoopC fuel (P' ++ S') (blen P') : Res ε Str × Nat).2 = w' at *
      refine ⟨by omega, ?_⟩
      simp only [blen_append, List.count_append, List.count_cons_self, hca]
      rw [l1] at hr ⊢
      have h3 : S'.count '&' * (3 * blen S') ≤ b.count '&' * (3 * (blen a + (1 + blen b))) := Nat.mul_le_mul hc (by omega)
      have h4 : (0 + (b.count '&' + 1)) * (3 * (blen a + (1 + blen b))) =
          b.count '&' * (3 * (blen a + (1 + blen b))) + 3 * (blen a + (1 + blen b)) := by
        rw [Nat.zero_add, Nat.add_mul, Nat.one_mul]
      omega
    · rw [unescapeLoopC_idle _ _ _ hs, unescapeLoopB_idle _ _ _ hs]
      simp

theorem unescapeLoopB_ampRefs {ε : Type} (n fuel : Nat) (P : Str) (h : n ≤ fuel) :
    2 * (unescapeLoopB fuel (P ++ ampRefs n) (blen P) : Res ε Str × Nat).2 + 18 * n = 15 * n * (n + 1) := by
  induction n generalizing fuel P with
  | zero => simp only [ampRefs]; rw [unescapeLoopB_idle _ _ _ (by simp)]
  | succ n ih =>
    obtain ⟨fuel, rfl⟩ : ∃ m, fuel = m + 1 := ⟨fuel - 1, by omega⟩
    have := unescapeLoopB_step (ε := ε) fuel P [] (c%"amp;" ++ ampRefs n) (by simp)
    have hd : decode1 (c%"amp;" ++ ampRefs n) = some ('&', ampRefs n, false) :=
      decode1_of (m := c%"amp") (rest := ampRefs n) (by decide) (by decide)
    have ha : after (c%"amp;" ++ ampRefs n) = '&' :: ampRefs n := by unfold after; rw [hd]
    have hj : jump (c%"amp;" ++ ampRefs n) = 1 := by
      unfold jump; rw [hd]; exact ampRefs_last n
    have hr : roundCost (c%"amp;" ++ ampRefs n) = blen (ampRefs n) + 1 + blen (ampRefs n) := by
      unfold roundCost; rw [hd]
      show 0 + _ = _
      rw [Nat.zero_add]; rfl
    have hl : ∀ n, blen (ampRefs n) = 5 * n := by
      intro n
      induction n with
      | zero => rfl
      | succ n ih =>
        rw [ampRefs, blen_append, ih]
        have : blen c%"&amp;" = 5 := rfl
        omega
    have hb : blen ('&' :: (c%"amp;" ++ ampRefs n)) = 5 * n + 5 := hl (n + 1)
    rw [ha, hj, hr, hb, hl] at this
    have e : blen P + blen [] + 1 = blen (P ++ ['&']) := by simp only [blen_append]; rfl
    have e2 : P ++ ([] ++ '&' :: ampRefs n) = (P ++ ['&']) ++ ampRefs n := by simp
    rw [e, e2] at this
    have e3 : P ++ ampRefs (n + 1) = P ++ ([] ++ '&' :: (c%"amp;" ++ ampRefs n)) := rfl
    rw [e3, this]
    have := ih fuel (P ++ ['&']) (by omega)
    have h5 : 15 * (n + 1) * (n + 1 + 1) = 15 * n * (n + 1) + 30 * (n + 1) := by
      rw [Nat.mul_assoc, Nat.mul_assoc, show n + 1 + 1 = n + 2 from rfl, Nat.mul_add (n + 1) n 2, Nat.mul_comm (n + 1) n]
      omega
    omega

/-! ## exactly, for references by name -/

theorem copies_append {a : Str} (h : '&' ∉ a) (b : Str) : copies (a ++ b) = copies b := by
  induction a with
  | nil => rfl
  | cons c a ih =>
    have hc : c ≠ '&' := by rintro rfl; simp at h
    rw [List.cons_append, copies, if_neg hc, ih (fun h' => h (List.mem_cons_of_mem _ h')), Nat.zero_add]

theorem decode1_name {b rest : Str} {u : Char} {num : Bool} (hb : ∀ r, b ≠ '#' :: r) (h : decode1 b = some (u, rest, num)) :
    num = false ∧ u.utf8Size = 1 ∧ behindName b = some rest ∧ copies b = copies rest ∧ rest <:+ b := by
  obtain ⟨m, rfl, hm, hr, rfl⟩ := decode1_some h
  have hn : isNumRef ('&' :: m) = false := by
    cases hn : isNumRef ('&' :: m) with
    | false => rfl
    | true =>
      obtain ⟨t, ht⟩ := startsWith_iff.1 hn
      have : m = '#' :: t := by simpa using ht.symm
      exact absurd (by rw [this]; rfl) (hb (t ++ ';' :: rest))
  refine ⟨hn, (refChar_width hr).1 hn, ?_, ?_, m ++ [';'], by simp⟩
  · unfold refChar at hr
    split at hr
    · rename_i e; obtain ⟨-, rfl⟩ := List.cons.inj e; rfl
    split at hr
    · rename_i e; obtain ⟨-, rfl⟩ := List.cons.inj e; rfl
    split at hr
    · rename_i e; obtain ⟨-, rfl⟩ := List.cons.inj e; rfl
    split at hr
    · rename_i e; obtain ⟨-, rfl⟩ := List.cons.inj e; rfl
    split at hr
    · rename_i e; obtain ⟨-, rfl⟩ := List.cons.inj e; rfl
    split at hr
    · rename_i e; exact absurd (hn.symm.trans e) (by simp)
    · cases hr
  · have : m ++ ';' :: rest = (m ++ [';']) ++ rest := by simp
    rw [this]
    apply copies_append
    unfold refChar at hr
    split at hr
    · rename_i e; obtain ⟨-, rfl⟩ := List.cons.inj e; decide
    split at hr
    · rename_i e; obtain ⟨-, rfl⟩ := List.cons.inj e; decide
    split at hr
    · rename_i e; obtain ⟨-, rfl⟩ := List.cons.inj e; decide
    split at hr
    · rename_i e; obtain ⟨-, rfl⟩ := List.cons.inj e; decide
    split at hr
    · rename_i e; obtain ⟨-, rfl⟩ := List.cons.inj e; decide
    split at hr
    · rename_i e; exact absurd (hn.symm.trans e) (by simp)
    · cases hr

theorem decode1_noName {b : Str} (h : decode1 b = none) : behindName b = none := by
  unfold behindName
  split
  · rename_i r
    have := decode1_of (m := c%"amp") (rest := r) (u := '&') (by decide) (by decide)
    rw [show c%"amp" ++ ';' :: r = 'a' :: 'm' :: 'p' :: ';' :: r from rfl, h] at this; cases this
  · rename_i r
    have := decode1_of (m := c%"lt") (rest := r) (u := '<') (by decide) (by decide)
    rw [show c%"lt" ++ ';' :: r = 'l' :: 't' :: ';' :: r from rfl, h] at this; cases this
  · rename_i r
    have := decode1_of (m := c%"gt") (rest := r) (u := '>') (by decide) (by decide)
    rw [show c%"gt" ++ ';' :: r = 'g' :: 't' :: ';' :: r from rfl, h] at this; cases this
  · rename_i r
    have := decode1_of (m := c%"apos") (rest := r) (u := '\'') (by decide) (by decide)
    rw [show c%"apos" ++ ';' :: r = 'a' :: 'p' :: 'o' :: 's' :: ';' :: r from rfl, h] at this; cases this
  · rename_i r
    have := decode1_of (m := c%"quot") (rest := r) (u := '"') (by decide) (by decide)
    rw [show c%"quot" ++ ';' :: r = 'q' :: 'u' :: 'o' :: 't' :: ';' :: r from rfl, h] at this; cases this
  · rfl

theorem lastW_suffix {s t : Str} (h : s <:+ t) (ht : lastW 1 t = 1) : lastW 1 s = 1 := by
  obtain ⟨a, rfl⟩ := h
  cases s with
  | nil => rfl
  | cons c s => rwa [lastW_append a (by simp)] at ht

theorem unescapeLoopB_exact {ε : Type} (fuel : Nat) (P S : Str) (hf : S.length ≤ fuel) (hl : lastW 1 S = 1) (hn : ¬ c%"&#" <:+: S) :
    (unescapeLoopB fuel (P ++ S) (blen P) : Res ε Str × Nat).2 = copies S := by
  induction fuel generalizing P S with
  | zero =>
    have : S = [] := List.length_eq_zero_iff.1 (by omega)
    subst this; rfl
  | succ fuel ih =>
    by_cases hs : '&' ∈ S
    · obtain ⟨a, b, rfl, ha⟩ := mem_split_first hs
      rw [unescapeLoopB_step _ _ _ _ ha, copies_append ha, copies, if_pos rfl]
      have l1 : blen ('&' :: b) = 1 + blen b := rfl
      have hb : ∀ r, b ≠ '#' :: r := by
        rintro r rfl
        exact hn ⟨a, r, by simp⟩
      have hsub : b <:+ a ++ '&' :: b := ⟨a ++ ['&'], by simp⟩
      rw [List.length_append, List.length_cons] at hf
      unfold after jump roundCost
      cases hd : decode1 b with
      | none =>
        rw [decode1_noName hd]
        simp only
        rw [lastW_suffix hsub hl]
        have e : blen P + blen a + 1 = blen (P ++ a ++ ['&']) := by simp only [blen_append]; rfl
        have e2 : P ++ (a ++ '&' :: b) = (P ++ a ++ ['&']) ++ b := by simp
        rw [e, e2, ih _ b (by omega) (lastW_suffix hsub hl) (fun h => hn (h.trans hsub.isInfix)), l1]
        omega
      | some p =>
        obtain ⟨u, rest, num⟩ := p
        obtain ⟨rfl, hu, hbn, hc, hr⟩ := decode1_name hb hd
        rw [hbn, hc]
        simp only
        have hl' := lastW_suffix (hr.trans hsub) hl
        have e : blen P + blen a + 1 = blen (P ++ a ++ [u]) := by
          have : blen [u] = u.utf8Size := by simp
          rw [blen_append, blen_append, this, hu]
        have e2 : P ++ (a ++ u :: rest) = (P ++ a ++ [u]) ++ rest := by simp
        have hlen := hr.length_le
        have hput : putCost u rest false = 2 * blen rest + 1 := by
          unfold putCost
          rw [if_neg (by simp), hu]; omega
        rw [if_neg (by simp), hl', e, e2, ih _ rest (by omega) hl' (fun h => hn (h.trans (hr.trans hsub).isInfix)), l1, hput]
        omega
    · rw [unescapeLoopB_idle _ _ _ hs]
      have := copies_append hs []
      rw [List.append_nil] at this
      rw [this]; rfl

end KissXml
