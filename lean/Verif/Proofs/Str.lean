import Verif.Model.Str
import Mathlib.Data.List.Infix
/-!
# Lemmas about strings with byte offsets
-/
namespace KissXml

theorem utf8Size_pos (c : Char) : 0 < c.utf8Size := Char.utf8Size_pos c

@[simp] theorem blen_nil : blen [] = 0 := rfl
@[simp] theorem blen_cons (c : Char) (s : Str) : blen (c :: s) = c.utf8Size + blen s := rfl
@[simp] theorem blen_append (a b : Str) : blen (a ++ b) = blen a + blen b := by
  induction a with
  | nil => simp
  | cons c a ih => simp [ih]; omega

theorem blen_eq_zero {s : Str} : blen s = 0 ↔ s = [] := by
  cases s with
  | nil => simp
  | cons c s => have := utf8Size_pos c; simp; omega

theorem length_le_blen (s : Str) : s.length ≤ blen s := by
  induction s with
  | nil => simp
  | cons c s ih => have := utf8Size_pos c; simp; omega

@[simp] theorem dropB_zero (s : Str) : dropB 0 s = some s := by cases s <;> rfl
@[simp] theorem takeB_zero (s : Str) : takeB 0 s = some [] := by cases s <;> rfl

theorem dropB_cons (c : Char) (s : Str) (n : Nat) : dropB (c.utf8Size + n) (c :: s) = dropB n s := by
  have := utf8Size_pos c
  obtain ⟨m, hm⟩ : ∃ m, c.utf8Size + n = m + 1 := ⟨c.utf8Size + n - 1, by omega⟩
  rw [hm, dropB]
  have : c.utf8Size ≤ m + 1 := by omega
  simp only [this, if_true]
  rw [show m + 1 - c.utf8Size = n by omega]

theorem takeB_cons (c : Char) (s : Str) (n : Nat) :
    takeB (c.utf8Size + n) (c :: s) = (takeB n s).map (c :: ·) := by
  have := utf8Size_pos c
  obtain ⟨m, hm⟩ : ∃ m, c.utf8Size + n = m + 1 := ⟨c.utf8Size + n - 1, by omega⟩
  rw [hm, takeB]
  have : c.utf8Size ≤ m + 1 := by omega
  simp only [this, if_true]
  rw [show m + 1 - c.utf8Size = n by omega]

@[simp] theorem dropB_append (a b : Str) : dropB (blen a) (a ++ b) = some b := by
  induction a with
  | nil => simp
  | cons c a ih => simp [dropB_cons, ih]

@[simp] theorem takeB_append (a b : Str) : takeB (blen a) (a ++ b) = some a := by
  induction a with
  | nil => simp
  | cons c a ih => simp [takeB_cons, ih]

@[simp] theorem dropB_blen (a : Str) : dropB (blen a) a = some [] := by
  simpa using dropB_append a []

@[simp] theorem takeB_blen (a : Str) : takeB (blen a) a = some a := by
  simpa using takeB_append a []

theorem dropB_append_add (a b : Str) (n : Nat) : dropB (blen a + n) (a ++ b) = dropB n b := by
  induction a with
  | nil => simp
  | cons c a ih => simp [Nat.add_assoc, dropB_cons, ih]

theorem takeB_append_add (a b : Str) (n : Nat) :
    takeB (blen a + n) (a ++ b) = (takeB n b).map (a ++ ·) := by
  induction a with
  | nil => cases h : takeB n b <;> simp [h]
  | cons c a ih =>
    simp only [blen_cons, List.cons_append, Nat.add_assoc, takeB_cons, ih]
    cases takeB n b <;> simp

theorem dropB_eq_some {n : Nat} {s t : Str} : dropB n s = some t ↔ ∃ a, s = a ++ t ∧ blen a = n := by
  constructor
  · intro h
    induction s generalizing n with
    | nil =>
      cases n with
      | zero => exact ⟨[], by simpa using h, rfl⟩
      | succ n => simp [dropB] at h
    | cons c s ih =>
      cases n with
      | zero => exact ⟨[], by simpa using h, rfl⟩
      | succ n =>
        unfold dropB at h
        split at h
        · obtain ⟨a, ha, hb⟩ := ih h
          exact ⟨c :: a, by simp [ha], by simp [hb]; omega⟩
        · simp at h
  · rintro ⟨a, rfl, rfl⟩; simp

theorem takeB_eq_some {n : Nat} {s t : Str} : takeB n s = some t ↔ ∃ b, s = t ++ b ∧ blen t = n := by
  constructor
  · intro h
    induction s generalizing n t with
    | nil =>
      cases n with
      | zero => simp at h; exact ⟨[], by simp [h]⟩
      | succ n => simp [takeB] at h
    | cons c s ih =>
      cases n with
      | zero => simp at h; subst h; exact ⟨c :: s, by simp⟩
      | succ n =>
        unfold takeB at h
        split at h
        · cases h' : takeB (n + 1 - c.utf8Size) s with
          | none => simp [h'] at h
          | some u =>
            simp [h'] at h; subst h
            obtain ⟨b, hb, hu⟩ := ih h'
            exact ⟨b, by simp [hb], by simp [hu]; omega⟩
        · simp at h
  · rintro ⟨a, rfl, rfl⟩; simp

theorem append_inj_blen {a b c d : Str} (h : a ++ b = c ++ d) (hl : blen a = blen c) : a = c ∧ b = d := by
  have h1 : takeB (blen a) (a ++ b) = some a := takeB_append a b
  rw [h, hl, takeB_append] at h1
  have : a = c := by simpa using h1.symm
  subst this
  exact ⟨rfl, by simpa using h⟩

theorem sliceB_eq_some {i j : Nat} {s t : Str} :
    sliceB i j s = some t ↔ ∃ a b, s = a ++ t ++ b ∧ blen a = i ∧ blen a + blen t = j := by
  unfold sliceB
  constructor
  · intro h
    split at h
    · cases h' : takeB j s with
      | none => simp [h'] at h
      | some u =>
        simp [h'] at h
        obtain ⟨b, hb, hu⟩ := takeB_eq_some.1 h'
        obtain ⟨a, ha, hl⟩ := dropB_eq_some.1 h
        subst ha
        exact ⟨a, b, hb, hl, by simpa using hu⟩
    · simp at h
  · rintro ⟨a, b, rfl, rfl, rfl⟩
    have : blen a ≤ blen a + blen t := by omega
    simp only [this, if_true]
    rw [← blen_append, takeB_append]
    simp

theorem sliceB_append (a t b : Str) : sliceB (blen a) (blen a + blen t) (a ++ t ++ b) = some t :=
  sliceB_eq_some.2 ⟨a, b, rfl, rfl, rfl⟩

/-! ### startsWith, endsWith, find -/

theorem startsWith_iff {s p : Str} : startsWith s p = true ↔ p <+: s := by
  simp [startsWith]

theorem endsWith_iff {s p : Str} : endsWith s p = true ↔ p <:+ s := by
  simp [endsWith]

theorem find_eq_some {p s : Str} {i : Nat} :
    find p s = some i ↔ ∃ a b, s = a ++ p ++ b ∧ blen a = i ∧
      ∀ a' b', s = a' ++ p ++ b' → blen a ≤ blen a' := by
  induction s generalizing i with
  | nil =>
    unfold find
    constructor
    · intro h
      split at h
      · rename_i hp
        have hp' := startsWith_iff.1 hp
        have : p = [] := by simpa using hp'
        subst this
        simp at h; subst h
        exact ⟨[], [], by simp⟩
      · simp at h
    · rintro ⟨a, b, h, rfl, -⟩
      have h' := h.symm
      simp at h'
      obtain ⟨rfl, rfl, rfl⟩ := h'
      simp [startsWith]
  | cons c s ih =>
    unfold find
    by_cases hp : startsWith (c :: s) p = true
    · simp only [hp, if_true]
      obtain ⟨b, hb⟩ := startsWith_iff.1 hp
      constructor
      · intro h; simp at h; subst h
        exact ⟨[], b, by simp [hb], rfl, by simp⟩
      · rintro ⟨a, b', h, rfl, hmin⟩
        have := hmin [] b (by simp [hb])
        simp at this
        simp [this]
    · have hp' : startsWith (c :: s) p = false := by simpa using hp
      simp only [hp', if_false, Bool.false_eq_true]
      constructor
      · intro h
        cases hf : find p s with
        | none => simp [hf] at h
        | some k =>
          simp [hf] at h
          obtain ⟨a, b, hs, hk, hmin⟩ := ih.1 hf
          refine ⟨c :: a, b, by simp [hs], by simp [hk, h], ?_⟩
          intro a' b' h'
          cases a' with
          | nil => exfalso; apply hp; exact startsWith_iff.2 ⟨b', by simpa using h'.symm⟩
          | cons d a' =>
            simp at h'
            have := hmin a' b' (by simpa using h'.2)
            simp [h'.1]; exact this
      · rintro ⟨a, b, h, rfl, hmin⟩
        cases a with
        | nil => exfalso; apply hp; exact startsWith_iff.2 ⟨b, by simpa using h.symm⟩
        | cons d a =>
          simp at h
          obtain ⟨rfl, h⟩ := h
          have : find p s = some (blen a) := by
            refine ih.2 ⟨a, b, by simpa using h, rfl, ?_⟩
            intro a' b' h'
            have := hmin (c :: a') b' (by simp [h'])
            simpa using this
          simp [this]

theorem find_eq_none {p s : Str} : find p s = none ↔ ¬ p <:+: s := by
  induction s with
  | nil =>
    unfold find
    by_cases hp : p = []
    · subst hp; simp [startsWith]
    · have : startsWith [] p = false := by
        rw [Bool.eq_false_iff]; intro h; exact hp (by simpa using startsWith_iff.1 h)
      simp [this, hp]
  | cons c s ih =>
    unfold find
    by_cases hp : startsWith (c :: s) p = true
    · simp only [hp, if_true]
      have := (startsWith_iff.1 hp).isInfix
      simp [this]
    · have hp' : startsWith (c :: s) p = false := by simpa using hp
      simp only [hp', if_false, Bool.false_eq_true, Option.map_eq_none_iff, ih]
      rw [List.infix_cons_iff]
      have : ¬ p <+: c :: s := fun h => hp (startsWith_iff.2 h)
      simp [this]

theorem contains_iff {s p : Str} : contains s p = true ↔ p <:+: s := by
  unfold contains
  cases h : find p s with
  | none => simpa using find_eq_none.1 h
  | some i =>
    obtain ⟨a, b, hs, -, -⟩ := find_eq_some.1 h
    simp; exact ⟨a, b, hs.symm⟩

/-- first occurrence of a one-character pattern -/
theorem find_single {c : Char} {s : Str} {i : Nat} :
    find [c] s = some i ↔ ∃ a b, s = a ++ c :: b ∧ blen a = i ∧ c ∉ a := by
  constructor
  · intro h
    obtain ⟨a, b, hs, hi, hmin⟩ := find_eq_some.1 h
    refine ⟨a, b, by simpa using hs, hi, ?_⟩
    intro hc
    obtain ⟨a1, a2, rfl⟩ := List.append_of_mem hc
    have := hmin a1 (a2 ++ [c] ++ b) (by simp [hs])
    have := utf8Size_pos c
    simp at *
    omega
  · rintro ⟨a, b, rfl, rfl, hc⟩
    apply find_eq_some.2
    refine ⟨a, b, by simp, rfl, ?_⟩
    intro a' b' h
    have h' : a ++ c :: b = a' ++ c :: b' := by simpa using h
    rcases List.append_eq_append_iff.1 h' with ⟨x, hx, hy⟩ | ⟨x, hx, hy⟩
    · subst hx; simp
    · cases x with
      | nil => simp at hx; subst hx; exact Nat.le_refl _
      | cons d x =>
        simp at hy
        obtain ⟨rfl, -⟩ := hy
        subst hx; simp at hc

theorem find_single_none {c : Char} {s : Str} : find [c] s = none ↔ c ∉ s := by
  rw [find_eq_none, List.singleton_infix_iff]

theorem splitOnce_eq_some {c : Char} {s a b : Str} :
    splitOnce c s = some (a, b) ↔ s = a ++ c :: b ∧ c ∉ a := by
  induction s generalizing a b with
  | nil => simp [splitOnce]
  | cons x s ih =>
    unfold splitOnce
    by_cases hx : x = c
    · subst hx
      simp only [if_true, Option.some.injEq, Prod.mk.injEq]
      constructor
      · rintro ⟨rfl, rfl⟩; simp
      · rintro ⟨h, hc⟩
        cases a with
        | nil => simp at h; simp [h]
        | cons d a => simp at h; simp [h.1] at hc
    · simp only [hx, if_false, Option.map_eq_some_iff, Prod.mk.injEq, Prod.exists]
      constructor
      · rintro ⟨a', b', h, rfl, rfl⟩
        obtain ⟨h1, h2⟩ := ih.1 h
        refine ⟨by simp [h1], ?_⟩
        simp; exact ⟨fun h => hx h.symm, h2⟩
      · rintro ⟨h, hc⟩
        cases a with
        | nil => simp at h; exact absurd h.1 hx
        | cons d a =>
          simp at h hc
          exact ⟨a, b, ih.2 ⟨h.2, hc.2⟩, by simp [h.1], rfl⟩

theorem splitOnce_eq_none {c : Char} {s : Str} : splitOnce c s = none ↔ c ∉ s := by
  induction s with
  | nil => simp [splitOnce]
  | cons x s ih =>
    unfold splitOnce
    by_cases hx : x = c
    · simp [hx]
    · simp only [hx, if_false, Option.map_eq_none_iff, ih, List.mem_cons, not_or]
      constructor
      · intro h; exact ⟨fun h => hx h.symm, h⟩
      · intro h; exact h.2

end KissXml
