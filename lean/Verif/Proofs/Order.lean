import Verif.Proofs.Str
import Verif.Spec.Order
import Verif.Model.Serialize
import Mathlib.Data.List.Sort
/-!
# `strCmp` is the byte order; the attribute order is a strict total order; sorting is canonical
-/
namespace KissXml
open Spec

theorem strCmp_eq {a b : Str} : strCmp a b = .eq ↔ a = b := by
  induction a generalizing b with
  | nil => cases b <;> simp [strCmp]
  | cons x a ih =>
    cases b with
    | nil => simp [strCmp]
    | cons y b =>
      unfold strCmp
      split
      · rename_i h; simp; rintro rfl; omega
      · split
        · rename_i h; simp; rintro rfl; omega
        · rename_i h1 h2
          have : x = y := Char.toNat_inj.1 (by omega)
          simp [ih, this]

theorem strCmp_gt {a b : Str} : strCmp a b = .gt ↔ strCmp b a = .lt := by
  induction a generalizing b with
  | nil => cases b <;> simp [strCmp]
  | cons x a ih =>
    cases b with
    | nil => simp [strCmp]
    | cons y b =>
      unfold strCmp
      by_cases h1 : x.toNat < y.toNat
      · have h2 : ¬ y.toNat < x.toNat := by omega
        simp [h1, h2]
      · by_cases h2 : y.toNat < x.toNat
        · simp [h1, h2]
        · simp [h1, h2, ih]

theorem strCmp_lt_trans {a b c : Str} (h1 : strCmp a b = .lt) (h2 : strCmp b c = .lt) : strCmp a c = .lt := by
  induction a generalizing b c with
  | nil => cases c with
    | nil => cases b <;> simp [strCmp] at h2
    | cons => simp [strCmp]
  | cons x a ih =>
    cases b with
    | nil => simp [strCmp] at h1
    | cons y b =>
      cases c with
      | nil => simp [strCmp] at h2
      | cons z c =>
        unfold strCmp at h1 h2 ⊢
        by_cases hxy : x.toNat < y.toNat
        · by_cases hyz : y.toNat < z.toNat
          · have : x.toNat < z.toNat := by omega
            simp [this]
          · by_cases hzy : z.toNat < y.toNat
            · simp [hyz, hzy] at h2
            · have : x.toNat < z.toNat := by omega
              simp [this]
        · by_cases hyx : y.toNat < x.toNat
          · simp [hxy, hyx] at h1
          · simp [hxy, hyx] at h1
            by_cases hyz : y.toNat < z.toNat
            · have : x.toNat < z.toNat := by omega
              simp [this]
            · by_cases hzy : z.toNat < y.toNat
              · simp [hyz, hzy] at h2
              · simp [hyz, hzy] at h2
                have h3 : ¬ x.toNat < z.toNat := by omega
                have h4 : ¬ z.toNat < x.toNat := by omega
                simp [h3, h4]
                exact ih h1 h2

/-! ## UTF-8 -/

theorem bytesLt_append_left (p : List Nat) {s t : List Nat} : BytesLt (p ++ s) (p ++ t) ↔ BytesLt s t := by
  induction p with
  | nil => rfl
  | cons a p ih =>
    rw [List.cons_append, List.cons_append, ← ih]
    constructor
    · intro h; cases h with
      | lt h => omega
      | cons h => exact h
    · exact .cons

/-- UTF-8 preserves the order: a smaller character has a smaller byte at the first difference -/
theorem utf8_lt {c d : Char} (h : c.toNat < d.toNat) (s t : List Nat) : BytesLt (utf8 c ++ s) (utf8 d ++ t) := by
  have hd : d.toNat < 0x110000 := by
    have := d.valid
    simp only [UInt32.isValidChar, Nat.isValidChar] at this
    show d.val.toNat < _
    omega
  unfold utf8
  generalize c.toNat = m at *
  generalize d.toNat = n at *
  simp only
  have L : ∀ (a b : Nat) (x y : List Nat), a < b → BytesLt (a :: x) (b :: y) := fun _ _ _ _ h => .lt h
  have E : ∀ (a b : Nat) (x y : List Nat), a ≤ b → (a = b → BytesLt x y) → BytesLt (a :: x) (b :: y) := by
    intro a b x y h1 h2
    rcases Nat.lt_or_ge a b with h | h
    · exact .lt h
    · have : a = b := by omega
      subst this
      exact .cons (h2 rfl)
  split
  · split
    · exact L _ _ _ _ h
    · split
      · exact L _ _ _ _ (by omega)
      · split <;> exact L _ _ _ _ (by omega)
  · split
    · split
      · omega
      · split
        · exact E _ _ _ _ (by omega) (fun _ => L _ _ _ _ (by omega))
        · split <;> exact L _ _ _ _ (by omega)
    · split
      · split
        · omega
        · split
          · omega
          · split
            · exact E _ _ _ _ (by omega) (fun _ => E _ _ _ _ (by omega) (fun _ => L _ _ _ _ (by omega)))
            · exact L _ _ _ _ (by omega)
      · split
        · omega
        · split
          · omega
          · split
            · omega
            · exact E _ _ _ _ (by omega) (fun _ => E _ _ _ _ (by omega) (fun _ => E _ _ _ _ (by omega)
                (fun _ => L _ _ _ _ (by omega))))

theorem utf8_length (c : Char) : (utf8 c).length = c.utf8Size := by
  unfold utf8 Char.utf8Size
  simp only [UInt32.le_iff_toNat_le, Char.toNat_val]
  simp only [UInt32.toNat_ofNatLT]
  generalize c.toNat = n
  by_cases h1 : n < 0x80
  · rw [if_pos h1, if_pos (show n ≤ 127 by omega)]; rfl
  · rw [if_neg h1, if_neg (show ¬ n ≤ 127 by omega)]
    by_cases h2 : n < 0x800
    · rw [if_pos h2, if_pos (show n ≤ 2047 by omega)]; rfl
    · rw [if_neg h2, if_neg (show ¬ n ≤ 2047 by omega)]
      by_cases h3 : n < 0x10000
      · rw [if_pos h3, if_pos (show n ≤ 65535 by omega)]; rfl
      · rw [if_neg h3, if_neg (show ¬ n ≤ 65535 by omega)]; rfl

/-- `blen` is the number of bytes -/
theorem bytes_length (s : Str) : (bytes s).length = blen s := by
  induction s with
  | nil => rfl
  | cons c s ih => rw [blen_cons, ← ih, ← utf8_length]; simp [bytes]

theorem bytesLt_irrefl (s : List Nat) : ¬ BytesLt s s := by
  induction s with
  | nil => intro h; cases h
  | cons a s ih => intro h; cases h with
    | lt h => omega
    | cons h => exact ih h

theorem bytesLt_asymm {s t : List Nat} (h : BytesLt s t) : ¬ BytesLt t s := by
  induction h with
  | nil => intro h; cases h
  | lt h => intro h'; cases h' with
    | lt h' => omega
    | cons h' => omega
  | cons _ ih => intro h'; cases h' with
    | lt h' => omega
    | cons h' => exact ih h'

theorem strCmp_lt_iff_aux {a b : Str} : strCmp a b = .lt → BytesLt (bytes a) (bytes b) := by
  induction a generalizing b with
  | nil =>
    cases b with
    | nil => simp [strCmp]
    | cons y b =>
      intro _
      have : 0 < (utf8 y).length := by rw [utf8_length]; exact utf8Size_pos y
      obtain ⟨z, w, hz⟩ := List.exists_cons_of_length_pos this
      simp only [bytes, List.flatMap_cons, List.flatMap_nil, hz, List.cons_append]
      exact .nil
  | cons x a ih =>
    cases b with
    | nil => simp [strCmp]
    | cons y b =>
      unfold strCmp
      split
      · rename_i h; intro _; exact utf8_lt h _ _
      · split
        · simp
        · rename_i h1 h2
          have : x = y := Char.toNat_inj.1 (by omega)
          subst this
          intro h
          simp only [bytes, List.flatMap_cons]
          exact (bytesLt_append_left _).2 (ih h)

/-- `strCmp` is the byte-wise order of `str::cmp` -/
theorem strCmp_lt_iff {a b : Str} : strCmp a b = .lt ↔ BytesLt (bytes a) (bytes b) := by
  constructor
  · exact strCmp_lt_iff_aux
  · intro h
    cases hc : strCmp a b with
    | lt => rfl
    | eq => rw [strCmp_eq.1 hc] at h; exact absurd h (bytesLt_irrefl _)
    | gt => exact absurd (strCmp_lt_iff_aux (strCmp_gt.1 hc)) (bytesLt_asymm h)

theorem bytes_inj {a b : Str} (h : bytes a = bytes b) : a = b := by
  cases hc : strCmp a b with
  | eq => exact strCmp_eq.1 hc
  | lt => have := strCmp_lt_iff.1 hc; rw [h] at this; exact absurd this (bytesLt_irrefl _)
  | gt => have := strCmp_lt_iff.1 (strCmp_gt.1 hc); rw [h] at this; exact absurd this (bytesLt_irrefl _)

/-! ## attribute order -/

theorem startsWith_xmlns {k : Str} : startsWith k c%"xmlns" = true ↔ IsXmlns k := startsWith_iff

theorem attrLt_of {x y : Str × Str} (hne : x.1 ≠ y.1) : attributeOrder x y ≠ .gt ↔ AttrLt x.1 y.1 := by
  unfold attributeOrder AttrLt
  simp only [hne, if_false]
  rw [← strCmp_lt_iff]
  have hx := startsWith_xmlns (k := x.1)
  have hy := startsWith_xmlns (k := y.1)
  have hc : strCmp x.1 y.1 ≠ .gt ↔ strCmp x.1 y.1 = .lt := by
    have : strCmp x.1 y.1 ≠ .eq := fun h => hne (strCmp_eq.1 h)
    cases h : strCmp x.1 y.1 <;> simp_all
  by_cases h1 : IsXmlns x.1 <;> by_cases h2 : IsXmlns y.1 <;>
    simp only [h1, h2, iff_true, iff_false, Bool.not_eq_true] at hx hy <;> simp [hx, hy, h1, h2, hc]

theorem bytesLt_trans {s t u : List Nat} (h1 : BytesLt s t) (h2 : BytesLt t u) : BytesLt s u := by
  induction h1 generalizing u with
  | nil => cases h2 <;> exact .nil
  | lt h => cases h2 with
    | lt h' => exact .lt (by omega)
    | cons h' => exact .lt h
  | cons _ ih => cases h2 with
    | lt h' => exact .lt h'
    | cons h' => exact .cons (ih h')

theorem attrLt_irrefl (a : Str) : ¬ AttrLt a a := by
  rintro (⟨h, h'⟩ | ⟨-, h⟩)
  · exact h' h
  · exact bytesLt_irrefl _ h

theorem attrLt_trans {a b c : Str} (h1 : AttrLt a b) (h2 : AttrLt b c) : AttrLt a c := by
  rcases h1 with ⟨h1, h1'⟩ | ⟨h1, h1'⟩
  · rcases h2 with ⟨h2, h2'⟩ | ⟨h2, h2'⟩
    · exact absurd h2 h1'
    · exact .inl ⟨h1, fun h => h1' (h2.2 h)⟩
  · rcases h2 with ⟨h2, h2'⟩ | ⟨h2, h2'⟩
    · exact .inl ⟨h1.2 h2, h2'⟩
    · exact .inr ⟨h1.trans h2, bytesLt_trans h1' h2'⟩

theorem attrLt_total {a b : Str} (h : a ≠ b) : AttrLt a b ∨ AttrLt b a := by
  by_cases h1 : IsXmlns a
  · by_cases h2 : IsXmlns b
    · cases hc : strCmp a b with
      | eq => exact absurd (strCmp_eq.1 hc) h
      | lt => exact .inl (.inr ⟨by simp [h1, h2], strCmp_lt_iff.1 hc⟩)
      | gt => exact .inr (.inr ⟨by simp [h1, h2], strCmp_lt_iff.1 (strCmp_gt.1 hc)⟩)
    · exact .inl (.inl ⟨h1, h2⟩)
  · by_cases h2 : IsXmlns b
    · exact .inr (.inl ⟨h2, h1⟩)
    · cases hc : strCmp a b with
      | eq => exact absurd (strCmp_eq.1 hc) h
      | lt => exact .inl (.inr ⟨by simp [h1, h2], strCmp_lt_iff.1 hc⟩)
      | gt => exact .inr (.inr ⟨by simp [h1, h2], strCmp_lt_iff.1 (strCmp_gt.1 hc)⟩)

/-! ## sorting -/

theorem insertSorted_perm (x : Str × Str) (l : List (Str × Str)) : (insertSorted x l).Perm (x :: l) := by
  induction l with
  | nil => exact .refl _
  | cons y l ih =>
    unfold insertSorted
    split
    · exact (ih.cons y).trans (.swap _ _ _)
    · exact .refl _

theorem sortAttrs_perm (l : List (Str × Str)) : (sortAttrs l).Perm l := by
  induction l with
  | nil => exact .refl _
  | cons x l ih => exact (insertSorted_perm _ _).trans (ih.cons x)

theorem insertSorted_pairwise {x : Str × Str} {l : List (Str × Str)} (hx : x.1 ∉ l.map Prod.fst)
    (h : l.Pairwise (fun a b => AttrLt a.1 b.1)) :
    (insertSorted x l).Pairwise (fun a b => AttrLt a.1 b.1) := by
  induction l with
  | nil => simp [insertSorted]
  | cons y l ih =>
    simp only [List.map_cons, List.mem_cons, not_or] at hx
    rw [List.pairwise_cons] at h
    unfold insertSorted
    split
    · rename_i hg
      have hg : attributeOrder x y = .gt := by simpa using hg
      have hyx : AttrLt y.1 x.1 := by
        rcases attrLt_total hx.1 with h' | h'
        · exact absurd hg ((attrLt_of hx.1).2 h')
        · exact h'
      rw [List.pairwise_cons]
      refine ⟨?_, ih hx.2 h.2⟩
      intro z hz
      rcases List.mem_cons.1 ((insertSorted_perm x l).mem_iff.1 hz) with rfl | hz
      · exact hyx
      · exact h.1 z hz
    · rename_i hg
      have hxy : AttrLt x.1 y.1 := (attrLt_of hx.1).1 (by simpa using hg)
      rw [List.pairwise_cons, List.pairwise_cons]
      refine ⟨?_, h⟩
      intro z hz
      rcases List.mem_cons.1 hz with rfl | hz
      · exact hxy
      · exact attrLt_trans hxy (h.1 z hz)

theorem sortAttrs_pairwise {l : List (Str × Str)} (h : (l.map Prod.fst).Nodup) :
    (sortAttrs l).Pairwise (fun a b => AttrLt a.1 b.1) := by
  induction l with
  | nil => simp [sortAttrs]
  | cons x l ih =>
    simp only [List.map_cons, List.nodup_cons] at h
    apply insertSorted_pairwise _ (ih h.2)
    rw [((sortAttrs_perm l).map Prod.fst).mem_iff]
    exact h.1

/-- a strictly sorted permutation is unique -/
theorem sorted_unique {l l' : List (Str × Str)} (hp : l.Perm l')
    (h : l.Pairwise (fun a b => AttrLt a.1 b.1)) (h' : l'.Pairwise (fun a b => AttrLt a.1 b.1)) : l = l' := by
  refine List.Perm.eq_of_pairwise ?_ h h' hp
  intro a b _ _ h1 h2
  exact absurd (attrLt_trans h1 h2) (attrLt_irrefl _)

theorem sortAttrs_congr {l l' : List (Str × Str)} (hp : l.Perm l') (h : (l.map Prod.fst).Nodup) :
    sortAttrs l = sortAttrs l' := by
  apply sorted_unique
  · exact (sortAttrs_perm l).trans (hp.trans (sortAttrs_perm l').symm)
  · exact sortAttrs_pairwise h
  · exact sortAttrs_pairwise (((hp.map Prod.fst).nodup_iff).1 h)

theorem attrsToString_eq (l : List (Str × Str)) :
    attrsToString l = l.flatMap (fun kv => c%" " ++ kv.1 ++ c%"=\"" ++ attributeEscape kv.2 ++ c%"\"") := by
  induction l with
  | nil => rfl
  | cons x l ih => obtain ⟨k, v⟩ := x; simp [attrsToString, ih]

end KissXml
