import Verif.Proofs.Tokens
import Verif.Proofs.Arena
/-!
# Splitting a tag into components
-/
namespace KissXml
open Spec

/-! ## prefixes and suffixes that do not overlap -/

theorem prefix_suffix_len {p q s : Str} (hp : p <+: s) (hq : q <:+ s) (hl : p.length + q.length ≤ s.length) :
    ∃ m, s = p ++ m ++ q := by
  obtain ⟨u, rfl⟩ := hp
  obtain ⟨v, hv⟩ := hq
  have hlen : p.length ≤ v.length := by
    have := congrArg List.length hv; simp at this hl; omega
  rcases List.append_eq_append_iff.1 hv with ⟨w, hw, hw'⟩ | ⟨w, rfl, rfl⟩
  · have : w = [] := by
      have := congrArg List.length hw; simp at this; exact List.length_eq_zero_iff.1 (by omega)
    subst this
    exact ⟨[], by simpa using hw'.symm⟩
  · exact ⟨w, by simp⟩

theorem prefix_suffix_head {p q s : Str} {c : Char} (hp : p <+: s) (hq : c :: q <:+ s) (hc : c ∉ p) :
    ∃ m, s = p ++ m ++ (c :: q) := by
  obtain ⟨u, rfl⟩ := hp
  obtain ⟨v, hv⟩ := hq
  rcases List.append_eq_append_iff.1 hv with ⟨w, rfl, hw'⟩ | ⟨w, rfl, rfl⟩
  · cases w with
    | nil => exact ⟨[], by simpa using hw'.symm⟩
    | cons d w => simp at hw'; rw [hw'.1] at hc; simp at hc
  · exact ⟨w, by simp⟩

/-! ## trim -/

theorem dropWhile_suffix {α : Type} (p : α → Bool) (s : List α) : s.dropWhile p <:+ s := List.dropWhile_suffix p

theorem trim_infix (s : Str) : trim s <:+: s := by
  unfold trim
  obtain ⟨a, ha⟩ := dropWhile_suffix isWs s
  obtain ⟨b, hb⟩ := dropWhile_suffix isWs (s.dropWhile isWs).reverse
  have := congrArg List.reverse hb
  simp only [List.reverse_append, List.reverse_reverse] at this
  exact ⟨a, b.reverse, by rw [List.append_assoc, this, ha]⟩

theorem dropWhile_ws_append {w s : Str} (hw : w.all isWs = true) : (w ++ s).dropWhile isWs = s.dropWhile isWs := by
  induction w with
  | nil => rfl
  | cons c w ih =>
    simp only [List.all_cons, Bool.and_eq_true] at hw
    simp [hw.1, ih hw.2]

theorem dropWhile_head {s : Str} (h : ∀ c, s.head? = some c → isWs c = false) : s.dropWhile isWs = s := by
  cases s with
  | nil => rfl
  | cons c s => simp [h c rfl]

/-- a string is trimmed to its middle part -/
theorem trim_eq {w1 s w2 : Str} (h1 : w1.all isWs = true) (h2 : w2.all isWs = true)
    (hh : ∀ c, s.head? = some c → isWs c = false) (hl : ∀ c, s.getLast? = some c → isWs c = false) :
    trim (w1 ++ s ++ w2) = s := by
  unfold trim
  rw [List.append_assoc, dropWhile_ws_append h1]
  by_cases hs : s = []
  · subst hs
    have : (([] : Str) ++ w2).dropWhile isWs = [] := by
      have := dropWhile_ws_append (w := w2) (s := []) h2
      simpa using this
    rw [this]; rfl
  · have : (s ++ w2).dropWhile isWs = s ++ w2 := by
      apply dropWhile_head
      intro c hc
      apply hh
      cases s with
      | nil => exact absurd rfl hs
      | cons d s => simpa using hc
    rw [this, List.reverse_append, dropWhile_ws_append (by simpa using h2), dropWhile_head, List.reverse_reverse]
    intro c hc
    apply hl
    rwa [List.head?_reverse] at hc

/-! ## `strip_tag` -/

theorem drop1_ascii {c : Char} (hc : c.utf8Size = 1) {s : Str} (h : startsWith s [c] = true) :
    ∃ u, dropB 1 s = some u ∧ s = c :: u := by
  obtain ⟨u, rfl⟩ := startsWith_iff.1 h
  exact ⟨u, dropB_eq_some.2 ⟨[c], rfl, by simp [hc]⟩, rfl⟩

theorem takeLast_ascii {c : Char} (hc : c.utf8Size = 1) {s : Str} (h : endsWith s [c] = true) :
    ∃ u, takeB (blen s - 1) s = some u ∧ s = u ++ [c] := by
  obtain ⟨u, rfl⟩ := endsWith_iff.1 h
  exact ⟨u, takeB_eq_some.2 ⟨[c], rfl, by simp [hc]⟩, rfl⟩

theorem stripTag_infix (tag : Str) : ∃ s, stripTag tag = some s ∧ s <:+: tag := by
  have h1 : ∃ t1, (if startsWith tag c%"<" then dropB 1 tag else some tag) = some t1 ∧ t1 <:+: tag := by
    split
    · rename_i h
      obtain ⟨u, hu, hs⟩ := drop1_ascii (by decide) h
      exact ⟨u, hu, by rw [hs]; exact (List.suffix_cons _ _).isInfix⟩
    · exact ⟨tag, rfl, List.infix_rfl⟩
  obtain ⟨t1, e1, i1⟩ := h1
  have h2 : ∃ t2, (if startsWith t1 c%"/" then dropB 1 t1 else some t1) = some t2 ∧ t2 <:+: tag := by
    split
    · rename_i h
      obtain ⟨u, hu, hs⟩ := drop1_ascii (by decide) h
      exact ⟨u, hu, List.IsInfix.trans (by rw [hs]; exact (List.suffix_cons _ _).isInfix) i1⟩
    · exact ⟨t1, rfl, i1⟩
  obtain ⟨t2, e2, i2⟩ := h2
  have h3 : ∃ t3, (if endsWith t2 c%">" then takeB (blen t2 - 1) t2 else some t2) = some t3 ∧ t3 <:+: tag := by
    split
    · rename_i h
      obtain ⟨u, hu, hs⟩ := takeLast_ascii (by decide) h
      exact ⟨u, hu, List.IsInfix.trans (by rw [hs]; exact (List.prefix_append _ _).isInfix) i2⟩
    · exact ⟨t2, rfl, i2⟩
  obtain ⟨t3, e3, i3⟩ := h3
  have h4 : ∃ t4, (if endsWith t3 c%"/" then takeB (blen t3 - 1) t3 else some t3) = some t4 ∧ t4 <:+: tag := by
    split
    · rename_i h
      obtain ⟨u, hu, hs⟩ := takeLast_ascii (by decide) h
      exact ⟨u, hu, List.IsInfix.trans (by rw [hs]; exact (List.prefix_append _ _).isInfix) i3⟩
    · exact ⟨t3, rfl, i3⟩
  obtain ⟨t4, e4, i4⟩ := h4
  refine ⟨trim t4, ?_, (trim_infix t4).trans i4⟩
  unfold stripTag
  rw [e1, Option.bind_some, e2, Option.bind_some, e3, Option.bind_some, e4, Option.bind_some]

/-! ## `quote_aware_split` -/

theorem qasLoop_infix (b : Str) (q : Option Char) (s : Str) : ∀ x ∈ qasLoop b q s, x <:+: b ++ s := by
  induction s generalizing b q with
  | nil =>
    intro x hx
    cases q <;> (unfold qasLoop at hx; split at hx <;> simp at hx; subst hx; simp)
  | cons c s ih =>
    have h1 : ∀ q, ∀ x ∈ qasLoop (b ++ [c]) q s, x <:+: b ++ c :: s := by
      intro q x hx
      simpa using ih (b ++ [c]) q x hx
    have h2 : ∀ x ∈ qasLoop [] none s, x <:+: b ++ c :: s := by
      intro x hx
      exact (ih [] none x hx).trans ⟨b ++ [c], [], by simp⟩
    cases q with
    | some q =>
      intro x hx
      unfold qasLoop at hx
      split at hx
      · exact h1 _ x hx
      · exact h1 _ x hx
    | none =>
      intro x hx
      unfold qasLoop at hx
      split at hx
      · exact h1 _ x hx
      · split at hx
        · split at hx
          · rename_i hb
            have : b = [] := by simpa using hb
            subst this
            exact h2 x hx
          · rcases List.mem_cons.1 hx with rfl | hx
            · exact ⟨[], c :: s, by simp⟩
            · exact h2 x hx
        · exact h1 _ x hx

theorem split_infix {t x : Str} (h : x ∈ quoteAwareSplit t) : x <:+: t := by
  simpa using qasLoop_infix [] none t x h

/-! ## pieces of the input -/

/-- A substring of `x`, or two pieces put together at an `=`, or a substring of a piece. -/
inductive Piece (x : Str) : Str → Prop
  | whole {s : Str} : s <:+: x → Piece x s
  | join {a b : Str} : Piece x a → Piece x b → (c%"=" <:+ a ∨ c%"=" <+: b) → Piece x (a ++ b)
  | part {s t : Str} : Piece x s → t <:+: s → Piece x t

theorem needsMerge_iff {a b : Str} {l : List Str} (h : needsMerge a (b :: l) = true) : c%"=" <:+ a ∨ c%"=" <+: b := by
  simpa [needsMerge, endsWith_iff, startsWith_iff] using h

theorem joinLoop_piece {x : Str} (n : Nat) : ∀ l : List Str, l.length ≤ n → (∀ s ∈ l, Piece x s) → ∀ s ∈ joinLoop l, Piece x s := by
  induction n with
  | zero =>
    intro l hl h s hs
    have : l = [] := List.length_eq_zero_iff.1 (by omega)
    subst this
    simp [joinLoop] at hs
  | succ n ih =>
    intro l hl h s hs
    match l, hl, h, hs with
    | [], _, _, hs => simp [joinLoop] at hs
    | [a], _, h, hs => simp [joinLoop] at hs; exact h s (by simp [hs])
    | [a, b], hl, h, hs =>
      unfold joinLoop at hs
      split at hs
      · rename_i hm
        simp at hs; subst hs
        exact .join (h a (by simp)) (h b (by simp)) (needsMerge_iff hm)
      · rcases List.mem_cons.1 hs with rfl | hs
        · exact h _ (by simp)
        · exact ih [b] (by simp at hl ⊢; omega) (fun s hs => h s (by simp at hs; simp [hs])) s hs
    | a :: b :: c :: r, hl, h, hs =>
      have hr : ∀ s ∈ joinLoop r, Piece x s := ih r (by simp at hl; omega) (fun s hs => h s (by simp [hs]))
      have hcr : ∀ s ∈ joinLoop (c :: r), Piece x s :=
        ih (c :: r) (by simp at hl ⊢; omega) (fun s hs => h s (by simp at hs; rcases hs with hs | hs <;> simp [hs]))
      have hbcr : ∀ s ∈ joinLoop (b :: c :: r), Piece x s :=
        ih (b :: c :: r) (by simp at hl ⊢; omega)
          (fun s hs => h s (by simp at hs; rcases hs with hs | hs | hs <;> simp [hs]))
      unfold joinLoop at hs
      split at hs
      · rename_i hm
        have hab : Piece x (a ++ b) := .join (h a (by simp)) (h b (by simp)) (needsMerge_iff hm)
        split at hs
        · rename_i hm2
          rcases List.mem_cons.1 hs with rfl | hs
          · exact .join hab (h c (by simp)) (needsMerge_iff hm2)
          · exact hr s hs
        · rcases List.mem_cons.1 hs with rfl | hs
          · exact hab
          · exact hcr s hs
      · rcases List.mem_cons.1 hs with rfl | hs
        · exact h _ (by simp)
        · exact hbcr s hs

theorem joined_piece {x t : Str} (h : t <:+: x) : ∀ s ∈ (joinSpacedAttributes (quoteAwareSplit t)).drop 1, Piece x s := by
  intro s hs
  have hp : ∀ s ∈ quoteAwareSplit t, Piece x s := fun s hs => .whole ((split_infix hs).trans h)
  cases hq : quoteAwareSplit t with
  | nil => simp [hq, joinSpacedAttributes] at hs
  | cons a l =>
    rw [hq] at hs hp
    simp only [joinSpacedAttributes, List.drop_succ_cons, List.drop_zero] at hs
    exact joinLoop_piece l.length l (Nat.le_refl _) (fun s hs => hp s (by simp [hs])) s hs

end KissXml
