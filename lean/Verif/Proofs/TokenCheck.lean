import Verif.Proofs.Misc
/-!
# Checkers for `Parts` and `OneRoot` (used by examples)
-/
namespace KissXml
open Spec

/-- the source of a list of tokens -/
def tokSrc : List (Str × Str) → Str → Str
  | [], tail => tail
  | (text, tag) :: l, tail => text ++ (tag ++ tokSrc l tail)

/-- check `Lexes` -/
def lexesB (toks : List (Str × Str)) (tail : Str) : Bool :=
  toks.all (fun t => !t.1.contains '<' && c%"<".isPrefixOf t.2 && tagLen t.2 == some (blen t.2)) && !tail.contains '<'

theorem lexesB_sound : {toks : List (Str × Str)} → {tail : Str} → lexesB toks tail = true → Lexes (tokSrc toks tail) toks tail
  | [], tail, h => .done (by simpa [lexesB, tokSrc] using h)
  | (text, tag) :: l, tail, h => by
    simp only [lexesB, List.all_cons, Bool.and_eq_true, Bool.not_eq_true', beq_iff_eq, List.isPrefixOf_iff_prefix] at h
    obtain ⟨⟨⟨⟨h1, h2⟩, h3⟩, h4⟩, h5⟩ := h
    refine .tag (by simpa using h1) (tagAt_append _ (tagAt_self h2 h3)) rfl (lexesB_sound ?_)
    simp only [lexesB, Bool.and_eq_true, Bool.not_eq_true']
    refine ⟨?_, h5⟩
    rw [List.all_eq_true] at h4 ⊢
    intro t ht
    have := h4 t ht
    simpa using this

/-- prolog tags -/
def isPrologB (t : Str) : Bool := c%"<?xml".isPrefixOf t || c%"<!".isPrefixOf t

theorem isPrologB_iff {t : Str} : isPrologB t = true ↔ IsProlog t := by
  simp [isPrologB, IsProlog, List.isPrefixOf_iff_prefix]

/-- check `Parts` -/
def partsB (pre rest : List (Str × Str)) (tail : Str) : Bool :=
  lexesB (pre ++ rest) tail && pre.all (fun t => isPrologB t.2) && (rest.head?.all fun t => !isPrologB t.2)

theorem partsB_sound {x : Str} {pre rest : List (Str × Str)} (tail : Str) (h : partsB pre rest tail = true)
    (hx : x = tokSrc (pre ++ rest) tail) : Parts x pre rest := by
  subst hx
  simp only [partsB, Bool.and_eq_true, List.all_eq_true] at h
  obtain ⟨⟨h1, h2⟩, h3⟩ := h
  refine ⟨⟨tail, lexesB_sound h1⟩, fun t ht => isPrologB_iff.1 (h2 t ht), ?_⟩
  rintro t r rfl
  intro hp
  rw [isPrologB_iff.2 hp |> fun h => show (List.head? (t :: r)).all (fun t => !isPrologB t.2) = false by simp [h]] at h3
  cases h3

/-- check `OneRoot` -/
def oneRootB (d : Int) : List Str → Bool
  | [] => true
  | [_] => true
  | t :: l => decide (0 < d + delta t) && oneRootB (d + delta t) l

theorem oneRootB_sound' : {l : List Str} → {d : Int} → oneRootB d l = true → ∀ a b, l = a ++ b → a ≠ [] → b ≠ [] → 0 < d + depth a
  | [], d, _, a, b, h, ha, hb => by simp at h; exact absurd h.1 ha
  | [t], d, _, a, b, h, ha, hb => by
    cases a with
    | nil => exact absurd rfl ha
    | cons x a =>
      simp only [List.cons_append, List.cons.injEq] at h
      have := h.2.symm
      simp at this
      exact absurd this.2 hb
  | t :: u :: l, d, hr, a, b, h, ha, hb => by
    simp only [oneRootB, Bool.and_eq_true, decide_eq_true_eq] at hr
    cases a with
    | nil => exact absurd rfl ha
    | cons x a =>
      simp only [List.cons_append, List.cons.injEq] at h
      obtain ⟨rfl, h⟩ := h
      rw [depth_cons]
      by_cases h0 : a = []
      · subst h0
        simpa [depth] using hr.1
      · have := oneRootB_sound' hr.2 a b h h0 hb
        omega

theorem oneRootB_sound {l : List Str} (h : oneRootB 0 l = true) : OneRoot l := by
  intro a b hab ha hb
  simpa using oneRootB_sound' h a b hab ha hb

end KissXml
