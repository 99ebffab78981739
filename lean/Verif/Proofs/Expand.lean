import Verif.Proofs.Variant
import Verif.Proofs.SyntaxExact
import Verif.Proofs.TagNames
/-!
# `<a/>` and `<a></a>` in any accepted input
-/
namespace KissXml
open Spec

theorem kind_empty_of {tag : Str} (h : kind tag = .empty) : ¬ c%"<!" <+: tag ∧ ¬ c%"</" <+: tag ∧ c%"/>" <:+ tag := by
  unfold kind at h
  split at h
  · cases h
  · split at h
    · cases h
    · split at h
      · exact ⟨‹_›, ‹_›, ‹_›⟩
      · cases h

theorem kind_start_of {tag : Str} (h : kind tag = .start) : ¬ c%"<!" <+: tag ∧ ¬ c%"</" <+: tag ∧ ¬ c%"/>" <:+ tag := by
  unfold kind at h
  split at h
  · cases h
  · split at h
    · cases h
    · split at h
      · cases h
      · exact ⟨‹_›, ‹_›, ‹_›⟩

theorem inner_slash {m s : Str} (h1 : kind (c%"<" ++ m ++ c%"/>") = .empty) (h2 : kind (c%"<" ++ m ++ c%">") = .start) :
    Inner (c%"<" ++ m ++ c%"/>") s ↔ Inner (c%"<" ++ m ++ c%">") s := by
  obtain ⟨-, g1, -⟩ := kind_empty_of h1
  obtain ⟨-, g2, g3⟩ := kind_start_of h2
  have hm : ¬ c%"/" <:+ m := by
    rintro ⟨u, rfl⟩
    exact g3 ⟨c%"<" ++ u, by simp⟩
  constructor
  · rintro ⟨a, m', b, w1, w2, ht, ha, hb, hs⟩
    rcases ha with rfl | ⟨rfl, -⟩
    · exact absurd ⟨m' ++ b, by rw [ht]; simp⟩ g1
    rw [List.append_assoc, List.append_assoc] at ht
    have ht := List.append_cancel_left ht
    rcases hb with rfl | ⟨rfl, hb⟩
    · obtain rfl := List.append_cancel_right ht
      exact ⟨_, _, _, w1, w2, rfl, .inr ⟨rfl, g2⟩, .inr ⟨rfl, hm⟩, hs⟩
    · have ht : m ++ c%"/" ++ c%">" = m' ++ c%">" := by rw [← ht]; simp
      exact absurd ⟨m, List.append_cancel_right ht⟩ hb
  · rintro ⟨a, m', b, w1, w2, ht, ha, hb, hs⟩
    rcases ha with rfl | ⟨rfl, -⟩
    · exact absurd ⟨m' ++ b, by rw [ht]; simp⟩ g2
    rw [List.append_assoc, List.append_assoc] at ht
    have ht := List.append_cancel_left ht
    rcases hb with rfl | ⟨rfl, hb⟩
    · have ht : m ++ c%">" = m' ++ c%"/" ++ c%">" := by rw [ht]; simp
      exact absurd ⟨m', (List.append_cancel_right ht).symm⟩ hm
    · obtain rfl := List.append_cancel_right ht
      exact ⟨_, _, _, w1, w2, rfl, .inr ⟨rfl, g1⟩, .inl rfl, hs⟩

theorem pieces_slash {m n : Str} {ps : List Str} (h1 : kind (c%"<" ++ m ++ c%"/>") = .empty) (h2 : kind (c%"<" ++ m ++ c%">") = .start) :
    Pieces (c%"<" ++ m ++ c%"/>") n ps ↔ Pieces (c%"<" ++ m ++ c%">") n ps := by
  constructor
  · rintro ⟨s, ws, h, h'⟩
    exact ⟨s, ws, (inner_slash h1 h2).1 h, h'⟩
  · rintro ⟨s, ws, h, h'⟩
    exact ⟨s, ws, (inner_slash h1 h2).2 h, h'⟩

theorem angled_mk (m : Str) : Angled (c%"<" ++ m ++ c%"/>") ∧ Angled (c%"<" ++ m ++ c%">") := ⟨⟨m ++ c%"/", by simp⟩, ⟨m, rfl⟩⟩

theorem opens_pieces {p : Option Element} {tag : Str} {e : Element} (h : Opens p tag e) (ha : Angled tag) :
    ∃ ps, Pieces tag e.tagName ps ∧ GoodPieces ps ∧ ¬ BadTag tag := by
  obtain ⟨-, -, hr, t, attrs, n1, n', x, q, g1, hN⟩ := h
  obtain ⟨comps, buf, pos, g2, g3⟩ := hN.attrs_ok
  rw [newElem_tagName hN]
  exact ⟨_, pieces_split (inner_iff.2 ⟨g1, ha⟩) g2, goodPieces_ok g3, not_bad.2 hr⟩

theorem pieces_name {tag n : Str} {ps : List Str} (h : Pieces tag n ps) (ht : ∀ s, Inner tag s → Trimmed s) : OpenName tag n := by
  obtain ⟨s, ws, h1, h2, -⟩ := h
  exact ⟨s, h1, words_first h2 (ht s h1)⟩

theorem inner_trimmed {tag s : Str} (h : Inner tag s) : Trimmed s := by
  obtain ⟨-, -, -, -, -, -, -, -, -, -, -, h⟩ := h
  exact h

theorem rewritten_expanded {l l' : List (Str × Str)} (h : Expanded l l') (ho : ∀ t ∈ l, Opening t.2 → ∃ p c, Opens p t.2 c) : Rewritten l l' := by
  induction h with
  | nil => exact .nil
  | cons _ ih => exact .cons ⟨.same rfl, .same rfl⟩ (ih fun t ht => ho t (by simp [ht]))
  | @elem text m n w c l l' h1 h2 h3 h4 h5 h6 h7 _ ih =>
    obtain ⟨p, e, hO⟩ := ho (text, c%"<" ++ m ++ c%"/>") (by simp) (.inr h1)
    obtain ⟨ps, g1, g2, g3⟩ := opens_pieces hO (angled_mk m).1
    have := openName_unique (pieces_name g1 fun _ => inner_trimmed) h3
    subst this
    refine .expand (.same rfl) h1 h2 ⟨ps, ps, g1, (pieces_slash h1 h2).1 g1, ?_, g2, fun _ _ => Iff.rfl⟩ h4 h5 h6 h7
      (ih fun t ht => ho t (by simp [ht]))
    exact fun h => g3 ((bad_slash (kind_start_of h2).2.2).1 h)

theorem rewritten_collapsed {l l' : List (Str × Str)} (h : Expanded l l') (ho : ∀ t ∈ l', Opening t.2 → ∃ p c, Opens p t.2 c) : Rewritten l' l := by
  induction h with
  | nil => exact .nil
  | cons _ ih => exact .cons ⟨.same rfl, .same rfl⟩ (ih fun t ht => ho t (by simp [ht]))
  | @elem text m n w c l l' h1 h2 h3 h4 h5 h6 h7 _ ih =>
    obtain ⟨p, e, hO⟩ := ho (text, c%"<" ++ m ++ c%">") (by simp) (.inl h2)
    obtain ⟨ps, g1, g2, g3⟩ := opens_pieces hO (angled_mk m).2
    refine .collapse (.same rfl) h2 h1 ⟨ps, ps, g1, (pieces_slash h1 h2).2 g1, ?_, g2, fun _ _ => Iff.rfl⟩ h4 h5
      (ih fun t ht => ho t (by simp [ht]))
    exact fun h => g3 ((bad_slash (kind_start_of h2).2.2).2 h)

/-- where a prefix of the longer list comes from -/
theorem expanded_prefix {l l' : List (Str × Str)} (h : Expanded l l') : ∀ a' b' : List Str, tagsOf l' = a' ++ b' →
    ∃ a b, tagsOf l = a ++ b ∧ ((depth a' = depth a ∧ (a = [] → a' = []) ∧ (b = [] → b' = [])) ∨ (depth a' = depth a + 1 ∧ b ≠ [])) := by
  induction h with
  | nil =>
    intro a' b' h
    obtain ⟨rfl, rfl⟩ := List.append_eq_nil_iff.1 h.symm
    exact ⟨[], [], rfl, .inl ⟨rfl, id, id⟩⟩
  | @cons t l l' _ ih =>
    intro a' b' h
    cases a' with
    | nil => exact ⟨[], tagsOf (t :: l), rfl, .inl ⟨rfl, id, by simp⟩⟩
    | cons u a' =>
      obtain ⟨rfl, h'⟩ := List.cons.inj h
      obtain ⟨a, b, g1, g2⟩ := ih a' b' h'
      refine ⟨t.2 :: a, b, congrArg (t.2 :: ·) g1, ?_⟩
      rcases g2 with ⟨g2, -, g3⟩ | ⟨g2, g3⟩
      · exact .inl ⟨by simp only [depth, List.map_cons, List.sum_cons] at g2 ⊢; omega, by simp, g3⟩
      · exact .inr ⟨by simp only [depth, List.map_cons, List.sum_cons] at g2 ⊢; omega, g3⟩
  | @elem text m n w c l l' h1 h2 h3 h4 h5 h6 h7 _ ih =>
    intro a' b' h
    cases a' with
    | nil => exact ⟨[], _, rfl, .inl ⟨rfl, id, by simp⟩⟩
    | cons u a' =>
      obtain ⟨rfl, h'⟩ := List.cons.inj h
      cases a' with
      | nil => 
        have e2 : delta (c%"<" ++ m ++ c%">") = 1 := by simp only [delta, h2]
        exact ⟨[], _, rfl, .inr ⟨by simp only [depth, List.map_cons, List.map_nil, List.sum_cons, List.sum_nil, e2]; rfl, by simp⟩⟩
      | cons v a' =>
        obtain ⟨rfl, h''⟩ := List.cons.inj h'
        obtain ⟨a, b, g1, g2⟩ := ih a' b' h''
        refine ⟨(c%"<" ++ m ++ c%"/>") :: a, b, congrArg ((c%"<" ++ m ++ c%"/>") :: ·) g1, ?_⟩
        have e1 : delta (c%"<" ++ m ++ c%"/>") = 0 := by simp only [delta, h1]
        have e2 : delta (c%"<" ++ m ++ c%">") = 1 := by simp only [delta, h2]
        have e3 : delta c = -1 := by simp only [delta, h5]
        rcases g2 with ⟨g2, -, g3⟩ | ⟨g2, g3⟩
        · exact .inl ⟨by simp only [depth, List.map_cons, List.sum_cons, e1, e2, e3] at g2 ⊢; omega, by simp, g3⟩
        · exact .inr ⟨by simp only [depth, List.map_cons, List.sum_cons, e1, e2, e3] at g2 ⊢; omega, g3⟩

theorem expanded_one {l l' : List (Str × Str)} (h : Expanded l l') (h1 : OneRoot (tagsOf l)) : OneRoot (tagsOf l') := by
  intro a' b' he ha hb
  obtain ⟨a, b, g1, g2⟩ := expanded_prefix h a' b' he
  rcases g2 with ⟨g2, g3, g4⟩ | ⟨g2, g3⟩
  · rw [g2]
    exact h1 a b g1 (fun h => ha (g3 h)) (fun h => hb (g4 h))
  · rw [g2]
    by_cases h0 : a = []
    · subst h0; decide
    · have := h1 a b g1 h0 g3
      omega

theorem parse_expanded {x x' : Str} {pre rest rest' : List (Str × Str)} (hp : Parts x pre rest) (hp' : Parts x' pre rest')
    (h1 : OneRoot (tagsOf rest)) (hv : Expanded rest rest') :
    (∀ d, parseStr x = .ok d → ∃ d', parseStr x' = .ok d' ∧ d.eq d' = true) ∧
    (∀ d', parseStr x' = .ok d' → ∃ d, parseStr x = .ok d ∧ d'.eq d = true) :=
  ⟨fun _ h => parse_variant h hp hp' h1 (rewritten_expanded hv (accepted_opening h hp)),
    fun _ h => parse_variant h hp' hp (expanded_one hv h1) (rewritten_collapsed hv (accepted_opening h hp'))⟩

end KissXml
