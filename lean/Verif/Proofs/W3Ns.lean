import Verif.Spec.W3Ns
import Verif.Proofs.ScopeExact
/-!
# Namespaces in XML
-/
namespace KissXml
open Spec

theorem nearest_append (k : Str) (a b : List Element) : nearest k (a ++ b) = (nearest k a).or (nearest k b) := by
  unfold nearest
  rw [List.findSome?_append]

/-- either all elements around have no prefix, or there is a first prefixed one -/
theorem first_prefixed (up : List Element) : (up.takeWhile (fun a => a.pfx.isNone) = up) ∨
    ∃ a q b, up = a ++ q :: b ∧ up.takeWhile (fun a => a.pfx.isNone) = a ∧ q.pfx.isSome := by
  induction up with
  | nil => exact .inl rfl
  | cons y up ih =>
    cases hy : y.pfx with
    | some p => exact .inr ⟨[], y, up, rfl, by simp [hy], by simp [hy]⟩
    | none =>
      rw [List.takeWhile_cons_of_pos (by simp [hy])]
      rcases ih with ih | ⟨a, q, b, rfl, h2, h3⟩
      · exact .inl (by rw [ih])
      · exact .inr ⟨y :: a, q, b, rfl, by rw [h2], h3⟩

/-- the default namespace the library finds, and what is beyond it -/
theorem nearest_default (e : Element) (up : List Element) :
    nearest c%"xmlns" (e :: up) = (nearest c%"xmlns" (e :: up.takeWhile fun a => a.pfx.isNone)).or
      (nearest c%"xmlns" (up.dropWhile fun a => a.pfx.isNone)) := by
  rw [← nearest_append, List.cons_append, List.takeWhile_append_dropWhile]

theorem resolved_usual {e : Element} {up : List Element} (h : UsualNs e up) : resolved e up = nsName e up := by
  unfold UsualNs at h
  unfold resolved nsName
  cases hp : e.pfx with
  | some p =>
    rw [hp] at h
    simp only at h ⊢
    have hn : (e.attrs.get (c%"xmlns:" ++ p)).or ((nearest (c%"xmlns:xmlns:" ++ p) up).or (nearest (c%"xmlns:" ++ p) up)) =
        nearest (c%"xmlns:" ++ p) (e :: up) := by
      rw [nearest_cons]
      rcases h.1 with h1 | h1
      · obtain ⟨v, hv⟩ := Option.isSome_iff_exists.1 h1
        rw [hv]; rfl
      · rw [h1]; rfl
    rw [hn]
    split
    · rename_i hx; subst hx; exact h.2 rfl
    · rfl
  | none =>
    rw [hp] at h
    simp only at h ⊢
    have hn : nearest c%"xmlns" (e :: up.takeWhile fun a => a.pfx.isNone) = nearest c%"xmlns" (e :: up) := by
      rcases first_prefixed up with h1 | ⟨a, q, b, h1, h2, h3⟩
      · rw [h1]
      · rw [h2]
        have := h.2 a q b h1 h3
        rw [h1, show e :: (a ++ q :: b) = (e :: a) ++ q :: b from rfl, nearest_append]
        rcases this with h4 | h4
        · obtain ⟨v, hv⟩ := Option.isSome_iff_exists.1 h4
          rw [hv]; rfl
        · rw [h4, Option.or_none]
    rw [hn]
    cases hv : nearest c%"xmlns" (e :: up) with
    | none => rfl
    | some v =>
      have : v ≠ [] := fun e => h.1 (by rw [hv, e])
      simp [Option.filter, this]

theorem defaultNs_exact {e : Element} {up : List Element} (hp : e.pfx = none) : resolved e up = nsName e up ↔
    resolved e up ≠ some [] ∧ (resolved e up = none → (nearest c%"xmlns" (up.dropWhile fun a => a.pfx.isNone)).getD [] = []) := by
  unfold resolved nsName
  rw [hp]
  simp only
  rw [nearest_default e up]
  cases nearest c%"xmlns" (e :: up.takeWhile fun a => a.pfx.isNone) with
  | none =>
    simp only [Option.none_or]
    cases nearest c%"xmlns" (up.dropWhile fun a => a.pfx.isNone) with
    | none => simp
    | some v =>
      by_cases hv : v = []
      · simp [Option.filter, hv]
      · simp [Option.filter, hv]
  | some v =>
    by_cases hv : v = []
    · simp [Option.filter, hv]
    · simp [Option.filter, hv]

theorem prefixNs_exact {e : Element} {up : List Element} {p : Str} (hp : e.pfx = some p) (hx : p ≠ c%"xml") : resolved e up = nsName e up ↔
    ((e.attrs.get (c%"xmlns:" ++ p)).isSome ∨ nearest (c%"xmlns:xmlns:" ++ p) up = none ∨
      nearest (c%"xmlns:xmlns:" ++ p) up = nearest (c%"xmlns:" ++ p) up) := by
  unfold resolved nsName
  rw [hp]
  simp only [hx, if_false]
  rw [nearest_cons]
  cases e.attrs.get (c%"xmlns:" ++ p) with
  | some v => simp
  | none =>
    simp only [Option.none_or, Option.isSome_none, Bool.false_eq_true, false_or]
    cases nearest (c%"xmlns:xmlns:" ++ p) up with
    | none => simp
    | some v => simp

end KissXml
