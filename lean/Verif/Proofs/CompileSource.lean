import Verif.Proofs.Compile
import Verif.Proofs.Depth
/-!
# Proofs: sources with many texts

An element with `m` texts, each with an empty comment behind it.
-/
namespace KissXml
open Spec

/-- the element -/
def talk (m : Nat) : Element := ⟨c%"a", pairs c%"x" [] m, .empty, none, none, .empty⟩

theorem pairs_apart (t c : Str) : ∀ (m : Nat) (a b : List Node) (x y : Str), pairs t c m ≠ a ++ .text x :: .text y :: b
  | 0, a, b, x, y => by cases a <;> simp [pairs]
  | m + 1, [], b, x, y => by simp [pairs]
  | m + 1, [n], b, x, y => by simp [pairs]
  | m + 1, n :: n' :: a, b, x, y => by
    have := pairs_apart t c m a b x y
    simp only [pairs, List.cons_append, ne_eq, List.cons.injEq, not_and]
    intro _ _ h
    exact this h

theorem docOrder_pairs (t c : Str) (m : Nat) : docOrderL (pairs t c m) = pairs t c m := by
  induction m with
  | zero => rfl
  | succ m ih => rw [pairs, docOrderL, docOrderL, docOrder, docOrder, ih]; rfl

theorem mem_pairs {t c : Str} {m : Nat} {n : Node} (h : n ∈ pairs t c m) : n = .text t ∨ n = .comment c := by
  induction m with
  | zero => simp [pairs] at h
  | succ m ih =>
    simp only [pairs, List.mem_cons] at h
    rcases h with h | h | h
    · exact .inl h
    · exact .inr h
    · exact ih h

theorem talk_fits (m : Nat) : DocFits ⟨none, [], talk m⟩ := by
  have h1 : DocFits ⟨none, [], talk 1⟩ := docFitsB_sound (by decide)
  have hn : ElemFits (talk 1) := h1.nodes (.element (talk 1)) (by simp [talk, docOrder])
  refine ⟨by simp, rfl, ?_, by simp [talk]⟩
  intro n h
  simp only [talk, docOrder, List.mem_cons, docOrder_pairs] at h
  rcases h with rfl | h
  · exact ⟨hn.name, by simp, hn.attrs, pairs_apart _ _ m⟩
  · rcases mem_pairs h with rfl | rfl
    · exact h1.nodes _ (by simp [talk, docOrder, docOrderL, pairs])
    · exact h1.nodes _ (by simp [talk, docOrder, docOrderL, pairs])

theorem reList_pairs (p : Element) (m : Nat) : reList p (pairs c%"x" [] m) = pairs c%"x" [] m := by
  have : dec (textEscape c%"x") = c%"x" := by decide
  induction m with
  | zero => rfl
  | succ m ih => rw [pairs, reList, reList, reNode, reNode, ih, this]

theorem pairs_bytes (pre u : Str) (m : Nat) : blen (childrenToString pre u true (pairs c%"x" [] m)) = 8 * m := by
  have l1 : blen (textEscape c%"x") = 1 := by decide
  have l2 : blen (commentToString []) = 7 := by decide
  induction m with
  | zero => rfl
  | succ m ih =>
    simp only [pairs, childrenToString, Node.toStringPI, blen_append, ih, l1, l2]
    simp
    omega

theorem talk_bytes (m : Nat) (hm : 0 < m) (i : Str) : blen (Document.toStringWithIndent ⟨none, [], talk m⟩ i) = 8 * m + 8 := by
  obtain ⟨m, rfl⟩ : ∃ k, m = k + 1 := ⟨m - 1, by omega⟩
  have h0 : ∀ u, blen ((talk (m + 1)).toStringPI [] u false) = 8 * (m + 1) + 7 := by
    intro u
    have hw : (talk (m + 1)).toStringPI [] u false = c%"<a>" ++ childrenToString u u true (pairs c%"x" [] (m + 1)) ++ c%"</a>" := by
      simp [talk, ElementF.toStringPI, ElementF.tagName, SMap.empty, sortAttrs, attrsToString, pairs, Node.isText]
    have l1 : blen c%"<a>" = 3 := rfl
    have l2 : blen c%"</a>" = 4 := rfl
    rw [hw, blen_append, blen_append, pairs_bytes, l1, l2]
    omega
  have h3 : headOut none [] = 0 := rfl
  rw [document_eq, h3]
  unfold ElementF.toStringWithIndent
  split <;> simp only [h0] <;> omega

theorem talk_source (m : Nat) (hm : 0 < m) : ∃ x d, parseStr x = .ok d ∧ blen x = 8 * m + 8 ∧ d.root.children = pairs c%"x" [] m := by
  refine ⟨_, _, reparse (talk_fits m) [], talk_bytes m hm [], ?_⟩
  show (reElem none (talk m)).children = _
  rw [reElem_eq]
  exact reList_pairs _ m

end KissXml
