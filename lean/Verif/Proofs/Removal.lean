import Verif.Spec.Removal
import Verif.Proofs.Edit
/-!
# Removing calls, one after the other
-/
namespace KissXml
open Spec

theorem prune_shallow {p q : Node → Bool} (hq : Shallow q) (n : Node) : q (prune p n) = q n := by
  cases n with
  | element e => obtain ⟨n, cs, a, x, f, c⟩ := e; exact hq ⟨n, cs, a, x, f, c⟩ _
  | _ => rfl

mutual
theorem prune_prune {p q : Node → Bool} (hq : Shallow q) : ∀ n : Node, prune q (prune p n) = prune (fun n => p n || q n) n
  | .element ⟨n, cs, a, x, f, c⟩ => by simp only [prune, pruneL_pruneL hq cs]
  | .text _ => rfl
  | .comment _ => rfl
  | .cdata _ => rfl
theorem pruneL_pruneL {p q : Node → Bool} (hq : Shallow q) : ∀ l : List Node, pruneL q (pruneL p l) = pruneL (fun n => p n || q n) l
  | [] => rfl
  | m :: ms => by
    rw [pruneL, pruneL.eq_2 (fun n => p n || q n)]
    by_cases h : p m
    · simp [h, pruneL_pruneL hq ms]
    · rw [if_neg h, pruneL, prune_shallow hq, pruneL_pruneL hq ms, prune_prune hq m]
      simp [h]
end

mutual
theorem hits_prune {p q : Node → Bool} (hq : Shallow q) : ∀ n : Node,
    hits (fun n => p n || q n) n ≤ hits p n + hits q (prune p n)
  | .element ⟨n, cs, a, x, f, c⟩ => by simp only [prune, hits]; exact hitsL_pruneL hq cs
  | .text _ => Nat.zero_le _
  | .comment _ => Nat.zero_le _
  | .cdata _ => Nat.zero_le _
theorem hitsL_pruneL {p q : Node → Bool} (hq : Shallow q) : ∀ l : List Node,
    hitsL (fun n => p n || q n) l ≤ hitsL p l + hitsL q (pruneL p l)
  | [] => Nat.zero_le _
  | m :: ms => by
    have h1 := hits_prune (p := p) hq m
    have h2 := hitsL_pruneL (p := p) hq ms
    rw [hitsL, hitsL.eq_2 p, pruneL]
    by_cases h : p m
    · simp only [h, Bool.true_or, if_true]; omega
    · rw [if_neg h, if_neg h, hitsL, prune_shallow hq]
      by_cases h' : q m
      · simp only [h', Bool.or_true, if_true]; omega
      · simp only [h, h', Bool.or_self, Bool.false_eq_true, if_false]; omega
end

mutual
theorem hits_pruned {p : Node → Bool} (hp : Shallow p) : ∀ n : Node, hits p (prune p n) = 0
  | .element ⟨n, cs, a, x, f, c⟩ => by simp only [prune, hits]; exact hitsL_pruned hp cs
  | .text _ => rfl
  | .comment _ => rfl
  | .cdata _ => rfl
theorem hitsL_pruned {p : Node → Bool} (hp : Shallow p) : ∀ l : List Node, hitsL p (pruneL p l) = 0
  | [] => rfl
  | m :: ms => by
    rw [pruneL]
    by_cases h : p m
    · rw [if_pos h]; exact hitsL_pruned hp ms
    · rw [if_neg h, hitsL, prune_shallow hp, if_neg h, hits_pruned hp m, hitsL_pruned hp ms]
end

mutual
/-- nothing to remove -/
theorem prune_none {p : Node → Bool} : ∀ n : Node, hits p n = 0 → prune p n = n
  | .element ⟨n, cs, a, x, f, c⟩, h => by simp only [prune]; rw [pruneL_none cs (by simpa [hits] using h)]
  | .text _, _ => rfl
  | .comment _, _ => rfl
  | .cdata _, _ => rfl
theorem pruneL_none {p : Node → Bool} : ∀ l : List Node, hitsL p l = 0 → pruneL p l = l
  | [], _ => rfl
  | m :: ms, h => by
    rw [hitsL] at h
    by_cases hm : p m
    · rw [if_pos hm] at h; omega
    · rw [if_neg hm] at h
      rw [pruneL, if_neg hm, prune_none m (by omega), pruneL_none ms (by omega)]
end

mutual
theorem hits_false : ∀ n : Node, hits (fun _ => false) n = 0
  | .element ⟨n, cs, a, x, f, c⟩ => hitsL_false cs
  | .text _ => rfl
  | .comment _ => rfl
  | .cdata _ => rfl
theorem hitsL_false : ∀ l : List Node, hitsL (fun _ => false) l = 0
  | [] => rfl
  | m :: ms => by rw [hitsL, hits_false m, hitsL_false ms]; rfl
end

theorem docOrder_pos (n : Node) : 0 < (docOrder n).length := by
  cases n with
  | element e => obtain ⟨n, cs, a, x, f, c⟩ := e; simp [docOrder]
  | _ => simp [docOrder]

mutual
theorem docOrder_hits {p : Node → Bool} : ∀ n : Node, (docOrder (prune p n)).length + hits p n ≤ (docOrder n).length
  | .element ⟨n, cs, a, x, f, c⟩ => by
    have := docOrderL_hits (p := p) cs
    simp only [prune, docOrder, hits, List.length_cons]; omega
  | .text _ => Nat.le_refl _
  | .comment _ => Nat.le_refl _
  | .cdata _ => Nat.le_refl _
theorem docOrderL_hits {p : Node → Bool} : ∀ l : List Node, (docOrderL (pruneL p l)).length + hitsL p l ≤ (docOrderL l).length
  | [] => Nat.le_refl _
  | m :: ms => by
    have h1 := docOrder_hits (p := p) m
    have h2 := docOrderL_hits (p := p) ms
    have h3 := docOrder_pos m
    rw [pruneL, hitsL]
    by_cases h : p m
    · rw [if_pos h, if_pos h]; simp only [docOrderL, List.length_append]; omega
    · rw [if_neg h, if_neg h]; simp only [docOrderL, List.length_append]; omega
end

mutual
/-- nodes of one kind are all kept if neither they nor elements match -/
theorem filterMap_prune {α : Type} {p : Node → Bool} {f : Node → Option α} (hf : ∀ n, p n = true → (docOrder n).filterMap f = [])
    (hs : ∀ n : Node, f (prune p n) = f n) : ∀ n : Node, (docOrder (prune p n)).filterMap f = (docOrder n).filterMap f
  | .element ⟨n, cs, a, x, g, c⟩ => by
    have h1 := hs (.element ⟨n, cs, a, x, g, c⟩)
    have h2 := filterMapL_prune hf hs cs
    simp only [prune] at h1
    simp only [prune, docOrder, List.filterMap_cons, h1, h2]
  | .text _ => rfl
  | .comment _ => rfl
  | .cdata _ => rfl
theorem filterMapL_prune {α : Type} {p : Node → Bool} {f : Node → Option α} (hf : ∀ n, p n = true → (docOrder n).filterMap f = [])
    (hs : ∀ n : Node, f (prune p n) = f n) : ∀ l : List Node, (docOrderL (pruneL p l)).filterMap f = (docOrderL l).filterMap f
  | [] => rfl
  | m :: ms => by
    rw [pruneL]
    by_cases h : p m
    · rw [if_pos h]; simp only [docOrderL, List.filterMap_append, hf m h, filterMapL_prune hf hs ms]; rfl
    · rw [if_neg h]; simp only [docOrderL, List.filterMap_append, filterMap_prune hf hs m, filterMapL_prune hf hs ms]
end

end KissXml
