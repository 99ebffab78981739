import Verif.Model.RemoveCost
import Verif.Proofs.Removal
import Verif.Proofs.CostSame
/-!
# How much the removing calls move
-/
namespace KissXml
open Spec Run

theorem run_bind_eq {α β : Type} {r : Run α} {f : α → Run β} {a : α} {n : Nat} (h : r = ⟨.ok a, n⟩) :
    (r >>= f) = ⟨(f a).out, n + (f a).count⟩ := by subst h; rfl

theorem run_pure_eq {α : Type} (a : α) : (pure a : Run α) = ⟨.ok a, 0⟩ := rfl

theorem overtakes_append (p : Node → Bool) (A B : List Node) :
    overtakes p (A ++ B) = overtakes p A + A.countP p * B.countP (fun m => !p m) + overtakes p B := by
  induction A with
  | nil => simp [overtakes]
  | cons a A ih =>
    cases h : p a <;> simp [overtakes, ih, h, List.countP_append, List.countP_cons, Nat.add_mul] <;> omega

theorem matchRemoveRun (p : Node → Bool) (A S : List Node) : ∃ idx,
    ElementF.matchIndices p (A ++ S) A.length = .ok idx ∧
    removeIndicesRun idx (A ++ S) = ⟨.ok (A.filter (fun n => !p n) ++ S), overtakes p A + A.countP p * S.length⟩ ∧
    idx.length = A.countP p := by
  induction hn : A.length generalizing A S with
  | zero =>
    have := List.length_eq_zero_iff.1 hn
    subst this
    exact ⟨[], rfl, by simp [overtakes, removeIndicesRun]; rfl, rfl⟩
  | succ k ih =>
    rcases List.eq_nil_or_concat A with rfl | ⟨A, x, rfl⟩
    · simp at hn
    rw [List.concat_eq_append] at *
    have hk : A.length = k := by simpa using hn
    have e1 : (A ++ [x] ++ S)[k]? = some x := by rw [← hk]; simp
    obtain ⟨idx, h1, h2, h3⟩ := ih A ([x] ++ S) hk
    obtain ⟨idx', h1', h2', h3'⟩ := ih A S hk
    rw [← List.append_assoc] at h1
    have hsame : ∀ (l : List Node) (j : Nat), j ≤ A.length → ElementF.matchIndices p (A ++ l) j = ElementF.matchIndices p A j := by
      intro l j
      induction j with
      | zero => intro _; rfl
      | succ j ihj =>
        intro hj
        unfold ElementF.matchIndices
        rw [ihj (by omega), List.getElem?_append_left (by omega)]
    have hidx : idx = idx' := by
      rw [List.append_assoc, hsame _ _ (by omega)] at h1
      rw [hsame _ _ (by omega), h1] at h1'
      simpa using h1'
    subst hidx
    unfold ElementF.matchIndices
    simp only [e1, Res.unwrap_some, Res.bind_ok, h1, Res.pure_eq]
    cases hp : p x with
    | false =>
      refine ⟨idx, by simp, ?_, ?_⟩
      · rw [List.append_assoc, h2, overtakes_append]
        simp [List.filter_append, List.countP_append, hp, overtakes, Nat.mul_add]
        omega
      · simp [h3, List.countP_append, hp]
    | true =>
      refine ⟨k :: idx, by simp, ?_, ?_⟩
      · have hv : vecRemoveRun (A ++ [x] ++ S) k = ⟨.ok (x, A ++ S), S.length⟩ := by
          have hv := vecRemove_append A x S
          rw [hk] at hv
          unfold vecRemoveRun
          rw [show A ++ [x] ++ S = A ++ x :: S by simp, hv]
          simp [← hk]
          omega
        rw [removeIndicesRun, run_bind_eq hv]
        simp only [h2', overtakes_append]
        simp [List.filter_append, hp, overtakes, Nat.add_mul]
        omega
      · simp [h3, List.countP_append, hp]

theorem removeByRun_eq (e : Element) (p : Node → Bool) : removeByRun e p =
    ⟨.ok ({ e with children := e.children.filter (fun n => !p n) }, e.children.countP p), overtakes p e.children⟩ := by
  obtain ⟨idx, h1, h2, h3⟩ := matchRemoveRun p e.children []
  rw [List.append_nil] at h1 h2
  unfold removeByRun
  rw [h1, run_bind_eq (rfl : free (.ok idx) = _), run_bind_eq h2, h3]
  simp [run_pure_eq]

theorem overtakesBelow_element (p : Node → Bool) (e : Element) :
    overtakesBelow p (.element e) = overtakes p e.children + overtakesKept p e.children := by
  obtain ⟨n, cs, a, x, q, c⟩ := e; rw [overtakesBelow]

theorem overtakesKept_eq (p : Node → Bool) (l : List Node) :
    overtakesKept p l = ((l.filter (fun n => !p n)).map (overtakesBelow p)).sum := by
  induction l with
  | nil => rfl
  | cons m ms ih => cases h : p m <;> simp [overtakesKept, ih, h]

theorem forChildElementsRun_eq (p : Node → Bool) (f : Element → Run (Element × Nat)) (l : List Node)
    (hf : ∀ e, Node.element e ∈ l → f e = ⟨.ok ({ e with children := pruneL p e.children }, hitsL p e.children),
      overtakesBelow p (.element e)⟩) :
    forChildElementsRun f l = ⟨.ok (l.map (prune p), (l.map (hits p)).sum), (l.map (overtakesBelow p)).sum⟩ := by
  induction l with
  | nil => rfl
  | cons c l ih =>
    have ih := ih (fun e he => hf e (by simp [he]))
    cases c with
    | element e =>
      rw [forChildElementsRun, run_bind_eq (hf e (by simp))]
      simp only
      rw [run_bind_eq ih]
      simp [prune_element, hits_element, run_pure_eq]
    | text t => rw [forChildElementsRun, run_bind_eq ih] <;> simp [prune, hits, overtakesBelow, run_pure_eq]
    | comment t => rw [forChildElementsRun, run_bind_eq ih] <;> simp [prune, hits, overtakesBelow, run_pure_eq]
    | cdata t => rw [forChildElementsRun, run_bind_eq ih] <;> simp [prune, hits, overtakesBelow, run_pure_eq]

theorem removeAllFRun_eq (p : Node → Bool) (fuel : Nat) (e : Element) (h : e.size ≤ fuel) :
    removeAllFRun p fuel e = ⟨.ok ({ e with children := pruneL p e.children }, hitsL p e.children), overtakesBelow p (.element e)⟩ := by
  induction fuel generalizing e with
  | zero => have := element_size e; omega
  | succ fuel ih =>
    rw [element_size] at h
    unfold removeAllFRun
    rw [run_bind_eq (removeByRun_eq e p)]
    simp only
    rw [run_bind_eq (forChildElementsRun_eq p _ _ ?_)]
    · simp only [out_pure, pruneL_eq, hitsL_eq, overtakesBelow_element, overtakesKept_eq]
      rfl
    · intro c hc
      apply ih
      have h1 := size_pos_child hc
      have h2 := sizeOfChildren_filter (fun n => !p n) e.children
      rw [Node.size] at h1
      omega

theorem removeAllRun_eq (e : Element) (p : Node → Bool) : removeAllRun e p =
    ⟨.ok ({ e with children := pruneL p e.children }, hitsL p e.children), overtakesBelow p (.element e)⟩ :=
  removeAllFRun_eq p e.size e (Nat.le_refl _)

theorem overtakes_le (p : Node → Bool) (l : List Node) : overtakes p l ≤ l.countP p * l.countP (fun m => !p m) := by
  induction l with
  | nil => simp [overtakes]
  | cons n l ih =>
    cases h : p n
    · simp only [overtakes, h, List.countP_cons, Bool.false_eq_true, if_false, Bool.not_false, if_true, Nat.mul_add, Nat.add_zero]
      omega
    · simp only [overtakes, h, List.countP_cons, Bool.not_true, Bool.false_eq_true, if_false, if_true, Nat.add_mul, Nat.add_zero]
      omega

theorem countP_le_docOrderL (p : Node → Bool) (l : List Node) : l.countP (fun m => !p m) ≤ (docOrderL (pruneL p l)).length := by
  induction l with
  | nil => exact Nat.le_refl _
  | cons n l ih =>
    have := docOrder_pos (prune p n)
    rw [pruneL]
    cases h : p n
    · simp only [Bool.false_eq_true, if_false, docOrderL, List.length_append, List.countP_cons, h, Bool.not_false, if_true]; omega
    · simpa [List.countP_cons, h] using ih

theorem countP_le_hitsL (p : Node → Bool) (l : List Node) :
    hitsL p l = l.countP p + ((l.filter (fun n => !p n)).map (hits p)).sum := by
  induction l with
  | nil => rfl
  | cons n l ih => cases h : p n <;> simp [hitsL, ih, h, List.countP_cons] <;> omega

mutual
theorem overtakesBelow_le (p : Node → Bool) : ∀ n : Node, overtakesBelow p n ≤ hits p n * (docOrder (prune p n)).length
  | .element ⟨n, cs, a, x, q, c⟩ => by
    have h1 := overtakes_le p cs
    have h2 := overtakesKept_le p cs
    have h3 := countP_le_docOrderL p cs
    have h4 := countP_le_hitsL p cs
    simp only [overtakesBelow, hits, prune, docOrder, List.length_cons]
    have h5 : cs.countP p * cs.countP (fun m => !p m) ≤ cs.countP p * (docOrderL (pruneL p cs)).length := Nat.mul_le_mul_left _ h3
    have h6 : hitsL p cs * (docOrderL (pruneL p cs)).length = cs.countP p * (docOrderL (pruneL p cs)).length +
        ((cs.filter (fun n => !p n)).map (hits p)).sum * (docOrderL (pruneL p cs)).length := by rw [h4, Nat.add_mul]
    rw [Nat.mul_succ]
    omega
  | .text _ => Nat.zero_le _
  | .comment _ => Nat.zero_le _
  | .cdata _ => Nat.zero_le _
theorem overtakesKept_le (p : Node → Bool) : ∀ l : List Node,
    overtakesKept p l ≤ ((l.filter (fun n => !p n)).map (hits p)).sum * (docOrderL (pruneL p l)).length
  | [] => Nat.zero_le _
  | m :: ms => by
    have h1 := overtakesBelow_le p m
    have h2 := overtakesKept_le p ms
    rw [overtakesKept, pruneL]
    cases h : p m
    · simp only [Bool.false_eq_true, if_false, docOrderL, List.length_append, List.filter_cons, h, Bool.not_false, if_true, List.map_cons,
        List.sum_cons, Nat.add_mul, Nat.mul_add]
      omega
    · simpa [h] using h2
end

/-- below the node itself -/
theorem overtakesBelow_le' (p : Node → Bool) (e : Element) :
    overtakesBelow p (.element e) ≤ hitsL p e.children * (docOrderL (pruneL p e.children)).length := by
  have h1 := overtakes_le p e.children
  have h2 := overtakesKept_le p e.children
  have h5 := Nat.mul_le_mul_left (e.children.countP p) (countP_le_docOrderL p e.children)
  rw [overtakesBelow_element, countP_le_hitsL p e.children, Nat.add_mul]
  omega

theorem out_removeRun (e : Element) (i : Nat) : (removeRun e i).out = e.remove i := by
  unfold removeRun ElementF.remove
  split
  · rfl
  · rw [out_bind]
    rfl

theorem removeRun_eq (e : Element) (n : Node) (l : List Node) (h : e.children = n :: l) :
    removeRun e 0 = ⟨.ok (n, { e with children := l }), l.length⟩ := by
  unfold removeRun
  rw [if_neg (by simp [h])]
  have : vecRemoveRun e.children 0 = ⟨.ok (n, l), l.length⟩ := by
    unfold vecRemoveRun vecRemove
    simp [h]
  rw [run_bind_eq this]
  rfl

theorem removeFirstRun_eq (l : List Node) : ∀ e : Element, e.children = l →
    (removeFirstRun l.length e).out = .ok { e with children := [] } ∧ 2 * (removeFirstRun l.length e).count + l.length = l.length * l.length := by
  induction l with
  | nil => intro e h; exact ⟨by obtain ⟨_, _, _, _, _, _⟩ := e; simp only at h; subst h; rfl, rfl⟩
  | cons n l ih =>
    intro e h
    obtain ⟨h1, h2⟩ := ih { e with children := l } rfl
    rw [List.length_cons, removeFirstRun, run_bind_eq (removeRun_eq e n l h)]
    refine ⟨h1, ?_⟩
    simp only [Nat.add_mul, Nat.mul_add]
    omega

end KissXml
