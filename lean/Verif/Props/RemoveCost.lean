import Verif.Proofs.RemoveCost
import Verif.Props.Dom
/-!
# C113: how many nodes the removing calls move

`Vec::remove` moves every item after the removed one; `Model/RemoveCost.lean` counts these.
-/
namespace KissXml.Props
open KissXml KissXml.Spec

/-- The calls with a counter give the results of the calls. -/
theorem C113_same (e : Element) (p : Node → Bool) (i : Nat) : (removeByRun e p).out = e.removeBy p ∧
    (removeAllRun e p).out = e.removeAll p ∧ (removeRun e i).out = e.remove i := by
  rw [removeByRun_eq, removeAllRun_eq, C20_remove_by, C21_remove_all]
  exact ⟨rfl, rfl, out_removeRun e i⟩

/-- `remove_by` moves as many nodes as there are pairs of a removed child and a later one that stays; at most the number of removed
children times the number of those that stay. -/
theorem C113_by (e : Element) (p : Node → Bool) : (removeByRun e p).count = overtakes p e.children ∧
    ∃ e' k, e.removeBy p = .ok (e', k) ∧ (removeByRun e p).count ≤ k * e'.children.length := by
  rw [removeByRun_eq]
  refine ⟨rfl, _, _, C20_remove_by e p, ?_⟩
  simpa [List.countP_eq_length_filter] using overtakes_le p e.children

/-- The bound is reached, and the number then is quadratic: if the removed children come first, each of the others is moved once for each
of them. -/
theorem C113_first (e : Element) (p : Node → Bool) (A B : List Node) (h : e.children = A ++ B) (hA : ∀ n ∈ A, p n = true)
    (hB : ∀ n ∈ B, p n = false) : (removeByRun e p).count = A.length * B.length := by
  rw [removeByRun_eq, h, overtakes_append]
  have h0 : ∀ l : List Node, ((∀ n ∈ l, p n = true) ∨ ∀ n ∈ l, p n = false) → overtakes p l = 0 := by
    intro l
    induction l with
    | nil => intro _; rfl
    | cons n l ih =>
      rintro (h | h)
      · have : l.countP (fun m => !p m) = 0 := List.countP_eq_zero.2 fun m hm => by simp [h m (by simp [hm])]
        simp [overtakes, this, ih (Or.inl fun m hm => h m (by simp [hm]))]
      · simp [overtakes, h n (by simp), ih (Or.inr fun m hm => h m (by simp [hm]))]
  rw [h0 A (Or.inl hA), h0 B (Or.inr hB), List.countP_eq_length.2 hA]
  have hb : B.countP (fun m => !p m) = B.length := List.countP_eq_length.2 (fun n hn => by simp [hB n hn])
  simp only [hb]
  omega

/-- Nothing is moved exactly if no child that stays comes after a removed one. -/
theorem C113_none (e : Element) (p : Node → Bool) : (removeByRun e p).count = 0 ↔
    ∃ A B, e.children = A ++ B ∧ (∀ n ∈ A, p n = false) ∧ ∀ n ∈ B, p n = true := by
  rw [removeByRun_eq]
  simp only
  generalize e.children = l
  induction l with
  | nil => exact ⟨fun _ => ⟨[], [], rfl, by simp, by simp⟩, fun _ => rfl⟩
  | cons n l ih =>
    cases hp : p n with
    | false =>
      simp only [overtakes, hp, Bool.false_eq_true, if_false, Nat.zero_add]
      rw [ih]
      constructor
      · rintro ⟨A, B, rfl, hA, hB⟩
        exact ⟨n :: A, B, rfl, by simpa [hp] using hA, hB⟩
      · rintro ⟨A, B, h, hA, hB⟩
        cases A with
        | nil => rw [List.nil_append] at h; subst h; simp [hp] at hB
        | cons a A =>
          obtain ⟨h1, h2⟩ := List.cons.inj h
          exact ⟨A, B, h2, fun m hm => hA m (by simp [hm]), hB⟩
    | true =>
      simp only [overtakes, hp, if_true, Nat.add_eq_zero_iff]
      constructor
      · rintro ⟨h, -⟩
        refine ⟨[], n :: l, rfl, by simp, ?_⟩
        intro m hm
        rcases List.mem_cons.1 hm with rfl | hm
        · exact hp
        · simpa using List.countP_eq_zero.1 h m hm
      · rintro ⟨A, B, h, hA, hB⟩
        cases A with
        | nil =>
          rw [List.nil_append] at h
          subst h
          have h1 : l.countP (fun m => !p m) = 0 := List.countP_eq_zero.2 fun m hm => by simp [hB m (by simp [hm])]
          exact ⟨h1, ih.2 ⟨[], l, rfl, by simp, fun m hm => hB m (by simp [hm])⟩⟩
        | cons a A =>
          obtain ⟨h1, -⟩ := List.cons.inj h
          rw [← h1] at hA
          simp [hp] at hA

/-- `remove_all` moves as many as there are such pairs in all lists of children that it visits; at most the returned number times the
number of nodes that are left below the element. -/
theorem C113_all (e : Element) (p : Node → Bool) : (removeAllRun e p).count = overtakesBelow p (.element e) ∧
    ∃ e' k, e.removeAll p = .ok (e', k) ∧ (removeAllRun e p).count ≤ k * (docOrderL e'.children).length := by
  rw [removeAllRun_eq]
  exact ⟨rfl, _, _, C21_remove_all e p, overtakesBelow_le' p e⟩

/-- Removing all `n` children one by one from the front moves `n(n-1)/2` nodes. -/
theorem C113_front (e : Element) : (removeFirstRun e.children.length e).out = .ok { e with children := [] } ∧
    2 * (removeFirstRun e.children.length e).count + e.children.length = e.children.length * e.children.length :=
  removeFirstRun_eq e.children e rfl

/-- `remove` moves those after the given index, none for the last one or an index out of bounds. -/
theorem C113_one (e : Element) (i : Nat) : (removeRun e i).count = e.children.length - (i + 1) := by
  unfold removeRun
  split
  · rename_i h
    show 0 = _
    omega
  · rename_i h
    obtain ⟨x, hx⟩ : ∃ x, vecRemove e.children i = some x := by
      unfold vecRemove
      rw [List.getElem?_eq_getElem (by omega)]
      exact ⟨_, rfl⟩
    rw [run_bind_eq (a := x) (n := e.children.length - (i + 1)) (by unfold vecRemoveRun; rw [hx]; rfl)]
    rfl

/-- for the examples: comments first, then texts -/
def comments113 (a b : Nat) : Element :=
  ⟨c%"r", List.replicate a (.comment c%"c") ++ List.replicate b (.cdata c%"t"), SMap.empty, none, none, SMap.empty⟩

/-- the number is quadratic in the number of children -/
example (n : Nat) : (comments113 n n).children.length = 2 * n ∧ (removeByRun (comments113 n n) Node.isComment).count = n * n := by
  refine ⟨by simp [comments113]; omega, ?_⟩
  rw [C113_first _ _ (List.replicate n (.comment c%"c")) (List.replicate n (.cdata c%"t")) rfl]
  · simp
  · intro m hm; rw [(List.mem_replicate.1 hm).2]; rfl
  · intro m hm; rw [(List.mem_replicate.1 hm).2]; rfl
example : (removeByRun (comments113 3 4) Node.isComment).count = 12 := by decide
example : (removeByRun (comments113 3 4) Node.isCData).count = 0 := by decide
example : (removeFirstRun 7 (comments113 3 4)).count = 21 := by decide
example : (removeRun (comments113 3 4) 2).count = 4 := by decide
/-- the inner lists count too, but not those of removed elements -/
example :
    let e : Element := { comments113 1 1 with children := [.comment c%"x", .element (comments113 2 3), .cdata c%"y"] }
    (removeAllRun e Node.isComment).count = 8 ∧ (removeAllRun e (fun n => n.isComment || n.isElement)).count = 2 := by decide +kernel

end KissXml.Props
