import Verif.Model.Iter
import Verif.Spec.Iter
import Verif.Spec.Size
import Verif.Proofs.Dom
import Verif.Proofs.SizeOut
import Mathlib.Tactic.Ring
/-!
# Lemmas for C98: iterators call by call
-/
namespace KissXml
open Spec

/-! ## number of calls -/

mutual
/-- calls of `next` until the iterator of a node ends -/
def walkCost : Node → Nat
  | .element ⟨_, cs, _, _, _, _⟩ => (docOrderL cs).length + 1 + walkCosts cs
  | .text _ => 0
  | .comment _ => 0
  | .cdata _ => 0
def walkCosts : List Node → Nat
  | [] => 0
  | n :: l => walkCost n + walkCosts l
end

/-- an element with the elements below it -/
abbrev visitsOf (l : List Element) : Nat := (l.map fun f => (descendants f).length + 1).sum

mutual
theorem walkCost_eq : ∀ n : Node, walkCost n = visitsOf ((docOrder n).filterMap element?)
  | .element ⟨n, cs, a, x, p, c⟩ => by
    rw [walkCost, docOrder, List.filterMap_cons, walkCosts_eq cs]
    simp [element?, visitsOf, descendants]
  | .text _ => by rw [walkCost, docOrder]; rfl
  | .comment _ => by rw [walkCost, docOrder]; rfl
  | .cdata _ => by rw [walkCost, docOrder]; rfl
theorem walkCosts_eq : ∀ l : List Node, walkCosts l = visitsOf ((docOrderL l).filterMap element?)
  | [] => by simp [walkCosts, docOrderL, visitsOf]
  | n :: l => by
    rw [walkCosts, docOrderL, walkCost_eq n, walkCosts_eq l]
    simp [visitsOf]
end

theorem length_docOrder (n : Node) : (docOrder n).length = n.childrenRecursive.length + 1 := by
  cases n with
  | element e =>
    obtain ⟨n, cs, a, x, p, c⟩ := e
    have := (childrenRecursive_perm ⟨n, cs, a, x, p, c⟩).length_eq
    simp [docOrder, Node.childrenRecursive, this]
  | _ => simp [docOrder, Node.childrenRecursive]

mutual
theorem walkCost_le : ∀ n : Node, walkCost n ≤ (docOrder n).length * nesting n
  | .element ⟨n, cs, a, x, p, c⟩ => by
    have h := walkCosts_le cs
    rw [walkCost, docOrder, nesting, List.length_cons]
    have : ((docOrderL cs).length + 1) * (1 + nestings cs) =
        (docOrderL cs).length + 1 + (docOrderL cs).length * nestings cs + nestings cs := by ring
    omega
  | .text _ => by simp [walkCost]
  | .comment _ => by simp [walkCost]
  | .cdata _ => by simp [walkCost]
theorem walkCosts_le : ∀ l : List Node, walkCosts l ≤ (docOrderL l).length * nestings l
  | [] => by simp [walkCosts]
  | n :: l => by
    have h1 := walkCost_le n
    have h2 := walkCosts_le l
    rw [walkCosts, docOrderL, nestings, List.length_append, Nat.add_mul]
    exact Nat.add_le_add (h1.trans (Nat.mul_le_mul_left _ (Nat.le_max_left ..)))
      (h2.trans (Nat.mul_le_mul_left _ (Nat.le_max_right ..)))
end

theorem tower_docOrder (n : Nat) : (docOrderL (tower n).children).length = n := by
  induction n with
  | zero => rfl
  | succ n ih =>
    have : (docOrder (.element (tower n))).length = n + 1 := by
      have : docOrder (.element (tower n)) = .element (tower n) :: docOrderL (tower n).children := by
        cases h : tower n; rw [docOrder]
      rw [this, List.length_cons, ih]
    simp [tower, docOrderL, this]

theorem tower_walkCost (n : Nat) : 2 * walkCost (.element (tower n)) = (n + 1) * (n + 2) := by
  induction n with
  | zero => rfl
  | succ n ih =>
    have h := tower_docOrder (n + 1)
    have e : walkCost (.element (tower (n + 1))) =
        (docOrderL (tower (n + 1)).children).length + 1 + walkCosts (tower (n + 1)).children := by
      rw [show tower (n + 1) = ⟨c%"a", [.element (tower n)], .empty, none, none, .empty⟩ from rfl, walkCost]
    have e2 : walkCosts (tower (n + 1)).children = walkCost (.element (tower n)) := by
      simp [tower, walkCosts]
    rw [e, h, e2, Nat.mul_add, ih]; ring

/-! ## `children_recursive` -/

/-- the items that are still to come -/
def Walk.items : Walk → List Node
  | .off => []
  | .on h r f => h.getD [] ++ (f.items ++ childrenRecursiveOf r)

/-- fuel that is enough -/
def Walk.weight : Walk → Nat
  | .off => 0
  | .on _ r f => 1 + f.weight + sizeOfChildren r

/-- calls of `next` that are still to come -/
def Walk.cost : Walk → Nat
  | .off => 0
  | .on h r f => (h.getD [] ++ (f.items ++ childrenRecursiveOf r)).length + 1 + f.cost + walkCosts r

theorem items_new (e : Element) : (Walk.new e).items = e.childrenRecursive := by
  cases e; simp [Walk.new, Walk.items, ElementF.childrenRecursive]

theorem weight_new (e : Element) : (Walk.new e).weight = e.size := by
  cases e; simp [Walk.new, Walk.weight, ElementF.size]

theorem cost_new (e : Element) : (Walk.new e).cost = walkCost (.element e) := by
  have h := (childrenRecursive_perm e).length_eq
  cases e
  simp only [ElementF.childrenRecursive] at h
  simp [Walk.new, Walk.cost, walkCost, Walk.items] at *
  omega

theorem length_le_size : ∀ l : List Node, l.length ≤ sizeOfChildren l
  | [] => by simp
  | n :: l => by
    have := length_le_size l
    have h : 1 ≤ n.size := by
      cases n with
      | element e => cases e; simp [Node.size, ElementF.size]
      | _ => simp [Node.size]
    simp only [sizeOfChildren, List.length_cons]; omega

/-- one call of `next` does the right thing -/
def Good (nx : Walk → Option (Option Node × Walk × Nat)) (w : Walk) : Prop :=
  ∃ w' c, nx w = some (w.items.head?, w', c) ∧ w'.items = w.items.tail ∧ w'.weight ≤ w.weight ∧
    (w.items ≠ [] → c + w'.cost = w.cost) ∧ (w.items = [] → c = w.cost)

theorem childElementNext_none : ∀ {l : List Node}, childElementNext l = none → childrenRecursiveOf l = [] ∧ walkCosts l = 0
  | [], _ => by simp [childrenRecursiveOf, walkCosts]
  | .element e :: l, h => by simp [childElementNext] at h
  | .text t :: l, h => by
    have := childElementNext_none (l := l) h
    simp [childrenRecursiveOf, walkCosts, this, walkCost, Node.childrenRecursive]
  | .comment t :: l, h => by
    have := childElementNext_none (l := l) h
    simp [childrenRecursiveOf, walkCosts, this, walkCost, Node.childrenRecursive]
  | .cdata t :: l, h => by
    have := childElementNext_none (l := l) h
    simp [childrenRecursiveOf, walkCosts, this, walkCost, Node.childrenRecursive]

theorem childElementNext_some : ∀ {l r : List Node} {e : Element}, childElementNext l = some (e, r) →
    childrenRecursiveOf l = e.childrenRecursive ++ childrenRecursiveOf r ∧ walkCosts l = walkCost (.element e) + walkCosts r ∧
    e.size + sizeOfChildren r ≤ sizeOfChildren l ∧ r.length < l.length
  | [], r, e, h => by simp [childElementNext] at h
  | .element e' :: l, r, e, h => by
    simp [childElementNext] at h
    obtain ⟨rfl, rfl⟩ := h
    simp [childrenRecursiveOf, walkCosts, sizeOfChildren, Node.size, Node.childrenRecursive]
  | .text t :: l, r, e, h => by
    have := childElementNext_some (l := l) h
    simp only [childrenRecursiveOf, walkCosts, this, walkCost, Node.childrenRecursive, sizeOfChildren, Node.size, List.length_cons]
    simp; omega
  | .comment t :: l, r, e, h => by
    have := childElementNext_some (l := l) h
    simp only [childrenRecursiveOf, walkCosts, this, walkCost, Node.childrenRecursive, sizeOfChildren, Node.size, List.length_cons]
    simp; omega
  | .cdata t :: l, r, e, h => by
    have := childElementNext_some (l := l) h
    simp only [childrenRecursiveOf, walkCosts, this, walkCost, Node.childrenRecursive, sizeOfChildren, Node.size, List.length_cons]
    simp; omega

theorem flattenNext_spec {nx : Walk → Option (Option Node × Walk × Nat)} {k : Nat} (hnx : ∀ w : Walk, w.weight < k → Good nx w) :
    ∀ (j : Nat) (rest : List Node) (front : Walk), rest.length < j → front.weight < k → sizeOfChildren rest < k →
    ∃ rest' front' c, flattenNext nx j rest front = some ((front.items ++ childrenRecursiveOf rest).head?, rest', front', c) ∧
      front'.items ++ childrenRecursiveOf rest' = (front.items ++ childrenRecursiveOf rest).tail ∧
      front'.weight + sizeOfChildren rest' ≤ front.weight + sizeOfChildren rest ∧
      (front.items ++ childrenRecursiveOf rest ≠ [] → c + front'.cost + walkCosts rest' = front.cost + walkCosts rest) ∧
      (front.items ++ childrenRecursiveOf rest = [] → c = front.cost + walkCosts rest) := by
  intro j
  induction j with
  | zero => intro rest front h; omega
  | succ j ih =>
    intro rest front hj hf hr
    obtain ⟨w', c, h1, h2, h3, h4, h5⟩ := hnx front hf
    rw [flattenNext, h1]
    cases hi : front.items with
    | cons n l =>
      rw [hi] at h2 h4
      refine ⟨rest, w', c, rfl, ?_, by omega, fun _ => ?_, fun h => by simp at h⟩
      · rw [h2]; simp
      · have := h4 (by simp); omega
    | nil =>
      have h5 := h5 hi
      simp only [List.head?_nil, List.nil_append]
      cases hc : childElementNext rest with
      | none =>
        obtain ⟨g1, g2⟩ := childElementNext_none hc
        refine ⟨[], .off, c, ?_, ?_, ?_, fun h => absurd g1 h, fun _ => by omega⟩
        · simp [g1]
        · simp [g1, Walk.items, childrenRecursiveOf]
        · simp [Walk.weight, sizeOfChildren]
      | some p =>
        obtain ⟨e, rest'⟩ := p
        obtain ⟨g1, g2, g3, g4⟩ := childElementNext_some hc
        obtain ⟨r2, f2, c2, i1, i2, i3, i4, i5⟩ := ih rest' (.new e) (by omega) (by rw [weight_new]; omega) (by omega)
        rw [items_new] at i1 i2 i4 i5
        rw [cost_new] at i4 i5
        rw [weight_new] at i3
        rw [← g1] at i1 i2 i4 i5
        simp only [i1]
        refine ⟨r2, f2, c + c2, rfl, i2, by omega, fun h => ?_, fun h => ?_⟩
        · have := i4 h; omega
        · have := i5 h; omega

theorem next_good : ∀ (k : Nat) (w : Walk), w.weight < k → Good (Walk.next k) w := by
  intro k
  induction k with
  | zero => intro w h; omega
  | succ k ih =>
    intro w hw
    match w with
    | .off => exact ⟨.off, 0, rfl, rfl, Nat.le_refl _, fun h => absurd rfl h, fun _ => rfl⟩
    | .on (some (n :: l)) rest front =>
      refine ⟨.on (some l) rest front, 1, by simp [Walk.next, Walk.items], by simp [Walk.items], by simp [Walk.weight], fun _ => ?_,
        fun h => by simp [Walk.items] at h⟩
      simp [Walk.cost]; omega
    | .on (some []) rest front =>
      simp only [Walk.weight] at hw
      obtain ⟨r2, f2, c2, i1, i2, i3, i4, i5⟩ := flattenNext_spec (k := k) ih (k + 1) rest front
        (by have := length_le_size rest; omega) (by omega) (by omega)
      refine ⟨.on none r2 f2, c2 + 1, by simp [Walk.next, i1, Walk.items], by simp [Walk.items, i2], by simp only [Walk.weight]; omega,
        fun h => ?_, fun h => ?_⟩
      · have h' : front.items ++ childrenRecursiveOf rest ≠ [] := by simpa [Walk.items] using h
        have := i4 h'
        have hl : (front.items ++ childrenRecursiveOf rest).length ≠ 0 := fun h0 => h' (List.length_eq_zero_iff.1 h0)
        simp only [Walk.cost, Option.getD_none, Option.getD_some, List.nil_append, i2, List.length_tail]
        omega
      · have h' : front.items ++ childrenRecursiveOf rest = [] := by simpa [Walk.items] using h
        have := i5 h'
        simp only [Walk.cost, Option.getD_some, List.nil_append, h', List.length_nil]
        omega
    | .on none rest front =>
      simp only [Walk.weight] at hw
      obtain ⟨r2, f2, c2, i1, i2, i3, i4, i5⟩ := flattenNext_spec (k := k) ih (k + 1) rest front
        (by have := length_le_size rest; omega) (by omega) (by omega)
      refine ⟨.on none r2 f2, c2 + 1, by simp [Walk.next, i1, Walk.items], by simp [Walk.items, i2], by simp only [Walk.weight]; omega,
        fun h => ?_, fun h => ?_⟩
      · have h' : front.items ++ childrenRecursiveOf rest ≠ [] := by simpa [Walk.items] using h
        have := i4 h'
        have hl : (front.items ++ childrenRecursiveOf rest).length ≠ 0 := fun h0 => h' (List.length_eq_zero_iff.1 h0)
        simp only [Walk.cost, Option.getD_none, List.nil_append, i2, List.length_tail]
        omega
      · have h' : front.items ++ childrenRecursiveOf rest = [] := by simpa [Walk.items] using h
        have := i5 h'
        simp only [Walk.cost, Option.getD_none, List.nil_append, h', List.length_nil]
        omega

/-! ## iterators in general -/

/-- the iterator `nx` yields the items of the lists that `R` gives for its states -/
def Streams {σ α : Type} (nx : σ → Option (Option α × σ)) (R : σ → List α → Prop) : Prop :=
  ∀ s l, R s l → ∃ s', nx s = some (l.head?, s') ∧ R s' l.tail

theorem streams_walk (fuel : Nat) : Streams (Walk.step fuel) (fun w l => w.items = l ∧ w.weight < fuel) := by
  rintro w l ⟨rfl, h⟩
  obtain ⟨w', c, h1, h2, h3, -⟩ := next_good fuel w h
  exact ⟨w', by simp [Walk.step, h1], h2, by omega⟩

theorem yielded_succ {α : Type} (l : List α) (k : Nat) : yielded l (k + 1) = l.head? :: yielded l.tail k := by
  simp [yielded, List.range_succ_eq_map, List.map_map, Function.comp_def, List.head?_eq_getElem?]

theorem pull_streams {σ α : Type} {nx : σ → Option (Option α × σ)} {R : σ → List α → Prop} (h : Streams nx R) :
    ∀ (k : Nat) s l, R s l → ∃ s', pull nx k s = some (yielded l k, s') ∧ R s' (l.drop k) := by
  intro k
  induction k with
  | zero => intro s l hs; exact ⟨s, rfl, hs⟩
  | succ k ih =>
    intro s l hs
    obtain ⟨s1, h1, h2⟩ := h s l hs
    obtain ⟨s2, h3, h4⟩ := ih s1 l.tail h2
    refine ⟨s2, ?_, ?_⟩
    · simp [pull, h1, h3, yielded_succ]
    · rwa [List.drop_tail] at h4

theorem filterNext_spec {σ τ α : Type} {nx : σ → Option (Option α × σ)} {R : σ → List α → Prop} (h : Streams nx R)
    (p : τ → α → Bool × τ) : ∀ (k : Nat) s l t, R s l → l.length < k →
    ∃ s', filterNext nx p k (s, t) = some ((firstMatch p l t).1, s', (firstMatch p l t).2.2) ∧ R s' (firstMatch p l t).2.1 := by
  intro k
  induction k with
  | zero => intro s l t _ hl; omega
  | succ k ih =>
    intro s l t hs hl
    obtain ⟨s1, h1, h2⟩ := h s l hs
    cases l with
    | nil => exact ⟨s1, by simp [filterNext, h1, firstMatch], by simpa [firstMatch] using h2⟩
    | cons a l =>
      simp only [List.head?_cons, List.tail_cons] at h1 h2
      by_cases hp : (p t a).1 = true
      · exact ⟨s1, by simp [filterNext, h1, firstMatch, hp], by simpa [firstMatch, hp] using h2⟩
      · obtain ⟨s2, h3, h4⟩ := ih s1 l (p t a).2 h2 (by simp at hl; omega)
        exact ⟨s2, by simp [filterNext, h1, firstMatch, hp, h3], by simpa [firstMatch, hp] using h4⟩

theorem firstMatch_length {α τ : Type} (p : τ → α → Bool × τ) : ∀ l t, (firstMatch p l t).2.1.length ≤ l.length
  | [], t => by simp [firstMatch]
  | a :: l, t => by
    have := firstMatch_length p l (p t a).2
    rw [firstMatch]; split
    · simp
    · simp; omega

theorem firstMatch_unit {α : Type} (p : α → Bool) : ∀ l : List α,
    (firstMatch (fun (_ : Unit) a => (p a, ())) l ()).1 = (l.filter p).head? ∧
    (firstMatch (fun (_ : Unit) a => (p a, ())) l ()).2.1.filter p = (l.filter p).tail
  | [] => by simp [firstMatch]
  | a :: l => by
    have := firstMatch_unit p l
    by_cases h : p a = true <;> simp [firstMatch, h, this]

theorem pull_filter {σ τ α : Type} {nx : σ → Option (Option α × σ)} {R : σ → List α → Prop} (h : Streams nx R)
    (p : τ → α → Bool × τ) (fuel : Nat) : ∀ (k : Nat) s l t, R s l → l.length < fuel →
    ∃ s', pull (filterNext nx p fuel) k (s, t) = some ((searched p k l t).1, s', (searched p k l t).2) := by
  intro k
  induction k with
  | zero => intro s l t _ _; exact ⟨s, rfl⟩
  | succ k ih =>
    intro s l t hs hl
    obtain ⟨s1, h1, h2⟩ := filterNext_spec h p fuel s l t hs hl
    obtain ⟨s2, h3⟩ := ih s1 _ (firstMatch p l t).2.2 h2 (Nat.lt_of_le_of_lt (firstMatch_length p l t) hl)
    exact ⟨s2, by simp [pull, h1, h3, searched]⟩

theorem streams_searchStep (fuel : Nat) (p : Node → Bool) :
    Streams (searchStep fuel p) (fun w l => ∃ l', l = l'.filter p ∧ l'.length < fuel ∧ w.items = l' ∧ w.weight < fuel) := by
  rintro w l ⟨l', rfl, hl, hw⟩
  obtain ⟨w', h1, h2⟩ := filterNext_spec (streams_walk fuel) (fun (_ : Unit) n => (p n, ())) fuel w l' () hw hl
  obtain ⟨g1, g2⟩ := firstMatch_unit p l'
  refine ⟨w', ?_, _, g2.symm, Nat.lt_of_le_of_lt (firstMatch_length _ _ _) hl, h2⟩
  simp [searchStep, searchNext, h1, g1]

theorem streams_map {σ α β : Type} {nx : σ → Option (Option α × σ)} {R : σ → List α → Prop} (h : Streams nx R) (f : α → Option β) :
    Streams (mapNext nx f) (fun s l => ∃ l', R s l' ∧ l'.map f = l.map some) := by
  rintro s l ⟨l', hs, hl⟩
  obtain ⟨s1, h1, h2⟩ := h s l' hs
  cases l' with
  | nil =>
    cases l with
    | nil => exact ⟨s1, by simp [mapNext, h1], [], h2, rfl⟩
    | cons b l => simp at hl
  | cons a l' =>
    cases l with
    | nil => simp at hl
    | cons b l =>
      simp only [List.map_cons, List.cons.injEq] at hl
      exact ⟨s1, by simp [mapNext, h1, hl.1], l', h2, hl.2⟩

theorem map_filter_filterMap {α β : Type} {p : α → Bool} {f : α → Option β} (h : ∀ a, p a = (f a).isSome) :
    ∀ l : List α, (l.filter p).map f = (l.filterMap f).map some
  | [] => by simp
  | a :: l => by
    have ih := map_filter_filterMap h l
    have ha := h a
    cases hf : f a <;> simp [hf] at ha <;> simp [ha, hf, ih]

theorem pull_count {fuel : Nat} : ∀ (k : Nat) (w : Walk) (n : Nat), w.weight < fuel → w.items.length = k →
    ∃ w' l, pull (Walk.count fuel) (k + 1) (w, n) = some (l, w', n + w.cost) := by
  intro k
  induction k with
  | zero =>
    intro w n hw hl
    obtain ⟨w', c, h1, -, -, -, h5⟩ := next_good fuel w hw
    have := h5 (List.length_eq_zero_iff.1 hl)
    exact ⟨w', [w.items.head?], by simp [pull, Walk.count, h1, this]⟩
  | succ k ih =>
    intro w n hw hl
    obtain ⟨w', c, h1, h2, h3, h4, -⟩ := next_good fuel w hw
    have h4 := h4 (fun h => by simp [h] at hl)
    obtain ⟨w2, l, h6⟩ := ih w' (n + c) (by omega) (by rw [h2]; simp [hl])
    refine ⟨w2, w.items.head? :: l, ?_⟩
    have h7 : Walk.count fuel (w, n) = some (w.items.head?, w', n + c) := by simp [Walk.count, h1]
    rw [pull, h7]
    simp [h6]; omega

theorem length_lt_size (e : Element) : e.childrenRecursive.length < e.size + 1 := by
  have h1 := (childrenRecursive_perm e).length_eq
  have : ∀ l : List Node, (docOrderL l).length ≤ sizeOfChildren l := by
    intro l
    have := mutualSize l
    exact this
  have h2 := this e.children
  cases e
  simp only [ElementF.size] at *
  omega
where
  mutualSize : ∀ l : List Node, (docOrderL l).length ≤ sizeOfChildren l
    | [] => by simp [docOrderL]
    | .element ⟨n, cs, a, x, p, c⟩ :: l => by
      have h1 := mutualSize cs
      have h2 := mutualSize l
      simp [docOrderL, docOrder, sizeOfChildren, Node.size, ElementF.size]; omega
    | .text _ :: l => by
      have h2 := mutualSize l
      simp [docOrderL, docOrder, sizeOfChildren, Node.size]; omega
    | .comment _ :: l => by
      have h2 := mutualSize l
      simp [docOrderL, docOrder, sizeOfChildren, Node.size]; omega
    | .cdata _ :: l => by
      have h2 := mutualSize l
      simp [docOrderL, docOrder, sizeOfChildren, Node.size]; omega

end KissXml
