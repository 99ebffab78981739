import Verif.Spec.Arena
import Verif.Model.ParseTree
import Verif.Proofs.Edit
/-!
# The parse arena
-/
namespace KissXml
open Spec

/-! ## association lists with keys 0, 1, 2, … -/

/-- `l` with keys `k, k+1, …` -/
def idx {α : Type} (k : Nat) : List α → List (Nat × α)
  | [] => []
  | a :: l => (k, a) :: idx (k + 1) l

@[simp] theorem idx_length {α : Type} (k : Nat) (l : List α) : (idx k l).length = l.length := by
  induction l generalizing k with
  | nil => rfl
  | cons a l ih => simp [idx, ih]

theorem idx_get {α : Type} (k i : Nat) (l : List α) : LMap.get (idx k l) (k + i) = l[i]? := by
  induction l generalizing k i with
  | nil => rfl
  | cons a l ih =>
    unfold idx LMap.get
    cases i with
    | zero => simp
    | succ i =>
      rw [if_neg (by omega), show k + (i + 1) = k + 1 + i by omega, ih]; simp

theorem idx_get0 {α : Type} (i : Nat) (l : List α) : LMap.get (idx 0 l) i = l[i]? := by
  simpa using idx_get 0 i l

theorem idx_insert {α : Type} (k i : Nat) (l : List α) (a : α) (h : i < l.length) :
    LMap.insert (idx k l) (k + i) a = idx k (l.set i a) := by
  induction l generalizing k i with
  | nil => simp at h
  | cons b l ih =>
    unfold idx LMap.insert
    cases i with
    | zero => simp
    | succ i =>
      rw [if_neg (by omega), show k + (i + 1) = k + 1 + i by omega, ih _ _ (by simpa using h)]; simp

theorem idx_insert0 {α : Type} (i : Nat) (l : List α) (a : α) (h : i < l.length) :
    LMap.insert (idx 0 l) i a = idx 0 (l.set i a) := by
  simpa using idx_insert 0 i l a h

theorem idx_insert_end {α : Type} (k : Nat) (l : List α) (a : α) :
    LMap.insert (idx k l) (k + l.length) a = idx k (l ++ [a]) := by
  induction l generalizing k with
  | nil => simp [idx, LMap.insert]
  | cons b l ih =>
    rw [idx, LMap.insert, if_neg (by simp), show k + (b :: l).length = k + 1 + l.length by simp; omega, ih]
    simp [idx]

theorem idx_insert_end0 {α : Type} (l : List α) (a : α) : LMap.insert (idx 0 l) l.length a = idx 0 (l ++ [a]) := by
  simpa using idx_insert_end 0 l a

theorem idx_remove_end {α : Type} (k : Nat) (l : List α) (a : α) :
    LMap.remove (idx k (l ++ [a])) (k + l.length) = idx k l := by
  induction l generalizing k with
  | nil => simp [idx, LMap.remove]
  | cons b l ih =>
    simp only [List.cons_append, idx]
    rw [LMap.remove, if_neg (by simp), show k + (b :: l).length = k + 1 + l.length by simp; omega, ih]

theorem idx_remove_end0 {α : Type} (l : List α) (a : α) : LMap.remove (idx 0 (l ++ [a])) l.length = idx 0 l := by
  simpa using idx_remove_end 0 l a

/-! ## the invariant -/

/-- the arena with the given nodes -/
def arena (A : List PTNode) (pos : Option Nat) : ParseTree := ⟨idx 0 A, pos⟩

/-- node 0 is an element without parent, other nodes have an element with a smaller number as parent, and the stack
position is an element -/
structure ArenaOk (A : List PTNode) (pos : Option Nat) : Prop where
  root : ∀ n, A[0]? = some n → n.parent = none ∧ ∃ e, n.value = .element e
  parent : ∀ i n, 0 < i → A[i]? = some n → ∃ p m e, n.parent = some p ∧ p < i ∧ A[p]? = some m ∧ m.value = .element e
  pos : ∀ p, pos = some p → ∃ m e, A[p]? = some m ∧ m.value = .element e

theorem arenaOk_new : ArenaOk [] none := ⟨by simp, by simp, by simp⟩

theorem getElem?_snoc {α : Type} {A : List α} {x : α} {i : Nat} {n : α} (h : (A ++ [x])[i]? = some n) :
    A[i]? = some n ∨ (i = A.length ∧ n = x) := by
  by_cases hi : i < A.length
  · left; rwa [List.getElem?_append_left hi] at h
  · right
    have hlt := (List.getElem?_eq_some_iff.1 h).1
    simp at hlt
    have : i = A.length := by omega
    subst this
    simpa using h.symm

theorem getElem?_snoc_left {α : Type} {A : List α} {x : α} {i : Nat} {n : α} (h : A[i]? = some n) :
    (A ++ [x])[i]? = some n := by
  rw [List.getElem?_append_left (List.getElem?_eq_some_iff.1 h).1, h]

theorem arenaOk_snoc {A : List PTNode} {p : Nat} (h : ArenaOk A (some p)) (v : Node) :
    ArenaOk (A ++ [⟨v, some p⟩]) (some p) := by
  obtain ⟨m, e, hm, he⟩ := h.pos p rfl
  have hlt := (List.getElem?_eq_some_iff.1 hm).1
  refine ⟨?_, ?_, ?_⟩
  · intro n hn
    rcases getElem?_snoc hn with h1 | ⟨h1, -⟩
    · exact h.root n h1
    · omega
  · intro i n hi hn
    rcases getElem?_snoc hn with h1 | ⟨h1, rfl⟩
    · obtain ⟨q, m', e', g1, g2, g3, g4⟩ := h.parent i n hi h1
      exact ⟨q, m', e', g1, g2, getElem?_snoc_left g3, g4⟩
    · exact ⟨p, m, e, rfl, by omega, getElem?_snoc_left hm, he⟩
  · intro q hq
    cases hq
    exact ⟨m, e, getElem?_snoc_left hm, he⟩

theorem push_some {A : List PTNode} {p : Nat} (h : ArenaOk A (some p)) (e : Element) :
    (arena A (some p)).push e = .ok (arena (A ++ [⟨.element e, some p⟩]) (some A.length)) ∧
    ArenaOk (A ++ [⟨.element e, some p⟩]) (some A.length) := by
  have h' := arenaOk_snoc h (.element e)
  obtain ⟨m, e', hm, he⟩ := h.pos p rfl
  refine ⟨?_, h'.root, h'.parent, ?_⟩
  · simp only [ParseTree.push, arena, idx_get0, hm, Res.unwrap_some, Res.bind_ok, idx_length, idx_insert_end0, Res.pure_eq]
  · intro q hq; cases hq; exact ⟨⟨.element e, some p⟩, e, by simp, rfl⟩

theorem push_none {A : List PTNode} (h : ArenaOk A none) (e : Element) :
    ∃ A', (arena A none).push e = .ok (arena A' (some 0)) ∧ ArenaOk A' (some 0) ∧
      A' = ⟨.element e, none⟩ :: A.drop 1 := by
  cases A with
  | nil => exact ⟨_, rfl, ⟨by simp, by intro i n hi hn; simp [List.getElem?_cons] at hn; omega, by simp⟩, rfl⟩
  | cons a A =>
    refine ⟨_, rfl, ⟨by simp, ?_, by simp⟩, rfl⟩
    intro i n hi hn
    obtain ⟨j, rfl⟩ : ∃ j, i = j + 1 := ⟨i - 1, by omega⟩
    obtain ⟨p, m, e', g1, g2, g3, g4⟩ := h.parent (j + 1) n hi (by simpa using hn)
    cases p with
    | zero => exact ⟨0, _, e, g1, g2, rfl, rfl⟩
    | succ p => exact ⟨p + 1, m, e', g1, g2, by simpa using g3, g4⟩

theorem append_some {A : List PTNode} {p : Nat} (h : ArenaOk A (some p)) (n : Node) :
    (arena A (some p)).append n = .ok (arena (A ++ [⟨n, some p⟩]) (some p)) ∧
    ArenaOk (A ++ [⟨n, some p⟩]) (some p) := by
  refine ⟨?_, arenaOk_snoc h n⟩
  obtain ⟨m, e', hm, he⟩ := h.pos p rfl
  simp only [ParseTree.append, arena, idx_get0, hm, Res.unwrap_some, Res.bind_ok, idx_length, idx_insert_end0, Res.pure_eq]

theorem pop_some {A : List PTNode} {p : Nat} (h : ArenaOk A (some p)) :
    ∃ q, (arena A (some p)).pop = .ok (arena A q) ∧ ArenaOk A q ∧ ∃ m, A[p]? = some m ∧ m.parent = q := by
  obtain ⟨m, e', hm, he⟩ := h.pos p rfl
  refine ⟨m.parent, ?_, ⟨h.root, h.parent, ?_⟩, m, hm, rfl⟩
  · simp only [ParseTree.pop, arena, idx_get0, hm, Res.unwrap_some, Res.bind_ok, Res.pure_eq]
  · intro q hq
    cases p with
    | zero => rw [(h.root m hm).1] at hq; cases hq
    | succ p =>
      obtain ⟨q', m', e'', g1, g2, g3, g4⟩ := h.parent (p + 1) m (by omega) hm
      rw [g1] at hq; cases hq
      exact ⟨m', e'', g3, g4⟩

theorem topElement_some {A : List PTNode} {p : Nat} {m : PTNode} {e : Element} (hm : A[p]? = some m)
    (he : m.value = .element e) : (arena A (some p)).topElement = .ok (some e) := by
  simp only [ParseTree.topElement, arena, idx_get0, hm, Res.unwrap_some, Res.bind_ok, he, Node.asElement, expect, Res.pure_eq]

/-! ## `to_dom` -/

/-- `append`, as a function -/
def addOne (e : Element) (n : Node) : Element :=
  { e with children := normalText (e.children ++ [applyXmlnsContext e.defaultNamespace e.ctx n]) }

theorem append_addOne (e : Element) (n : Node) : e.append n = .ok (addOne e n) := append_eq e n

theorem toDom_step {A : List PTNode} {v : Node} {p : Nat} {e : Element} {q : Option Nat} (k : Nat) (hk : A.length = k + 1)
    (hp : A[p]? = some ⟨.element e, q⟩) :
    ParseTree.toDomLoop (k + 1) (idx 0 (A ++ [⟨v, some p⟩])) =
      ParseTree.toDomLoop k (idx 0 (A.set p ⟨.element (addOne e (ParseTree.flipElement v)), q⟩)) := by
  have hlt := (List.getElem?_eq_some_iff.1 hp).1
  rw [ParseTree.toDomLoop, ← hk]
  simp only [idx_get0, List.getElem?_append_right, Nat.le_refl, Nat.sub_self, List.getElem?_cons_zero, Res.unwrap_some,
    Res.bind_ok, idx_remove_end0, hp, Node.asElement, expect, append_addOne, idx_insert0 _ _ _ hlt]

/-- `to_dom` succeeds on every arena, and every property of nodes that is kept by `reverse_children` and `append`
holds of the result if it holds of all nodes. -/
theorem toDomLoop_ok (Q : Node → Prop) (hflip : ∀ n, Q n → Q (ParseTree.flipElement n))
    (happ : ∀ e n, Q (.element e) → Q n → Q (.element (addOne e n))) :
    ∀ (k : Nat) (A : List PTNode), A.length = k + 1 → ArenaOk A none → (∀ n ∈ A, Q n.value) →
      ∃ e, ParseTree.toDomLoop k (idx 0 A) = .ok (idx 0 [⟨.element e, none⟩]) ∧ Q (.element e) := by
  intro k
  induction k with
  | zero =>
    intro A hA hok hQ
    obtain ⟨a, rfl⟩ := List.length_eq_one_iff.1 hA
    obtain ⟨h1, e, h2⟩ := hok.root a rfl
    obtain ⟨v, q⟩ := a
    simp only at h1 h2
    subst h1 h2
    exact ⟨e, rfl, hQ ⟨.element e, none⟩ (by simp)⟩
  | succ k ih =>
    intro A hA hok hQ
    rcases List.eq_nil_or_concat A with rfl | ⟨A, x, rfl⟩
    · simp at hA
    rw [List.concat_eq_append] at *
    have hlen : A.length = k + 1 := by simpa using hA
    obtain ⟨p, m, e, g1, g2, g3, g4⟩ := hok.parent A.length x (by omega) (by simp)
    obtain ⟨v, px⟩ := x
    obtain ⟨mv, q⟩ := m
    simp only at g1 g4
    subst g1 g4
    have g3' : A[p]? = some ⟨.element e, q⟩ := by rwa [List.getElem?_append_left g2] at g3
    rw [toDom_step k hlen g3']
    have hqe : Q (.element (addOne e (ParseTree.flipElement v))) :=
      happ _ _ (hQ ⟨.element e, q⟩ (by simp [List.mem_of_getElem? g3'])) (hflip _ (hQ ⟨v, some p⟩ (by simp)))
    have hset : ∀ (i : Nat) (n : PTNode), (A.set p ⟨.element (addOne e (ParseTree.flipElement v)), q⟩)[i]? = some n →
        ∃ n' : PTNode, A[i]? = some n' ∧ n'.parent = n.parent ∧ (n' = n ∨ ∃ e, n.value = .element e) := by
      intro i n hn
      rw [List.getElem?_set] at hn
      split at hn
      · rename_i hi
        subst hi
        cases hn; exact ⟨_, g3', rfl, .inr ⟨_, rfl⟩⟩
      · exact ⟨n, hn, rfl, .inl rfl⟩
    refine ih _ (by simpa using hlen) ⟨?_, ?_, by simp⟩ ?_
    · intro n hn
      obtain ⟨n', h1, h2, h3⟩ := hset 0 n hn
      obtain ⟨h4, h5⟩ := hok.root n' (getElem?_snoc_left h1)
      refine ⟨by rw [← h2, h4], ?_⟩
      rcases h3 with rfl | h3
      · exact h5
      · exact h3
    · intro i n hi hn
      obtain ⟨n', h1, h2, h3⟩ := hset i n hn
      obtain ⟨p', m', e', f1, f2, f3, f4⟩ := hok.parent i n' hi (getElem?_snoc_left h1)
      have hilt := (List.getElem?_eq_some_iff.1 h1).1
      rw [List.getElem?_append_left (by omega)] at f3
      by_cases hpp : p' = p
      · subst hpp
        exact ⟨p', _, _, by rw [← h2, f1], f2, by rw [List.getElem?_set_self (by omega)], rfl⟩
      · exact ⟨p', m', e', by rw [← h2, f1], f2, by rw [List.getElem?_set_ne (Ne.symm hpp), f3], f4⟩
    · intro n hn
      obtain ⟨i, hi⟩ := List.mem_iff_getElem?.1 hn
      rw [List.getElem?_set] at hi
      split at hi
      · cases hi; exact hqe
      · exact hQ n (by simp [List.mem_of_getElem? hi])

theorem toDom_ok (Q : Node → Prop) (hflip : ∀ n, Q n → Q (ParseTree.flipElement n))
    (happ : ∀ e n, Q (.element e) → Q n → Q (.element (addOne e n))) (A : List PTNode) (hne : A ≠ [])
    (pos : Option Nat) (hok : ArenaOk A pos) (hQ : ∀ n ∈ A, Q n.value) :
    ∃ e, (arena A pos).toDom = .ok e ∧ Q (.element e) := by
  have hlen : A.length = (A.length - 1) + 1 := by have := List.length_pos_iff.2 hne; omega
  obtain ⟨e, h1, h2⟩ := toDomLoop_ok Q hflip happ (A.length - 1) A hlen ⟨hok.root, hok.parent, by simp⟩ hQ
  refine ⟨e.reverseChildren, ?_, hflip _ h2⟩
  have hemp : (idx 0 A).isEmpty = false := by cases A with
    | nil => exact absurd rfl hne
    | cons a A => rfl
  simp only [ParseTree.toDom, arena, hemp, Bool.false_eq_true, if_false, idx_length, h1, Res.bind_ok, idx_get0,
    List.getElem?_cons_zero, Res.unwrap_some, Node.asElement, expect, Res.pure_eq]

/-! ## operation sequences -/

/-- run the operations -/
def runOps : List Op → ParseTree → R ParseTree
  | [], t => .ok t
  | .push e :: l, t => do let t ← t.push e; runOps l t
  | .append n :: l, t => do let t ← t.append n; runOps l t
  | .pop :: l, t => do let t ← t.pop; runOps l t

theorem runOps_ok (l : List Op) : ∀ (A : List PTNode) (pos : Option Nat), ArenaOk A pos →
    (∃ A' pos', runOps l (arena A pos) = .ok (arena A' pos') ∧ ArenaOk A' pos') ∨
    (∃ m, runOps l (arena A pos) = .err (.parsing m none)) := by
  induction l with
  | nil => intro A pos h; exact .inl ⟨A, pos, rfl, h⟩
  | cons o l ih =>
    intro A pos h
    cases pos with
    | none =>
      cases o with
      | push e =>
        obtain ⟨A', h1, h2, -⟩ := push_none h e
        rw [runOps, h1]; exact ih _ _ h2
      | append n => exact .inr ⟨_, rfl⟩
      | pop => exact .inr ⟨_, rfl⟩
    | some p =>
      cases o with
      | push e =>
        obtain ⟨h1, h2⟩ := push_some h e
        rw [runOps, h1]; exact ih _ _ h2
      | append n =>
        obtain ⟨h1, h2⟩ := append_some h n
        rw [runOps, h1]; exact ih _ _ h2
      | pop =>
        obtain ⟨q, h1, h2, -⟩ := pop_some h
        rw [runOps, h1]; exact ih _ _ h2

/-! ## forests in the arena -/

def fsize : Forest → Nat
  | .nil => 0
  | .leaf _ r => 1 + fsize r
  | .elem _ k r => 1 + fsize k + fsize r

/-- the nodes of a forest, written from number `base` on below node `p` -/
def flat (p : Nat) : Nat → Forest → List PTNode
  | _, .nil => []
  | base, .leaf n r => ⟨n, some p⟩ :: flat p (base + 1) r
  | base, .elem e k r => ⟨.element e, some p⟩ :: (flat base (base + 1) k ++ flat p (base + 1 + fsize k) r)

@[simp] theorem flat_length (p base : Nat) (f : Forest) : (flat p base f).length = fsize f := by
  induction f generalizing p base with
  | nil => rfl
  | leaf n r ih => simp [flat, fsize, ih]; omega
  | elem e k r ih1 ih2 => simp [flat, fsize, ih1, ih2]; omega

theorem runOps_append (l l' : List Op) (t : ParseTree) : runOps (l ++ l') t = (runOps l t >>= runOps l') := by
  induction l generalizing t with
  | nil => rfl
  | cons o l ih =>
    cases o with
    | push e => simp only [List.cons_append, runOps]; cases t.push e <;> simp [ih]
    | append e => simp only [List.cons_append, runOps]; cases t.append e <;> simp [ih]
    | pop => simp only [List.cons_append, runOps]; cases t.pop <;> simp [ih]

theorem runOps_forest (f : Forest) : ∀ (A : List PTNode) (p : Nat), ArenaOk A (some p) →
    runOps f.ops (arena A (some p)) = .ok (arena (A ++ flat p A.length f) (some p)) ∧
    ArenaOk (A ++ flat p A.length f) (some p) := by
  induction f with
  | nil => intro A p h; simpa [Forest.ops, runOps, flat] using h
  | leaf n r ih =>
    intro A p h
    obtain ⟨h1, h2⟩ := append_some h n
    rw [Forest.ops, runOps, h1, Res.bind_ok]
    have := ih _ _ h2
    simpa [flat] using this
  | elem e k r ih1 ih2 =>
    intro A p h
    obtain ⟨h1, h2⟩ := push_some h e
    rw [Forest.ops, runOps, h1, Res.bind_ok, runOps_append]
    obtain ⟨g1, g2⟩ := ih1 _ _ h2
    rw [g1, Res.bind_ok, runOps]
    obtain ⟨q, f1, f2, m, f3, f4⟩ := pop_some g2
    rw [f1, Res.bind_ok]
    simp only [List.append_assoc, List.getElem?_append_right, Nat.le_refl, Nat.sub_self, List.cons_append,
      List.getElem?_cons_zero, Option.some.injEq] at f3
    subst f3
    subst f4
    have := ih2 _ _ f2
    simpa [flat, Nat.add_assoc, Nat.add_comm, Nat.add_left_comm] using this

/-- the element with the forest appended in the order of `to_dom` (last node first) -/
def addRev (e : Element) : Forest → Element
  | .nil => e
  | .leaf n r => addOne (addRev e r) (ParseTree.flipElement n)
  | .elem c k r => addOne (addRev e r) (.element (addRev c k).reverseChildren)

theorem toDomLoop_forest (f : Forest) : ∀ (A : List PTNode) (p : Nat) (e : Element) (q : Option Nat),
    A[p]? = some ⟨.element e, q⟩ →
    ParseTree.toDomLoop (A.length - 1 + fsize f) (idx 0 (A ++ flat p A.length f)) =
      ParseTree.toDomLoop (A.length - 1) (idx 0 (A.set p ⟨.element (addRev e f), q⟩)) := by
  induction f with
  | nil =>
    intro A p e q h
    obtain ⟨h1, h2⟩ := List.getElem?_eq_some_iff.1 h
    simp only [flat, fsize, List.append_nil, addRev, Nat.add_zero]
    rw [← h2, List.set_getElem_self]
  | leaf n r ih =>
    intro A p e q h
    have hlt := (List.getElem?_eq_some_iff.1 h).1
    have := ih (A ++ [⟨n, some p⟩]) p e q (getElem?_snoc_left h)
    simp only [List.append_assoc, List.length_append, List.length_singleton, List.cons_append, List.nil_append] at this
    rw [flat, fsize, show A.length - 1 + (1 + fsize r) = A.length + 1 - 1 + fsize r by omega, this,
      List.set_append_left _ _ hlt, show A.length + 1 - 1 = A.length - 1 + 1 by omega]
    rw [toDom_step (A.length - 1) (by simp; omega) (by rw [List.getElem?_set_self hlt])]
    rw [addRev, List.set_set]
  | elem c k r ih1 ih2 =>
    intro A p e q h
    have hlt := (List.getElem?_eq_some_iff.1 h).1
    have h2 := ih2 (A ++ ⟨.element c, some p⟩ :: flat A.length (A.length + 1) k) p e q
      (by rw [List.getElem?_append_left hlt, h])
    have h1 := ih1 (A.set p ⟨.element (addRev e r), q⟩ ++ [⟨.element c, some p⟩]) A.length c (some p) (by simp)
    simp only [List.append_assoc, List.length_append, List.cons_append, List.nil_append,
      List.length_cons, List.length_nil, Nat.zero_add, List.length_set, flat_length] at h1 h2
    rw [flat, fsize, show A.length - 1 + (1 + fsize k + fsize r) = A.length + (fsize k + 1) - 1 + fsize r by omega,
      show A.length + 1 + fsize k = A.length + (fsize k + 1) by omega, h2, List.set_append_left _ _ hlt,
      show A.length + (fsize k + 1) - 1 = A.length + 1 - 1 + fsize k by omega, h1,
      show A.length + 1 - 1 = A.length - 1 + 1 by omega]
    rw [show (A.set p ⟨.element (addRev e r), q⟩ ++ [(⟨.element c, some p⟩ : PTNode)]).set A.length
        ⟨.element (addRev c k), some p⟩ = A.set p ⟨.element (addRev e r), q⟩ ++ [⟨.element (addRev c k), some p⟩] by
      rw [List.set_append_right _ _ (by simp)]; simp]
    rw [toDom_step (A.length - 1) (by simp; omega) (by rw [List.getElem?_set_self hlt])]
    rw [addRev, List.set_set, ParseTree.flipElement]

theorem toDom_forest (e : Element) (f : Forest) (pos : Option Nat) :
    (arena (⟨.element e, none⟩ :: flat 0 1 f) pos).toDom = .ok (addRev e f).reverseChildren := by
  have h := toDomLoop_forest f [⟨.element e, none⟩] 0 e none rfl
  simp only [List.length_singleton, Nat.sub_self, Nat.zero_add, List.cons_append, List.nil_append, List.set_cons_zero] at h
  simp only [ParseTree.toDom, arena, idx_length, List.length_cons, flat_length, Nat.add_sub_cancel, h]
  rfl

/-! ## conforming forests -/

/-- the child list of `e` with content `f` -/
def build (e : Element) : Forest → List Node
  | .nil => []
  | .leaf n r => if isBlankText n then build e r else applyXmlnsContext e.defaultNamespace e.ctx n :: build e r
  | .elem c k r => applyXmlnsContext e.defaultNamespace e.ctx (.element { c with children := build c k }) :: build e r

theorem noAdjText_reverse {l : List Node} (h : NoAdjText l) : NoAdjText l.reverse := by
  intro a b x y e
  have := congrArg List.reverse e
  simp at this
  exact h b.reverse a.reverse y x this

theorem apply_text {d : Option Str} {c : SMap} {n : Node} {t : Str} :
    applyXmlnsContext d c n = .text t ↔ n = .text t := by
  cases n <;> simp [applyXmlnsContext]

theorem isBlankText_iff {n : Node} : isBlankText n = true ↔ ∃ t, n = .text t ∧ Blank t := by
  cases n <;> simp [isBlankText]

theorem build_head {e : Element} {f : Forest} {t : Str} {l : List Node} (h : build e f = .text t :: l) : f.textFirst := by
  cases f with
  | nil => simp [build] at h
  | leaf n r =>
    rw [build] at h
    split at h
    · rename_i hb
      obtain ⟨t, rfl, -⟩ := isBlankText_iff.1 hb
      trivial
    · simp only [List.cons.injEq, apply_text] at h
      rw [h.1]; trivial
  | elem c k r => simp [build, applyXmlnsContext] at h

theorem leafOk {n : Node} {r : Forest} (h : (Forest.leaf n r).Ok) : r.Ok ∧
    (∀ t, n = .text t → ¬ r.textFirst) ∧ (∀ e, n = .element e → e.children = []) := by
  cases n <;> simp_all [Forest.Ok]

theorem build_ok {e : Element} {f : Forest} (h : f.Ok) : NoAdjText (build e f) ∧ ∀ t, Node.text t ∈ build e f → ¬ Blank t := by
  induction f with
  | nil => simp [build, noAdjText_nil]
  | leaf n r ih =>
    obtain ⟨h1, h2, -⟩ := leafOk h
    obtain ⟨g1, g2⟩ := ih h1
    rw [build]
    split
    · exact ⟨g1, g2⟩
    · rename_i hb
      constructor
      · refine noAdjText_cons.2 ⟨?_, g1⟩
        intro x y l' hx hl
        exact h2 x (apply_text.1 hx) (build_head hl)
      · intro t ht
        rcases List.mem_cons.1 ht with ht | ht
        · intro hbl
          exact hb (isBlankText_iff.2 ⟨t, apply_text.1 ht.symm, hbl⟩)
        · exact g2 t ht
  | elem c k r ih1 ih2 =>
    obtain ⟨-, -, h3⟩ := h
    obtain ⟨g1, g2⟩ := ih2 h3
    simp only [build]
    constructor
    · refine noAdjText_cons.2 ⟨?_, g1⟩
      intro x y l' hx hl
      simp [applyXmlnsContext] at hx
    · intro t ht
      rcases List.mem_cons.1 ht with ht | ht
      · simp [applyXmlnsContext] at ht
      · exact g2 t ht

/-- a blank text after something that is not a text disappears -/
theorem normalText_blank {l : List Node} {t : Str} (h : NoAdjText l) (hb : ∀ t, Node.text t ∈ l → ¬ Blank t)
    (hl : ∀ s, l.getLast? ≠ some (.text s)) (ht : Blank t) : normalText (l ++ [.text t]) = l := by
  have hadj : NoAdjText (l ++ [.text t]) := by
    intro a b x y e
    rcases List.eq_nil_or_concat b with rfl | ⟨b, z, rfl⟩
    · have e' : l ++ [.text t] = (a ++ [.text x]) ++ [.text y] := by rw [e]; simp
      have := (List.append_inj' e' rfl).1
      exact hl x (by rw [this]; simp)
    · rw [List.concat_eq_append] at e
      have e' : l ++ [.text t] = (a ++ .text x :: .text y :: b) ++ [z] := by rw [e]; simp
      exact h a b x y (List.append_inj' e' rfl).1
  unfold normalText
  rw [joinRuns_id hadj, List.filter_append]
  have : l.filter (fun n => !isBlankText n) = l := by
    apply List.filter_eq_self.2
    intro n hn
    cases n with
    | text t => simp [isBlankText, hb t hn]
    | element _ => rfl
    | comment _ => rfl
    | cdata _ => rfl
  rw [this]
  simp [isBlankText, ht]

theorem addRev_eq {f : Forest} (h : f.Ok) (e : Element) (he : e.children = []) :
    addRev e f = { e with children := (build e f).reverse } := by
  induction f generalizing e with
  | nil => obtain ⟨n, cs, a, x, p, c⟩ := e; simp at he; simp [addRev, build, he]
  | leaf n r ih =>
    obtain ⟨h1, h2, h3⟩ := leafOk h
    have hn : ParseTree.flipElement n = n := by
      cases n with
      | element e' =>
        obtain ⟨_, cs, _, _, _, _⟩ := e'
        have := h3 _ rfl
        simp at this
        simp [ParseTree.flipElement, ElementF.reverseChildren, this]
      | text _ => rfl
      | comment _ => rfl
      | cdata _ => rfl
    rw [addRev, ih h1 e he, addOne, hn]
    obtain ⟨g1, g2⟩ := build_ok (e := e) h
    have : normalText ((build e r).reverse ++ [applyXmlnsContext e.defaultNamespace e.ctx n]) =
        (build e (.leaf n r)).reverse := by
      rw [build] at g1 g2 ⊢
      split
      · rename_i hb
        obtain ⟨t, rfl, ht⟩ := isBlankText_iff.1 hb
        rw [if_pos hb] at g1 g2
        apply normalText_blank (noAdjText_reverse g1) (by simpa using g2) _ ht
        intro s hs
        rw [List.getLast?_reverse] at hs
        obtain ⟨l, hl⟩ := List.head?_eq_some_iff.1 hs
        exact h2 t rfl (build_head hl)
      · rename_i hb
        rw [if_neg hb] at g1 g2
        rw [List.reverse_cons]
        apply normalText_id
        · have := noAdjText_reverse g1
          simpa using this
        · intro t ht
          apply g2
          simpa [or_comm] using ht
    simp only [ElementF.defaultNamespace] at this ⊢
    rw [this]
  | elem c k r ih1 ih2 =>
    obtain ⟨h1, h2, h3⟩ := h
    rw [addRev, ih2 h3 e he, ih1 h2 c h1, addOne]
    obtain ⟨g1, g2⟩ := build_ok (e := e) (f := .elem c k r) ⟨h1, h2, h3⟩
    have : normalText ((build e r).reverse ++ [applyXmlnsContext e.defaultNamespace e.ctx
        (.element { c with children := build c k })]) = (build e (.elem c k r)).reverse := by
      rw [build, List.reverse_cons] 
      apply normalText_id
      · have := noAdjText_reverse g1
        simpa [build] using this
      · intro t ht
        apply g2
        simpa [build, or_comm] using ht
    simp only [ElementF.defaultNamespace, ElementF.reverseChildren, List.reverse_reverse] at this ⊢
    rw [this]

theorem toDom_build {f : Forest} (h : f.Ok) (e : Element) (he : e.children = []) (pos : Option Nat) :
    (arena (⟨.element e, none⟩ :: flat 0 1 f) pos).toDom = .ok { e with children := build e f } := by
  rw [toDom_forest, addRev_eq h e he]
  simp [ElementF.reverseChildren]

theorem written_build (f : Forest) (e : Element) : Written e f (build e f) := by
  induction f generalizing e with
  | nil => exact .nil
  | leaf n r ih =>
    rw [build]
    split
    · rename_i hb
      obtain ⟨t, rfl, ht⟩ := isBlankText_iff.1 hb
      exact .blank ht (ih e)
    · rename_i hb
      exact .leaf (fun t ht hbl => hb (isBlankText_iff.2 ⟨t, ht, hbl⟩)) (givenDefault_eq e ▸ handedDown_apply _ _ _) (ih e)
  | elem c k r ih1 ih2 => exact .elem (ih1 c) (givenDefault_eq e ▸ handedDown_apply _ _ _) (ih2 e)

end KissXml
