import Verif.Proofs.Removal
import Verif.Props.Dom
/-!
# Removing calls, one after the other (C112)
-/
namespace KissXml.Props
open KissXml KissXml.Spec

/-- Two calls of `remove_by` remove the same children, and as many, as one call with either predicate. -/
theorem C112_remove_by (e : Element) (p q : Node → Bool) : ∃ e1 e2 k1 k2, e.removeBy p = .ok (e1, k1) ∧ e1.removeBy q = .ok (e2, k2) ∧
    e.removeBy (fun n => p n || q n) = .ok (e2, k1 + k2) := by
  refine ⟨_, _, _, _, C20_remove_by e p, C20_remove_by _ q, ?_⟩
  rw [C20_remove_by]
  refine congrArg Res.ok (Prod.ext ?_ ?_)
  · simp only [List.filter_filter]
    congr 2
    funext n
    cases p n <;> cases q n <;> rfl
  · simp only
    generalize e.children = l
    induction l with
    | nil => rfl
    | cons n l ih => cases hp : p n <;> cases hq : q n <;> simp [List.countP_cons, hp, hq, ih] <;> omega

/-- The same for `remove_elements`. -/
theorem C112_remove_elements (e : Element) (p q : Element → Bool) : ∃ e1 e2 k1 k2, e.removeElements p = .ok (e1, k1) ∧
    e1.removeElements q = .ok (e2, k2) ∧ e.removeElements (fun c => p c || q c) = .ok (e2, k1 + k2) := by
  obtain ⟨e1, e2, k1, k2, h1, h2, h3⟩ := C112_remove_by e (fun n => (element? n).any p) (fun n => (element? n).any q)
  refine ⟨e1, e2, k1, k2, ?_, ?_, ?_⟩
  · rw [C20_remove_elements, ← C20_remove_by, h1]
  · rw [C20_remove_elements, ← C20_remove_by, h2]
  · rw [C20_remove_elements, ← C20_remove_by, ← h3]
    congr 1
    funext n
    cases element? n <;> rfl

/-- Two calls of `remove_all` leave what is left by one call with either predicate, if the second predicate does not look at the children
of elements.  Together they count at least as many nodes (more if a node that the first call removes is inside of one that the second
removes). -/
theorem C112_remove_all (e : Element) (p q : Node → Bool) (hq : Shallow q) : ∃ e1 e2 k1 k2 k, e.removeAll p = .ok (e1, k1) ∧
    e1.removeAll q = .ok (e2, k2) ∧ e.removeAll (fun n => p n || q n) = .ok (e2, k) ∧ k ≤ k1 + k2 := by
  refine ⟨_, _, _, _, _, C21_remove_all e p, C21_remove_all _ q, ?_, hitsL_pruneL hq e.children⟩
  rw [C21_remove_all, pruneL_pruneL hq]

/-- The same for `remove_all_elements`. -/
theorem C112_remove_all_elements (e : Element) (p q : Element → Bool) (hq : ∀ c l, q { c with children := l } = q c) :
    ∃ e1 e2 k1 k2 k, e.removeAllElements p = .ok (e1, k1) ∧ e1.removeAllElements q = .ok (e2, k2) ∧
      e.removeAllElements (fun c => p c || q c) = .ok (e2, k) ∧ k ≤ k1 + k2 := by
  obtain ⟨e1, e2, k1, k2, k, h1, h2, h3, h4⟩ := C112_remove_all e (fun n => (element? n).any p) (fun n => (element? n).any q)
    (fun c l => by simp [element?, hq])
  refine ⟨e1, e2, k1, k2, k, ?_, ?_, ?_, h4⟩
  · rw [C21_remove_all_elements, ← C21_remove_all, h1]
  · rw [C21_remove_all_elements, ← C21_remove_all, h2]
  · rw [C21_remove_all_elements, ← C21_remove_all, ← h3]
    congr 1
    funext n
    cases element? n <;> rfl

/-- In particular the order of the two calls does not matter for what is left. -/
theorem C112_order (e : Element) (p q : Node → Bool) (hp : Shallow p) (hq : Shallow q) (e1 e2 f1 f2 : Element) (k1 k2 l1 l2 : Nat)
    (h1 : e.removeAll p = .ok (e1, k1)) (h2 : e1.removeAll q = .ok (e2, k2))
    (g1 : e.removeAll q = .ok (f1, l1)) (g2 : f1.removeAll p = .ok (f2, l2)) : e2 = f2 := by
  obtain ⟨_, _, _, _, _, i1, i2, i3, -⟩ := C112_remove_all e p q hq
  obtain ⟨_, _, _, _, _, j1, j2, j3, -⟩ := C112_remove_all e q p hp
  cases h1.symm.trans i1
  cases h2.symm.trans i2
  cases g1.symm.trans j1
  cases g2.symm.trans j2
  have hc : (fun n => q n || p n) = fun n => p n || q n := by funext n; exact Bool.or_comm _ _
  rw [hc, i3] at j3
  cases j3
  rfl

/-- The same call again removes nothing, if the predicate does not look at the children of elements, and `search` then finds nothing. -/
theorem C112_again (e e1 : Element) (p : Node → Bool) (k : Nat) (hp : Shallow p) (h : e.removeAll p = .ok (e1, k)) :
    e1.removeAll p = .ok (e1, 0) ∧ e1.removeBy p = .ok (e1, 0) ∧ e1.search p = [] := by
  rw [C21_remove_all] at h
  cases h
  have h0 : hitsL p (pruneL p e.children) = 0 := hitsL_pruned hp _
  have hs : ∀ n ∈ descendants { e with children := pruneL p e.children }, p n = false :=
    C21_leaf_predicate e _ _ p (fun m => prune_shallow hp m) (C21_remove_all e p)
  refine ⟨?_, ?_, ?_⟩
  · rw [C21_remove_all]
    simp only [h0, pruneL_none _ h0]
  · have hc : ∀ n ∈ pruneL p e.children, p n = false := by
      intro n hn
      rw [pruneL_eq] at hn
      obtain ⟨m, hm, rfl⟩ := List.mem_map.1 hn
      rw [prune_shallow hp]
      simpa using (List.mem_filter.1 hm).2
    rw [C20_remove_by]
    refine congrArg Res.ok (Prod.ext ?_ ?_)
    · simp only
      rw [List.filter_eq_self.2 (fun n hn => by simp [hc n hn])]
    · simp only [List.countP_eq_zero]
      exact fun n hn => by simp [hc n hn]
  · have hperm := C13_search { e with children := pruneL p e.children } p
    rw [List.filter_eq_nil_iff.2 (fun n hn => by simp [hs n hn])] at hperm
    exact hperm.eq_nil

/-- Without this condition the same call again can remove more; but as many nodes are gone as were counted, or more, so that after as many
calls as there are nodes nothing more is removed. -/
theorem C112_settles (p : Node → Bool) (s : Nat → Element) (hs : ∀ i, ∃ k, (s i).removeAll p = .ok (s (i + 1), k)) :
    (∀ i k, (s i).removeAll p = .ok (s (i + 1), k) → (descendants (s (i + 1))).length + k ≤ (descendants (s i)).length) ∧
    ∃ n ≤ (descendants (s 0)).length, ∀ m, n ≤ m → s m = s n ∧ (s m).removeAll p = .ok (s m, 0) := by
  have step : ∀ i k, (s i).removeAll p = .ok (s (i + 1), k) → (descendants (s (i + 1))).length + k ≤ (descendants (s i)).length := by
    intro i k h
    rw [C21_remove_all] at h
    simp only [Res.ok.injEq, Prod.mk.injEq] at h
    obtain ⟨h1, rfl⟩ := h
    rw [← h1]
    exact docOrderL_hits _
  refine ⟨step, ?_⟩
  have stop : ∀ i, (s i).removeAll p = .ok (s (i + 1), 0) → s (i + 1) = s i := by
    intro i h
    rw [C21_remove_all] at h
    simp only [Res.ok.injEq, Prod.mk.injEq] at h
    rw [← h.1, pruneL_none _ h.2]
  have ex : ∃ n ≤ (descendants (s 0)).length, (s n).removeAll p = .ok (s (n + 1), 0) := by
    by_contra hno
    have hlen : ∀ n, n ≤ (descendants (s 0)).length + 1 → (descendants (s n)).length + n ≤ (descendants (s 0)).length := by
      intro n
      induction n with
      | zero => intro _; exact Nat.le_refl _
      | succ n ih =>
        intro hn
        have h0 := ih (by omega)
        obtain ⟨k, hk⟩ := hs n
        have h1 := step n k hk
        have : k ≠ 0 := by
          rintro rfl
          exact hno ⟨n, by omega, hk⟩
        omega
    have := hlen _ (Nat.le_refl _)
    omega
  obtain ⟨n, hn, h0⟩ := ex
  refine ⟨n, hn, ?_⟩
  intro m hm
  induction m, hm using Nat.le_induction with
  | base => exact ⟨rfl, by rw [h0, stop n h0]⟩
  | succ m _ ih =>
    obtain ⟨i1, i2⟩ := ih
    obtain ⟨k, hk⟩ := hs m
    rw [i2] at hk
    simp only [Res.ok.injEq, Prod.mk.injEq] at hk
    rw [← hk.1]
    exact ⟨i1, i2⟩

/-- Removing everything is `clear_children`; removing nothing changes nothing. -/
theorem C112_all_or_none (e : Element) : e.removeAll (fun _ => true) = .ok (e.clearChildren, e.children.length) ∧
    e.removeAll (fun _ => false) = .ok (e, 0) := by
  constructor
  · rw [C21_remove_all]
    refine congrArg Res.ok (Prod.ext ?_ ?_)
    · simp [pruneL_eq, ElementF.clearChildren]
    · simp only
      generalize e.children = l
      induction l with
      | nil => rfl
      | cons n l ih => rw [hitsL, ih]; simp [Nat.add_comm]
  · have h0 := hitsL_false e.children
    rw [C21_remove_all]
    simp only [h0, pruneL_none _ h0]

/-- Removing comments, CDATA sections, or both does not change the text of the element. -/
theorem C112_text (e e1 : Element) (p : Node → Bool) (k : Nat) (hp : ∀ n, p n = true → n.isComment = true ∨ n.isCData = true)
    (h : e.removeAll p = .ok (e1, k)) : e1.textOf = e.textOf := by
  rw [C21_remove_all] at h
  cases h
  rw [C14_text, C14_text]
  refine congrArg List.flatten (filterMapL_prune ?_ ?_ e.children)
  · intro n hn
    rcases hp n hn with h | h <;> cases n <;> simp_all [Node.isComment, Node.isCData, docOrder, text?]
  · intro n
    cases n with
    | element e => obtain ⟨n, cs, a, x, f, c⟩ := e; rfl
    | _ => rfl

/-! ## examples -/

/-- `<r><a>t<b/></a><!--c--><b><a/></b></r>` -/
def nest : Element :=
  ⟨c%"r", [.element ⟨c%"a", [.text c%"t", .element ⟨c%"b", [], .empty, none, none, .empty⟩], .empty, none, none, .empty⟩, .comment c%"c",
    .element ⟨c%"b", [.element ⟨c%"a", [], .empty, none, none, .empty⟩], .empty, none, none, .empty⟩], .empty, none, none, .empty⟩

/-- an element with this name -/
def called (n : Str) : Node → Bool
  | .element e => e.name == n
  | _ => false

theorem called_shallow (n : Str) : Shallow (called n) := fun _ _ => rfl

/-- first `b`, then `a`: 2 and 1; first `a`, then `b`: 2 and 1; both at once: 2 -/
example : (match nest.removeAll (called c%"b") with
    | .ok (e, k) => (match e.removeAll (called c%"a") with | .ok (e', k') => (e'.children.map Node.textOf, k, k') | _ => ([], 0, 0)) | _ => ([], 0, 0)) =
      ([c%"c"], 2, 1) ∧
    (match nest.removeAll (called c%"a") with
    | .ok (e, k) => (match e.removeAll (called c%"b") with | .ok (e', k') => (e'.children.map Node.textOf, k, k') | _ => ([], 0, 0)) | _ => ([], 0, 0)) =
      ([c%"c"], 2, 1) ∧
    (match nest.removeAll (fun n => called c%"a" n || called c%"b" n) with | .ok (e, k) => (e.children.map Node.textOf, k) | _ => ([], 0)) =
      ([c%"c"], 2) := by decide +kernel

example : ∃ e1 e2 k1 k2 k, nest.removeAll (called c%"b") = .ok (e1, k1) ∧ e1.removeAll (called c%"a") = .ok (e2, k2) ∧
    nest.removeAll (fun n => called c%"b" n || called c%"a" n) = .ok (e2, k) ∧ k ≤ k1 + k2 :=
  C112_remove_all nest _ _ (called_shallow _)

/-- an element without children -/
def hollow : Node → Bool
  | .element e => e.children.isEmpty
  | _ => false

/-- `hollow` looks at the children: the call removes more when it is made again -/
example : (match nest.removeAll hollow with
    | .ok (e, k) => (match e.removeAll hollow with | .ok (e', k') => (e'.children.length, k, k') | _ => (0, 0, 0)) | _ => (0, 0, 0)) =
      (2, 2, 1) ∧ ¬ Shallow hollow := by
  refine ⟨by decide +kernel, fun h => ?_⟩
  have := h nest []
  revert this
  decide

/-- the calls of `remove_all(hollow)` one after the other -/
def hollowed : Nat → Element
  | 0 => nest
  | n + 1 => match (hollowed n).removeAll hollow with | .ok (e, _) => e | _ => nest

example : ∃ n ≤ 6, ∀ m, n ≤ m → hollowed m = hollowed n ∧ (hollowed m).removeAll hollow = .ok (hollowed m, 0) := by
  have := (C112_settles hollow hollowed (fun i => ⟨_, by rw [hollowed, C21_remove_all]⟩)).2
  exact this

example : ∃ e k, nest.removeAll Node.isComment = .ok (e, k) ∧ e.textOf = c%"t" ∧ e.search Node.isComment = [] ∧ k = 1 :=
  ⟨_, _, C21_remove_all nest _, (C112_text nest _ Node.isComment _ (fun _ h => .inl h) (C21_remove_all nest _)).trans (by decide),
    (C112_again nest _ Node.isComment _ (fun _ _ => rfl) (C21_remove_all nest _)).2.2, by decide⟩

example : ∃ e1 e2 k1 k2, nest.removeElements (fun c => c.name == c%"a") = .ok (e1, k1) ∧ e1.removeElements (fun c => c.children.length == 1) = .ok (e2, k2) ∧
    nest.removeElements (fun c => c.name == c%"a" || c.children.length == 1) = .ok (e2, k1 + k2) ∧ k1 + k2 = 2 := by
  obtain ⟨e1, e2, k1, k2, h1, h2, h3⟩ := C112_remove_elements nest (fun c => c.name == c%"a") (fun c => c.children.length == 1)
  refine ⟨e1, e2, k1, k2, h1, h2, h3, ?_⟩
  rw [C20_remove_elements] at h3
  simp only [Res.ok.injEq, Prod.mk.injEq] at h3
  rw [← h3.2]
  decide

end KissXml.Props
