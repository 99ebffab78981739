import Verif.Proofs.Iter
/-!
# C98: recursive iterators call by call
-/
namespace KissXml.Props
open KissXml KissXml.Spec

/-- an element `r` with a text, an element `k` that has a comment, and another with a text -/
private def itTree : Element :=
  ⟨c%"r", [.text c%"t", .element ⟨c%"k", [.comment c%"c"], .empty, none, none, .empty⟩,
    .element ⟨c%"l", [.text c%"u"], .empty, none, none, .empty⟩], .empty, none, none, .empty⟩

/-- C98: the calls of `next` for `children_recursive` return the nodes of the list of all items (a permutation of all nodes below the
element, C12), one for each call, and then `None` for ever. -/
theorem C98_items (e : Element) {fuel : Nat} (hf : e.size < fuel) (k : Nat) :
    ∃ w, pull (Walk.step fuel) k (.new e) = some (yielded e.childrenRecursive k, w) := by
  obtain ⟨w, h, -⟩ := pull_streams (streams_walk fuel) k (.new e) e.childrenRecursive ⟨items_new e, by rw [weight_new]; exact hf⟩
  exact ⟨w, h⟩

example : (pull (Walk.step 10) 7 (.new itTree)).map Prod.fst =
    some (itTree.children.map some ++ [some (.comment c%"c"), some (.text c%"u"), none, none]) := by rfl

/-- C98: `search` calls the predicate for the items in the same order, once for each, and only as far as is needed for the calls of
`next`; the predicate may have a state. -/
theorem C98_search {τ : Type} (e : Element) {fuel : Nat} (hf : e.size < fuel) (p : τ → Node → Bool × τ) (t : τ) (k : Nat) :
    ∃ w, pull (searchNext fuel p) k (.new e, t) =
      some ((searched p k e.childrenRecursive t).1, w, (searched p k e.childrenRecursive t).2) :=
  pull_filter (streams_walk fuel) p fuel k (.new e) e.childrenRecursive t ⟨items_new e, by rw [weight_new]; exact hf⟩
    (by have := length_lt_size e; omega)

/-- the first text, and what the predicate was asked -/
example : (pull (searchNext 10 (fun l n => (n.isComment, n :: l))) 1 (.new itTree, [])).map (fun x => (x.1, x.2.2)) =
    some ([some (.comment c%"c")], .comment c%"c" :: itTree.children.reverse) := by rfl

/-- C98: a search for elements calls the predicate for the elements only … -/
theorem C98_search_elements {τ : Type} (e : Element) {fuel : Nat} (hf : e.size < fuel) (p : τ → Element → Bool × τ) (t : τ) (k : Nat) :
    ∃ w, pull (searchElementsNext fuel p) k (.new e, t) =
      some ((searched p k (e.childrenRecursive.filterMap element?) t).1, w,
        (searched p k (e.childrenRecursive.filterMap element?) t).2) :=
  pull_filter (streams_map (streams_searchStep fuel Node.isElement) element?) p fuel k (.new e) _ t
    ⟨_, ⟨e.childrenRecursive, rfl, by have := length_lt_size e; omega, items_new e, by rw [weight_new]; exact hf⟩,
      map_filter_filterMap (by intro a; cases a <;> rfl) _⟩
    (by have := length_lt_size e; have := List.length_filterMap_le element? e.childrenRecursive; omega)

example : (pull (searchElementsNext 10 (fun l (n : Element) => (n.name = c%"k", n.name :: l))) 2 (.new itTree, [])).map (fun x => (x.1.length, x.2.2)) = some (2, [c%"l", c%"k"]) := by rfl

/-- C98: … a search for texts for the texts … -/
theorem C98_search_text {τ : Type} (e : Element) {fuel : Nat} (hf : e.size < fuel) (p : τ → Str → Bool × τ) (t : τ) (k : Nat) :
    ∃ w, pull (searchTextNext fuel p) k (.new e, t) =
      some ((searched p k (e.childrenRecursive.filterMap text?) t).1, w,
        (searched p k (e.childrenRecursive.filterMap text?) t).2) :=
  pull_filter (streams_map (streams_searchStep fuel Node.isText) text?) p fuel k (.new e) _ t
    ⟨_, ⟨e.childrenRecursive, rfl, by have := length_lt_size e; omega, items_new e, by rw [weight_new]; exact hf⟩,
      map_filter_filterMap (by intro a; cases a <;> rfl) _⟩
    (by have := length_lt_size e; have := List.length_filterMap_le text? e.childrenRecursive; omega)

example : (pull (searchTextNext 10 (fun n s => (s = c%"u", n + 1))) 1 (.new itTree, 0)).map (fun x => (x.1, x.2.2)) =
    some ([some c%"u"], 2) := by rfl

/-- C98: … and one for comments for the comments. -/
theorem C98_search_comments {τ : Type} (e : Element) {fuel : Nat} (hf : e.size < fuel) (p : τ → Str → Bool × τ) (t : τ) (k : Nat) :
    ∃ w, pull (searchCommentsNext fuel p) k (.new e, t) =
      some ((searched p k (e.childrenRecursive.filterMap comment?) t).1, w,
        (searched p k (e.childrenRecursive.filterMap comment?) t).2) :=
  pull_filter (streams_map (streams_searchStep fuel Node.isComment) comment?) p fuel k (.new e) _ t
    ⟨_, ⟨e.childrenRecursive, rfl, by have := length_lt_size e; omega, items_new e, by rw [weight_new]; exact hf⟩,
      map_filter_filterMap (by intro a; cases a <;> rfl) _⟩
    (by have := length_lt_size e; have := List.length_filterMap_le comment? e.childrenRecursive; omega)

example : (pull (searchCommentsNext 10 (fun n (_ : Str) => (n = 0, n + 1))) 2 (.new itTree, 0)).map (fun x => (x.1, x.2.2)) =
    some ([some c%"c", none], 1) := by rfl

/-- C98: an iteration to the end (one call more than there are nodes) calls `next` once more than there are nodes below it for each
element, itself included. -/
theorem C98_calls (e : Element) {fuel : Nat} (hf : e.size < fuel) :
    ∃ w l, pull (Walk.count fuel) ((descendants e).length + 1) (.new e, 0) =
      some (l, w, ((e :: (descendants e).filterMap element?).map fun f => (descendants f).length + 1).sum) := by
  obtain ⟨w, l, h⟩ := pull_count (fuel := fuel) (descendants e).length (.new e) 0 (by rw [weight_new]; exact hf)
    (by rw [items_new]; exact (childrenRecursive_perm e).length_eq)
  refine ⟨w, l, h.trans ?_⟩
  rw [cost_new, walkCost_eq, Nat.zero_add]
  cases e
  simp [docOrder, visitsOf, element?, descendants]

example : (pull (Walk.count 10) 6 (.new itTree, 0)).map (·.2.2) = some 10 := by rfl

/-- C98: this is at most the number of nodes times the nesting … -/
theorem C98_calls_le (e : Element) :
    ((e :: (descendants e).filterMap element?).map fun f => (descendants f).length + 1).sum ≤
      ((descendants e).length + 1) * nesting (.element e) := by
  have h := walkCost_le (.element e)
  rw [walkCost_eq] at h
  cases e
  simpa [docOrder, visitsOf, element?, descendants] using h

example : (descendants itTree).length = 5 ∧ nesting (.element itTree) = 2 := by decide

/-- C98: … which grows with the square for elements nested in each other: `n` in another one. -/
theorem C98_calls_deep (n : Nat) :
    (descendants (tower n)).length = n ∧
    2 * ((tower n :: (descendants (tower n)).filterMap element?).map fun f => (descendants f).length + 1).sum = (n + 1) * (n + 2) := by
  refine ⟨tower_docOrder n, ?_⟩
  rw [← tower_walkCost n, walkCost_eq]
  cases h : tower n
  simp [docOrder, visitsOf, element?, descendants]

example : ((tower 3 :: (descendants (tower 3)).filterMap element?).map fun f => (descendants f).length + 1).sum = 10 := by decide

end KissXml.Props
