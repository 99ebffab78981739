import Verif.Proofs.Edit
/-!
# DOM queries and edits: C12-C25, C32, C54
-/
namespace KissXml.Props
open KissXml KissXml.Spec

/-! concrete values used in the examples -/

/-- `<k/>` in no namespace -/
def kid : Element := ⟨c%"k", [], .empty, none, none, .empty⟩
/-- `<p:q/>`, prefix not resolved yet -/
def pq : Element := ⟨c%"q", [], .empty, none, some c%"p", .empty⟩
/-- `<r xmlns="d" xmlns:p="u"><k>in</k>out<!--c--><k/></r>` -/
def tree : Element :=
  ⟨c%"r", [.element { kid with children := [.text c%"in"] }, .text c%"out", .comment c%"c", .element kid],
    ⟨[(c%"xmlns", c%"d"), (c%"xmlns:p", c%"u")], by decide⟩, some c%"d", none, ⟨[(c%"p", c%"u")], by decide⟩⟩

/-! ## C12 -/

/-- C12: `children_recursive` and `all_children` list every node below the element, with its multiplicity. -/
theorem C12_all_children (e : Element) :
    e.childrenRecursive.Perm (descendants e) ∧ e.allChildren.Perm (descendants e) := by
  refine ⟨childrenRecursive_perm e, ?_⟩
  have : e.allChildren = e.childrenRecursive := by simp [ElementF.allChildren, ElementF.search]
  rw [this]; exact childrenRecursive_perm e

example : (descendants tree).length = 5 := by decide

/-! ## C13 -/

theorem C13_search (e : Element) (p : Node → Bool) : (e.search p).Perm ((descendants e).filter p) :=
  (childrenRecursive_perm e).filter p

theorem C13_search_elements (e : Element) (p : Element → Bool) :
    (e.searchElements p).Perm (((descendants e).filterMap element?).filter p) := by
  show (((e.search Node.isElement).filterMap element?).filter p).Perm _
  unfold ElementF.search
  rw [filterMap_filter_sub _ _ (by intro a h; cases a <;> simp_all [element?, Node.isElement])]
  exact ((childrenRecursive_perm e).filterMap _).filter _

theorem name_beq (n : Str) : (fun c : Element => c.name == n) = fun c => decide (c.name = n) := by
  funext c; rw [Bool.eq_iff_iff]; simp

theorem C13_search_elements_by_name (e : Element) (n : Str) :
    (e.searchElementsByName n).Perm (((descendants e).filterMap element?).filter (fun c => decide (c.name = n))) := by
  unfold ElementF.searchElementsByName
  rw [name_beq]
  exact C13_search_elements e _

theorem C13_search_text (e : Element) (p : Str → Bool) :
    (e.searchText p).Perm (((descendants e).filterMap text?).filter p) := by
  show (((e.search Node.isText).filterMap text?).filter p).Perm _
  unfold ElementF.search
  rw [filterMap_filter_sub _ _ (by intro a h; cases a <;> simp_all [text?, Node.isText])]
  exact ((childrenRecursive_perm e).filterMap _).filter _

theorem C13_search_comments (e : Element) (p : Str → Bool) :
    (e.searchComments p).Perm (((descendants e).filterMap comment?).filter p) := by
  show (((e.search Node.isComment).filterMap comment?).filter p).Perm _
  unfold ElementF.search
  rw [filterMap_filter_sub _ _ (by intro a h; cases a <;> simp_all [comment?, Node.isComment])]
  exact ((childrenRecursive_perm e).filterMap _).filter _

example : tree.searchText (fun _ => true) = [c%"out", c%"in"] := by decide
example : (tree.searchElementsByName c%"k").length = 2 := by decide

/-! ## C14 -/

theorem C14_text (e : Element) : e.textOf = ((descendants e).filterMap text?).flatten := textOf_elem e

theorem C14_leaf (t : Str) : (Node.text t).textOf = t ∧ (Node.comment t).textOf = t ∧ (Node.cdata t).textOf = t := by
  refine ⟨?_, ?_, ?_⟩ <;> simp [Node.textOf]

theorem C14_element_node (e : Element) : (Node.element e).textOf = ((descendants e).filterMap text?).flatten := by
  rw [Node.textOf]; exact textOf_elem e

example : tree.textOf = c%"inout" := by decide

/-! ## C15 -/

theorem C15_child_queries (e : Element) :
    e.childElements = e.children.filterMap element? ∧
    (∀ n, e.elementsByName n = (e.children.filterMap element?).filter (fun c => decide (c.name = n))) ∧
    (∀ x, e.elementsByNamespace x = (e.children.filterMap element?).filter (fun c => decide (c.xmlns = x))) ∧
    (∀ p, e.elementsByNamespacePrefix p = (e.children.filterMap element?).filter (fun c => decide (c.pfx = p))) := by
  have h : e.childElements = e.children.filterMap element? := filterMap_element _
  refine ⟨h, ?_, ?_, ?_⟩ <;> intro y
  · simp only [ElementF.elementsByName, h, name_beq]
  · simp only [ElementF.elementsByNamespace, h]; congr 1; funext c; rw [Bool.eq_iff_iff]; simp
  · simp only [ElementF.elementsByNamespacePrefix, h]; congr 1; funext c; rw [Bool.eq_iff_iff]; simp

theorem firstByName_spec (n : Str) (l : List Element) :
    (∀ x, ElementF.firstByName n l = .ok x ↔ ∃ s t, l = s ++ x :: t ∧ x.name = n ∧ ∀ y ∈ s, y.name ≠ n) ∧
    (ElementF.firstByName n l = .err (.doesNotExist c%"requested item not found") ↔ ∀ y ∈ l, y.name ≠ n) ∧
    (ElementF.firstByName n l = .err (.doesNotExist c%"requested item not found") ∨ ∃ x, ElementF.firstByName n l = .ok x) := by
  induction l with
  | nil => simp [ElementF.firstByName, ElementF.notFound]
  | cons e l ih =>
    obtain ⟨i1, i2, i3⟩ := ih
    rw [ElementF.firstByName]
    by_cases h : e.name = n
    · rw [if_pos h]
      refine ⟨?_, ?_, .inr ⟨e, rfl⟩⟩
      · intro x
        constructor
        · intro hx
          simp only [Res.ok.injEq] at hx
          subst hx
          exact ⟨[], l, rfl, h, by simp⟩
        · rintro ⟨s, t, hl, hx, hs⟩
          cases s with
          | nil => simp at hl; simp [hl.1]
          | cons y s =>
            simp at hl
            exact absurd (hl.1 ▸ h) (hs y (by simp))
      · simp [h]
    · rw [if_neg h]
      refine ⟨?_, ?_, i3⟩
      · intro x
        rw [i1]
        constructor
        · rintro ⟨s, t, rfl, hx, hs⟩
          refine ⟨e :: s, t, rfl, hx, ?_⟩
          intro y hy
          rcases List.mem_cons.1 hy with rfl | hy
          · exact h
          · exact hs y hy
        · rintro ⟨s, t, hl, hx, hs⟩
          cases s with
          | nil => simp at hl; exact absurd (hl.1 ▸ hx) h
          | cons y s =>
            simp at hl
            exact ⟨s, t, hl.2, hx, fun z hz => hs z (by simp [hz])⟩
      · rw [i2]; simp [h]

/-- C15: the result is the first element child with that name; the only other outcome is an error, exactly when no
element child has the name. -/
theorem C15_first_element_by_name (e : Element) (n : Str) :
    (∀ x, e.firstElementByName n = .ok x ↔
      ∃ s t, e.children.filterMap element? = s ++ x :: t ∧ x.name = n ∧ ∀ y ∈ s, y.name ≠ n) ∧
    (e.firstElementByName n = .err (.doesNotExist c%"requested item not found") ↔ ∀ y ∈ e.children.filterMap element?, y.name ≠ n) ∧
    (e.firstElementByName n = .err (.doesNotExist c%"requested item not found") ∨ ∃ x, e.firstElementByName n = .ok x) := by
  have h : e.childElements = e.children.filterMap element? := filterMap_element _
  unfold ElementF.firstElementByName
  rw [h]
  exact firstByName_spec n _

example : (match tree.firstElementByName c%"k" with | .ok x => x.textOf | _ => []) = c%"in" := by decide
example : (match tree.firstElementByName c%"z" with | .err (.doesNotExist c%"requested item not found") => true | _ => false) = true := by decide

/-! ## C16 -/

/-- C16: `append` never fails; the child list becomes the text-normal form of the old children followed by the
new one, which differs only in the namespace data handed down by the parent. -/
theorem C16_append (e : Element) (n : Node) : ∃ n', HandedDown (givenDefault e) e.ctx n n' ∧
    e.append n = .ok { e with children := normalText (e.children ++ [n']) } :=
  ⟨_, givenDefault_eq e ▸ handedDown_apply _ _ _, append_eq e n⟩

theorem C16_append_all (e : Element) (ns : List Node) : ∃ ns', List.Forall₂ (HandedDown (givenDefault e) e.ctx) ns ns' ∧
    e.appendAll ns = .ok { e with children := normalText (e.children ++ ns') } := by
  refine ⟨_, ?_, appendAll_eq e ns⟩
  rw [givenDefault_eq]
  induction ns with
  | nil => exact .nil
  | cons n ns ih => exact .cons (handedDown_apply _ _ _) ih

/-- on children already in normal form, appending something other than text just adds it at the end -/
theorem C16_append_nontext (e : Element) (n : Node) (h1 : NoAdjText e.children)
    (h2 : ∀ t, Node.text t ∈ e.children → ¬ Blank t) (hn : ∀ t, n ≠ .text t) :
    ∃ n', HandedDown (givenDefault e) e.ctx n n' ∧ e.append n = .ok { e with children := e.children ++ [n'] } := by
  obtain ⟨n', hh, ha⟩ := C16_append e n
  refine ⟨n', hh, ?_⟩
  have hn' : ∀ t, n' ≠ .text t := by
    intro t ht
    subst ht
    cases n with
    | text t' => exact hn t' rfl
    | element _ => simp [HandedDown] at hh
    | comment _ => simp [HandedDown] at hh
    | cdata _ => simp [HandedDown] at hh
  rw [ha, normalText_id]
  · intro a b x y hl
    rcases List.append_eq_append_iff.1 hl with ⟨l', h3, h4⟩ | ⟨l', h3, h4⟩
    · cases l' with
      | nil => simp at h4
      | cons z l' => simp at h4
    · cases l' with
      | nil => simp at h4
      | cons z l' =>
        cases l' with
        | nil => simp at h4; exact hn' y (by simp [h4])
        | cons w l' => simp at h4; exact h1 a l' x y (by rw [h3, ← h4.1, ← h4.2.1])
  · intro t ht
    rcases List.mem_append.1 ht with ht | ht
    · exact h2 t ht
    · exact absurd (by simpa using ht : Node.text t = n').symm (hn' t)

-- unprefixed child gets the default namespace, prefixed child its declared one, texts are joined
example : (match tree.append (.element kid) with | .ok e => e.childElements.map (·.xmlns) | _ => []) =
    [none, none, some c%"d"] := by decide
example : (match tree.append (.element pq) with | .ok e => e.childElements.map (·.xmlns) | _ => []) =
    [none, none, some c%"u"] := by decide
example : normalText [.text c%"a", .text c%" ", .comment c%"c", .text c%" ", .text c%"\n"] =
    [.text c%"a ", .comment c%"c"] := rfl
example : (match tree.appendAll [.text c%" ", .text c%"b", .element kid] with
    | .ok e => (e.children.filterMap text?, e.childElements.map (·.xmlns)) | _ => ([], [])) =
    ([c%"out", c%" b"], [none, none, some c%"d"]) := by decide

/-! ## C17 -/

/-- C17: an index beyond the end is an error; otherwise the node goes to position `i`, and the child list becomes the
text-normal form of the result, in which only the *last* child changes, in its namespace data. -/
theorem C17_insert (e : Element) (i : Nat) (n : Node) :
    (e.children.length < i → e.insert i n = .err (.indexOutOfBounds (asIsize i) (some (0, asIsize e.children.length)))) ∧
    (i ≤ e.children.length → ∃ l last last', e.children.take i ++ n :: e.children.drop i = l ++ [last] ∧
      HandedDown (givenDefault e) e.ctx last last' ∧
      e.insert i n = .ok { e with children := normalText (l ++ [last']) }) := by
  rw [insert_eq]
  constructor
  · intro h; rw [if_pos h]
  · intro h
    rw [if_neg (by omega)]
    have hne : e.children.take i ++ n :: e.children.drop i ≠ [] := by simp
    generalize e.children.take i ++ n :: e.children.drop i = l at hne
    rcases List.eq_nil_or_concat l with rfl | ⟨A, x, rfl⟩
    · exact absurd rfl hne
    · rw [List.concat_eq_append, mapLast_append]
      exact ⟨A, x, _, rfl, givenDefault_eq e ▸ handedDown_apply _ _ _, rfl⟩

example : (match tree.insert 1 (.comment c%"z") with | .ok e => e.children.map Node.textOf | _ => []) =
    [c%"in", c%"z", c%"out", c%"c", []] := by decide
example : (match tree.insert 5 (.comment c%"z") with | .err (.indexOutOfBounds 5 (some (0, 4))) => true | _ => false) = true := by decide

/-! ## C18 -/

/-- C18 is false: inserting `<k/>` before the end of a parent with default namespace `d` leaves it without a
namespace. -/
theorem C18_false : ¬ ∀ (e : Element) (i : Nat) (c : Element), i ≤ e.children.length → c.pfx = none → c.xmlns = none →
    e.pfx = none → e.xmlns.isSome → ∃ e' c', e.insert i (.element c) = .ok e' ∧ Node.element c' ∈ e'.children ∧
      c'.name = c.name ∧ c'.xmlns = e.xmlns := by
  intro h
  obtain ⟨e', c', h1, h2, h3, h4⟩ := h ⟨c%"r", [.comment c%"x"], .empty, some c%"d", none, .empty⟩ 0 kid (by decide) rfl rfl
    rfl rfl
  have : e' = ⟨c%"r", [.element kid, .comment c%"x"], .empty, some c%"d", none, .empty⟩ := by
    have h5 : (ElementF.insert ⟨c%"r", [.comment c%"x"], .empty, some c%"d", none, .empty⟩ 0 (.element kid)) =
      .ok ⟨c%"r", [.element kid, .comment c%"x"], .empty, some c%"d", none, .empty⟩ := rfl
    rw [h5] at h1
    simpa using h1.symm
  subst this
  simp at h2
  subst h2
  simp [kid] at h4

theorem mem_normalText_nontext {l : List Node} {n : Node} (hn : ∀ t, n ≠ .text t) (h : n ∈ l) : n ∈ normalText l := by
  have hc : ∀ (m : Node) (r : List Node), n ∈ r → n ∈ consJoin m r := by
    intro m r hr
    unfold consJoin
    split
    · rcases List.mem_cons.1 hr with h | h
      · exact absurd h (hn _)
      · simp [h]
    · simp [hr]
  have hself : ∀ r : List Node, n ∈ consJoin n r := by
    intro r
    unfold consJoin
    split
    · exact absurd rfl (hn _)
    · simp
  have hj : n ∈ joinRuns l := by
    induction l with
    | nil => simp at h
    | cons m l ih =>
      rw [joinRuns]
      rcases List.mem_cons.1 h with rfl | h
      · exact hself _
      · exact hc _ _ (ih h)
  refine List.mem_filter.2 ⟨hj, ?_⟩
  cases n with
  | text t => exact absurd rfl (hn t)
  | _ => rfl

/-- what happens instead, at every index but the last: the inserted element stays as it was -/
theorem C18_not_last (e : Element) (i : Nat) (c : Element) (h : i < e.children.length) :
    ∃ e', e.insert i (.element c) = .ok e' ∧ Node.element c ∈ e'.children := by
  obtain ⟨l, last, last', h1, -, h3⟩ := (C17_insert e i (.element c)).2 (by omega)
  refine ⟨_, h3, ?_⟩
  apply mem_normalText_nontext (by simp)
  have hd : e.children.drop i ≠ [] := by simp; omega
  obtain ⟨d, x, hx⟩ := (List.eq_nil_or_concat (e.children.drop i)).resolve_left hd
  rw [hx, List.concat_eq_append, ← List.cons_append, ← List.append_assoc] at h1
  have := (List.append_inj' h1 rfl).1
  show _ ∈ l ++ [last']
  rw [← this]
  simp

/-- C18 where it holds: at the last index, `insert` is `append`, and the child gets the parent's default namespace.
Missing: all other indices (`C18_not_last`). -/
theorem C18_partial (e : Element) (c : Element) (h1 : c.pfx = none) (h2 : c.xmlns = none) (h3 : e.pfx = none) :
    e.insert e.children.length (.element c) = e.append (.element c) ∧
    ∃ e' c', e.insert e.children.length (.element c) = .ok e' ∧ Node.element c' ∈ e'.children ∧
      c'.name = c.name ∧ c'.xmlns = e.xmlns := by
  have h : e.insert e.children.length (.element c) = e.append (.element c) := by
    rw [insert_eq, append_eq, if_neg (by omega)]
    simp [mapLast_append]
  refine ⟨h, ?_⟩
  rw [h]
  obtain ⟨n', hd, ha⟩ := C16_append e (.element c)
  cases n' with
  | element c' =>
    obtain ⟨g1, g2, g3, g4, g5, g6⟩ := hd
    refine ⟨_, c', ha, mem_normalText_nontext (by simp) (by simp), g1, ?_⟩
    rw [g6, h2, h1]
    simp [givenDefault, h3]
  | _ => simp [HandedDown] at hd

example : (match tree.insert 4 (.element kid) with | .ok e => e.childElements.map (·.xmlns) | _ => []) =
    [none, none, some c%"d"] := by decide

/-! ## C19 -/

theorem C19_remove (e : Element) (i : Nat) :
    (e.children.length ≤ i → e.remove i = .err (.indexOutOfBounds (asIsize i) (some (0, asIsize e.children.length)))) ∧
    (∀ A n B, e.children = A ++ n :: B → A.length = i → e.remove i = .ok (n, { e with children := A ++ B })) := by
  rw [remove_eq]
  constructor
  · intro h
    rw [List.getElem?_eq_none h]
  · intro A n B h hi
    rw [h, ← hi]
    simp [List.eraseIdx_append_of_length_le]

/-- for a valid index the second case of `C19_remove` applies -/
theorem C19_total (e : Element) (i : Nat) (h : i < e.children.length) :
    ∃ A n B, e.children = A ++ n :: B ∧ A.length = i ∧ e.remove i = .ok (n, { e with children := A ++ B }) := by
  have hl : e.children = e.children.take i ++ e.children[i] :: e.children.drop (i + 1) := by simp
  have hi : (e.children.take i).length = i := by simp; omega
  exact ⟨_, _, _, hl, hi, (C19_remove e i).2 _ _ _ hl hi⟩

example : (match tree.remove 2 with | .ok (n, e) => (n.textOf, e.children.map Node.textOf) | _ => ([], [])) =
    (c%"c", [c%"in", c%"out", []]) := by decide

/-! ## C20 -/

theorem C20_remove_by (e : Element) (p : Node → Bool) :
    e.removeBy p = .ok ({ e with children := e.children.filter (fun n => !p n) }, e.children.countP p) :=
  removeBy_eq e p

theorem C20_remove_elements (e : Element) (p : Element → Bool) :
    e.removeElements p = .ok ({ e with children := e.children.filter (fun n => !(element? n).any p) },
      e.children.countP (fun n => (element? n).any p)) := by
  rw [removeElements_eq]
  have : ElementF.elemPred p = fun n => (element? n).any p := by
    funext n; cases n <;> simp [ElementF.elemPred, element?]
  rw [this]

theorem C20_remove_elements_by_name (e : Element) (s : Str) :
    e.removeElementsByName s =
      .ok ({ e with children := e.children.filter (fun n => !(element? n).any (fun c => decide (c.name = s))) },
        e.children.countP (fun n => (element? n).any (fun c => decide (c.name = s)))) := by
  unfold ElementF.removeElementsByName
  rw [name_beq]
  exact C20_remove_elements e _

/-- the count is the number of children lost -/
theorem C20_count (e : Element) (p : Node → Bool) : ∃ e' k, e.removeBy p = .ok (e', k) ∧
    e'.children.length + k = e.children.length := by
  refine ⟨_, _, removeBy_eq e p, ?_⟩
  have := List.length_eq_countP_add_countP p (l := e.children)
  simp only [← List.countP_eq_length_filter]
  simp at this ⊢
  omega

example : (match tree.removeElementsByName c%"k" with | .ok (e, k) => (e.children.map Node.textOf, k) | _ => ([], 0)) =
    ([c%"out", c%"c"], 2) := by decide

/-! ## C21 -/

/-- C21: the matching nodes that are not below a removed node disappear with their subtrees, everything else stays in
order, and the count is the number of removed subtrees. -/
theorem C21_remove_all (e : Element) (p : Node → Bool) :
    e.removeAll p = .ok ({ e with children := pruneL p e.children }, hitsL p e.children) := removeAll_eq e p

theorem C21_remove_all_elements (e : Element) (p : Element → Bool) :
    e.removeAllElements p = .ok ({ e with children := pruneL (fun n => (element? n).any p) e.children },
      hitsL (fun n => (element? n).any p) e.children) := by
  rw [removeAllElements_eq]
  have : ElementF.elemPred p = fun n => (element? n).any p := by
    funext n; cases n <;> simp [ElementF.elemPred, element?]
  rw [this]

/-- every node that is left was, before the call, a node on which `p` was false -/
theorem C21_no_match_left (e e' : Element) (k : Nat) (p : Node → Bool) (h : e.removeAll p = .ok (e', k)) :
    ∀ m' ∈ descendants e', ∃ m ∈ descendants e, p m = false ∧ m' = prune p m := by
  rw [removeAll_eq] at h
  simp only [Res.ok.injEq, Prod.mk.injEq] at h
  obtain ⟨rfl, -⟩ := h
  intro m' hm
  obtain ⟨m, h1, h2, h3⟩ := docOrderL_prune p _ m' hm
  exact ⟨m, h1, h2, h3⟩

/-- a predicate that does not look at children matches nothing afterwards -/
theorem C21_leaf_predicate (e e' : Element) (k : Nat) (p : Node → Bool) (hp : ∀ m, p (prune p m) = p m)
    (h : e.removeAll p = .ok (e', k)) : ∀ m ∈ descendants e', p m = false := by
  intro m hm
  obtain ⟨m0, -, h2, rfl⟩ := C21_no_match_left e e' k p h m hm
  rw [hp, h2]

example : (match tree.removeAll Node.isText with | .ok (e, k) => (e.textOf, k, e.allChildren.length) | _ => ([], 0, 0)) =
    ([], 2, 3) := by decide
example : ∀ m, Node.isText (prune Node.isText m) = Node.isText m := by
  intro m
  cases m with
  | element e => obtain ⟨n, cs, a, x, q, c⟩ := e; rfl
  | _ => rfl

/-! ## C22 -/

theorem C22_remove_element (e : Element) (k : Nat) :
    ((e.children.filterMap element?).length ≤ k →
      e.removeElement k = .err (.indexOutOfBounds (asIsize k) (some (0, asIsize (e.children.filterMap element?).length)))) ∧
    (k < (e.children.filterMap element?).length → ∃ A c B, e.children = A ++ .element c :: B ∧
      (A.filterMap element?).length = k ∧ e.removeElement k = .ok (c, { e with children := A ++ B })) :=
  ⟨removeElement_err e k, removeElement_ok e k⟩

example : (match tree.removeElement 1 with | .ok (c, e) => (c.name, e.children.map Node.textOf) | _ => ([], [])) =
    (c%"k", [c%"in", c%"out", c%"c"]) := by decide

/-! ## C23 -/

/-- no two adjacent texts, and no blank text, among the children -/
def TextNormal (e : Element) : Prop :=
  (∀ a b x y, e.children ≠ a ++ .text x :: .text y :: b) ∧ ∀ t, Node.text t ∈ e.children → ¬ Blank t

/-- C23: the three insertion operations always leave text-normal children, whatever they were before -/
theorem C23_text_normal (e : Element) :
    (∀ n e', e.append n = .ok e' → TextNormal e') ∧ (∀ ns e', e.appendAll ns = .ok e' → TextNormal e') ∧
    (∀ i n e', e.insert i n = .ok e' → TextNormal e') := by
  refine ⟨?_, ?_, ?_⟩
  · intro n e' h
    rw [append_eq] at h
    obtain rfl := Res.ok.inj h
    exact ⟨noAdjText_normalText _, fun t => normalText_not_blank⟩
  · intro ns e' h
    rw [appendAll_eq] at h
    obtain rfl := Res.ok.inj h
    exact ⟨noAdjText_normalText _, fun t => normalText_not_blank⟩
  · intro i n e' h
    rw [insert_eq] at h
    split at h
    · cases h
    · obtain rfl := Res.ok.inj h
      exact ⟨noAdjText_normalText _, fun t => normalText_not_blank⟩

example : ¬ TextNormal ⟨c%"r", [.text c%" ", .text c%"b"], .empty, none, none, .empty⟩ :=
  fun h => h.1 [] [] _ _ rfl

/-! ## C24 -/

theorem C24_set_get (e : Element) (k v : Str) (h : ApiName k) : ∃ e', e.setAttr k v = .ok e' ∧
    (∀ k', e'.getAttr k' = if k' = k then some v else e.getAttr k') ∧ e' = { e with attrs := e'.attrs } := by
  refine ⟨{ e with attrs := e.attrs.insert k v }, ?_, ?_, rfl⟩
  · unfold ElementF.setAttr checkAttrName
    rw [if_pos (validName_iff.2 h)]
    rfl
  · intro k'
    show (e.attrs.insert k v).get k' = _
    rw [SMap.get_insert]
    by_cases hk : k' = k
    · rw [if_pos hk, if_pos hk.symm]
    · rw [if_neg hk, if_neg (fun h => hk h.symm)]; rfl

theorem C24_set_invalid (e : Element) (k v : Str) (h : ¬ ApiName k) :
    e.setAttr k v = .err (.invalidAttributeName k) := by
  unfold ElementF.setAttr checkAttrName
  rw [if_neg (fun hv => h (validName_iff.1 hv))]
  rfl

theorem C24_remove (e : Element) (k : Str) : (e.removeAttr k).1 = e.getAttr k ∧
    (∀ k', (e.removeAttr k).2.getAttr k' = if k' = k then none else e.getAttr k') ∧
    (e.removeAttr k).2 = { e with attrs := (e.removeAttr k).2.attrs } := by
  refine ⟨rfl, ?_, rfl⟩
  intro k'
  show (e.attrs.remove k).get k' = _
  rw [SMap.get_remove]
  by_cases hk : k' = k
  · rw [if_pos hk, if_pos hk.symm]
  · rw [if_neg hk, if_neg (fun h => hk h.symm)]; rfl

theorem C24_clear (e : Element) : (∀ k, e.clearAttributes.getAttr k = none) ∧
    e.clearAttributes = { e with attrs := e.clearAttributes.attrs } := ⟨fun _ => rfl, rfl⟩

example : ApiName c%"_a-b:c>" := ⟨'_', c%"a-b:c>", rfl, .inl rfl, by decide⟩
example : ¬ ApiName c%"a b" := by
  rintro ⟨c, t, h, -, ht⟩
  have : t = c%" b" := by simp at h; exact h.2.symm
  subst this
  exact absurd (ht ' ' (by decide)) (by decide)
example : (match tree.setAttr c%"n" c%"v" with | .ok e => (e.getAttr c%"n", e.getAttr c%"xmlns") | _ => (none, none)) =
    (some c%"v", some c%"d") := by decide

/-! ## C25 -/

/-- what `set_text` does: one text child, or none if the text is blank -/
theorem C25_set_text (e : Element) (t : Str) :
    e.setText t = .ok { e with children := if Blank t then [] else [.text t] } := by
  unfold ElementF.setText
  rw [append_eq]
  by_cases h : Blank t
  · simp [ElementF.clearChildren, applyXmlnsContext, normalText, joinRuns, consJoin, isBlankText, h]
  · simp [ElementF.clearChildren, applyXmlnsContext, normalText, joinRuns, consJoin, isBlankText, h]

/-- C25 is false: blank text is dropped -/
theorem C25_false : ¬ ∀ (e : Element) (t : Str), ∃ e', e.setText t = .ok e' ∧ e'.textOf = t := by
  intro h
  obtain ⟨e', h1, h2⟩ := h kid c%" "
  have : e' = kid := by
    have h3 : kid.setText c%" " = .ok kid := rfl
    rw [h3] at h1; simpa using h1.symm
  subst this
  exact absurd h2 (by decide)

/-- C25 for text that is not blank; missing: blank text, which is lost (`C25_set_text`). -/
theorem C25_partial (e : Element) (t : Str) (h : ¬ Blank t) : ∃ e', e.setText t = .ok e' ∧ e'.textOf = t ∧
    e'.children = [.text t] ∧ e' = { e with children := e'.children } := by
  refine ⟨_, C25_set_text e t, ?_, ?_, rfl⟩
  · rw [if_neg h, C14_text]; simp [descendants, docOrderL, docOrder, text?]
  · simp [h]

theorem C25_new_with_text_partial (n t : Str) (hn : ApiName n) (h : ¬ Blank t) :
    ∃ e, ElementF.newWithText n t = .ok e ∧ e.name = n ∧ e.children = [.text t] ∧ e.textOf = t ∧
      (∀ k, e.getAttr k = none) ∧ e.xmlns = none ∧ e.pfx = none := by
  refine ⟨⟨n, [.text t], .empty, none, none, .empty⟩, ?_, rfl, rfl, ?_, fun _ => rfl, rfl, rfl⟩
  · unfold ElementF.newWithText ElementF.new checkElemName
    rw [if_pos (validName_iff.2 hn)]
    simp only [Res.bind_ok]
    simp [SMap.empty, append_eq, applyXmlnsContext, normalText, joinRuns, consJoin, isBlankText, h, SMap.get, LMap.get,
      ElementF.xmlnsContextFromAttributes]
  · rw [C14_text]; simp [descendants, docOrderL, docOrder, text?]

example : ¬ Blank c%" x " := by decide
example : ¬ Blank [] := by decide

/-! ## C32 -/

/-- C32: the reported map sends `p` to the value of attribute `xmlns:p`; it is absent exactly when the element has no
such attribute. -/
theorem C32_namespace_prefixes (e : Element) :
    (∀ m, e.namespacePrefixes = some m → ∀ p, m.get p = e.getAttr (c%"xmlns:" ++ p)) ∧
    (e.namespacePrefixes = none ↔ ∀ p, e.getAttr (c%"xmlns:" ++ p) = none) := by
  unfold ElementF.namespacePrefixes
  simp only
  constructor
  · intro m h p
    split at h
    · cases h
    · obtain rfl := Option.some.inj h
      exact xmlnsContext_get _ _
  · constructor
    · intro h p
      split at h
      · rename_i h'
        rw [← smap_isEmpty.1 h' p, xmlnsContext_get]; rfl
      · cases h
    · intro h
      rw [if_pos (smap_isEmpty.2 (fun p => by rw [xmlnsContext_get]; exact h p))]

example : (match tree.namespacePrefixes with | some m => m.entries | none => []) = [(c%"p", c%"u")] := by decide
example : kid.namespacePrefixes.isNone = true := by decide

/-! ## C54 -/

/-- C54: exactly one predicate holds, `node_type` names it (and never panics), and the casts follow the predicates -/
theorem C54_node_types (n : Node) :
    ([n.isElement, n.isText, n.isComment, n.isCData].countP id = 1) ∧
    (n.nodeType = .ok .elementNode ↔ n.isElement = true) ∧ (n.nodeType = .ok .textNode ↔ n.isText = true) ∧
    (n.nodeType = .ok .commentNode ↔ n.isComment = true) ∧ (n.nodeType = .ok .cdataNode ↔ n.isCData = true) ∧
    ((∃ x, n.asElement = .ok x) ↔ n.isElement = true) ∧ ((∃ x, n.asText = .ok x) ↔ n.isText = true) ∧
    ((∃ x, n.asComment = .ok x) ↔ n.isComment = true) ∧ ((∃ x, n.asCData = .ok x) ↔ n.isCData = true) := by
  cases n <;>
    simp [Node.isElement, Node.isText, Node.isComment, Node.isCData, Node.nodeType, Node.asElement, Node.asText,
      Node.asComment, Node.asCData]

/-- a successful cast returns the node's own content -/
theorem C54_casts (n : Node) :
    (∀ x, n.asElement = .ok x → n = .element x) ∧ (∀ x, n.asText = .ok x → n = .text x) ∧
    (∀ x, n.asComment = .ok x → n = .comment x) ∧ (∀ x, n.asCData = .ok x → n = .cdata x) := by
  cases n <;> simp [Node.asElement, Node.asText, Node.asComment, Node.asCData]

/-- the name of the type of a node -/
def typeName : Node → Str
  | .element _ => c%"Element"
  | .text _ => c%"Text"
  | .comment _ => c%"Comment"
  | .cdata _ => c%"CData"

/-- a failing cast says what the node is and what it should be -/
theorem C54_messages (n : Node) (e : Err) :
    let said (u : Str) : Err := .typeCast (c%"Cannot cast " ++ typeName n ++ c%" as " ++ u)
    (n.asElement = .err e → e = said c%"Element") ∧ (n.asText = .err e → e = said c%"Text") ∧
    (n.asComment = .err e → e = said c%"Comment") ∧ (n.asCData = .err e → e = said c%"CData") := by
  cases n <;> simp [Node.asElement, Node.asText, Node.asComment, Node.asCData, typeName, eq_comm]

/-- a node type is displayed by its name, in capitals for `CDATA` -/
theorem C54_display (n : Node) (t : DomNodeType) (h : n.nodeType = .ok t) :
    t.display = if n.isCData then c%"CDATA" else typeName n := by
  cases n <;> cases h <;> rfl

example : (Node.comment c%"x").asText = .err (.typeCast c%"Cannot cast Comment as Text") := rfl
example : (Node.cdata c%"x").nodeType = .ok .cdataNode := rfl

end KissXml.Props
