import Verif.Spec.Congr
import Verif.Proofs.Equal
import Verif.Proofs.Edit
/-!
# Operations on equal values
-/
namespace KissXml
open Spec

theorem sameList_append {a b c d : List Node} (h : SameList a b) (h' : SameList c d) : SameList (a ++ c) (b ++ d) := by
  induction a generalizing b with
  | nil => cases h; exact h'
  | cons x a ih => cases h with | cons h1 h2 => exact .cons h1 (ih h2)

theorem sameList_filter {p : Node → Bool} (hp : Respects p) {l m : List Node} (h : SameList l m) : SameList (l.filter p) (m.filter p) := by
  induction l generalizing m with
  | nil => cases h; exact .nil
  | cons x l ih =>
    cases h with
    | cons h1 h2 =>
      rw [List.filter_cons, List.filter_cons, hp _ _ h1]
      split
      · exact .cons h1 (ih h2)
      · exact ih h2

theorem sameList_countP {p : Node → Bool} (hp : Respects p) {l m : List Node} (h : SameList l m) : l.countP p = m.countP p := by
  rw [List.countP_eq_length_filter, List.countP_eq_length_filter, sameList_length (sameList_filter hp h)]

theorem respects_not {p : Node → Bool} (h : Respects p) : Respects (fun n => !p n) := fun n m hnm => congrArg not (h n m hnm)

theorem respects_elem {p : Element → Bool} (h : RespectsE p) : Respects (ElementF.elemPred p) := by
  intro n m hnm
  cases hnm with
  | element he => exact h _ _ he
  | _ => rfl

theorem respects_isElement : Respects Node.isElement := fun _ _ => same_isElement
theorem respects_isText : Respects Node.isText := fun _ _ => same_isText
theorem respects_isComment : Respects Node.isComment := fun _ _ h => by cases h <;> rfl
theorem respects_blank : Respects isBlankText := fun _ _ h => by cases h <;> rfl

theorem sameList_consJoin {n m : Node} {l k : List Node} (h : SameNode n m) (hl : SameList l k) :
    SameList (consJoin n l) (consJoin m k) := by
  cases h with
  | text t =>
    cases hl with
    | nil => exact .cons (.text t) .nil
    | cons h1 h2 =>
      cases h1 with
      | text u => exact .cons (.text _) h2
      | comment u => exact .cons (.text _) (.cons (.comment _) h2)
      | cdata u => exact .cons (.text _) (.cons (.cdata _) h2)
      | element he => exact .cons (.text _) (.cons (.element he) h2)
  | comment t => exact .cons (.comment t) hl
  | cdata t => exact .cons (.cdata t) hl
  | element he => exact .cons (.element he) hl

theorem sameList_joinRuns {l m : List Node} (h : SameList l m) : SameList (joinRuns l) (joinRuns m) := by
  induction l generalizing m with
  | nil => cases h; exact .nil
  | cons x l ih =>
    cases h with
    | cons h1 h2 => exact sameList_consJoin h1 (ih h2)

theorem sameList_normalText {l m : List Node} (h : SameList l m) : SameList (normalText l) (normalText m) :=
  sameList_filter (respects_not respects_blank) (sameList_joinRuns h)

/-- the parts of equal elements -/
theorem same_parts {a b : Element} (h : SameElement a b) : a.name = b.name ∧ a.xmlns = b.xmlns ∧ a.pfx = b.pfx ∧
    a.attrs.entries.Perm b.attrs.entries ∧ SameList a.children b.children := by
  cases h with
  | mk h1 h2 => exact ⟨rfl, rfl, rfl, h1, h2⟩

theorem same_of_parts {a b : Element} (h1 : a.name = b.name) (h2 : a.xmlns = b.xmlns) (h3 : a.pfx = b.pfx)
    (h4 : a.attrs.entries.Perm b.attrs.entries) (h5 : SameList a.children b.children) : SameElement a b := by
  obtain ⟨n, cs, A, x, p, c⟩ := a
  obtain ⟨n', cs', A', x', p', c'⟩ := b
  simp only at h1 h2 h3
  subst h1 h2 h3
  exact .mk h4 h5

theorem same_children {a b : Element} {l m : List Node} (h : SameElement a b) (hl : SameList l m) :
    SameElement { a with children := l } { b with children := m } := by
  obtain ⟨h1, h2, h3, h4, -⟩ := same_parts h
  exact same_of_parts h1 h2 h3 h4 hl

theorem same_attrs {a b : Element} {A B : SMap} (h : SameElement a b) (hl : ∀ k, A.get k = B.get k) :
    SameElement { a with attrs := A } { b with attrs := B } := by
  obtain ⟨h1, h2, h3, -, h5⟩ := same_parts h
  exact same_of_parts h1 h2 h3 (SMap.perm_iff_get.2 hl) h5

theorem same_get {a b : Element} (h : SameElement a b) (k : Str) : a.attrs.get k = b.attrs.get k :=
  SMap.perm_iff_get.1 (same_parts h).2.2.2.1 k

theorem same_default {a b : Element} (h : SameElement a b) : a.defaultNamespace = b.defaultNamespace := by
  cases h; rfl

/-! ## handing down namespaces -/

/-- what `set_namespace_context` does to the namespace -/
theorem set_xmlns (e : Element) (d : Option Str) (c : SMap) : (e.setNamespaceContext d (some c)).xmlns =
    match e.pfx with
    | none => if e.xmlns = none then d else e.xmlns
    | some p => if e.xmlns = none then (e.ctx.get p).or (c.get p) else e.xmlns := by
  obtain ⟨n, cs, A, x, p, c0⟩ := e
  have hc : ∀ k, (c.entries.foldl (fun m kv => if m.containsKey kv.1 then m else m.insert kv.1 kv.2) c0).get k =
      (c0.get k).or (c.get k) := fun k => by
    rw [ctxFold_get _ c.nodup]; rfl
  cases p with
  | none =>
    cases x with
    | none => cases d <;> rfl
    | some x => rfl
  | some p =>
    cases x with
    | none => exact hc p
    | some x => rfl

theorem same_apply {d : Option Str} {c c' : SMap} {n m : Node} (h : SameNode n m) :
    SameNode (applyXmlnsContext d c n) (applyXmlnsContext d c' m) ↔
      ∀ e f, n = .element e → m = .element f → ∀ p, unresolved n = some p → (e.ctx.get p).or (c.get p) = (f.ctx.get p).or (c'.get p) := by
  cases h with
  | text t => exact ⟨fun _ e f h => (by cases h), fun _ => .text t⟩
  | comment t => exact ⟨fun _ e f h => (by cases h), fun _ => .comment t⟩
  | cdata t => exact ⟨fun _ e f h => (by cases h), fun _ => .cdata t⟩
  | @element e f he =>
    have hf := @setNamespaceContext_fields e d (some c)
    have hf' := @setNamespaceContext_fields f d (some c')
    obtain ⟨h1, h2, h3, h4, h5⟩ := same_parts he
    unfold applyXmlnsContext
    have key : SameNode (.element (e.setNamespaceContext d (some c))) (.element (f.setNamespaceContext d (some c'))) ↔
        (e.setNamespaceContext d (some c)).xmlns = (f.setNamespaceContext d (some c')).xmlns := by
      constructor
      · intro h
        cases h with
        | element h => exact (same_parts h).2.1
      · intro h
        refine .element (same_of_parts ?_ h ?_ ?_ ?_)
        · rw [hf.1, hf'.1, h1]
        · rw [hf.2.2.2, hf'.2.2.2, h3]
        · rw [hf.2.2.1, hf'.2.2.1]; exact h4
        · rw [hf.2.1, hf'.2.1]; exact h5
    simp only
    rw [key, set_xmlns, set_xmlns, ← h2, ← h3]
    constructor
    · rintro h e' f' he' hf' p hp
      cases he'; cases hf'
      simp only [unresolved] at hp
      split at hp
      · rename_i hx
        rw [hp] at h
        simpa [hx] using h
      · cases hp
    · intro h
      cases hp : e.pfx with
      | none => rfl
      | some p =>
        simp only
        split
        · rename_i hx
          exact h e f rfl rfl p (by simp [unresolved, hx, hp])
        · rfl

/-- a node that has nothing to be resolved -/
theorem same_apply_resolved {d : Option Str} {c c' : SMap} {n m : Node} (h : SameNode n m) (hu : unresolved n = none) :
    SameNode (applyXmlnsContext d c n) (applyXmlnsContext d c' m) :=
  (same_apply h).2 fun _ _ _ _ p hp => by rw [hu] at hp; cases hp

/-! ## lists -/

theorem joinRuns_element (l : List Node) (e : Element) : joinRuns (l ++ [.element e]) = joinRuns l ++ [.element e] := by
  induction l with
  | nil => rfl
  | cons x l ih =>
    rw [List.cons_append, joinRuns, ih, joinRuns]
    cases x with
    | text t =>
      cases joinRuns l with
      | nil => rfl
      | cons y k => cases y <;> rfl
    | _ => rfl

theorem normalText_element (l : List Node) (e : Element) : normalText (l ++ [.element e]) = normalText l ++ [.element e] := by
  unfold normalText
  rw [joinRuns_element, List.filter_append]
  rfl

theorem sameList_last {l m : List Node} {x y : Node} (h : SameList (l ++ [x]) (m ++ [y])) : SameNode x y := by
  have hl := sameList_length h
  simp only [List.length_append, List.length_singleton, Nat.add_right_cancel_iff] at hl
  induction l generalizing m with
  | nil =>
    cases m with
    | nil => cases h with | cons h1 _ => exact h1
    | cons _ _ => cases hl
  | cons c l ih =>
    cases m with
    | nil => cases hl
    | cons d m => cases h with | cons _ h2 => exact ih h2 (by simpa using hl)

theorem sameList_map {f g : Node → Node} {l m : List Node} (h : SameList l m)
    (hf : ∀ x ∈ l, ∀ y ∈ m, SameNode x y → SameNode (f x) (g y)) : SameList (l.map f) (m.map g) := by
  induction l generalizing m with
  | nil => cases h; exact .nil
  | cons x l ih =>
    cases h with
    | cons h1 h2 =>
      exact .cons (hf _ (by simp) _ (by simp) h1) (ih h2 fun a ha b hb => hf a (by simp [ha]) b (by simp [hb]))

theorem sameList_mapLast {f g : Node → Node} {l m : List Node} (h : SameList l m)
    (hf : ∀ x ∈ l, ∀ y ∈ m, SameNode x y → SameNode (f x) (g y)) : SameList (mapLast f l) (mapLast g m) := by
  induction l generalizing m with
  | nil => cases h; exact .nil
  | cons x l ih =>
    cases h with
    | @cons _ y _ k h1 h2 =>
      cases h2 with
      | nil => exact .cons (hf _ (by simp) _ (by simp) h1) .nil
      | cons h3 h4 =>
        rw [mapLast, mapLast]
        exact .cons h1 (ih (.cons h3 h4) fun a ha b hb => hf a (List.mem_cons_of_mem _ ha) b (List.mem_cons_of_mem _ hb))

theorem sameList_take {l m : List Node} (h : SameList l m) (i : Nat) : SameList (l.take i) (m.take i) := by
  induction l generalizing m i with
  | nil => cases h; simp; exact .nil
  | cons x l ih =>
    cases h with
    | cons h1 h2 =>
      cases i with
      | zero => exact .nil
      | succ i => exact .cons h1 (ih h2 i)

theorem sameList_drop {l m : List Node} (h : SameList l m) (i : Nat) : SameList (l.drop i) (m.drop i) := by
  induction l generalizing m i with
  | nil => cases h; simp; exact .nil
  | cons x l ih =>
    cases h with
    | cons h1 h2 =>
      cases i with
      | zero => exact .cons h1 h2
      | succ i => exact ih h2 i

theorem sameList_eraseIdx {l m : List Node} (h : SameList l m) (i : Nat) : SameList (l.eraseIdx i) (m.eraseIdx i) := by
  induction l generalizing m i with
  | nil => cases h; exact .nil
  | cons x l ih =>
    cases h with
    | cons h1 h2 =>
      cases i with
      | zero => exact h2
      | succ i => exact .cons h1 (ih h2 i)

theorem sameList_getElem {l m : List Node} (h : SameList l m) (i : Nat) :
    (l[i]? = none ∧ m[i]? = none) ∨ ∃ a b, l[i]? = some a ∧ m[i]? = some b ∧ SameNode a b := by
  induction l generalizing m i with
  | nil => cases h; exact .inl ⟨rfl, rfl⟩
  | cons x l ih =>
    cases h with
    | cons h1 h2 =>
      cases i with
      | zero => exact .inr ⟨_, _, rfl, rfl, h1⟩
      | succ i => simpa using ih h2 i

theorem each_elements {l m : List Node} (h : SameList l m) : EachTo SameElement (l.filterMap element?) (m.filterMap element?) := by
  induction l generalizing m with
  | nil => cases h; exact .nil
  | cons x l ih =>
    cases h with
    | cons h1 h2 =>
      cases h1 with
      | element he => exact .cons he (ih h2)
      | _ => rw [List.filterMap_cons_none rfl, List.filterMap_cons_none rfl]; exact ih h2

theorem texts_eq {l m : List Node} (h : SameList l m) : l.filterMap text? = m.filterMap text? ∧ l.filterMap comment? = m.filterMap comment? := by
  induction l generalizing m with
  | nil => cases h; exact ⟨rfl, rfl⟩
  | cons x l ih =>
    cases h with
    | cons h1 h2 =>
      obtain ⟨i1, i2⟩ := ih h2
      cases h1 <;> simp only [List.filterMap_cons, text?, comment?, i1, i2, and_self]

theorem each_filter {p : Element → Bool} (hp : RespectsE p) {l m : List Element} (h : EachTo SameElement l m) :
    EachTo SameElement (l.filter p) (m.filter p) := by
  induction l generalizing m with
  | nil => cases h; exact .nil
  | cons x l ih =>
    cases h with
    | cons h1 h2 =>
      rw [List.filter_cons, List.filter_cons, hp _ _ h1]
      split
      · exact .cons h1 (ih h2)
      · exact ih h2

theorem each_length {l m : List Element} (h : EachTo SameElement l m) : l.length = m.length := by
  induction l generalizing m with
  | nil => cases h; rfl
  | cons x l ih => cases h with | cons h1 h2 => simp [ih h2]

theorem each_firstByName {l m : List Element} (h : EachTo SameElement l m) (n : Str) :
    ResTo SameElement (ElementF.firstByName n l) (ElementF.firstByName n m) := by
  induction l generalizing m with
  | nil => cases h; exact .inr (.inl ⟨_, rfl, rfl⟩)
  | cons x l ih =>
    cases h with
    | cons h1 h2 =>
      rw [ElementF.firstByName, ElementF.firstByName, (same_parts h1).1]
      split
      · exact .inl ⟨_, _, rfl, rfl, h1⟩
      · exact ih h2

mutual
theorem same_childrenRecursive : ∀ {a b : Element}, SameElement a b → SameList a.childrenRecursive b.childrenRecursive
  | ⟨_, _, _, _, _, _⟩, _, .mk _ h => by
    rw [ElementF.childrenRecursive, ElementF.childrenRecursive]
    exact sameList_append h (same_childrenRecursiveL h)
theorem same_childrenRecursiveL : ∀ {a b : List Node}, SameList a b → SameList (childrenRecursiveOf a) (childrenRecursiveOf b)
  | [], _, .nil => .nil
  | _ :: _, _, .cons h1 h2 => by
    rw [childrenRecursiveOf, childrenRecursiveOf]
    exact sameList_append (same_childrenRecursiveN h1) (same_childrenRecursiveL h2)
theorem same_childrenRecursiveN : ∀ {a b : Node}, SameNode a b → SameList a.childrenRecursive b.childrenRecursive
  | .text _, _, .text _ => .nil
  | .comment _, _, .comment _ => .nil
  | .cdata _, _, .cdata _ => .nil
  | .element _, _, .element h => by
    rw [Node.childrenRecursive, Node.childrenRecursive]
    exact same_childrenRecursive h
end

mutual
theorem same_prune {p : Node → Bool} (hp : Respects p) : ∀ {a b : Node}, SameNode a b → SameNode (prune p a) (prune p b)
  | .text _, _, .text t => by rw [prune]; exact .text t
  | .comment _, _, .comment t => by rw [prune]; exact .comment t
  | .cdata _, _, .cdata t => by rw [prune]; exact .cdata t
  | .element ⟨_, _, _, _, _, _⟩, _, .element (.mk h1 h2) => by
    rw [prune, prune]
    exact .element (.mk h1 (same_pruneL hp h2))
theorem same_pruneL {p : Node → Bool} (hp : Respects p) : ∀ {a b : List Node}, SameList a b → SameList (pruneL p a) (pruneL p b)
  | [], _, .nil => .nil
  | _ :: _, _, .cons h1 h2 => by
    rw [pruneL, pruneL, hp _ _ h1]
    split
    · exact same_pruneL hp h2
    · exact .cons (same_prune hp h1) (same_pruneL hp h2)
end

mutual
theorem same_hits {p : Node → Bool} (hp : Respects p) : ∀ {a b : Node}, SameNode a b → hits p a = hits p b
  | .text _, _, .text t => rfl
  | .comment _, _, .comment t => rfl
  | .cdata _, _, .cdata t => rfl
  | .element ⟨_, _, _, _, _, _⟩, _, .element (.mk h1 h2) => by
    rw [hits, hits, same_hitsL hp h2]
theorem same_hitsL {p : Node → Bool} (hp : Respects p) : ∀ {a b : List Node}, SameList a b → hitsL p a = hitsL p b
  | [], _, .nil => rfl
  | _ :: _, _, .cons h1 h2 => by rw [hitsL, hitsL, hp _ _ h1, same_hits hp h1, same_hitsL hp h2]
end

/-- splitting at an element child -/
theorem sameList_split {A B m : List Node} {c : Element} (h : SameList (A ++ .element c :: B) m) :
    ∃ A' c' B', m = A' ++ .element c' :: B' ∧ SameList A A' ∧ SameElement c c' ∧ SameList B B' := by
  induction A generalizing m with
  | nil =>
    cases h with
    | cons h1 h2 => cases h1 with | element he => exact ⟨[], _, _, rfl, .nil, he, h2⟩
  | cons x A ih =>
    cases h with
    | cons h1 h2 =>
      obtain ⟨A', c', B', rfl, h3, h4, h5⟩ := ih h2
      exact ⟨_ :: A', c', B', rfl, .cons h1 h3, h4, h5⟩

/-- the `k`th element child is at one place only -/
theorem element_split_unique {A B A' B' : List Node} {c c' : Element} (h : A ++ .element c :: B = A' ++ .element c' :: B')
    (hl : (A.filterMap element?).length = (A'.filterMap element?).length) : A = A' ∧ c = c' ∧ B = B' := by
  induction A generalizing A' with
  | nil =>
    cases A' with
    | nil => cases h; exact ⟨rfl, rfl, rfl⟩
    | cons y A' => cases h; simp [element?] at hl
  | cons x A ih =>
    cases A' with
    | nil => cases h; simp [element?] at hl
    | cons y A' =>
      simp only [List.cons_append, List.cons.injEq] at h
      obtain ⟨rfl, h⟩ := h
      have : (A.filterMap element?).length = (A'.filterMap element?).length := by
        cases x <;> simp only [List.filterMap_cons, element?, List.length_cons, Nat.add_right_cancel_iff] at hl <;> exact hl
      obtain ⟨rfl, h2, h3⟩ := ih h this
      exact ⟨rfl, h2, h3⟩

theorem same_removeElement {a b : Element} (h : SameElement a b) (k : Nat) :
    ResTo (fun x y => SameElement x.1 y.1 ∧ SameElement x.2 y.2) (a.removeElement k) (b.removeElement k) := by
  have hc := (same_parts h).2.2.2.2
  have hl := each_length (each_elements hc)
  by_cases hk : k < (a.children.filterMap element?).length
  · obtain ⟨A, c, B, h1, h2, h3⟩ := removeElement_ok a k hk
    obtain ⟨A', c', B', h1', h2', h3'⟩ := removeElement_ok b k (by omega)
    rw [h1] at hc
    obtain ⟨A2, c2, B2, h4, h5, h6, h7⟩ := sameList_split hc
    have h8 := each_length (each_elements h5)
    obtain ⟨rfl, rfl, rfl⟩ := element_split_unique (h4.symm.trans h1') (by omega)
    exact .inl ⟨_, _, h3, h3', h6, same_children h (sameList_append h5 h7)⟩
  · rw [removeElement_err a k (by omega), removeElement_err b k (by omega), hl]
    exact .inr (.inl ⟨_, rfl, rfl⟩)

theorem same_remove {a b : Element} (h : SameElement a b) (i : Nat) :
    ResTo (fun x y => SameNode x.1 y.1 ∧ SameElement x.2 y.2) (a.remove i) (b.remove i) := by
  have hc := (same_parts h).2.2.2.2
  rw [remove_eq, remove_eq, sameList_length hc]
  rcases sameList_getElem hc i with ⟨h1, h2⟩ | ⟨x, y, h1, h2, h3⟩
  · rw [h1, h2]; exact .inr (.inl ⟨_, rfl, rfl⟩)
  · rw [h1, h2]; exact .inl ⟨_, _, rfl, rfl, h3, same_children h (sameList_eraseIdx hc i)⟩

theorem same_append {a b : Element} {n m : Node} (h : SameElement a b) (hn : SameNode n m) :
    ResTo SameElement (a.append n) (b.append m) ↔
      ∀ e f, n = .element e → m = .element f → ∀ p, unresolved n = some p → (e.ctx.get p).or (a.ctx.get p) = (f.ctx.get p).or (b.ctx.get p) := by
  have hc := (same_parts h).2.2.2.2
  rw [← same_apply (d := a.defaultNamespace) hn, append_eq, append_eq, ← same_default h]
  constructor
  · rintro (⟨x, y, hx, hy, hxy⟩ | ⟨e, he, -⟩ | ⟨he, -⟩)
    · cases hx; cases hy
      cases hn with
      | element he =>
        have := (same_parts hxy).2.2.2.2
        simp only [applyXmlnsContext] at this ⊢
        rw [normalText_element, normalText_element] at this
        exact sameList_last this
      | text t => exact .text t
      | comment t => exact .comment t
      | cdata t => exact .cdata t
    · cases he
    · cases he
  · intro hh
    exact .inl ⟨_, _, rfl, rfl, same_children h (sameList_normalText (sameList_append hc (.cons hh .nil)))⟩

end KissXml
