import Verif.Model.Mut
import Verif.Spec.Mut
import Verif.Proofs.Dom
/-!
# Mutable access: lemmas
-/
namespace KissXml
open KissXml.Spec

/-- overwriting, by recursion -/
def over {α β : Type} (sel : α → Bool) (put : β → α) : List α → List β → List α
  | [], _ => []
  | a :: l, new => if sel a then (match new with | [] => a :: l | b :: new => put b :: over sel put l new) else a :: over sel put l new

theorem over_neg {α β : Type} {sel : α → Bool} {put : β → α} {a : α} {l : List α} {new : List β} (h : sel a = false) :
    over sel put (a :: l) new = a :: over sel put l new := by
  cases new <;> simp [over, h]
theorem over_pos_nil {α β : Type} {sel : α → Bool} {put : β → α} {a : α} {l : List α} (h : sel a = true) :
    over sel put (a :: l) [] = a :: l := by
  simp [over, h]
theorem over_pos_cons {α β : Type} {sel : α → Bool} {put : β → α} {a : α} {l : List α} {b : β} {new : List β} (h : sel a = true) :
    over sel put (a :: l) (b :: new) = put b :: over sel put l new := by
  simp [over, h]
theorem over_nil {α β : Type} {sel : α → Bool} {put : β → α} (l : List α) : over sel put l [] = l := by
  induction l with
  | nil => rfl
  | cons a l ih =>
    cases h : sel a
    · rw [over_neg h, ih]
    · rw [over_pos_nil h]

theorem rank_zero {α : Type} (sel : α → Bool) (l : List α) : rank sel l 0 = 0 := by simp [rank]
theorem rank_succ {α : Type} (sel : α → Bool) (a : α) (l : List α) (i : Nat) :
    rank sel (a :: l) (i + 1) = (if sel a then 1 else 0) + rank sel l i := by
  simp only [rank, List.take_succ_cons, List.filter_cons]
  split
  · simp; omega
  · simp

theorem over_ok {α β : Type} (sel : α → Bool) (put : β → α) (l : List α) (new : List β) : Overwritten sel put l new (over sel put l new) := by
  induction l generalizing new with
  | nil => exact ⟨rfl, by simp, by simp⟩
  | cons a l ih =>
    cases hs : sel a with
    | false =>
      have e : over sel put (a :: l) new = a :: over sel put l new := over_neg hs
      rw [e]
      refine ⟨by simp [(ih new).length], ?_, ?_⟩
      · intro i h hi
        cases i with
        | zero => rfl
        | succ i => simpa using (ih new).other i (by simpa using h) (by simpa using hi)
      · intro i h hi
        cases i with
        | zero => simp [hs] at hi
        | succ i =>
          rw [rank_succ, hs]
          simpa using (ih new).selected i (by simpa using h) (by simpa using hi)
    | true =>
      cases new with
      | nil =>
        have e : over sel put (a :: l) ([] : List β) = a :: l := over_pos_nil hs
        rw [e]
        exact ⟨rfl, by simp, by simp⟩
      | cons b new =>
        have e : over sel put (a :: l) (b :: new) = put b :: over sel put l new := over_pos_cons hs
        rw [e]
        refine ⟨by simp [(ih new).length], ?_, ?_⟩
        · intro i h hi
          cases i with
          | zero => simp [hs] at hi
          | succ i => simpa using (ih new).other i (by simpa using h) (by simpa using hi)
        · intro i h hi
          cases i with
          | zero => simp [rank_zero]
          | succ i =>
            have hr : rank sel (a :: l) (i + 1) = rank sel l i + 1 := by rw [rank_succ, hs, if_pos rfl, Nat.add_comm]
            rw [hr]
            simpa using (ih new).selected i (by simpa using h) (by simpa using hi)

theorem putBack_over {α : Type} (p : α → Bool) (l new : List α) : putBack p l new = over p id l new := by
  induction l generalizing new with
  | nil => cases new <;> rfl
  | cons a l ih =>
    cases h : p a <;> cases new <;> simp [putBack, over, h, ih]

theorem over_map {α β γ : Type} (sel : α → Bool) (put : β → α) (f : γ → β) (l : List α) (new : List γ) :
    over sel put l (new.map f) = over sel (put ∘ f) l new := by
  induction l generalizing new with
  | nil => cases new <;> rfl
  | cons a l ih =>
    cases h : sel a
    · rw [over_neg h, over_neg h, ih]
    · cases new with
      | nil => rw [List.map_nil, over_nil, over_nil]
      | cons b new => rw [List.map_cons, over_pos_cons h, over_pos_cons h, ih]; rfl

theorem over_all {α : Type} (l new : List α) : over (fun _ => true) id l new = new.take l.length ++ l.drop new.length := by
  induction l generalizing new with
  | nil => cases new <;> simp [over]
  | cons a l ih =>
    cases new with
    | nil => simp [over_nil]
    | cons b new => rw [over_pos_cons rfl, ih]; simp

theorem vecWrite_over {α : Type} (p : α → Bool) (l new : List α) : (vecIterMut l).write (putBack p l new) = over p id l new := by
  rw [putBack_over]
  have := (over_ok p id l new).length
  simp [vecIterMut, ← this]

/-- the elements among the nodes -/
theorem expectElements_eq (l : List Node) : expectElements (l.filter Node.isElement) = .ok (l.filterMap element?) := by
  induction l with
  | nil => rfl
  | cons n l ih =>
    cases n with
    | element e =>
      rw [List.filter_cons_of_pos rfl, expectElements, ih]
      rfl
    | _ => rw [List.filter_cons_of_neg (by simp [Node.isElement]), ih]; rfl

/-- every child element -/
theorem childElementsMut_eq (e : Element) : e.childElementsMut = .ok ⟨e.children.filterMap element?,
    fun new => { e with children := over (elementWhere fun _ => true) .element e.children new }⟩ := by
  unfold ElementF.childElementsMut MutIter.elements
  have h : (e.childrenMut.filter Node.isElement).items = e.children.filter Node.isElement := rfl
  rw [h, expectElements_eq, Res.bind_ok]
  have hs : Node.isElement = elementWhere fun _ => true := by
    funext n
    cases n <;> rfl
  simp only [Res.pure_eq, Res.ok.injEq, MutIter.mk.injEq, true_and]
  funext new
  show { e with children := (vecIterMut e.children).write (putBack Node.isElement e.children (new.map .element)) } = _
  rw [vecWrite_over, over_map, hs]
  rfl

theorem els_none {n : Node} {l : List Node} (h : element? n = none) : (n :: l).filterMap element? = l.filterMap element? :=
  List.filterMap_cons_none h
theorem els_element {e : Element} {l : List Node} : (Node.element e :: l).filterMap element? = e :: l.filterMap element? := rfl

/-- a node is an element or is never selected -/
theorem node_cases (n : Node) : (∃ e, n = .element e) ∨ (element? n = none ∧ ∀ p, elementWhere p n = false) := by
  cases n with
  | element e => exact .inl ⟨e, rfl⟩
  | _ => exact .inr ⟨rfl, fun _ => rfl⟩

theorem over_els (l : List Node) : over (elementWhere fun _ => true) .element l (l.filterMap element?) = l := by
  induction l with
  | nil => rfl
  | cons n l ih =>
    rcases node_cases n with ⟨e, rfl⟩ | ⟨h1, h2⟩
    · rw [els_element, over_pos_cons rfl, ih]
    · rw [els_none h1, over_neg (h2 _), ih]

theorem over_where (p : Element → Bool) (l : List Node) (new : List Element) :
    over (elementWhere fun _ => true) .element l (over p id (l.filterMap element?) new) = over (elementWhere p) .element l new := by
  induction l generalizing new with
  | nil => cases new <;> rfl
  | cons n l ih =>
    rcases node_cases n with ⟨e, rfl⟩ | ⟨h1, h2⟩
    · rw [els_element]
      cases h : p e with
      | false => rw [over_neg h, over_pos_cons rfl, over_neg (show elementWhere p (.element e) = false from h), ih]
      | true =>
        cases new with
        | nil => rw [over_nil, over_nil, ← els_element, over_els]
        | cons b new =>
          rw [over_pos_cons h, over_pos_cons rfl, over_pos_cons (show elementWhere p (.element e) = true from h), ih]; rfl
    · rw [els_none h1, over_neg (h2 _), over_neg (h2 _), ih]

/-- the child elements that satisfy `p` -/
theorem filterMut_eq (e : Element) (p : Element → Bool) : (do let m ← e.childElementsMut; pure (m.filter p)) =
    (.ok ⟨(e.children.filterMap element?).filter p, fun new => { e with children := over (elementWhere p) .element e.children new }⟩ : R _) := by
  rw [childElementsMut_eq, Res.bind_ok]
  simp only [Res.pure_eq, Res.ok.injEq, MutIter.filter, MutIter.mk.injEq, true_and]
  funext new
  rw [putBack_over, over_where]

theorem over_self (p : Element → Bool) (l : List Node) : over (elementWhere p) .element l ((l.filterMap element?).filter p) = l := by
  induction l with
  | nil => rfl
  | cons n l ih =>
    rcases node_cases n with ⟨e, rfl⟩ | ⟨h1, h2⟩
    · rw [els_element]
      cases h : p e with
      | false => rw [List.filter_cons_of_neg (by simp [h]), over_neg (show elementWhere p (.element e) = false from h), ih]
      | true => rw [List.filter_cons_of_pos h, over_pos_cons (show elementWhere p (.element e) = true from h), ih]
    · rw [els_none h1, over_neg (h2 _), ih]

theorem over_after (p : Element → Bool) (l : List Node) (new : List Element) (hl : new.length = ((l.filterMap element?).filter p).length)
    (hn : ∀ x ∈ new, p x = true) : ((over (elementWhere p) .element l new).filterMap element?).filter p = new := by
  induction l generalizing new with
  | nil =>
    have : new = [] := by simpa using hl
    subst this
    rfl
  | cons n l ih =>
    rcases node_cases n with ⟨e, rfl⟩ | ⟨h1, h2⟩
    · rw [els_element] at hl
      cases h : p e with
      | false =>
        rw [List.filter_cons_of_neg (by simp [h])] at hl
        rw [over_neg (show elementWhere p (.element e) = false from h), els_element, List.filter_cons_of_neg (by simp [h]), ih new hl hn]
      | true =>
        rw [List.filter_cons_of_pos h] at hl
        cases new with
        | nil => simp at hl
        | cons b new =>
          rw [over_pos_cons (show elementWhere p (.element e) = true from h), els_element, List.filter_cons_of_pos (hn b (by simp)),
            ih new (by simpa using hl) fun x hx => hn x (by simp [hx])]
    · rw [els_none h1] at hl
      rw [over_neg (h2 _), els_none h1, ih new hl hn]

/-- the loop of `first_element_by_name_mut` -/
theorem firstMut_spec (m : MutIter Element Element) (n : Str) (l seen : List Element) :
    (∃ c t, ∃ s, l = s ++ c :: t ∧ c.name = n ∧ (∀ y ∈ s, y.name ≠ n) ∧
      ElementF.firstByNameMut m n seen l = .ok (c, fun new => m.write (seen ++ s ++ [new]))) ∨
    ((∀ y ∈ l, y.name ≠ n) ∧ ElementF.firstByNameMut m n seen l = .err (.doesNotExist ElementF.notFound)) := by
  induction l generalizing seen with
  | nil => exact .inr ⟨by simp, rfl⟩
  | cons c l ih =>
    rw [ElementF.firstByNameMut]
    by_cases h : c.name = n
    · rw [if_pos h]
      exact .inl ⟨c, l, [], rfl, h, by simp, by simp⟩
    · rw [if_neg h]
      rcases ih (seen ++ [c]) with ⟨d, t, s, h1, h2, h3, h4⟩ | ⟨h1, h2⟩
      · refine .inl ⟨d, t, c :: s, by simp [h1], h2, ?_, by rw [h4]; simp⟩
        intro y hy
        rcases List.mem_cons.1 hy with rfl | hy
        · exact h
        · exact h3 y hy
      · refine .inr ⟨?_, h2⟩
        intro y hy
        rcases List.mem_cons.1 hy with rfl | hy
        · exact h
        · exact h1 y hy

theorem over_one {l : List Node} {s t : List Element} {c : Element} (h : l.filterMap element? = s ++ c :: t) :
    ∃ a b, l = a ++ .element c :: b ∧ a.filterMap element? = s ∧
      ∀ new, over (elementWhere fun _ => true) .element l (s ++ [new]) = a ++ .element new :: b := by
  induction l generalizing s with
  | nil => simp at h
  | cons n l ih =>
    rcases node_cases n with ⟨e, rfl⟩ | ⟨h1, h2⟩
    · rw [els_element] at h
      cases s with
      | nil =>
        simp at h
        obtain ⟨rfl, h⟩ := h
        exact ⟨[], l, rfl, rfl, fun new => by rw [List.nil_append, over_pos_cons rfl, over_nil]; rfl⟩
      | cons y s =>
        simp at h
        obtain ⟨rfl, h⟩ := h
        obtain ⟨a, b, g1, g2, g4⟩ := ih h
        exact ⟨.element e :: a, b, by rw [g1]; rfl, by rw [els_element, g2],
          fun new => by rw [List.cons_append, over_pos_cons rfl, g4]; rfl⟩
    · rw [els_none h1] at h
      obtain ⟨a, b, g1, g2, g4⟩ := ih h
      exact ⟨n :: a, b, by rw [g1]; rfl, by rw [els_none h1, g2], fun new => by rw [over_neg (h2 _), g4]; rfl⟩

end KissXml
