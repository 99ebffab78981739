import Verif.Proofs.Congr
import Verif.Proofs.Build
/-!
# When the children of two equal elements stay equal: lemmas for the exact forms of C82
-/
namespace KissXml
open Spec

theorem elements_normalText (l : List Node) : (normalText l).filterMap element? = l.filterMap element? := by
  have h1 : ∀ n r, (consJoin n r).filterMap element? = (n :: r).filterMap element? := by
    intro n r
    cases n with
    | text a =>
      cases r with
      | nil => rfl
      | cons x r => cases x <;> rfl
    | _ => rfl
  have h2 : (joinRuns l).filterMap element? = l.filterMap element? := by
    induction l with
    | nil => rfl
    | cons n l ih =>
      rw [joinRuns, h1]
      cases h : element? n with
      | none => rw [List.filterMap_cons_none h, List.filterMap_cons_none h, ih]
      | some e => rw [List.filterMap_cons_some h, List.filterMap_cons_some h, ih]
  rw [← h2, normalText]
  induction joinRuns l with
  | nil => rfl
  | cons n l ih =>
    cases n with
    | text t =>
      rw [List.filter_cons]
      split
      · rw [List.filterMap_cons_none rfl, List.filterMap_cons_none rfl, ih]
      · rw [ih, List.filterMap_cons_none rfl]
    | comment t => rw [List.filter_cons_of_pos rfl, List.filterMap_cons_none rfl, List.filterMap_cons_none rfl, ih]
    | cdata t => rw [List.filter_cons_of_pos rfl, List.filterMap_cons_none rfl, List.filterMap_cons_none rfl, ih]
    | element e =>
      rw [List.filter_cons_of_pos rfl, List.filterMap_cons_some (f := element?) (a := .element e) rfl,
        List.filterMap_cons_some (f := element?) (a := .element e) rfl, ih]

/-- equal, or both elements -/
def Kin (x y : Node) : Prop := SameNode x y ∨ ∃ e f, x = .element e ∧ y = .element f

theorem kin_same {l m : List Node} (h : EachTo Kin l m) (he : EachTo SameElement (l.filterMap element?) (m.filterMap element?)) :
    SameList l m := by
  induction h with
  | nil => exact .nil
  | cons h1 h2 ih =>
    rcases h1 with h1 | ⟨e, f, rfl, rfl⟩
    · refine .cons h1 (ih ?_)
      cases h1 with
      | element hx => cases he with | cons _ h => exact h
      | _ => exact he
    · cases he with | cons h3 h4 => exact .cons (.element h3) (ih h4)

theorem kin_normal {l m : List Node} (h : EachTo Kin l m) : SameList (normalText l) (normalText m) ↔ SameList l m := by
  refine ⟨fun hs => kin_same h ?_, sameList_normalText⟩
  have := each_elements hs
  rwa [elements_normalText, elements_normalText] at this

theorem kin_of_same {l m : List Node} (h : SameList l m) : EachTo Kin l m := by
  induction l generalizing m with
  | nil => cases h; exact .nil
  | cons x l ih => cases h with | cons h1 h2 => exact .cons (.inl h1) (ih h2)

theorem kin_append {l m l' m' : List Node} (h : EachTo Kin l m) (h' : EachTo Kin l' m') : EachTo Kin (l ++ l') (m ++ m') := by
  induction h with
  | nil => exact h'
  | cons h1 _ ih => exact .cons h1 ih

theorem kin_apply {d : Option Str} {c c' : SMap} {n m : Node} (h : SameNode n m) :
    Kin (applyXmlnsContext d c n) (applyXmlnsContext d c' m) := by
  cases h with
  | text t => exact .inl (.text t)
  | comment t => exact .inl (.comment t)
  | cdata t => exact .inl (.cdata t)
  | element _ => exact .inr ⟨_, _, rfl, rfl⟩

theorem kin_map {d : Option Str} {c c' : SMap} {l m : List Node} (h : SameList l m) :
    EachTo Kin (l.map (applyXmlnsContext d c)) (m.map (applyXmlnsContext d c')) := by
  induction l generalizing m with
  | nil => cases h; exact .nil
  | cons x l ih => cases h with | cons h1 h2 => exact .cons (kin_apply h1) (ih h2)

theorem kin_mapLast {d : Option Str} {c c' : SMap} {l m : List Node} (h : SameList l m) :
    EachTo Kin (mapLast (applyXmlnsContext d c) l) (mapLast (applyXmlnsContext d c') m) := by
  induction l generalizing m with
  | nil => cases h; exact .nil
  | cons x l ih =>
    cases h with
    | @cons _ y _ k h1 h2 =>
      cases h2 with
      | nil => exact .cons (kin_apply h1) .nil
      | cons h3 h4 => rw [mapLast, mapLast]; exact .cons (.inl h1) (ih (.cons h3 h4))

theorem sameList_append_iff {c c' l m : List Node} (h : SameList c c') : SameList (c ++ l) (c' ++ m) ↔ SameList l m := by
  refine ⟨fun hs => ?_, sameList_append h⟩
  induction c generalizing c' with
  | nil => cases h; exact hs
  | cons x c ih =>
    cases h with
    | cons h1 h2 => cases hs with | cons _ h4 => exact ih h2 h4

theorem same_map_apply {d : Option Str} {c c' : SMap} {l m : List Node} (h : SameList l m) :
    SameList (l.map (applyXmlnsContext d c)) (m.map (applyXmlnsContext d c')) ↔
      ∀ e f, (Node.element e, Node.element f) ∈ l.zip m → ∀ p, unresolved (.element e) = some p →
        (e.ctx.get p).or (c.get p) = (f.ctx.get p).or (c'.get p) := by
  induction l generalizing m with
  | nil => cases h; exact ⟨fun _ _ _ h => (by cases h), fun _ => .nil⟩
  | cons x l ih =>
    cases h with
    | @cons _ y _ m h1 h2 =>
      constructor
      · intro hs e f hm
        cases hs with
        | cons h3 h4 =>
          rw [List.zip_cons_cons, List.mem_cons] at hm
          rcases hm with hm | hm
          · cases hm
            exact (same_apply h1).1 h3 e f rfl rfl
          · exact (ih h2).1 h4 e f hm
      · intro hh
        refine .cons ((same_apply h1).2 ?_) ((ih h2).2 fun e f hm => hh e f (List.mem_cons_of_mem _ hm))
        rintro e f rfl rfl
        exact hh e f (List.mem_cons_self ..)

theorem same_mapLast_apply {d : Option Str} {c c' : SMap} {l m : List Node} (h : SameList l m) :
    SameList (mapLast (applyXmlnsContext d c) l) (mapLast (applyXmlnsContext d c') m) ↔
      ∀ e f, l.getLast? = some (.element e) → m.getLast? = some (.element f) → ∀ p, unresolved (.element e) = some p →
        (e.ctx.get p).or (c.get p) = (f.ctx.get p).or (c'.get p) := by
  induction l generalizing m with
  | nil => cases h; exact ⟨fun _ _ _ h => (by cases h), fun _ => .nil⟩
  | cons x l ih =>
    cases h with
    | @cons _ y _ m h1 h2 =>
      cases h2 with
      | nil =>
        constructor
        · intro hs e f he hf
          cases hs with
          | cons h3 _ =>
            cases he; cases hf
            exact (same_apply h1).1 h3 e f rfl rfl
        · intro hh
          refine .cons ((same_apply h1).2 ?_) .nil
          rintro e f rfl rfl
          exact hh e f rfl rfl
      | cons h3 h4 =>
        rw [mapLast, mapLast, List.getLast?_cons_cons, List.getLast?_cons_cons, ← ih (.cons h3 h4)]
        exact ⟨fun h => by cases h with | cons _ h => exact h, fun h => .cons h1 h⟩

theorem same_children_iff {a b : Element} (h : SameElement a b) {l m : List Node} :
    SameElement { a with children := l } { b with children := m } ↔ SameList l m :=
  ⟨fun h => (same_parts h).2.2.2.2, same_children h⟩

theorem resTo_ok {α : Type} {r : α → α → Prop} {x y : α} : ResTo r (.ok x) (.ok y) ↔ r x y := by
  constructor
  · rintro (⟨a, b, ha, hb, h⟩ | ⟨e, he, -⟩ | ⟨he, -⟩)
    · cases ha; cases hb; exact h
    · cases he
    · cases he
  · exact fun h => .inl ⟨_, _, rfl, rfl, h⟩

end KissXml
