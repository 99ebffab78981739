import Verif.Proofs.Mut
import Verif.Props.Dom
/-!
# Mutable access: C72
-/
namespace KissXml.Props
open KissXml KissXml.Spec

/-- an iterator of `&mut` references to the child elements of `e` that satisfy `p` -/
structure MutQuery (p : Element → Bool) (e : Element) (q : R (MutIter Element Element)) : Prop where
  /-- it does not panic, and yields these elements in order; writing changes them where they are, and nothing else -/
  exact : ∃ m, q = .ok m ∧ m.items = (e.children.filterMap element?).filter p ∧
    (∀ new, SameHead e (m.write new) ∧ Overwritten (elementWhere p) .element e.children new (m.write new).children) ∧
    m.write m.items = e ∧
    ∀ new, new.length = m.items.length → (∀ x ∈ new, p x = true) → ((m.write new).children.filterMap element?).filter p = new

theorem mutQuery_filter {e : Element} {p : Element → Bool} {q : R (MutIter Element Element)}
    (h : q = .ok ⟨(e.children.filterMap element?).filter p, fun new => { e with children := over (elementWhere p) .element e.children new }⟩) :
    MutQuery p e q :=
  ⟨_, h, rfl, fun new => ⟨⟨rfl, rfl, rfl, rfl, rfl⟩, over_ok ..⟩, by simp only [over_self], fun new hl hn => over_after p e.children new hl hn⟩

theorem C72_elements (e : Element) :
    MutQuery (fun _ => true) e e.childElementsMut ∧
    (∀ n, MutQuery (fun c => decide (c.name = n)) e (e.elementsByNameMut n)) ∧
    (∀ x, MutQuery (fun c => decide (c.xmlns = x)) e (e.elementsByNamespaceMut x)) ∧
    (∀ p, MutQuery (fun c => decide (c.pfx = p)) e (e.elementsByNamespacePrefixMut p)) := by
  refine ⟨mutQuery_filter ?_, fun n => mutQuery_filter ?_, fun n => mutQuery_filter ?_, fun n => mutQuery_filter ?_⟩
  · rw [childElementsMut_eq]; simp
  · have : (fun c : Element => c.name == n) = fun c => decide (c.name = n) := by funext c; rw [Bool.eq_iff_iff]; simp
    unfold ElementF.elementsByNameMut
    rw [filterMut_eq, this]
  · have : (fun c : Element => c.xmlns == n) = fun c => decide (c.xmlns = n) := by funext c; rw [Bool.eq_iff_iff]; simp
    unfold ElementF.elementsByNamespaceMut
    rw [filterMut_eq, this]
  · have : (fun c : Element => c.pfx == n) = fun c => decide (c.pfx = n) := by funext c; rw [Bool.eq_iff_iff]; simp
    unfold ElementF.elementsByNamespacePrefixMut
    rw [filterMut_eq, this]

/-- the iterators yield the same as the read-only queries -/
theorem C72_same_as_queries (e : Element) :
    (∃ m, e.childElementsMut = .ok m ∧ m.items = e.childElements) ∧
    (∀ n, ∃ m, e.elementsByNameMut n = .ok m ∧ m.items = e.elementsByName n) ∧
    (∀ x, ∃ m, e.elementsByNamespaceMut x = .ok m ∧ m.items = e.elementsByNamespace x) ∧
    (∀ p, ∃ m, e.elementsByNamespacePrefixMut p = .ok m ∧ m.items = e.elementsByNamespacePrefix p) ∧
    e.childrenMut.items = e.children := by
  obtain ⟨⟨m, h1, h2, -⟩, b, c, d⟩ := C72_elements e
  obtain ⟨q1, q2, q3, q4⟩ := C15_child_queries e
  refine ⟨⟨m, h1, by rw [h2, q1]; simp⟩, fun n => ?_, fun n => ?_, fun n => ?_, rfl⟩
  · obtain ⟨m, h1, h2, -⟩ := b n
    exact ⟨m, h1, by rw [h2, q2]⟩
  · obtain ⟨m, h1, h2, -⟩ := c n
    exact ⟨m, h1, by rw [h2, q3]⟩
  · obtain ⟨m, h1, h2, -⟩ := d n
    exact ⟨m, h1, by rw [h2, q4]⟩

/-- writing other elements to the `k`s of `tree` -/
example : ∃ m, tree.elementsByNameMut c%"k" = .ok m ∧ m.items.length = 2 ∧
    m.write [pq, { kid with children := [.text c%"new"] }] =
      { tree with children := [.element pq, .text c%"out", .comment c%"c", .element { kid with children := [.text c%"new"] }] } ∧
    m.write [pq] = { tree with children := [.element pq, .text c%"out", .comment c%"c", .element kid] } :=
  ⟨_, rfl, rfl, rfl, rfl⟩

theorem C72_children (e : Element) (new : List Node) :
    SameHead e (e.childrenMut.write new) ∧ Overwritten (fun _ => true) id e.children new (e.childrenMut.write new).children ∧
    e.childrenMut.write e.childrenMut.items = e ∧ (new.length = e.children.length → (e.childrenMut.write new).children = new) := by
  have h : ∀ new, (e.childrenMut.write new).children = over (fun _ => true) id e.children new := fun new => (over_all ..).symm
  refine ⟨⟨rfl, rfl, rfl, rfl, rfl⟩, h new ▸ over_ok .., ?_, fun hl => ?_⟩
  · simp [ElementF.childrenMut, vecIterMut]
  · rw [h, over_all, ← hl]; simp [hl]

example : (tree.childrenMut.write [.text c%"t"]).children = [.text c%"t", .text c%"out", .comment c%"c", .element kid] := rfl

/-- `first_element_by_name_mut`: the first of that name, and writing to it replaces it where it is -/
theorem C72_first_element_by_name (e : Element) (n : Str) :
    (∃ c w, e.firstElementByNameMut n = .ok (c, w) ∧ e.firstElementByName n = .ok c ∧ c.name = n ∧
      ∃ a b, e.children = a ++ .element c :: b ∧ (∀ x, Node.element x ∈ a → x.name ≠ n) ∧
        ∀ new, w new = { e with children := a ++ .element new :: b }) ∨
    ((∀ x, Node.element x ∈ e.children → x.name ≠ n) ∧ e.firstElementByNameMut n = .err (.doesNotExist c%"requested item not found") ∧
      e.firstElementByName n = .err (.doesNotExist c%"requested item not found")) := by
  have mem : ∀ l : List Node, ∀ x, Node.element x ∈ l ↔ x ∈ l.filterMap element? := by
    intro l x
    rw [List.mem_filterMap]
    constructor
    · exact fun h => ⟨_, h, rfl⟩
    · rintro ⟨y, h1, h2⟩
      cases y with
      | element z => rw [show z = x from Option.some.inj h2] at h1; exact h1
      | _ => cases h2
  have hq : e.childElements = e.children.filterMap element? := (C15_child_queries e).1
  have hf : ∀ x, e.firstElementByName x = ElementF.firstByName x (e.children.filterMap element?) := fun x => by
    unfold ElementF.firstElementByName; rw [hq]
  unfold ElementF.firstElementByNameMut
  rw [childElementsMut_eq, Res.bind_ok]
  rcases firstMut_spec ⟨e.children.filterMap element?, fun new => { e with children := over (elementWhere fun _ => true) .element e.children new }⟩
    n (e.children.filterMap element?) [] with ⟨c, t, s, h1, h2, h3, h4⟩ | ⟨h1, h2⟩
  · obtain ⟨a, b, g1, g2, g3⟩ := over_one h1
    refine .inl ⟨c, _, h4, ?_, h2, a, b, g1, fun x hx => h3 x (g2 ▸ (mem a x).1 hx), fun new => ?_⟩
    · rw [hf]
      exact ((firstByName_spec n _).1 c).2 ⟨s, t, h1, h2, h3⟩
    · simp only [List.nil_append, g3]
  · refine .inr ⟨fun x hx => h1 x ((mem _ x).1 hx), h2, ?_⟩
    rw [hf]
    exact (firstByName_spec n _).2.1.2 h1

example : ∃ w, tree.firstElementByNameMut c%"k" = .ok ({ kid with children := [.text c%"in"] }, w) ∧
    w pq = { tree with children := [.element pq, .text c%"out", .comment c%"c", .element kid] } := ⟨_, rfl, rfl⟩
example : tree.firstElementByNameMut c%"x" = .err (.doesNotExist c%"requested item not found") := rfl

/-- `root_element_mut` and `doctype_defs_mut` -/
theorem C72_document (d : Document) :
    (d.rootElementMut.1 = d.root ∧ ∀ new, (d.rootElementMut.2 new).root = new ∧ (d.rootElementMut.2 new).dtds = d.dtds ∧
      (d.rootElementMut.2 new).declaration = d.declaration) ∧
    d.doctypeDefsMut.items = d.dtds ∧
    ∀ new, (d.doctypeDefsMut.write new).root = d.root ∧ (d.doctypeDefsMut.write new).declaration = d.declaration ∧
      Overwritten (fun _ => true) id d.dtds new (d.doctypeDefsMut.write new).dtds := by
  refine ⟨⟨rfl, fun new => ⟨rfl, rfl, rfl⟩⟩, rfl, fun new => ⟨rfl, rfl, ?_⟩⟩
  have : (d.doctypeDefsMut.write new).dtds = over (fun _ => true) id d.dtds new := (over_all ..).symm
  rw [this]
  exact over_ok ..

end KissXml.Props
