import Verif.Model.Dom
/-!
# Mutable access to children (`/repo/src/dom.rs`)

An iterator of `&mut` references is modelled by what it yields and by what becomes of the place it borrows from when the caller has
overwritten the first items with new values (items that the caller does not reach stay as they are).
-/
namespace KissXml

/-- `impl Iterator<Item = &mut α>` that borrows a value of type `σ` -/
structure MutIter (σ α : Type) where
  items : List α
  write : List α → σ

/-- `Vec::iter_mut` (std): all elements in order -/
def vecIterMut {α : Type} (l : List α) : MutIter (List α) α := ⟨l, fun new => new.take l.length ++ l.drop new.length⟩

/-- the items of `l` that satisfy `p`, overwritten by `new` -/
def putBack {α : Type} (p : α → Bool) : List α → List α → List α
  | [], _ => []
  | a :: l, new =>
    if p a then (match new with | [] => a :: l | b :: new => b :: putBack p l new) else a :: putBack p l new

/-- `Iterator::filter` (std): the items that satisfy `p` -/
def MutIter.filter {σ α : Type} (p : α → Bool) (m : MutIter σ α) : MutIter σ α :=
  ⟨m.items.filter p, fun new => m.write (putBack p m.items new)⟩

/-- `as_element().expect("logic error")` of every node -/
def expectElements : List Node → R (List Element)
  | [] => .ok []
  | n :: l => do
    let e ← expect n.asElement
    let r ← expectElements l
    pure (e :: r)

/-- `.map(|n| n.as_element_mut().expect("logic error"))`: writing to the element writes to the node -/
def MutIter.elements {σ : Type} (m : MutIter σ Node) : R (MutIter σ Element) := do
  let l ← expectElements m.items
  pure ⟨l, fun new => m.write (new.map .element)⟩

namespace ElementF
/-- `children_mut`, dom.rs:864-866. -/
def childrenMut (e : Element) : MutIter Element Node :=
  ⟨(vecIterMut e.children).items, fun new => { e with children := (vecIterMut e.children).write new }⟩
/-- `child_elements_mut`, dom.rs:850-854. -/
def childElementsMut (e : Element) : R (MutIter Element Element) := (e.childrenMut.filter Node.isElement).elements
/-- `elements_by_namespace_mut`, dom.rs:721-724. -/
def elementsByNamespaceMut (e : Element) (ns : Option Str) : R (MutIter Element Element) := do
  let m ← e.childElementsMut
  pure (m.filter (fun c => c.xmlns == ns))
/-- `elements_by_namespace_prefix_mut`, dom.rs:790-793. -/
def elementsByNamespacePrefixMut (e : Element) (p : Option Str) : R (MutIter Element Element) := do
  let m ← e.childElementsMut
  pure (m.filter (fun c => c.pfx == p))
/-- `elements_by_name_mut`, dom.rs:956-959. -/
def elementsByNameMut (e : Element) (n : Str) : R (MutIter Element Element) := do
  let m ← e.childElementsMut
  pure (m.filter (fun c => c.name == n))
/-- loop of `first_element_by_name_mut`, dom.rs:937-941: `seen` have been yielded and left as they are -/
def firstByNameMut (m : MutIter Element Element) (n : Str) (seen : List Element) : List Element → R (Element × (Element → Element))
  | [] => .err (.doesNotExist ElementF.notFound)
  | c :: t => if c.name = n then .ok (c, fun new => m.write (seen ++ [new])) else firstByNameMut m n (seen ++ [c]) t
/-- `first_element_by_name_mut`, dom.rs:935-943: the element, and what writing to it does. -/
def firstElementByNameMut (e : Element) (n : Str) : R (Element × (Element → Element)) := do
  let m ← e.childElementsMut
  firstByNameMut m n [] m.items
end ElementF

namespace Document
/-- `root_element_mut`, dom.rs:199-201: the root, and what writing to it does. -/
def rootElementMut (d : Document) : Element × (Element → Document) := (d.root, fun new => { d with root := new })
/-- `doctype_defs_mut`, dom.rs:89-91. -/
def doctypeDefsMut (d : Document) : MutIter Document DTD :=
  ⟨(vecIterMut d.dtds).items, fun new => { d with dtds := (vecIterMut d.dtds).write new }⟩
end Document

end KissXml
