import Verif.Spec.Dom
/-!
# Specification: overwriting some items of a list
-/
namespace KissXml.Spec

/-- how many of the first `i` items are selected -/
def rank {α : Type} (sel : α → Bool) (l : List α) (i : Nat) : Nat := ((l.take i).filter sel).length

/-- `r` is `l` with the selected items, from left to right, overwritten by `new`, as far as `new` goes. -/
structure Overwritten {α β : Type} (sel : α → Bool) (put : β → α) (l : List α) (new : List β) (r : List α) : Prop where
  length : r.length = l.length
  other : ∀ i (h : i < l.length), sel l[i] = false → r[i]? = some l[i]
  selected : ∀ i (h : i < l.length), sel l[i] = true → r[i]? = some (match new[rank sel l i]? with | some b => put b | none => l[i])

/-- elements that satisfy `p` -/
def elementWhere (p : Element → Bool) : Node → Bool
  | .element e => p e
  | _ => false

/-- same name, attributes and namespaces -/
structure SameHead (e e' : Element) : Prop where
  name : e'.name = e.name
  attrs : e'.attrs = e.attrs
  xmlns : e'.xmlns = e.xmlns
  pfx : e'.pfx = e.pfx
  ctx : e'.ctx = e.ctx

end KissXml.Spec
