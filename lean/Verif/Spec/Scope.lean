import Verif.Spec.Tree
/-!
# Specification: which namespace an element of a parsed document has
-/
namespace KissXml.Spec

/-- `Above r up e`: `e` is below `r` (or `r` itself), and `up` are the elements around `e`, innermost first -/
inductive Above (r : Element) : List Element → Element → Prop
  | here : Above r [] r
  | down {up : List Element} {e c : Element} : Above r up e → Node.element c ∈ e.children → Above r (e :: up) c

/-- the value of the attribute `k` on the first of some elements that has it -/
def nearest (k : Str) (l : List Element) : Option Str := l.findSome? fun e => e.attrs.get k

/-- The namespace that the parser gives to `e` inside of `up`.  Prefixed: the element's own `xmlns:p`, else the nearest
`xmlns:xmlns:p` around it, else the nearest `xmlns:p` around it.  Unprefixed: the nearest `xmlns` on itself or around it, where
the search ends at the first prefixed element. -/
def resolved (e : Element) (up : List Element) : Option Str :=
  match e.pfx with
  | some p => (e.attrs.get (c%"xmlns:" ++ p)).or ((nearest (c%"xmlns:xmlns:" ++ p) up).or (nearest (c%"xmlns:" ++ p) up))
  | none => nearest c%"xmlns" (e :: up.takeWhile fun a => a.pfx.isNone)

end KissXml.Spec
