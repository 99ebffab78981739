import Verif.Spec.Scope
/-!
# Specification: Namespaces in XML

The namespace name of an element after the W3C recommendation "Namespaces in XML 1.0".
-/
namespace KissXml.Spec

/-- what the prefix `xml` is bound to by definition (section 3) -/
def xmlNs : Str := c%"http://www.w3.org/XML/1998/namespace"

/-- The namespace name of the element `e` inside of the elements `up` (innermost first). With a prefix, it is that of the nearest declaration
of the prefix (section 6.1); the prefix `xml` is always bound (section 3). Without a prefix it is that of the nearest default namespace
declaration, and an empty one means that there is none (section 6.2). -/
def nsName (e : Element) (up : List Element) : Option Str :=
  match e.pfx with
  | some p => if p = c%"xml" then some xmlNs else nearest (c%"xmlns:" ++ p) (e :: up)
  | none => (nearest c%"xmlns" (e :: up)).filter (fun s => s ≠ [])

/-- The declarations around an element are such that the library finds the namespace name: no declaration of the prefix `xmlns:p` around an
element with the prefix `p` that does not declare `p` itself; the prefix `xml` declared if it is used; no empty default namespace; no prefixed
element between an unprefixed one and its default namespace. -/
def UsualNs (e : Element) (up : List Element) : Prop :=
  match e.pfx with
  | some p => ((e.attrs.get (c%"xmlns:" ++ p)).isSome ∨ nearest (c%"xmlns:xmlns:" ++ p) up = none) ∧
      (p = c%"xml" → nearest c%"xmlns:xml" (e :: up) = some xmlNs)
  | none => nearest c%"xmlns" (e :: up) ≠ some [] ∧
      ∀ a q b, up = a ++ q :: b → q.pfx.isSome → (nearest c%"xmlns" (e :: a)).isSome ∨ nearest c%"xmlns" (q :: b) = none

end KissXml.Spec
