import Verif.Proofs.W3Ns
import Verif.Props.Scope
/-!
# C118: Namespaces in XML

The recommendation says which namespace an element is in. The library agrees with it where the declarations around the element are usual.
-/
namespace KissXml.Props
open KissXml KissXml.Spec

/-- C118 (partial): in every parsed document with one top-level element, the namespace of an element is the one the recommendation gives it, if
the declarations around it are `UsualNs`. Missing: the other cases, where it can be another one (`C118_false_*`, `C118_prefixed`,
`C118_default`). -/
theorem C118_partial (x : Str) (d : Document) (pre rest : List (Str × Str)) (h : parseStr x = .ok d) (hp : Parts x pre rest)
    (h1 : OneRoot (rest.map Prod.snd)) (up : List Element) (e : Element) (he : Above d.root up e) (hu : UsualNs e up) :
    e.xmlns = nsName e up := by
  rw [C73_namespaces x d pre rest h hp h1 up e he]
  exact resolved_usual hu

/-- C118, exactly, for elements with a prefix other than `xml`: the namespace is the right one if and only if the element declares the prefix
itself, or no element around it has an attribute `xmlns:xmlns:p`, or the nearest such attribute has the value of the nearest declaration. -/
theorem C118_prefixed (x : Str) (d : Document) (pre rest : List (Str × Str)) (h : parseStr x = .ok d) (hp : Parts x pre rest)
    (h1 : OneRoot (rest.map Prod.snd)) (up : List Element) (e : Element) (he : Above d.root up e) (p : Str) (hq : e.pfx = some p)
    (hx : p ≠ c%"xml") : e.xmlns = nsName e up ↔ ((e.attrs.get (c%"xmlns:" ++ p)).isSome ∨ nearest (c%"xmlns:xmlns:" ++ p) up = none ∨
      nearest (c%"xmlns:xmlns:" ++ p) up = nearest (c%"xmlns:" ++ p) up) := by
  rw [C73_namespaces x d pre rest h hp h1 up e he]
  exact prefixNs_exact hq hx

/-- C118, exactly, for elements without a prefix: the namespace is the right one if and only if it is not the empty one, and, if there is
none, then the nearest default namespace from the first prefixed element outwards is missing or empty. -/
theorem C118_default (x : Str) (d : Document) (pre rest : List (Str × Str)) (h : parseStr x = .ok d) (hp : Parts x pre rest)
    (h1 : OneRoot (rest.map Prod.snd)) (up : List Element) (e : Element) (he : Above d.root up e) (hq : e.pfx = none) :
    e.xmlns = nsName e up ↔ e.xmlns ≠ some [] ∧
      (e.xmlns = none → (nearest c%"xmlns" (up.dropWhile fun a => a.pfx.isNone)).getD [] = []) := by
  rw [C73_namespaces x d pre rest h hp h1 up e he]
  exact defaultNs_exact hq

/-! ## where it is another one -/

/-- the children of the root of an input, with the namespace the library gives them and the one of the recommendation -/
def bothNs (x : Str) : List (Option Str × Option Str) :=
  match parseStr x with
  | .ok d => d.root.childElements.map fun e => (e.xmlns, nsName e [d.root])
  | _ => []

/-- `xmlns=""` takes the element out of the default namespace: the library puts it into a namespace with an empty name -/
theorem C118_false_empty : bothNs c%"<r xmlns='u'><a xmlns=''/></r>" = [(some [], none)] := by decide +kernel

/-- a default namespace is not seen through a prefixed element -/
theorem C118_false_default : bothNs c%"<p:r xmlns='u' xmlns:p='v'><a/></p:r>" = [(none, some c%"u")] := by decide +kernel

/-- `xmlns:xmlns:p` hides the declaration of `p` -/
theorem C118_false_twice : bothNs c%"<r xmlns:p='u' xmlns:xmlns:p='v'><p:a/></r>" = [(some c%"v", some c%"u")] := by decide +kernel

/-- the prefix `xml` can be bound to something else -/
theorem C118_false_xml : bothNs c%"<r xmlns:xml='u'><xml:a/></r>" = [(some c%"u", some xmlNs)] := by decide +kernel

/-- and without a declaration an element with it is an error -/
theorem C118_false_undeclared : (match parseStr c%"<xml:a/>" with | .err _ => true | _ => false) = true := by decide +kernel

/-- the recommendation forbids each of these: a prefix of an attribute that is not declared, a prefix that is bound to nothing, a declaration of
the prefix `xmlns`, and the same attribute under two prefixes. The library accepts all of them. -/
theorem C118_false_accepted : [c%"<a p:b='1'/>", c%"<p:a xmlns:p=''/>", c%"<a xmlns:xmlns='u'/>",
    c%"<a xmlns:p='u' xmlns:q='u' p:b='1' q:b='2'/>"].all (fun x => match parseStr x with | .ok _ => true | _ => false) = true := by
  decide +kernel

/-! ## an example -/

/-- declarations that hide others -/
def usualInput : Str := c%"<r xmlns='u' xmlns:p='v'><a><p:b xmlns:p='w'><p:d/></p:b></a><f xmlns='y'/></r>"

/-- its tokens -/
def usualRest : List (Str × Str) := [([], c%"<r xmlns='u' xmlns:p='v'>"), ([], c%"<a>"), ([], c%"<p:b xmlns:p='w'>"), ([], c%"<p:d/>"),
  ([], c%"</p:b>"), ([], c%"</a>"), ([], c%"<f xmlns='y'/>"), ([], c%"</r>")]

-- it meets the hypotheses
example : Parts usualInput [] usualRest ∧ OneRoot (usualRest.map Prod.snd) := ⟨partsB_sound [] (by decide) rfl, oneRootB_sound (by decide)⟩

example : bothNs usualInput = [(some c%"u", some c%"u"), (some c%"y", some c%"y")] := by decide +kernel

/-- `<a>` inside of `<r>` of that input -/
def usualA : Element := ⟨c%"a", [], .empty, none, none, .empty⟩
/-- its root -/
def usualR : Element := ⟨c%"r", [], ⟨[(c%"xmlns", c%"u"), (c%"xmlns:p", c%"v")], by decide⟩, none, none, .empty⟩
/-- `<p:b>` in it -/
def usualB : Element := ⟨c%"b", [], ⟨[(c%"xmlns:p", c%"w")], by decide⟩, none, some c%"p", .empty⟩
/-- `<p:d>` in it -/
def usualD : Element := ⟨c%"d", [], .empty, none, some c%"p", .empty⟩

example : UsualNs usualD [usualB, usualA, usualR] ∧ nsName usualD [usualB, usualA, usualR] = some c%"w" :=
  ⟨⟨.inr (by decide), by decide⟩, by decide⟩

example : UsualNs usualA [usualR] ∧ nsName usualA [usualR] = some c%"u" := by
  refine ⟨⟨by decide, fun a q b h hq => ?_⟩, by decide⟩
  cases a with
  | nil => cases h; cases hq
  | cons y a => simp at h

end KissXml.Props
