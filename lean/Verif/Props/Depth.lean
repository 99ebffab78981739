import Verif.Proofs.Depth
import Verif.Props.Size
import Verif.Proofs.Equal
/-!
# C95: how deep calls go

The recursive functions with a limit `k` for the calls that are active at the same time, `Model/Depth.lean`; `none` (for `remove_all`
the result `diverge`) is a stack overflow.
-/
namespace KissXml.Props
open KissXml KissXml.Spec

/-- **C95** (reading). `text` and the iterator of `children_recursive` need exactly as many calls as elements are nested; with these
they give their results. -/
theorem C95_read (k : Nat) (n : Node) :
    textD k n = (if nesting n ≤ k then some n.textOf else none) ∧
    childrenRecursiveD k n = (if nesting n ≤ k then some n.childrenRecursive else none) :=
  ⟨textD_eq k n, childrenRecursiveD_eq k n⟩

/-- **C95** (writing). The same for writing, whatever the indentation. -/
theorem C95_write (indent : Str) (k : Nat) (pre : Str) (inline : Bool) (n : Node) :
    toStringD indent k pre inline n = if nesting n ≤ k then some (n.toStringPI pre indent inline) else none :=
  toStringD_eq indent k pre inline n

/-- **C95** (copying and dropping). The same for `clone`, and for dropping a node. -/
theorem C95_clone (k : Nat) (n : Node) :
    cloneD k n = (if nesting n ≤ k then some n.clone else none) ∧ dropD k n = (if nesting n ≤ k then some () else none) :=
  ⟨cloneD_eq k n, dropD_eq k n⟩

/-- **C95** (comparing). `==` gives its result whenever the less nested of the two fits, and any result it gives is the right one. -/
theorem C95_compare (k : Nat) (a b : Node) :
    (min (nesting a) (nesting b) ≤ k → eqD k a b = some (a.eq b)) ∧ ∀ r, eqD k a b = some r → r = a.eq b :=
  ⟨eqD_some k a b, fun _ => eqD_sound k a b⟩

/-- **C95** (comparing equal nodes). For nodes that are equal exactly as many calls as elements are nested are needed. -/
theorem C95_equal (k : Nat) {a b : Node} (h : a.eq b = true) : eqD k a b = if nesting a ≤ k then some true else none :=
  eqD_equal k a b h

/-- **C95** (removing). `remove_all` needs as many calls as elements are nested in what is left. (Dropping what is removed is
`C95_clone`.) -/
theorem C95_remove (p : Node → Bool) (k : Nat) (e : Element) :
    ElementF.removeAllF p k e = if nesting (prune p (.element e)) ≤ k then e.removeAll p else .diverge :=
  removeAllF_depth p k e

/-- **C95** (enough). For a parsed document half of one more than the number of `<` in its source is enough. -/
theorem C95_enough {x : Str} {d : Document} (h : parseStr x = .ok d) {k : Nat} (hk : x.count '<' + 1 ≤ 2 * k) :
    textD k (.element d.root) = some (Node.element d.root).textOf ∧
    childrenRecursiveD k (.element d.root) = some (Node.element d.root).childrenRecursive ∧
    (∀ indent, toStringD indent k [] false (.element d.root) = some ((Node.element d.root).toStringPI [] indent false)) ∧
    cloneD k (.element d.root) = some (Node.element d.root).clone ∧ dropD k (.element d.root) = some () := by
  have hn : nesting (.element d.root) ≤ k := by have := C91_nesting h; omega
  refine ⟨?_, ?_, fun i => ?_, ?_, ?_⟩
  · rw [textD_eq, if_pos hn]
  · rw [childrenRecursiveD_eq, if_pos hn]
  · rw [toStringD_eq, if_pos hn]
  · rw [cloneD_eq, if_pos hn]
  · rw [dropD_eq, if_pos hn]

/-- **C95** (never enough). Whatever the limit, a source of `9k+5` bytes is accepted whose document can then neither be written, read,
copied nor compared with itself, nor even dropped. -/
theorem C95_deep (k : Nat) : ∃ x d, parseStr x = .ok d ∧ blen x = 9 * k + 5 ∧
    textD k (.element d.root) = none ∧ childrenRecursiveD k (.element d.root) = none ∧
    (∀ indent, toStringD indent k [] false (.element d.root) = none) ∧
    cloneD k (.element d.root) = none ∧ dropD k (.element d.root) = none ∧
    eqD k (.element d.root) (.element d.root) = none := by
  obtain ⟨x, d, h, hx, hn⟩ := deep_source k
  have hk : ¬ nesting (.element d.root) ≤ k := by omega
  refine ⟨x, d, h, hx, ?_, ?_, fun i => ?_, ?_, ?_, ?_⟩
  · rw [textD_eq, if_neg hk]
  · rw [childrenRecursiveD_eq, if_neg hk]
  · rw [toStringD_eq, if_neg hk]
  · rw [cloneD_eq, if_neg hk]
  · rw [dropD_eq, if_neg hk]
  · rw [eqD_equal k _ _ (node_eq_iff.2 (sameNode_refl _)), if_neg hk]

/-- `<a>x<b>y</b><!--c--></a>` -/
def two : Node := .element ⟨c%"a", [.text c%"x", .element ⟨c%"b", [.text c%"y"], .empty, none, none, .empty⟩, .comment c%"c"],
  .empty, none, none, .empty⟩

/-- an element that differs at once -/
def other : Node := .element ⟨c%"z", [], .empty, none, none, .empty⟩

example : nesting two = 2 ∧ textD 2 two = some c%"xy" ∧ textD 1 two = none := by decide +kernel
example : (childrenRecursiveD 2 two).map List.length = some 4 ∧ childrenRecursiveD 1 two = none := ⟨by decide +kernel, rfl⟩
example : toStringD c%"  " 2 [] false two = some c%"<a>x<b>y</b><!--c--></a>" ∧ toStringD c%"  " 1 [] false two = none := by decide +kernel
example : cloneD 2 two = some two ∧ cloneD 1 two = none ∧ dropD 2 two = some () ∧ dropD 1 two = none := ⟨rfl, rfl, rfl, rfl⟩
/-- one call is enough to see a difference at the top, though both elements contain more or less -/
example : eqD 1 two other = some false ∧ eqD 1 two two = none ∧ eqD 2 two two = some true ∧ min (nesting two) (nesting other) ≤ 1 := by
  decide +kernel
example : two.eq two = true := by decide +kernel
/-- with the inner element removed one call is enough -/
example : nesting (prune Node.isElement two) = 1 ∧ nesting (prune Node.isText two) = 2 := by decide +kernel
example : ((match two with
    | .element e => (match ElementF.removeAllF Node.isElement 1 e, ElementF.removeAllF Node.isText 1 e with
      | .ok (_, k), .diverge => k == 1
      | _, _ => false)
    | _ => false) = true) := by decide +kernel
/-- `C95_enough` for a document with four `<` -/
example : ((match parseStr c%"<a><b/><c/></a>" with | .ok _ => true | _ => false) = true) ∧
    (c%"<a><b/><c/></a>").count '<' + 1 ≤ 2 * 3 := by decide +kernel

end KissXml.Props
