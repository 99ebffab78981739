import Verif.Model.InPlace
/-!
# Predicates with a memory (`/repo/src/dom.rs` 1328-1404)

The predicate given to a removing call is a `Fn`, which can still count or record what it is asked (with a `Cell`), answer differently the
next time, or panic.  Here the removing calls are run statement by statement, as in `Model/InPlace.lean`, with the memory of the
predicate beside the element.
-/
namespace KissXml

/-- a predicate with a memory `τ`: the answer (`none`: it panics) and what it remembers afterwards -/
abbrev Asker (τ α : Type) := τ → α → Option Bool × τ

/-- code that does not call the predicate -/
def Act.on {σ τ α : Type} (a : Act σ α) : Act (σ × τ) α := fun s => ((a s.1).1, (a s.1).2, s.2)

/-- a call of the predicate -/
def Asker.ask {σ τ α : Type} (p : Asker τ α) (a : α) : Act (σ × τ) Bool := fun s => (Res.unwrap (p s.2 a).1, s.1, (p s.2 a).2)

namespace ElementF
variable {τ : Type}

/-- the first loop of `remove_by`, dom.rs:1342-1346; the argument counts down `(0..len).rev()` -/
def matchesA (p : Asker τ Node) : Nat → Act (Element × τ) (List Nat)
  | 0 => pure []
  | i + 1 => do
    let n ← Act.on (atM i)
    let b ← p.ask n
    let rest ← matchesA p i
    pure (if b then i :: rest else rest)

/-- `remove_by`, dom.rs:1340-1352. -/
def removeByA (p : Asker τ Node) : Act (Element × τ) Nat := do
  let len ← Act.on lenM
  let is ← matchesA p len
  Act.on (removeIndicesM is)
  pure is.length

/-- `e.f(..)` for the element `e` among the children with index `i` -/
def inChildA {α : Type} (f : Act (Element × τ) α) (i : Nat) : Act (Element × τ) α := fun s =>
  match s.1.children[i]? with
  | some (.element x) => ((f (x, s.2)).1, { s.1 with children := s.1.children.set i (.element (f (x, s.2)).2.1) }, (f (x, s.2)).2.2)
  | _ => (.panic, s)

/-- the loop `for e in self.child_elements_mut() { count += e.f(..) }`, dom.rs:1330-1332, 850-854: `i` counts up, `left` passes are left -/
def eachChildA (f : Act (Element × τ) Nat) (i : Nat) : Nat → Act (Element × τ) Nat
  | 0 => pure 0
  | left + 1 => do
    let n ← Act.on (atM i)
    if n.isElement then do
      let k ← inChildA f i
      let m ← eachChildA f (i + 1) left
      pure (k + m)
    else eachChildA f (i + 1) left

/-- `remove_all`, dom.rs:1328-1334, with fuel for the recursion depth -/
def removeAllAF (p : Asker τ Node) : Nat → Act (Element × τ) Nat
  | 0 => fun s => (.diverge, s)
  | fuel + 1 => do
    let count ← removeByA p
    let len ← Act.on lenM
    let m ← eachChildA (removeAllAF p fuel) 0 len
    pure (count + m)

/-- `remove_all`, dom.rs:1328-1334. -/
def removeAllA (p : Asker τ Node) : Act (Element × τ) Nat := fun s => removeAllAF p s.1.size s

/-- the `is_element` guard of `remove_elements` (dom.rs:1373-1376) and the closure of `remove_all_elements` (dom.rs:1393-1398) -/
def elemAsker (p : Asker τ Element) : Asker τ Node := fun t n =>
  match n with
  | .element e => p t e
  | _ => (some false, t)

/-- `remove_elements`, dom.rs:1370-1386 (the same loops as those of `remove_by`). -/
def removeElementsA (p : Asker τ Element) : Act (Element × τ) Nat := removeByA (elemAsker p)

/-- `remove_all_elements`, dom.rs:1392-1404. -/
def removeAllElementsA (p : Asker τ Element) : Act (Element × τ) Nat := do
  let count ← removeByA (elemAsker p)
  let len ← Act.on lenM
  let m ← eachChildA (removeAllA (elemAsker p)) 0 len
  pure (count + m)

end ElementF
end KissXml
