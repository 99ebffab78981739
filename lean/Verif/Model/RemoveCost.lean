import Verif.Model.Cost
/-!
# The removing calls with a counter

What is counted here: how many nodes `Vec::remove` moves to close the gap, that is, those after the removed one.
-/
namespace KissXml
open Run

/-- `Vec::remove(i)`, with the number of items that are moved -/
def vecRemoveRun {α : Type} (l : List α) (i : Nat) : Run (α × List α) := ⟨Res.unwrap (vecRemove l i), l.length - (i + 1)⟩

/-- the second loop of `remove_by`, dom.rs:1348-1350 -/
def removeIndicesRun {α : Type} : List Nat → List α → Run (List α)
  | [], l => pure l
  | i :: is, l => do
    let (_, l) ← vecRemoveRun l i
    removeIndicesRun is l

/-- `remove`, dom.rs:1291-1296 -/
def removeRun (e : Element) (index : Nat) : Run (Node × Element) :=
  if index ≥ e.children.length then free (.err (.indexOutOfBounds (asIsize index) (some (0, asIsize e.children.length))))
  else do
    let (n, l) ← vecRemoveRun e.children index
    pure (n, { e with children := l })

/-- `remove_by`, dom.rs:1340-1352 -/
def removeByRun (e : Element) (p : Node → Bool) : Run (Element × Nat) := do
  let idx ← free (ElementF.matchIndices p e.children e.children.length)
  let l ← removeIndicesRun idx e.children
  pure ({ e with children := l }, idx.length)

/-- the loop `for e in self.child_elements_mut() { count += e.remove_all(..) }`, dom.rs:1330-1332 -/
def forChildElementsRun (f : Element → Run (Element × Nat)) : List Node → Run (List Node × Nat)
  | [] => pure ([], 0)
  | .element e :: cs => do
    let (e, k) ← f e
    let (cs, m) ← forChildElementsRun f cs
    pure (.element e :: cs, k + m)
  | c :: cs => do
    let (cs, m) ← forChildElementsRun f cs
    pure (c :: cs, m)

/-- `remove_all`, dom.rs:1328-1334, with fuel for the recursion depth -/
def removeAllFRun (p : Node → Bool) : Nat → Element → Run (Element × Nat)
  | 0, _ => ⟨.diverge, 0⟩
  | fuel + 1, e => do
    let (e, count) ← removeByRun e p
    let (cs, m) ← forChildElementsRun (removeAllFRun p fuel) e.children
    pure ({ e with children := cs }, count + m)

/-- `remove_all`, dom.rs:1328-1334 -/
def removeAllRun (e : Element) (p : Node → Bool) : Run (Element × Nat) := removeAllFRun p e.size e

/-- a program that calls `remove(0)` as often as given -/
def removeFirstRun : Nat → Element → Run Element
  | 0, e => pure e
  | n + 1, e => do
    let (_, e) ← removeRun e 0
    removeFirstRun n e

end KissXml
