import Verif.Model.Dom
/-!
# Methods with `&mut self`, statement by statement (`/repo/src/dom.rs`)

In `Model/Dom.lean` a method with `&mut self` returns the element afterwards, when it succeeds.  Here the element is a place that each
statement reads or writes, so that one can also say what is in it after an error or a panic.  (A panic inside `Vec::remove` and
`Vec::insert` is an index check, before anything is moved.)
-/
namespace KissXml

/-- a piece of code that works on a place of type `σ`: what it returns, and what is in the place afterwards -/
def Act (σ α : Type) := σ → R α × σ

namespace Act
variable {σ α β : Type}

/-- a value, the place as it is -/
protected def pure (a : α) : Act σ α := fun s => (.ok a, s)
/-- `m; f`, where an error (`?`) or a panic in `m` leaves the function -/
protected def bind (m : Act σ α) (f : α → Act σ β) : Act σ β := fun s =>
  match m s with
  | (.ok a, s') => f a s'
  | (.err x, s') => (.err x, s')
  | (.panic, s') => (.panic, s')
  | (.diverge, s') => (.diverge, s')

instance : Monad (Act σ) where
  pure := Act.pure
  bind := Act.bind

/-- an expression that does not touch the place -/
def run (r : R α) : Act σ α := fun s => (r, s)
/-- read the place -/
def get : Act σ σ := fun s => (.ok s, s)
end Act

namespace ElementF
open Act

/-- `self.child_nodes.len()` -/
def lenM : Act Element Nat := fun e => (.ok e.children.length, e)
/-- `self.child_nodes[i]` -/
def atM (i : Nat) : Act Element Node := fun e => (Res.unwrap e.children[i]?, e)
/-- `self.child_nodes[i] = n` -/
def putM (i : Nat) (n : Node) : Act Element Unit := fun e =>
  if i < e.children.length then (.ok (), { e with children := e.children.set i n }) else (.panic, e)
/-- `self.child_nodes.push(n)` -/
def pushM (n : Node) : Act Element Unit := fun e => (.ok (), { e with children := e.children ++ [n] })
/-- `self.child_nodes.remove(i)` -/
def removeAtM (i : Nat) : Act Element Node := fun e =>
  match vecRemove e.children i with
  | some (n, l) => (.ok n, { e with children := l })
  | none => (.panic, e)
/-- `self.child_nodes.insert(i, n)` -/
def insertAtM (i : Nat) (n : Node) : Act Element Unit := fun e =>
  match vecInsert e.children i n with
  | some l => (.ok (), { e with children := l })
  | none => (.panic, e)
/-- `self.child_nodes.clear()`, dom.rs:879. -/
def clearChildrenM : Act Element Unit := fun e => (.ok (), { e with children := [] })

/-- the merge loop of `cleanup_text_nodes`, dom.rs:1197-1207; argument: `index` -/
def mergeTextM : Nat → Act Element Unit
  | 0 => pure ()
  | i + 1 => do
    let back ← atM (i + 1)
    if back.isText then do
      let front ← atM i
      if front.isText then do
        let back ← removeAtM (i + 1)
        let front ← removeAtM i
        let ft ← run (expect front.asText)
        let bt ← run (expect back.asText)
        insertAtM i (.text (textConcat ft bt))
        mergeTextM i
      else mergeTextM i
    else mergeTextM i

/-- one pass of the loop of dom.rs:1211-1219 -/
def dropWsStepM (index : Nat) : Act Element Unit := do
  let n ← atM index
  if n.isText then do
    let t ← run (expect n.asText)
    if textIsWhitespace t then do
      let _ ← removeAtM index
      pure ()
    else pure ()
  else pure ()

/-- the removal loop of `cleanup_text_nodes`, dom.rs:1210-1219; argument: `index` -/
def dropWsM : Nat → Act Element Unit
  | 0 => dropWsStepM 0
  | i + 1 => do
    dropWsStepM (i + 1)
    dropWsM i

/-- `cleanup_text_nodes`, dom.rs:1192-1221. -/
def cleanupTextNodesM : Act Element Unit := do
  let len ← lenM
  if len = 0 then pure () else do
    mergeTextM (len - 1)
    let len ← lenM
    if len > 0 then dropWsM (len - 1) else run .panic

/-- `append` / `append_boxed`, dom.rs:1162-1172. -/
def appendM (n : Node) : Act Element Unit := do
  let e ← get
  pushM (applyXmlnsContext e.defaultNamespace e.ctx n)
  cleanupTextNodesM

/-- first loop of `append_all`, dom.rs:1251-1259; `i`: where the next one goes; returns the indices of the elements -/
def pushAllM : Nat → List Node → Act Element (List Nat)
  | _, [] => pure []
  | i, n :: l => do
    pushM n
    let is ← pushAllM (i + 1) l
    pure (if n.isElement then i :: is else is)

/-- second loop of `append_all`, dom.rs:1261-1266. -/
def applyAllM : List Nat → Act Element Unit
  | [] => pure ()
  | i :: is => do
    let e ← get
    let n ← atM i
    putM i (applyXmlnsContext e.defaultNamespace e.ctx n)
    applyAllM is

/-- `append_all`, dom.rs:1249-1269. -/
def appendAllM (l : List Node) : Act Element Unit := do
  let len ← lenM
  let is ← pushAllM len l
  applyAllM is
  cleanupTextNodesM

/-- `insert`, dom.rs:1273-1287. -/
def insertM (index : Nat) (n : Node) : Act Element Unit := do
  let len ← lenM
  if index > len then run (.err (.indexOutOfBounds (asIsize index) (some (0, asIsize len))))
  else do
    insertAtM index n
    let e ← get
    let len ← lenM
    let last ← run (Res.unwrap e.children.getLast?)
    putM (len - 1) (applyXmlnsContext e.defaultNamespace e.ctx last)
    cleanupTextNodesM

/-- `remove`, dom.rs:1291-1296. -/
def removeM (index : Nat) : Act Element Node := do
  let len ← lenM
  if index ≥ len then run (.err (.indexOutOfBounds (asIsize index) (some (0, asIsize len))))
  else removeAtM index

/-- the first loop of `remove_by`, dom.rs:1342-1346; the argument counts down `(0..len).rev()`.  A predicate given by the
caller may panic. -/
def matchesM (p : Node → R Bool) : Nat → Act Element (List Nat)
  | 0 => pure []
  | i + 1 => do
    let n ← atM i
    let b ← run (p n)
    let rest ← matchesM p i
    pure (if b then i :: rest else rest)

/-- the second loop of `remove_by`, dom.rs:1348-1350. -/
def removeIndicesM : List Nat → Act Element Unit
  | [] => pure ()
  | i :: is => do
    let _ ← removeAtM i
    removeIndicesM is

/-- `remove_by`, dom.rs:1340-1352. -/
def removeByM (p : Node → R Bool) : Act Element Nat := do
  let len ← lenM
  let is ← matchesM p len
  removeIndicesM is
  pure is.length

/-- `remove_elements`, dom.rs:1370-1386. -/
def removeElementsM (p : Element → R Bool) : Act Element Nat :=
  removeByM fun n => if n.isElement then do
      let e ← expect n.asElement
      p e
    else .ok false

/-- the index loop of `remove_element`, dom.rs:1356-1359: `i` counts up, `left` passes are left -/
def elementIndicesM (i : Nat) : Nat → Act Element (List Nat)
  | 0 => pure []
  | left + 1 => do
    let n ← atM i
    let is ← elementIndicesM (i + 1) left
    pure (if n.isElement then i :: is else is)

/-- `remove_element`, dom.rs:1354-1366. -/
def removeElementM (index : Nat) : Act Element Element := do
  let len ← lenM
  let is ← elementIndicesM 0 len
  if index ≥ is.length then run (.err (.indexOutOfBounds (asIsize index) (some (0, asIsize is.length))))
  else do
    let i ← run (Res.unwrap is[index]?)
    let n ← removeAtM i
    run (expect n.asElement)

/-- `set_text`, dom.rs:881-884. -/
def setTextM (t : Str) : Act Element Unit := do
  clearChildrenM
  appendM (.text t)

/-- `self.attributes.insert(k, v)` -/
def insertAttrM (k v : Str) : Act Element Unit := fun e => (.ok (), { e with attrs := e.attrs.insert k v })

/-- `set_attr`, dom.rs:970-976. -/
def setAttrM (k v : Str) : Act Element Unit := do
  run (checkAttrName k)
  insertAttrM k v

end ElementF
end KissXml
