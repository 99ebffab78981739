import Verif.Model.Dom
/-!
# The parse arena (`/repo/src/parsing.rs`)
-/
namespace KissXml

/-- `struct ParseTreeNode`, parsing.rs:134-143.  `id` and `child_ids` are written but never read by the
program (`id` only in the unused `Eq`/`Ord` instances, parsing.rs:150-170) and are left out. -/
structure PTNode where
  value : Node
  parent : Option Nat

/-- `struct ParseTree`, parsing.rs:13-18; `data : HashMap<usize, ParseTreeNode>` as an association list. -/
structure ParseTree where
  data : List (Nat × PTNode)
  pos : Option Nat

namespace ParseTree

/-- `ParseTree::new`, parsing.rs:22-24. -/
def new : ParseTree := ⟨[], none⟩

/-- `empty_stack`, parsing.rs:27-32. -/
def emptyStack (t : ParseTree) : Bool := t.pos.isNone

/-- `push`, parsing.rs:34-56. -/
def push (t : ParseTree) (e : Element) : R ParseTree :=
  match t.pos with
  | none => .ok ⟨LMap.insert t.data 0 ⟨.element e, none⟩, some 0⟩
  | some oldPos => do
    let newPos := t.data.length
    let _ ← Res.unwrap (LMap.get t.data oldPos)  -- get_mut(..).expect(..), parsing.rs:46
    pure ⟨LMap.insert t.data newPos ⟨.element e, some oldPos⟩, some newPos⟩

/-- `pop`, parsing.rs:58-67. -/
def pop (t : ParseTree) : R ParseTree :=
  match t.pos with
  | none => .err (.parsing .closeWithoutOpen none)
  | some pos => do
    let n ← Res.unwrap (LMap.get t.data pos)
    pure ⟨t.data, n.parent⟩

/-- `append`, parsing.rs:69-84. -/
def append (t : ParseTree) (n : Node) : R ParseTree :=
  match t.pos with
  | none => .err (.parsing .noRootElement none)
  | some pos => do
    let newId := t.data.length
    let _ ← Res.unwrap (LMap.get t.data pos)  -- get_mut(..).expect(..), parsing.rs:75
    pure ⟨LMap.insert t.data newId ⟨n, some pos⟩, t.pos⟩

/-- `top_element`, parsing.rs:86-94. -/
def topElement (t : ParseTree) : R (Option Element) :=
  match t.pos with
  | none => .ok none
  | some pos => do
    let n ← Res.unwrap (LMap.get t.data pos)
    let e ← expect n.value.asElement
    pure (some e)

/-- the `if node.value.is_element()` block of `to_dom`, parsing.rs:109-112 -/
def flipElement : Node → Node
  | .element e => .element e.reverseChildren
  | n => n

/-- the loop `for i in (1..len).rev()` of `to_dom`, parsing.rs:107-117; the first argument is the number of
iterations left, i.e. the current index. -/
def toDomLoop : Nat → List (Nat × PTNode) → R (List (Nat × PTNode))
  | 0, d => .ok d
  | i + 1, d => do
    let node ← Res.unwrap (LMap.get d (i + 1))
    let d := LMap.remove d (i + 1)
    let value := flipElement node.value
    let parentIndex ← Res.unwrap node.parent
    let p ← Res.unwrap (LMap.get d parentIndex)
    let e ← expect p.value.asElement
    let e ← e.append value
    toDomLoop i (LMap.insert d parentIndex ⟨.element e, p.parent⟩)

/-- `to_dom`, parsing.rs:96-129. -/
def toDom (t : ParseTree) : R Element :=
  if t.data.isEmpty then .err (.parsing .noRootElement none)
  else do
    let d ← toDomLoop (t.data.length - 1) t.data
    let root ← Res.unwrap (LMap.get d 0)
    let e ← expect root.value.asElement
    pure e.reverseChildren

end ParseTree
end KissXml
