import Verif.Model.Serialize
/-!
# Recursive functions on a bounded stack

The recursive functions of `dom.rs` with a number `k` of calls for elements that may be active at the same time; `none` is a stack
overflow (which aborts the program).  Only the calls of the recursive function itself are counted, one for each element; the calls for
texts, comments and CDATA sections do not recurse.  How many bytes such a call needs is not modelled.
-/
namespace KissXml

/-- a loop that calls `f` for each item, in order -/
def collect {α β : Type} (f : α → Option β) : List α → Option (List β)
  | [] => some []
  | a :: l => do
    let b ← f a
    let r ← collect f l
    pure (b :: r)

/-- `text`, dom.rs:1492-1501 (1678, 1798 and 1930 for the other nodes) -/
def textD : Nat → Node → Option Str
  | _, .text t => some t
  | _, .comment t => some t
  | _, .cdata t => some t
  | 0, .element _ => none
  | k + 1, .element e => (collect (fun c => if c.isText || c.isElement then textD k c else some []) e.children).map List.flatten

/-- `to_string_with_prefix_and_indent`, dom.rs:1415-1486, and what the loop in it does with other nodes (dom.rs:1461-1478); the single
child of dom.rs:1437-1443 is not an element -/
def toStringD (indent : Str) : Nat → Str → Bool → Node → Option Str
  | _, _, _, .text t => some (textEscape t)
  | _, pre, inline, .comment c => some ((if inline then [] else pre) ++ commentToString c)
  | _, pre, inline, .cdata c => some ((if inline then [] else pre) ++ cdataToString c)
  | 0, _, _, .element _ => none
  | k + 1, pre, inline, .element e =>
    let start := (if inline then [] else pre) ++ c%"<" ++ e.tagName ++ attrsToString (sortAttrs e.attrs.entries)
    if e.children.length == 0 then some (start ++ c%"/>")
    else if e.children.length == 1 && !(e.children.any Node.isElement) then
      (collect (fun c => some (c.toStringWithIndent [])) e.children).map fun l =>
        start ++ (c%">" ++ l.flatten ++ c%"</" ++ e.tagName ++ c%">")
    else
      let inline' := inline || e.children.any Node.isText
      (collect (fun c => toStringD indent k (pre ++ indent) inline' c) e.children).map fun l =>
        start ++ (c%">" ++ (if inline' then [] else c%"\n") ++ (l.map (· ++ if inline' then [] else c%"\n")).flatten ++
        (if inline' then [] else pre) ++ c%"</" ++ e.tagName ++ c%">")

/-- `clone`, dom.rs:1558-1573, and `clone_node`, dom.rs:375-387 -/
def cloneD : Nat → Node → Option Node
  | _, .text t => some (.text t)
  | _, .comment t => some (.comment t)
  | _, .cdata t => some (.cdata t)
  | 0, .element _ => none
  | k + 1, .element e => (collect (cloneD k) e.children).map fun l => .element { e with children := l }

/-- dropping a node: the compiler drops the fields of `Element` (dom.rs:409-422), hence all children -/
def dropD : Nat → Node → Option Unit
  | _, .text _ => some ()
  | _, .comment _ => some ()
  | _, .cdata _ => some ()
  | 0, .element _ => none
  | k + 1, .element e => (collect (dropD k) e.children).map fun _ => ()

/-- the nodes that the iterator of `children_recursive`, dom.rs:868-876, yields until it ends: the calls of `next` for the iterators
of an element and of the elements it is in are active at the same time -/
def childrenRecursiveD : Nat → Node → Option (List Node)
  | _, .text _ => some []
  | _, .comment _ => some []
  | _, .cdata _ => some []
  | 0, .element _ => none
  | k + 1, .element e => (collect (childrenRecursiveD k) e.children).map fun l => e.children ++ l.flatten

/-- the loop of dom.rs:1600-1604, which ends at the first difference -/
def childrenEqD (f : Node → Node → Option Bool) : List Node → List Node → Option Bool
  | [], _ => some true
  | _ :: _, [] => some true
  | c :: cs, d :: ds => do
    if ← f c d then childrenEqD f cs ds else pure false

/-- `==`, dom.rs:1594-1609, and `node_eq`, dom.rs:390-406 -/
def eqD : Nat → Node → Node → Option Bool
  | 0, .element _, .element _ => none
  | k + 1, .element a, .element b =>
    if a.name == b.name && a.xmlns == b.xmlns && a.pfx == b.pfx && a.attrs.eq b.attrs && a.children.length == b.children.length then
      childrenEqD (eqD k) a.children b.children
    else some false
  | _, a, b => some (a.eq b)

end KissXml
