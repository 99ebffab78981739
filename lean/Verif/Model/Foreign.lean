import Verif.Model.Dom
import Verif.Model.Serialize
/-!
# Nodes of the user's own types

`trait Node` (dom.rs:257-372) is public, so a child list may hold values of types that are not part of the crate.  Here a
node may also be such a *foreign* node.  It answers the questions `is_element`, `is_text`, `is_comment` and `is_cdata` as it
likes, has a text and prints itself as it likes; it contains no `Element`, `Text`, `Comment` or `CData` that the casts
`as_element`, … could give out, so these fail.  (Not modelled: types that wrap one of the structs and give it out; `boxed`
that boxes something else; answers that change from one call to the next.)

The functions below are those of `Verif.Model.Dom` and `Verif.Model.Serialize` again, with the casts and their `expect`.
-/
namespace KissXml

/-- a value of a type outside of the crate that implements `Node` -/
structure Foreign where
  isElement : Bool
  isText : Bool
  isComment : Bool
  isCData : Bool
  /-- `text()` -/
  text : Str
  /-- `to_string_with_indent(indent)` -/
  shown : Str → Str

/-- `Box<dyn Node>`: the four types of the crate (dom.rs:409, 1633, 1764, 1895), or another one -/
inductive XNode where
  | element (e : ElementF XNode)
  | text (content : Str)
  | comment (comment : Str)
  | cdata (cdata : Str)
  | foreign (f : Foreign)

/-- `struct Element`, dom.rs:409-422 -/
abbrev XElement := ElementF XNode

namespace XNode
/-- `is_element`, dom.rs:1503, 1682, 1802, 1934 -/
def isElement : XNode → Bool | .element _ => true | .foreign f => f.isElement | _ => false
/-- `is_text`, dom.rs:1507, 1686, 1806, 1938 -/
def isText : XNode → Bool | .text _ => true | .foreign f => f.isText | _ => false
/-- `is_comment`, dom.rs:1511, 1690, 1810, 1942 -/
def isComment : XNode → Bool | .comment _ => true | .foreign f => f.isComment | _ => false
/-- `is_cdata`, dom.rs:1515, 1694, 1814, 1946 -/
def isCData : XNode → Bool | .cdata _ => true | .foreign f => f.isCData | _ => false
/-- `as_element` / `as_element_mut`, dom.rs:1519, 1698, 1818, 1950; `none` for an error -/
def asElement : XNode → Option XElement | .element e => some e | _ => none
/-- `as_text`, dom.rs:1523, 1702, 1822, 1954 -/
def asText : XNode → Option Str | .text t => some t | _ => none
/-- `as_comment`, dom.rs:1521, 1700, 1820, 1952 -/
def asComment : XNode → Option Str | .comment t => some t | _ => none
/-- `as_cdata`, dom.rs:1525, 1704, 1824, 1956 -/
def asCData : XNode → Option Str | .cdata t => some t | _ => none
/-- `node_type`, dom.rs:287-299 -/
def nodeType (n : XNode) : R DomNodeType :=
  if n.isCData then .ok .cdataNode
  else if n.isComment then .ok .commentNode
  else if n.isElement then .ok .elementNode
  else if n.isText then .ok .textNode
  else .panic
end XNode

namespace XElement

/-- `default_namespace`, dom.rs:633-638 -/
def defaultNamespace (e : XElement) : Option Str :=
  match e.pfx with
  | none => e.xmlns
  | some _ => none

/-- `tag_name`, dom.rs:642-647 -/
def tagName (e : XElement) : Str :=
  match e.pfx with
  | none => e.name
  | some p => p ++ c%":" ++ e.name

/-- `set_namespace_context`, dom.rs:806-838 -/
def setNamespaceContext (e : XElement) (parentDefault : Option Str) (parentPrefixes : Option SMap) : XElement :=
  let e1 : XElement := match e.pfx with
    | none => match defaultNamespace e with
      | none => { e with xmlns := parentDefault }
      | some _ => e
    | some _ => e
  let e2 : XElement := match parentPrefixes with
    | none => e1
    | some ps => { e1 with
        ctx := ps.entries.foldl (fun m kv => if m.containsKey kv.1 then m else m.insert kv.1 kv.2) e1.ctx }
  if e2.xmlns.isNone then
    match e2.pfx with
    | none => e2
    | some p => { e2 with xmlns := e2.ctx.get p }
  else e2

/-- `.filter(|n| n.is_element()).map(|n| n.as_element().expect(..))` over a child list, dom.rs:844-848 -/
def elementsOf : List XNode → R (List XElement)
  | [] => .ok []
  | n :: l =>
    if n.isElement then do
      let e ← Res.unwrap n.asElement
      let es ← elementsOf l
      pure (e :: es)
    else elementsOf l

/-- `child_elements`, dom.rs:844-848, all items -/
def childElements (e : XElement) : R (List XElement) := elementsOf e.children

end XElement

/-! ## text(), recursive iteration -/

mutual
/-- `Node::text`, dom.rs:1492-1501 (Element), 1678, 1798, 1930 -/
def XNode.textOf : XNode → Str
  | .element e => XElement.textOf e
  | .text t => t
  | .comment c => c
  | .cdata c => c
  | .foreign f => f.text
/-- `impl Node for Element`: `text`, dom.rs:1492-1501 -/
def XElement.textOf : XElement → Str
  | ⟨_, cs, _, _, _, _⟩ => XElement.textOfChildren cs
/-- the loop of dom.rs:1495-1499 -/
def XElement.textOfChildren : List XNode → Str
  | [] => []
  | c :: cs => (if c.isText || c.isElement then XNode.textOf c else []) ++ XElement.textOfChildren cs
end

mutual
/-- `children_recursive`, dom.rs:868-876, all items -/
def XElement.childrenRecursive : XElement → R (List XNode)
  | ⟨_, cs, _, _, _, _⟩ => do
    let l ← XElement.childrenRecursiveOf cs
    pure (cs ++ l)
/-- `self.child_elements().map(|e| e.children_recursive()).flatten()`, dom.rs:872-873 -/
def XElement.childrenRecursiveOf : List XNode → R (List XNode)
  | [] => .ok []
  | c :: cs => do
    let a ← XNode.childrenRecursive c
    let b ← XElement.childrenRecursiveOf cs
    pure (a ++ b)
/-- the part of one child: nothing unless `is_element`; then `as_element().expect(..)`, dom.rs:847 -/
def XNode.childrenRecursive : XNode → R (List XNode)
  | .element e => XElement.childrenRecursive e
  | .text _ => .ok []
  | .comment _ => .ok []
  | .cdata _ => .ok []
  | .foreign f => if f.isElement then .panic else .ok []
end

namespace XElement
/-- `search`, dom.rs:1045-1050, all items -/
def search (e : XElement) (p : XNode → Bool) : R (List XNode) := do
  let l ← XElement.childrenRecursive e
  pure (l.filter p)

/-- `.map(|n| n.as_…().expect(..))` -/
def casts {α : Type} (cast : XNode → Option α) : List XNode → R (List α)
  | [] => .ok []
  | n :: l => do
    let a ← Res.unwrap (cast n)
    let as ← casts cast l
    pure (a :: as)

/-- `search_elements`, dom.rs:1080-1087, all items -/
def searchElements (e : XElement) (p : XElement → Bool) : R (List XElement) := do
  let l ← search e XNode.isElement
  let l ← casts XNode.asElement l
  pure (l.filter p)
/-- `search_text`, dom.rs:1123-1130, all items -/
def searchText (e : XElement) (p : Str → Bool) : R (List Str) := do
  let l ← search e XNode.isText
  let l ← casts XNode.asText l
  pure (l.filter p)
/-- `search_comments`, dom.rs:1133-1140, all items -/
def searchComments (e : XElement) (p : Str → Bool) : R (List Str) := do
  let l ← search e XNode.isComment
  let l ← casts XNode.asComment l
  pure (l.filter p)

/-! ## structural edits -/

/-- the merge loop of `cleanup_text_nodes`, dom.rs:1197-1207; argument: the current index -/
def mergeTextLoop : Nat → List XNode → R (List XNode)
  | 0, l => .ok l
  | index + 1, l => do
    let back ← Res.unwrap l[index + 1]?
    let front ← Res.unwrap l[index]?
    if back.isText && front.isText then
      let (back, l) ← Res.unwrap (vecRemove l (index + 1))
      let (front, l) ← Res.unwrap (vecRemove l index)
      let ft ← Res.unwrap front.asText
      let bt ← Res.unwrap back.asText
      let l ← Res.unwrap (vecInsert l index (.text (textConcat ft bt)))
      mergeTextLoop index l
    else mergeTextLoop index l

/-- the removal loop of `cleanup_text_nodes`, dom.rs:1210-1219; argument: the current index -/
def dropWsLoop (index : Nat) (l : List XNode) : R (List XNode) := do
  let n ← Res.unwrap l[index]?
  let l ← (if n.isText then do
      let t ← Res.unwrap n.asText
      if textIsWhitespace t then do
        let (_, l) ← Res.unwrap (vecRemove l index)
        pure l
      else pure l
    else pure l)
  match index with
  | 0 => pure l
  | i + 1 => dropWsLoop i l

/-- `cleanup_text_nodes`, dom.rs:1192-1221, on the child list -/
def cleanupTextNodes (l : List XNode) : R (List XNode) :=
  if l.length = 0 then .ok l
  else do
    let l ← mergeTextLoop (l.length - 1) l
    if l.length > 0 then dropWsLoop (l.length - 1) l else .panic

/-- `apply_xmlns_context_to_child_node`, dom.rs:1174-1190 -/
def applyXmlnsContext (dflt : Option Str) (ctx : SMap) (n : XNode) : R XNode :=
  if n.isElement then do
    let e ← Res.unwrap n.asElement
    pure (.element (setNamespaceContext e dflt (some ctx)))
  else pure n

/-- `append` / `append_boxed`, dom.rs:1162-1172 -/
def append (e : XElement) (n : XNode) : R XElement := do
  let n ← applyXmlnsContext (defaultNamespace e) e.ctx n
  let l ← cleanupTextNodes (e.children ++ [n])
  pure { e with children := l }

/-- second loop of `append_all`, dom.rs:1261-1266 -/
def applyAt (dflt : Option Str) (ctx : SMap) : List Nat → List XNode → R (List XNode)
  | [], l => .ok l
  | i :: is, l => do
    let n ← Res.unwrap l[i]?
    let n ← applyXmlnsContext dflt ctx n
    applyAt dflt ctx is (l.set i n)

/-- first loop of `append_all`, dom.rs:1251-1259; also the index loop of `remove_element`, dom.rs:1356-1359 -/
def elemIndices : Nat → List XNode → List Nat
  | _, [] => []
  | i, c :: cs => if c.isElement then i :: elemIndices (i + 1) cs else elemIndices (i + 1) cs

/-- `append_all`, dom.rs:1249-1269 -/
def appendAll (e : XElement) (cs : List XNode) : R XElement := do
  let idx := elemIndices e.children.length cs
  let l ← applyAt (defaultNamespace e) e.ctx idx (e.children ++ cs)
  let l ← cleanupTextNodes l
  pure { e with children := l }

/-- `insert`, dom.rs:1273-1287 -/
def insert (e : XElement) (index : Nat) (n : XNode) : R XElement :=
  if index > e.children.length then .err (.indexOutOfBounds (asIsize index) (some (0, asIsize e.children.length)))
  else do
    let l ← Res.unwrap (vecInsert e.children index n)
    let last ← Res.unwrap l.getLast?
    let last ← applyXmlnsContext (defaultNamespace e) e.ctx last
    let l ← cleanupTextNodes (l.set (l.length - 1) last)
    pure { e with children := l }

/-- `remove`, dom.rs:1291-1296 -/
def remove (e : XElement) (index : Nat) : R (XNode × XElement) :=
  if index ≥ e.children.length then .err (.indexOutOfBounds (asIsize index) (some (0, asIsize e.children.length)))
  else do
    let (n, l) ← Res.unwrap (vecRemove e.children index)
    pure (n, { e with children := l })

/-- the first loop of `remove_by`, dom.rs:1342-1346, and of `remove_elements`, dom.rs:1372-1380: matching indices, highest
first; the predicate may panic -/
def matchIndices (p : XNode → R Bool) (l : List XNode) : Nat → R (List Nat)
  | 0 => .ok []
  | i + 1 => do
    let n ← Res.unwrap l[i]?
    let b ← p n
    let rest ← matchIndices p l i
    pure (if b then i :: rest else rest)

/-- the predicate of `remove_elements` (dom.rs:1373-1376) and `remove_all_elements` (dom.rs:1393-1398) -/
def elemPred (p : XElement → Bool) (n : XNode) : R Bool :=
  if n.isElement then do
    let e ← Res.unwrap n.asElement
    pure (p e)
  else pure false

/-- `remove_by`, dom.rs:1340-1352: element afterwards and count -/
def removeBy (e : XElement) (p : XNode → R Bool) : R (XElement × Nat) := do
  let idx ← matchIndices p e.children e.children.length
  let l ← ElementF.removeIndices idx e.children
  pure ({ e with children := l }, idx.length)

/-- `remove_elements`, dom.rs:1370-1386 -/
def removeElements (e : XElement) (p : XElement → Bool) : R (XElement × Nat) := removeBy e (elemPred p)

/-- `remove_elements_by_name`, dom.rs:1408-1411 -/
def removeElementsByName (e : XElement) (n : Str) : R (XElement × Nat) := removeElements e (fun c => c.name == n)

end XElement

/-! ## clone, equality -/

mutual
/-- `clone_node`, dom.rs:375-387 -/
def XNode.clone : XNode → R XNode
  | .element e => do
    let e ← XElement.clone e
    pure (.element e)
  | .text t => .ok (.text t)
  | .comment c => .ok (.comment c)
  | .cdata c => .ok (.cdata c)
  | .foreign _ => .panic
/-- `impl Clone for Element`, dom.rs:1558-1573 -/
def XElement.clone : XElement → R XElement
  | ⟨n, cs, a, x, p, c⟩ => do
    let cs ← XElement.cloneChildren cs
    pure ⟨n, cs, a, x, p, c⟩
/-- the loop of dom.rs:1561-1563 -/
def XElement.cloneChildren : List XNode → R (List XNode)
  | [] => .ok []
  | c :: cs => do
    let c ← XNode.clone c
    let cs ← XElement.cloneChildren cs
    pure (c :: cs)
end

mutual
/-- `node_eq`, dom.rs:390-406: a foreign node has no type or cannot be cast to it -/
def XNode.eq : XNode → XNode → R Bool
  | .element a, n => do
    let t ← n.nodeType
    if t = .elementNode then
      match n with
      | .element b => XElement.eq a b
      | _ => .panic
    else pure false
  | .text a, n => do
    let t ← n.nodeType
    if t = .textNode then do
      let b ← Res.unwrap n.asText
      pure (a == b)
    else pure false
  | .comment a, n => do
    let t ← n.nodeType
    if t = .commentNode then do
      let b ← Res.unwrap n.asComment
      pure (a == b)
    else pure false
  | .cdata a, n => do
    let t ← n.nodeType
    if t = .cdataNode then do
      let b ← Res.unwrap n.asCData
      pure (a == b)
    else pure false
  | .foreign f, n => do
    let t ← (XNode.foreign f).nodeType
    let t' ← n.nodeType
    if t = t' then .panic else pure false
/-- `impl PartialEq for Element`, dom.rs:1594-1609 -/
def XElement.eq : XElement → XElement → R Bool
  | ⟨n, cs, a, x, p, _⟩, ⟨n', cs', a', x', p', _⟩ =>
    if n == n' && x == x' && p == p' && a.eq a' && cs.length == cs'.length then XElement.childrenEq cs cs' else pure false
/-- the loop of dom.rs:1600-1604 over lists of equal length -/
def XElement.childrenEq : List XNode → List XNode → R Bool
  | [], _ => pure true
  | _ :: _, [] => pure true
  | c :: cs, d :: ds => do
    let b ← XNode.eq c d
    if b then XElement.childrenEq cs ds else pure false
end

namespace XElement

/-- `remove_element`, dom.rs:1354-1366: the element that is returned is a copy of the one removed -/
def removeElement (e : XElement) (index : Nat) : R (XElement × XElement) :=
  let elems := elemIndices 0 e.children
  if index ≥ elems.length then .err (.indexOutOfBounds (asIsize index) (some (0, asIsize elems.length)))
  else do
    let i ← Res.unwrap elems[index]?
    let (n, l) ← Res.unwrap (vecRemove e.children i)
    let r ← Res.unwrap n.asElement
    let r ← XElement.clone r
    pure (r, { e with children := l })

/-- the loop `for e in self.child_elements_mut() { .. }`, dom.rs:1330-1332 and 1400-1402 -/
def forChildElements (f : XElement → R (XElement × Nat)) : List XNode → R (List XNode × Nat)
  | [] => .ok ([], 0)
  | c :: cs =>
    if c.isElement then do
      let e ← Res.unwrap c.asElement
      let (e, k) ← f e
      let (cs, m) ← forChildElements f cs
      pure (.element e :: cs, k + m)
    else do
      let (cs, m) ← forChildElements f cs
      pure (c :: cs, m)

/-- `remove_all`, dom.rs:1328-1334, with fuel for the recursion depth -/
def removeAllF (p : XNode → R Bool) : Nat → XElement → R (XElement × Nat)
  | 0, _ => .diverge
  | fuel + 1, e => do
    let (e, count) ← removeBy e p
    let (cs, m) ← forChildElements (removeAllF p fuel) e.children
    pure ({ e with children := cs }, count + m)

end XElement

mutual
/-- number of nodes of a subtree; only used as fuel -/
def XNode.size : XNode → Nat
  | .element e => XElement.size e
  | .text _ => 1
  | .comment _ => 1
  | .cdata _ => 1
  | .foreign _ => 1
/-- number of nodes of an element; only used as fuel -/
def XElement.size : XElement → Nat
  | ⟨_, cs, _, _, _, _⟩ => 1 + XElement.sizeOfChildren cs
/-- number of nodes of a list; only used as fuel -/
def XElement.sizeOfChildren : List XNode → Nat
  | [] => 0
  | c :: cs => XNode.size c + XElement.sizeOfChildren cs
end

namespace XElement

/-- `remove_all`, dom.rs:1328-1334 -/
def removeAll (e : XElement) (p : XNode → R Bool) : R (XElement × Nat) := removeAllF p (XElement.size e) e

/-- `remove_all_elements`, dom.rs:1392-1404 -/
def removeAllElements (e : XElement) (p : XElement → Bool) : R (XElement × Nat) := do
  let (e, count) ← removeBy e (elemPred p)
  let (cs, m) ← forChildElements (fun c => removeAll c (elemPred p)) e.children
  pure ({ e with children := cs }, count + m)

/-- `Element::new`, dom.rs:435-497 (the attribute map is a map of strings, as in `Verif.Model.Dom`) -/
def new (name : Str) (text : Option Str) (attributes : Option SMap) (xmlns : Option Str)
    (xmlnsPrefix : Option Str) (children : Option (List XNode)) : R XElement := do
  checkElemName name
  let attrs := match attributes with
    | none => SMap.empty
    | some m => m
  match attrs.entries.find? (fun kv => !validName kv.1) with
  | some kv => .err (.invalidAttributeName kv.1)
  | none => do
    let xmlns := match xmlns with
      | some x => some x
      | none => match xmlnsPrefix with
        | none => attrs.get c%"xmlns"
        | some p => attrs.get (c%"xmlns:" ++ p)
    let elem : XElement := ⟨name, [], attrs, xmlns, xmlnsPrefix, ElementF.xmlnsContextFromAttributes attrs⟩
    let elem ← match text with
      | none => pure elem
      | some t => append elem (.text t)
    match children with
    | none => pure elem
    | some cs => appendAll elem cs

end XElement

/-! ## printing -/

/-- `self.child_nodes[0].to_string_with_indent("")` where that is not an element, dom.rs:1437-1443 -/
def XElement.shownAlone : List XNode → Str
  | .text t :: _ => textEscape t
  | .comment t :: _ => commentToString t
  | .cdata t :: _ => cdataToString t
  | .foreign f :: _ => f.shown []
  | _ => []

mutual
/-- `to_string_with_prefix_and_indent`, dom.rs:1415-1486 -/
def XElement.toStringPI (pre indent : Str) (inline : Bool) : XElement → R Str
  | ⟨name, cs, attrs, xmlns, pfx, ctx⟩ => do
    let tagName := XElement.tagName ⟨name, cs, attrs, xmlns, pfx, ctx⟩
    let start := (if inline then [] else pre) ++ c%"<" ++ tagName ++ attrsToString (sortAttrs attrs.entries)
    if cs.length == 0 then pure (start ++ c%"/>")
    else if cs.length == 1 && !(cs.any XNode.isElement) then
      pure (start ++ (c%">" ++ XElement.shownAlone cs ++ c%"</" ++ tagName ++ c%">"))
    else do
      let inline := inline || cs.any XNode.isText
      let inner ← XElement.childrenToString (pre ++ indent) indent inline cs
      pure (start ++ (c%">" ++ (if inline then [] else c%"\n") ++ inner ++ (if inline then [] else pre) ++ c%"</" ++ tagName ++ c%">"))
/-- the loop of dom.rs:1461-1478; `pre` is `next_prefix` -/
def XElement.childrenToString (pre indent : Str) (inline : Bool) : List XNode → R Str
  | [] => pure []
  | c :: cs => do
    let first ← XNode.toStringPI pre indent inline c
    let rest ← XElement.childrenToString pre indent inline cs
    pure (first ++ (if inline then [] else c%"\n") ++ rest)
/-- the body of the loop, dom.rs:1462-1476 -/
def XNode.toStringPI (pre indent : Str) (inline : Bool) : XNode → R Str
  | .text t => pure (textEscape t)
  | .element e => XElement.toStringPI pre indent inline e
  | .comment c => pure ((if inline then [] else pre) ++ commentToString c)
  | .cdata c => pure ((if inline then [] else pre) ++ cdataToString c)
  | .foreign f =>
    if f.isText then pure (textEscape f.text)
    else if f.isElement then .panic
    else pure ((if inline then [] else pre) ++ f.shown indent)
end

/-- `Element::to_string_with_indent`, dom.rs:1543-1551 -/
def XElement.toStringWithIndent (e : XElement) (indent : Str) : R Str :=
  if validateIndent indent then XElement.toStringPI [] indent false e else XElement.toStringPI [] c%"  " false e

/-! ## programs that change an element -/

/-- a call of a method that changes an element, as `Call` in `Verif.Model.AnyOrder` -/
inductive XCall where
  | setAttr (k v : Str) | removeAttr (k : Str) | clearAttributes
  | setText (t : Str) | clearChildren
  | append (n : XNode) | appendAll (l : List XNode) | insert (i : Nat) (n : XNode)
  | remove (i : Nat) | removeElementsByName (n : Str)
  | removeBy (p : XNode → Bool) | removeAll (p : XNode → Bool)
  | removeElements (p : XElement → Bool) | removeAllElements (p : XElement → Bool)
  | inChild (i : Nat) (c : XCall)

/-- the element after the call; a call for a child that is not an element does nothing (`set_attr`, dom.rs:970-976;
`remove_attr`, 1008-1011; `clear_attributes`, 1013-1015; `clear_children`, 879; `set_text`, 881-884) -/
def XCall.run : XCall → XElement → R XElement
  | .setAttr k v, e => do
    checkAttrName k
    pure { e with attrs := e.attrs.insert k v }
  | .removeAttr k, e => .ok { e with attrs := e.attrs.remove k }
  | .clearAttributes, e => .ok { e with attrs := .empty }
  | .setText t, e => XElement.append { e with children := [] } (.text t)
  | .clearChildren, e => .ok { e with children := [] }
  | .append n, e => XElement.append e n
  | .appendAll l, e => XElement.appendAll e l
  | .insert i n, e => XElement.insert e i n
  | .remove i, e => do let r ← XElement.remove e i; pure r.2
  | .removeElementsByName n, e => do let r ← XElement.removeElementsByName e n; pure r.1
  | .removeBy p, e => do let r ← XElement.removeBy e (fun n => pure (p n)); pure r.1
  | .removeAll p, e => do let r ← XElement.removeAll e (fun n => pure (p n)); pure r.1
  | .removeElements p, e => do let r ← XElement.removeElements e p; pure r.1
  | .removeAllElements p, e => do let r ← XElement.removeAllElements e p; pure r.1
  | .inChild i c, e => match e.children[i]? with
    | some (.element k) => do let k ← c.run k; pure { e with children := e.children.set i (.element k) }
    | _ => pure e

/-- one call after the other, up to the first error -/
def runXCalls : List XCall → XElement → R XElement
  | [], e => .ok e
  | c :: cs, e => do let e ← c.run e; runXCalls cs e

end KissXml
