import Verif.Model.Map
import Verif.Model.Escape
/-!
# The document object model (`/repo/src/dom.rs`)

`&mut self` methods return the new value.  Operations that contain indexing, `expect`, `unwrap` or
`assert!` return `Res`, so that "never panics" is a theorem and not an assumption.
-/
namespace KissXml

/-- Codes for the messages of `ParsingError`; the texts are in `Model/Message`. -/
inductive PMsg where
  | noXmlContent            -- lib.rs:392
  | unmatchedLt             -- lib.rs:397
  | textOutsideRoot         -- lib.rs:406
  | declNotAtStart          -- lib.rs:414
  | startsWithClosing       -- lib.rs:435
  | invalidSyntax           -- lib.rs:442, 468
  | onlyOneRoot             -- lib.rs:476
  | noRootElement           -- parsing.rs:71, 98 (wrapped at lib.rs:493, 510, 535, 580)
  | invalidComment          -- lib.rs:520
  | unclosedCData           -- lib.rs:528
  | invalidElementTag       -- lib.rs:741 (wrapped at lib.rs:552)
  | rootAlreadyClosed       -- lib.rs:561
  | closingMismatch (tag name : Str)  -- lib.rs:568: the closing tag, the name of the open element
  | rootNotClosed           -- lib.rs:593
  | closeWithoutOpen        -- parsing.rs:60
  | emptyTag                -- lib.rs:625
  | attrForm                -- lib.rs:637
  | attrNoContent           -- lib.rs:644
  | attrUnquoted            -- lib.rs:652
  | undefinedPrefix (p : Str)  -- lib.rs:679
  | invalidDecl             -- dom.rs:2042
  | invalidDtd              -- dom.rs:2085
deriving DecidableEq, Repr

/-- `KissXmlError`, errors.rs:9-30.  The texts of parsing errors are replaced by codes and line/column; `Model/Message` says
which text they stand for.  An I/O error carries nothing here. -/
inductive Err where
  | parsing (m : PMsg) (loc : Option (Nat × Nat))
  | typeCast (msg : Str)
  | doesNotExist (msg : Str)
  | indexOutOfBounds (index : Int) (bounds : Option (Int × Int))
  | invalidAttributeName (name : Str)
  | invalidElementName (name : Str)
  | invalidContent (msg : Str)
  | notSupported (what : Str) (loc : Option (Nat × Nat))
  | io
deriving DecidableEq, Repr

/-- A Rust `Result<α, KissXmlError>` (or a specific error struct) with panics made explicit. -/
abbrev R := Res Err

/-- `struct Element`, dom.rs:409-422, over the type of nodes. -/
structure ElementF (N : Type) where
  name : Str
  children : List N
  attrs : SMap
  xmlns : Option Str
  pfx : Option Str
  ctx : SMap

/-- `Box<dyn Node>` restricted to the four node types of the crate: `Element` (dom.rs:409),
`Text` (dom.rs:1633), `Comment` (dom.rs:1764), `CData` (dom.rs:1895). -/
inductive Node where
  | element (e : ElementF Node)
  | text (content : Str)
  | comment (comment : Str)
  | cdata (cdata : Str)

/-- `struct Element`, dom.rs:409-422. -/
abbrev Element := ElementF Node

/-- `DomNodeType`, dom.rs:226-235. -/
inductive DomNodeType where
  | cdataNode | commentNode | elementNode | textNode
deriving DecidableEq, Repr

namespace Node
/-- `is_element`, dom.rs:1503, 1682, 1802, 1934. -/
def isElement : Node → Bool | .element _ => true | _ => false
/-- `is_text`, dom.rs:1507, 1686, 1806, 1938. -/
def isText : Node → Bool | .text _ => true | _ => false
/-- `is_comment`, dom.rs:1511, 1690, 1810, 1942. -/
def isComment : Node → Bool | .comment _ => true | _ => false
/-- `is_cdata`, dom.rs:1515, 1694, 1814, 1946. -/
def isCData : Node → Bool | .cdata _ => true | _ => false
/-- `as_element` / `as_element_mut`, dom.rs:1519, 1698, 1818, 1950. -/
def asElement : Node → R Element
  | .element e => .ok e
  | .text _ => .err (.typeCast c%"Cannot cast Text as Element")
  | .comment _ => .err (.typeCast c%"Cannot cast Comment as Element")
  | .cdata _ => .err (.typeCast c%"Cannot cast CData as Element")
/-- `as_text` / `as_text_mut`, dom.rs:1523, 1702, 1822, 1954. -/
def asText : Node → R Str
  | .element _ => .err (.typeCast c%"Cannot cast Element as Text")
  | .text t => .ok t
  | .comment _ => .err (.typeCast c%"Cannot cast Comment as Text")
  | .cdata _ => .err (.typeCast c%"Cannot cast CData as Text")
/-- `as_comment` / `as_comment_mut`, dom.rs:1521, 1700, 1820, 1952. -/
def asComment : Node → R Str
  | .element _ => .err (.typeCast c%"Cannot cast Element as Comment")
  | .text _ => .err (.typeCast c%"Cannot cast Text as Comment")
  | .comment c => .ok c
  | .cdata _ => .err (.typeCast c%"Cannot cast CData as Comment")
/-- `as_cdata` / `as_cdata_mut`, dom.rs:1525, 1704, 1824, 1956. -/
def asCData : Node → R Str
  | .element _ => .err (.typeCast c%"Cannot cast Element as CData")
  | .text _ => .err (.typeCast c%"Cannot cast Text as CData")
  | .comment _ => .err (.typeCast c%"Cannot cast Comment as CData")
  | .cdata c => .ok c
/-- `node_type`, dom.rs:287-299. -/
def nodeType (n : Node) : R DomNodeType :=
  if n.isCData then .ok .cdataNode
  else if n.isComment then .ok .commentNode
  else if n.isElement then .ok .elementNode
  else if n.isText then .ok .textNode
  else .panic
end Node

/-- `Display for DomNodeType`, dom.rs:243-252. -/
def DomNodeType.display : DomNodeType → Str
  | .cdataNode => c%"CDATA"
  | .commentNode => c%"Comment"
  | .elementNode => c%"Element"
  | .textNode => c%"Text"

/-- `.as_element().expect(..)` and friends: an error becomes a panic. -/
def expect {α} : R α → R α
  | .ok a => .ok a
  | .err _ => .panic
  | .panic => .panic
  | .diverge => .diverge

/-! ## names -/

/-- `[_a-zA-Z]` -/
def isAsciiNameStart (c : Char) : Bool := inRanges [(0x5F, 0x5F), (0x61, 0x7A), (0x41, 0x5A)] c

/-- `is_match` of `^[_a-zA-Z]\S*$`, dom.rs:985 and 999 (see `Verif.Proofs.Regex` for the regex reading). -/
def validName : Str → Bool
  | [] => false
  | c :: s => isAsciiNameStart c && s.all (fun x => !isWs x)

/-- `check_elem_name`, dom.rs:996-1006. -/
def checkElemName (name : Str) : R Unit :=
  if validName name then .ok () else .err (.invalidElementName name)

/-- `check_attr_name`, dom.rs:982-992. -/
def checkAttrName (name : Str) : R Unit :=
  if validName name then .ok () else .err (.invalidAttributeName name)

/-! ## text, comment, cdata -/

/-- `Text::concat`, dom.rs:1649-1654. -/
def textConcat (a b : Str) : Str := a ++ b

/-- `Text::is_whitespace`, dom.rs:1657-1661: `is_match` of `^\s+$`. -/
def textIsWhitespace (t : Str) : Bool := !t.isEmpty && t.all isWs

/-- `Comment::new`, dom.rs:1771-1778. -/
def commentNew (c : Str) : R Str := if contains c c%"-->" then .err (.invalidContent c%"Comments cannot contain '-->'") else .ok c

/-- `Comment::set_content`, dom.rs:1785-1793: result, and the content of the comment afterwards. -/
def commentSetContent (old c : Str) : R Unit × Str :=
  if contains c c%"-->" then (.err (.invalidContent c%"Comments cannot contain '-->'"), old) else (.ok (), c)

/-- `CData::new`, dom.rs:1902-1909. -/
def cdataNew (c : Str) : R Str :=
  if contains c c%"]]>" then .err (.invalidContent c%"CDATA cannot contain ']]>' as content") else .ok c

/-- `CData::set_text`, dom.rs:1912-1920: result, and the content of the CDATA afterwards. -/
def cdataSetText (old c : Str) : R Unit × Str :=
  if contains c c%"]]>" then (.err (.invalidContent c%"CDATA cannot contain ']]>'"), old) else (.ok (), c)

/-- `impl From<&str> for Comment`, dom.rs:1851-1861 (unwraps). -/
def commentFrom (c : Str) : R Str := expect (commentNew c)

/-- `impl From<&str> for CData`, dom.rs:1983-1993 (unwraps). -/
def cdataFrom (c : Str) : R Str := expect (cdataNew c)

/-! ## element accessors -/

namespace ElementF
/-- `Element::default`, dom.rs:1575-1586. -/
def dflt : Element := ⟨c%"x", [], .empty, none, none, .empty⟩

/-- `namespace`, dom.rs:627. -/
def namespace_ (e : Element) : Option Str := e.xmlns
/-- `namespace_prefix`, dom.rs:651. -/
def namespacePrefix (e : Element) : Option Str := e.pfx

/-- `default_namespace`, dom.rs:633-638. -/
def defaultNamespace (e : Element) : Option Str :=
  match e.pfx with
  | none => e.xmlns
  | some _ => none

/-- `tag_name`, dom.rs:642-647. -/
def tagName (e : Element) : Str :=
  match e.pfx with
  | none => e.name
  | some p => p ++ c%":" ++ e.name

/-- `xmlns_context_from_attributes`, dom.rs:606-619.  `splitn(2, ":")[1]` of a key starting with
"xmlns:" is the key without its first six characters. -/
def xmlnsContextFromAttributes (attrs : SMap) : SMap :=
  attrs.entries.foldl (fun m kv =>
    if startsWith kv.1 c%"xmlns:" then m.insert (kv.1.drop 6) kv.2 else m) SMap.empty

/-- `namespace_prefixes`, dom.rs:795-802. -/
def namespacePrefixes (e : Element) : Option SMap :=
  let prefixes := xmlnsContextFromAttributes e.attrs
  if prefixes.isEmpty then none else some prefixes

/-- `set_namespace_context`, dom.rs:806-838. -/
def setNamespaceContext (e : Element) (parentDefault : Option Str) (parentPrefixes : Option SMap) : Element :=
  let e1 : Element := match e.pfx with
    | none => match e.defaultNamespace with
      | none => { e with xmlns := parentDefault }
      | some _ => e
    | some _ => e
  let e2 : Element := match parentPrefixes with
    | none => e1
    | some ps => { e1 with
        ctx := ps.entries.foldl (fun m kv => if m.containsKey kv.1 then m else m.insert kv.1 kv.2) e1.ctx }
  if e2.xmlns.isNone then
    match e2.pfx with
    | none => e2
    | some p => { e2 with xmlns := e2.ctx.get p }
  else e2

/-- `reverse_children`, dom.rs:840-842. -/
def reverseChildren (e : Element) : Element := { e with children := e.children.reverse }

/-- `child_elements`, dom.rs:844-848. -/
def childElements (e : Element) : List Element :=
  e.children.filterMap (fun n => match n with | .element c => some c | _ => none)

/-- `elements_by_namespace`, dom.rs:685-688. -/
def elementsByNamespace (e : Element) (ns : Option Str) : List Element :=
  e.childElements.filter (fun c => c.xmlns == ns)
/-- `elements_by_namespace_prefix`, dom.rs:754-757. -/
def elementsByNamespacePrefix (e : Element) (p : Option Str) : List Element :=
  e.childElements.filter (fun c => c.pfx == p)
/-- `elements_by_name`, dom.rs:948-951. -/
def elementsByName (e : Element) (n : Str) : List Element :=
  e.childElements.filter (fun c => c.name == n)

/-- `DoesNotExistError::default`, errors.rs:135-139. -/
def notFound : Str := c%"requested item not found"

/-- loop of `first_element_by_name`, dom.rs:909-913. -/
def firstByName (n : Str) : List Element → R Element
  | [] => .err (.doesNotExist notFound)
  | e :: t => if e.name = n then .ok e else firstByName n t
/-- `first_element_by_name`, dom.rs:907-915. -/
def firstElementByName (e : Element) (n : Str) : R Element := firstByName n e.childElements

/-- `get_attr`, dom.rs:965-968. -/
def getAttr (e : Element) (k : Str) : Option Str := e.attrs.get k
/-- `set_attr`, dom.rs:970-976. -/
def setAttr (e : Element) (k v : Str) : R Element := do
  checkAttrName k
  pure { e with attrs := e.attrs.insert k v }
/-- `remove_attr`, dom.rs:1008-1011: returned value and element afterwards. -/
def removeAttr (e : Element) (k : Str) : Option Str × Element :=
  (e.attrs.get k, { e with attrs := e.attrs.remove k })
/-- `clear_attributes`, dom.rs:1013-1015. -/
def clearAttributes (e : Element) : Element := { e with attrs := .empty }
/-- `clear_children`, dom.rs:879. -/
def clearChildren (e : Element) : Element := { e with children := [] }
end ElementF

/-! ## text(), recursive iteration -/

mutual
/-- `Node::text`, dom.rs:1492-1501 (Element), 1678, 1798, 1930. -/
def Node.textOf : Node → Str
  | .element e => ElementF.textOf e
  | .text t => t
  | .comment c => c
  | .cdata c => c
/-- `impl Node for Element`: `text`, dom.rs:1492-1501. -/
def ElementF.textOf : Element → Str
  | ⟨_, cs, _, _, _, _⟩ => textOfChildren cs
/-- the loop of dom.rs:1495-1499 -/
def textOfChildren : List Node → Str
  | [] => []
  | c :: cs => (if c.isText || c.isElement then c.textOf else []) ++ textOfChildren cs
end

mutual
/-- `children_recursive`, dom.rs:868-876. -/
def ElementF.childrenRecursive : Element → List Node
  | ⟨_, cs, _, _, _, _⟩ => cs ++ childrenRecursiveOf cs
/-- `self.child_elements().map(|e| e.children_recursive()).flatten()`, dom.rs:872-873 -/
def childrenRecursiveOf : List Node → List Node
  | [] => []
  | c :: cs => c.childrenRecursive ++ childrenRecursiveOf cs
/-- the element case of the previous function; other nodes are filtered out by `child_elements` -/
def Node.childrenRecursive : Node → List Node
  | .element e => e.childrenRecursive
  | .text _ => []
  | .comment _ => []
  | .cdata _ => []
end

namespace ElementF
/-- `search`, dom.rs:1045-1050. -/
def search (e : Element) (p : Node → Bool) : List Node := e.childrenRecursive.filter p
/-- `all_children`, dom.rs:860-862. -/
def allChildren (e : Element) : List Node := e.search (fun _ => true)
/-- `search_elements`, dom.rs:1080-1087. -/
def searchElements (e : Element) (p : Element → Bool) : List Element :=
  ((e.search Node.isElement).filterMap (fun n => match n with | .element c => some c | _ => none)).filter p
/-- `search_elements_by_name`, dom.rs:1117-1121. -/
def searchElementsByName (e : Element) (n : Str) : List Element := e.searchElements (fun c => c.name == n)
/-- `search_text`, dom.rs:1123-1130. -/
def searchText (e : Element) (p : Str → Bool) : List Str :=
  ((e.search Node.isText).filterMap (fun n => match n with | .text c => some c | _ => none)).filter p
/-- `search_comments`, dom.rs:1133-1140. -/
def searchComments (e : Element) (p : Str → Bool) : List Str :=
  ((e.search Node.isComment).filterMap (fun n => match n with | .comment c => some c | _ => none)).filter p
end ElementF

/-! ## structural edits -/

/-- `n as isize` for `n : usize` (64 bits): numbers from 2^63 on become negative. -/
def asIsize (n : Nat) : Int := if n < 2 ^ 63 then n else n - 2 ^ 64

/-- `Vec::remove(i)`: removed item and rest; `none` = panic. -/
def vecRemove {α} (l : List α) (i : Nat) : Option (α × List α) :=
  match l[i]? with
  | some a => some (a, l.eraseIdx i)
  | none => none

/-- `Vec::insert(i, x)`; `none` = panic (i > len). -/
def vecInsert {α} (l : List α) (i : Nat) (x : α) : Option (List α) :=
  if i ≤ l.length then some (l.insertIdx i x) else none

/-- the merge loop of `cleanup_text_nodes`, dom.rs:1197-1207; argument: the current index. -/
def mergeTextLoop : Nat → List Node → R (List Node)
  | 0, l => .ok l
  | index + 1, l => do
    let back ← Res.unwrap l[index + 1]?
    let front ← Res.unwrap l[index]?
    if back.isText && front.isText then
      let (back, l) ← Res.unwrap (vecRemove l (index + 1))
      let (front, l) ← Res.unwrap (vecRemove l index)
      let ft ← expect front.asText
      let bt ← expect back.asText
      let l ← Res.unwrap (vecInsert l index (.text (textConcat ft bt)))
      mergeTextLoop index l
    else mergeTextLoop index l

/-- the removal loop of `cleanup_text_nodes`, dom.rs:1210-1219; argument: the current index. -/
def dropWsLoop (index : Nat) (l : List Node) : R (List Node) := do
  let n ← Res.unwrap l[index]?
  let l ← (if n.isText then do
      let t ← expect n.asText
      if textIsWhitespace t then do
        let (_, l) ← Res.unwrap (vecRemove l index)
        pure l
      else pure l
    else pure l)
  match index with
  | 0 => pure l
  | i + 1 => dropWsLoop i l

/-- `cleanup_text_nodes`, dom.rs:1192-1221, on the child list. -/
def cleanupTextNodes (l : List Node) : R (List Node) :=
  if l.length = 0 then .ok l
  else do
    let l ← mergeTextLoop (l.length - 1) l
    -- assert!(self.child_nodes.len() > 0, ..)
    if l.length > 0 then dropWsLoop (l.length - 1) l else .panic

/-- `apply_xmlns_context_to_child_node`, dom.rs:1174-1190. -/
def applyXmlnsContext (dflt : Option Str) (ctx : SMap) : Node → Node
  | .element e => .element (e.setNamespaceContext dflt (some ctx))
  | n => n

namespace ElementF

/-- `append` / `append_boxed`, dom.rs:1162-1172. -/
def append (e : Element) (n : Node) : R Element := do
  let n := applyXmlnsContext e.defaultNamespace e.ctx n
  let l ← cleanupTextNodes (e.children ++ [n])
  pure { e with children := l }

/-- second loop of `append_all`, dom.rs:1261-1266: apply the context at the recorded indices. -/
def applyAt (dflt : Option Str) (ctx : SMap) : List Nat → List Node → R (List Node)
  | [], l => .ok l
  | i :: is, l => do
    let n ← Res.unwrap l[i]?
    applyAt dflt ctx is (l.set i (applyXmlnsContext dflt ctx n))

/-- first loop of `append_all`, dom.rs:1251-1259: indices of the element children to come. -/
def elemIndices : Nat → List Node → List Nat
  | _, [] => []
  | i, c :: cs => if c.isElement then i :: elemIndices (i + 1) cs else elemIndices (i + 1) cs

/-- `append_all`, dom.rs:1249-1269. -/
def appendAll (e : Element) (cs : List Node) : R Element := do
  let idx := elemIndices e.children.length cs
  let l ← applyAt e.defaultNamespace e.ctx idx (e.children ++ cs)
  let l ← cleanupTextNodes l
  pure { e with children := l }

/-- `insert`, dom.rs:1273-1287.  Note: the namespace context is applied to the *last* child
(`last_mut()`), not to the inserted node. -/
def insert (e : Element) (index : Nat) (n : Node) : R Element :=
  if index > e.children.length then .err (.indexOutOfBounds (asIsize index) (some (0, asIsize e.children.length)))
  else do
    let l ← Res.unwrap (vecInsert e.children index n)
    let last ← Res.unwrap l.getLast?
    let l := l.set (l.length - 1) (applyXmlnsContext e.defaultNamespace e.ctx last)
    let l ← cleanupTextNodes l
    pure { e with children := l }

/-- `remove`, dom.rs:1291-1296: removed node and element afterwards. -/
def remove (e : Element) (index : Nat) : R (Node × Element) :=
  if index ≥ e.children.length then .err (.indexOutOfBounds (asIsize index) (some (0, asIsize e.children.length)))
  else do
    let (n, l) ← Res.unwrap (vecRemove e.children index)
    pure (n, { e with children := l })

/-- the first loop of `remove_by`, dom.rs:1342-1346: matching indices, highest first.
The first argument counts down the range `(0..len).rev()`. -/
def matchIndices (p : Node → Bool) (l : List Node) : Nat → R (List Nat)
  | 0 => .ok []
  | i + 1 => do
    let n ← Res.unwrap l[i]?
    let rest ← matchIndices p l i
    pure (if p n then i :: rest else rest)

/-- the second loop of `remove_by`, dom.rs:1348-1350. -/
def removeIndices {α} : List Nat → List α → R (List α)
  | [], l => .ok l
  | i :: is, l => do
    let (_, l) ← Res.unwrap (vecRemove l i)
    removeIndices is l

/-- `remove_by`, dom.rs:1340-1352: element afterwards and count. -/
def removeBy (e : Element) (p : Node → Bool) : R (Element × Nat) := do
  let idx ← matchIndices p e.children e.children.length
  let l ← removeIndices idx e.children
  pure ({ e with children := l }, idx.length)

/-- the predicate used by `remove_elements` (dom.rs:1373-1376) and `remove_all_elements`
(dom.rs:1393-1398): elements only. -/
def elemPred (p : Element → Bool) : Node → Bool
  | .element e => p e
  | _ => false

/-- `remove_elements`, dom.rs:1370-1386 (same loops as `remove_by` with an `is_element` guard). -/
def removeElements (e : Element) (p : Element → Bool) : R (Element × Nat) := do
  let idx ← matchIndices (elemPred p) e.children e.children.length
  let l ← removeIndices idx e.children
  pure ({ e with children := l }, idx.length)

/-- `remove_elements_by_name`, dom.rs:1408-1411. -/
def removeElementsByName (e : Element) (n : Str) : R (Element × Nat) := e.removeElements (fun c => c.name == n)

/-- index loop of `remove_element`, dom.rs:1356-1359. -/
def elementIndices (i : Nat) : List Node → List Nat
  | [] => []
  | c :: cs => if c.isElement then i :: elementIndices (i + 1) cs else elementIndices (i + 1) cs

/-- `remove_element`, dom.rs:1354-1366: removed element and element afterwards. -/
def removeElement (e : Element) (index : Nat) : R (Element × Element) :=
  let elems := elementIndices 0 e.children
  if index ≥ elems.length then .err (.indexOutOfBounds (asIsize index) (some (0, asIsize elems.length)))
  else do
    let i ← Res.unwrap elems[index]?
    let (n, l) ← Res.unwrap (vecRemove e.children i)
    let r ← expect n.asElement
    pure (r, { e with children := l })

/-- `set_text`, dom.rs:881-884. -/
def setText (e : Element) (t : Str) : R Element := e.clearChildren.append (.text t)

end ElementF

/-- the loop `for e in self.child_elements_mut() { count += e.remove_all(..) }`, dom.rs:1330-1332;
`f` is the recursive call. -/
def forChildElements (f : Element → R (Element × Nat)) : List Node → R (List Node × Nat)
  | [] => .ok ([], 0)
  | .element e :: cs => do
    let (e, k) ← f e
    let (cs, m) ← forChildElements f cs
    pure (.element e :: cs, k + m)
  | c :: cs => do
    let (cs, m) ← forChildElements f cs
    pure (c :: cs, m)

/-- `remove_all`, dom.rs:1328-1334, with fuel for the recursion depth. -/
def ElementF.removeAllF (p : Node → Bool) : Nat → Element → R (Element × Nat)
  | 0, _ => .diverge
  | fuel + 1, e => do
    let (e, count) ← e.removeBy p
    let (cs, m) ← forChildElements (ElementF.removeAllF p fuel) e.children
    pure ({ e with children := cs }, count + m)

mutual
/-- number of nodes of a subtree; only used as fuel -/
def Node.size : Node → Nat
  | .element e => ElementF.size e
  | .text _ => 1
  | .comment _ => 1
  | .cdata _ => 1
/-- number of nodes of an element; only used as fuel -/
def ElementF.size : Element → Nat
  | ⟨_, cs, _, _, _, _⟩ => 1 + sizeOfChildren cs
/-- number of nodes of a list; only used as fuel -/
def sizeOfChildren : List Node → Nat
  | [] => 0
  | c :: cs => c.size + sizeOfChildren cs
end

namespace ElementF
/-- `remove_all`, dom.rs:1328-1334. -/
def removeAll (e : Element) (p : Node → Bool) : R (Element × Nat) := removeAllF p e.size e

/-- `remove_all_elements`, dom.rs:1392-1404. -/
def removeAllElements (e : Element) (p : Element → Bool) : R (Element × Nat) := do
  let (e, count) ← e.removeBy (elemPred p)
  let (cs, m) ← forChildElements (fun c => c.removeAll (elemPred p)) e.children
  pure ({ e with children := cs }, count + m)

/-- `Element::new`, dom.rs:435-497.  The attribute argument is already a `HashMap<String, String>`
(conversion of generic keys by `Into<String>` is not modelled); the loop of dom.rs:450-454 checks every name
and copies the map. -/
def new (name : Str) (text : Option Str) (attributes : Option SMap) (xmlns : Option Str)
    (xmlnsPrefix : Option Str) (children : Option (List Node)) : R Element := do
  checkElemName name
  let attrs := match attributes with
    | none => SMap.empty
    | some m => m
  match attrs.entries.find? (fun kv => !validName kv.1) with
  | some kv => .err (.invalidAttributeName kv.1)
  | none => do
    let xmlns := match xmlns with
      | some x => some x
      | none => match xmlnsPrefix with
        | none => attrs.get c%"xmlns"
        | some p => attrs.get (c%"xmlns:" ++ p)
    let elem : Element := ⟨name, [], attrs, xmlns, xmlnsPrefix, xmlnsContextFromAttributes attrs⟩
    let elem ← match text with
      | none => pure elem
      | some t => elem.append (.text t)
    match children with
    | none => pure elem
    | some cs => elem.appendAll cs

/-- `new_from_name`, dom.rs:499-506. -/
def newFromName (name : Str) : R Element := do
  checkElemName name
  pure { dflt with name := name }
/-- `new_with_attributes`, dom.rs:521-523. -/
def newWithAttributes (name : Str) (a : SMap) : R Element := new name none (some a) none none none
/-- `new_with_text`, dom.rs:525-527. -/
def newWithText (name t : Str) : R Element := new name (some t) none none none none
/-- `new_with_attributes_and_text`, dom.rs:546-548. -/
def newWithAttributesAndText (name : Str) (a : SMap) (t : Str) : R Element := new name (some t) (some a) none none none
/-- `new_with_attributes_and_children`, dom.rs:573-575. -/
def newWithAttributesAndChildren (name : Str) (a : SMap) (cs : List Node) : R Element :=
  new name none (some a) none none (some cs)
/-- `new_with_children`, dom.rs:598-600. -/
def newWithChildren (name : Str) (cs : List Node) : R Element := new name none none none none (some cs)
end ElementF

/-! ## clone, equality, hash, order -/

mutual
/-- `clone_node`, dom.rs:375-387. -/
def Node.clone : Node → Node
  | .element e => .element (ElementF.clone e)
  | .text t => .text t
  | .comment c => .comment c
  | .cdata c => .cdata c
/-- `impl Clone for Element`, dom.rs:1558-1573. -/
def ElementF.clone : Element → Element
  | ⟨n, cs, a, x, p, c⟩ => ⟨n, cloneChildren cs, a, x, p, c⟩
/-- the loop of dom.rs:1561-1563 -/
def cloneChildren : List Node → List Node
  | [] => []
  | c :: cs => c.clone :: cloneChildren cs
end

mutual
/-- `node_eq`, dom.rs:390-406 with the `PartialEq` instances dom.rs:1737, 1869, 2001. -/
def Node.eq : Node → Node → Bool
  | .element a, .element b => ElementF.eq a b
  | .text a, .text b => a == b
  | .comment a, .comment b => a == b
  | .cdata a, .cdata b => a == b
  | .element _, .text _ => false
  | .element _, .comment _ => false
  | .element _, .cdata _ => false
  | .text _, .element _ => false
  | .text _, .comment _ => false
  | .text _, .cdata _ => false
  | .comment _, .element _ => false
  | .comment _, .text _ => false
  | .comment _, .cdata _ => false
  | .cdata _, .element _ => false
  | .cdata _, .text _ => false
  | .cdata _, .comment _ => false
/-- `impl PartialEq for Element`, dom.rs:1594-1609 (`xmlns_context` is not compared). -/
def ElementF.eq : Element → Element → Bool
  | ⟨n, cs, a, x, p, _⟩, ⟨n', cs', a', x', p', _⟩ =>
    n == n' && x == x' && p == p' && a.eq a' && cs.length == cs'.length && childrenEq cs cs'
/-- the loop of dom.rs:1600-1604 over lists of equal length -/
def childrenEq : List Node → List Node → Bool
  | [], _ => true
  | _ :: _, [] => true
  | c :: cs, d :: ds => c.eq d && childrenEq cs ds
end

/-- What `impl Hash for Element`, dom.rs:1611-1616, feeds to the hasher. -/
def ElementF.hashKey (e : Element) : Str × Option Str := (e.name, e.xmlns)

/-- `impl PartialOrd for Element`, dom.rs:1588-1592. -/
def ElementF.cmp (a b : Element) : Ordering := strCmp a.name b.name

/-- `impl PartialOrd for Text`, dom.rs:1731-1735. -/
def textCmp (a b : Str) : Ordering := strCmp a b
/-- `impl PartialEq for Text`, dom.rs:1737-1741. -/
def textEq (a b : Str) : Bool := a == b
/-- `impl PartialOrd for Comment`, dom.rs:1863-1867. -/
def commentCmp (a b : Str) : Ordering := strCmp a b
/-- `impl PartialEq for Comment`, dom.rs:1869-1873. -/
def commentEq (a b : Str) : Bool := a == b
/-- `impl PartialOrd for CData`, dom.rs:1995-1999. -/
def cdataCmp (a b : Str) : Ordering := strCmp a b
/-- `impl PartialEq for CData`, dom.rs:2001-2005. -/
def cdataEq (a b : Str) : Bool := a == b

/-! ## declaration, DTD, document -/

/-- `str::strip_prefix(p)`. -/
def stripPrefix (p s : Str) : Option Str := if startsWith s p then some (s.drop p.length) else none
/-- `str::strip_suffix(p)`. -/
def stripSuffix (p s : Str) : Option Str := if endsWith s p then some (s.take (s.length - p.length)) else none

/-- `struct Declaration`, dom.rs:2030-2032. -/
structure Declaration where
  declStr : Str
deriving DecidableEq, Repr

/-- `Declaration::from_str`, dom.rs:2036-2044. -/
def Declaration.fromStr (decl : Str) : R Declaration :=
  let buffer := trim decl
  if startsWith buffer c%"<?" && endsWith buffer c%"?>" then do
    let a ← Res.unwrap (stripPrefix c%"<?" buffer)
    let b ← Res.unwrap (stripSuffix c%"?>" a)
    pure ⟨b⟩
  else .err (.parsing .invalidDecl none)

/-- `Declaration::default` / `new`, dom.rs:2046-2055. -/
def Declaration.dflt : Declaration := ⟨c%"xml version=\"1.0\" encoding=\"UTF-8\""⟩

/-- `impl Display for Declaration`, dom.rs:2057-2061. -/
def Declaration.display (d : Declaration) : Str := c%"<?" ++ d.declStr ++ c%"?>"

/-- `struct DTD`, dom.rs:2073-2075. -/
structure DTD where
  dtdStr : Str
deriving DecidableEq, Repr

/-- `DTD::from_string`, dom.rs:2079-2087. -/
def DTD.fromString (text : Str) : R DTD :=
  let buffer := trim text
  if startsWith buffer c%"<!DOCTYPE" && endsWith buffer c%">" then do
    let a ← Res.unwrap (stripPrefix c%"<!DOCTYPE" buffer)
    let b ← Res.unwrap (stripSuffix c%">" a)
    pure ⟨b⟩
  else .err (.parsing .invalidDtd none)

/-- `impl Display for DTD`, dom.rs:2090-2094: the delimiters are not written. -/
def DTD.display (d : DTD) : Str := d.dtdStr

/-- `struct Document`, dom.rs:51-58. -/
structure Document where
  declaration : Option Declaration
  dtds : List DTD
  root : Element

namespace Document
/-- `new_with_decl_dtd`, dom.rs:70-79. -/
def newWithDeclDtd (root : Element) (d : Option Declaration) (dtds : Option (List DTD)) : Document :=
  ⟨d, match dtds with | none => [] | some l => l, root⟩
/-- `Document::new`, dom.rs:64-66. -/
def new (root : Element) : Document := newWithDeclDtd root (some Declaration.dflt) none
/-- `set_declaration`, dom.rs:110-112. -/
def setDeclaration (d : Document) (x : Option Declaration) : Document := { d with declaration := x }
/-- `set_doctype_defs`, dom.rs:95-100. -/
def setDoctypeDefs (d : Document) (x : Option (List DTD)) : Document :=
  { d with dtds := match x with | none => [] | some l => l }
/-- `impl PartialEq for Document`, dom.rs:216-222. -/
def eq (a b : Document) : Bool := a.declaration == b.declaration && a.dtds == b.dtds && a.root.eq b.root
end Document

end KissXml
