import Verif.Model.Parse
import Verif.Model.Serialize
/-!
# The program with the iteration order of its maps left open

A Rust `HashMap` is iterated in an order that depends on a random seed, so that two maps with the same entries,
and two runs of the same program, need not agree on it.  The rest of the model takes the order of the list of
entries.  Here each loop over a `HashMap` takes the entries in any order; a function has a set of outcomes.

The loops are those of `Element::new` (dom.rs:450), `xmlns_context_from_attributes` (dom.rs:609),
`set_namespace_context` (dom.rs:823) and `to_string_with_prefix_and_indent` (dom.rs:1424).  The other functions
below are the ones that call them; their text follows that of the functions of the same name in `Verif.Model.Dom`,
`Verif.Model.ParseTree`, `Verif.Model.Parse` and `Verif.Model.Serialize`.  `==` of two maps (dom.rs:1598) loops over
one of them inside the standard library and is not repeated here.
-/
namespace KissXml

/-- the outcomes that a computation may have -/
structure Runs (α : Type) where
  has : R α → Prop

namespace Runs
/-- the one outcome of code that has no loop over a map -/
def of {α : Type} (x : R α) : Runs α := ⟨fun r => r = x⟩
/-- One computation after the other (the `?` operator). -/
def bind {α β : Type} (m : Runs α) (f : α → Runs β) : Runs β :=
  ⟨fun r => (∃ a, m.has (.ok a) ∧ (f a).has r) ∨ (∃ e, m.has (.err e) ∧ r = .err e) ∨
    (m.has .panic ∧ r = .panic) ∨ (m.has .diverge ∧ r = .diverge)⟩

instance : Monad Runs where
  pure a := of (.ok a)
  bind := bind
end Runs

open Runs (of)

/-- the entries of a map in the order in which a loop meets them: any order -/
def anyOrder (m : SMap) : Runs (List (Str × Str)) := ⟨fun r => ∃ l, l.Perm m.entries ∧ r = .ok l⟩

/-- the loop of dom.rs:450-454: check the name, copy the entry -/
def checkAndCopy : List (Str × Str) → SMap → R SMap
  | [], attrs => .ok attrs
  | (k, v) :: rest, attrs => do
    checkAttrName k
    checkAndCopy rest (attrs.insert k v)

namespace ElementF

/-- `xmlns_context_from_attributes`, dom.rs:606-619 -/
def contextFromAttributesAny (attrs : SMap) : Runs SMap := do
  let l ← anyOrder attrs
  pure (l.foldl (fun m kv => if startsWith kv.1 c%"xmlns:" then m.insert (kv.1.drop 6) kv.2 else m) SMap.empty)

/-- `namespace_prefixes`, dom.rs:795-802 -/
def namespacePrefixesAny (e : Element) : Runs (Option SMap) := do
  let prefixes ← contextFromAttributesAny e.attrs
  pure (if prefixes.isEmpty then none else some prefixes)

/-- `set_namespace_context`, dom.rs:806-838 -/
def setNamespaceContextAny (e : Element) (parentDefault : Option Str) (parentPrefixes : Option SMap) : Runs Element := do
  let e1 : Element := match e.pfx with
    | none => match e.defaultNamespace with
      | none => { e with xmlns := parentDefault }
      | some _ => e
    | some _ => e
  let ctx ← (match parentPrefixes with
    | none => pure e1.ctx
    | some ps => do
      let l ← anyOrder ps
      pure (l.foldl (fun m kv => if m.containsKey kv.1 then m else m.insert kv.1 kv.2) e1.ctx) : Runs SMap)
  let e2 : Element := { e1 with ctx := ctx }
  pure (if e2.xmlns.isNone then
    match e2.pfx with
    | none => e2
    | some p => { e2 with xmlns := e2.ctx.get p }
  else e2)

/-- `apply_xmlns_context_to_child_node`, dom.rs:1174-1190 -/
def applyXmlnsContextAny (dflt : Option Str) (ctx : SMap) : Node → Runs Node
  | .element e => do
    let e ← e.setNamespaceContextAny dflt (some ctx)
    pure (.element e)
  | n => pure n

/-- `append` / `append_boxed`, dom.rs:1162-1172 -/
def appendAny (e : Element) (n : Node) : Runs Element := do
  let n ← applyXmlnsContextAny e.defaultNamespace e.ctx n
  let l ← of (cleanupTextNodes (e.children ++ [n]))
  pure { e with children := l }

/-- second loop of `append_all`, dom.rs:1261-1266 -/
def applyAtAny (dflt : Option Str) (ctx : SMap) : List Nat → List Node → Runs (List Node)
  | [], l => pure l
  | i :: is, l => do
    let n ← of (Res.unwrap l[i]?)
    let n ← applyXmlnsContextAny dflt ctx n
    applyAtAny dflt ctx is (l.set i n)

/-- `append_all`, dom.rs:1249-1269 -/
def appendAllAny (e : Element) (cs : List Node) : Runs Element := do
  let idx := elemIndices e.children.length cs
  let l ← applyAtAny e.defaultNamespace e.ctx idx (e.children ++ cs)
  let l ← of (cleanupTextNodes l)
  pure { e with children := l }

/-- `insert`, dom.rs:1273-1287 -/
def insertAny (e : Element) (index : Nat) (n : Node) : Runs Element :=
  if index > e.children.length then of (.err (.indexOutOfBounds (asIsize index) (some (0, asIsize e.children.length))))
  else do
    let l ← of (Res.unwrap (vecInsert e.children index n))
    let last ← of (Res.unwrap l.getLast?)
    let last ← applyXmlnsContextAny e.defaultNamespace e.ctx last
    let l ← of (cleanupTextNodes (l.set (l.length - 1) last))
    pure { e with children := l }

/-- `Element::new`, dom.rs:435-497 -/
def newAny (name : Str) (text : Option Str) (attributes : Option SMap) (xmlns : Option Str)
    (xmlnsPrefix : Option Str) (children : Option (List Node)) : Runs Element := do
  of (checkElemName name)
  let attrs ← (match attributes with
    | none => pure SMap.empty
    | some m => do
      let l ← anyOrder m
      of (checkAndCopy l SMap.empty) : Runs SMap)
  let xmlns := match xmlns with
    | some x => some x
    | none => match xmlnsPrefix with
      | none => attrs.get c%"xmlns"
      | some p => attrs.get (c%"xmlns:" ++ p)
  let ctx ← contextFromAttributesAny attrs
  let elem : Element := ⟨name, [], attrs, xmlns, xmlnsPrefix, ctx⟩
  let elem ← (match text with
    | none => pure elem
    | some t => elem.appendAny (.text t) : Runs Element)
  match children with
  | none => pure elem
  | some cs => elem.appendAllAny cs

end ElementF

namespace ParseTree

/-- the loop of `to_dom`, parsing.rs:107-117 -/
def toDomLoopAny : Nat → List (Nat × PTNode) → Runs (List (Nat × PTNode))
  | 0, d => pure d
  | i + 1, d => do
    let node ← of (Res.unwrap (LMap.get d (i + 1)))
    let d := LMap.remove d (i + 1)
    let value := flipElement node.value
    let parentIndex ← of (Res.unwrap node.parent)
    let p ← of (Res.unwrap (LMap.get d parentIndex))
    let e ← of (expect p.value.asElement)
    let e ← e.appendAny value
    toDomLoopAny i (LMap.insert d parentIndex ⟨.element e, p.parent⟩)

/-- `to_dom`, parsing.rs:96-129 -/
def toDomAny (t : ParseTree) : Runs Element :=
  if t.data.isEmpty then of (.err (.parsing .noRootElement none))
  else do
    let d ← toDomLoopAny (t.data.length - 1) t.data
    let root ← of (Res.unwrap (LMap.get d 0))
    let e ← of (expect root.value.asElement)
    pure e.reverseChildren

end ParseTree

/-- `parse_new_element`, lib.rs:620-691 -/
def parseNewElementAny (tagContent buffer : Str) (spanStart : Nat) (parent : Option Element) : Runs Element :=
  match quoteAwareSplit tagContent with
  | [] => of (.err (errAt .emptyTag buffer spanStart))
  | components => do
    let components := joinSpacedAttributes components
    let attrs ← of (parseAttrs buffer spanStart (components.drop 1) SMap.empty)
    let name ← of (Res.unwrap components[0]?)
    let (inhDefault, inhCtx) : Option Str × Option SMap := match parent with
      | none => (none, none)
      | some p => (p.defaultNamespace, some p.ctx)
    let (name, xmlns, pfx) ← of (if contains name c%":" then do
        let (a, b) ← Res.unwrap (splitOnce ':' name)
        let key := c%"xmlns:" ++ a
        if attrs.containsKey key then pure (b, attrs.get key, some a)
        else match inhCtx with
          | none => .err (errAt (.undefinedPrefix a) buffer spanStart)
          | some ctx => pure (b, ctx.get key, some a)
      else pure (name, none, none) : R (Str × Option Str × Option Str))
    let e ← ElementF.newAny name none (some attrs) xmlns pfx none
    e.setNamespaceContextAny inhDefault inhCtx

/-- one tag of the element loop, lib.rs:498-587: only a tag that opens an element loops over maps, so the others
are left to `handleTag` -/
def handleTagAny (buffer : Str) (tagStart : Nat) (slice : Str) (stack : ParseTree) : Runs ParseTree :=
  if startsWith slice c%"<!" || startsWith slice c%"</" then of (handleTag buffer tagStart slice stack)
  else do
    let tagDef ← of (Res.unwrap (stripTag slice))
    let _ ← of ((checkElementTag slice).mapErr (rewrap buffer tagStart))
    let top ← of stack.topElement
    let e ← parseNewElementAny tagDef buffer tagStart top
    of (if endsWith slice c%"/>" then (stack.append (.element e)).mapErr (rewrap buffer tagStart) else stack.push e)

/-- the element loop of `parse_str`, lib.rs:458-589 -/
def elementLoopAny (buffer : Str) (selfClosingRoot : Bool) : Nat → Nat × Nat → ParseTree → Runs ParseTree
  | 0, _, _ => of .diverge
  | fuel + 1, tagSpan, stack => do
    match ← of (Res.unwrap (nextTag buffer tagSpan.2)) with
    | (none, _) => pure stack
    | (some s, none) => of (.err (errAt .invalidSyntax buffer s))
    | (some s, some e) =>
      if selfClosingRoot then of (.err (errAt .onlyOneRoot buffer s))
      else
        let text ← of (Res.unwrap (sliceB tagSpan.2 s buffer))
        let content ← of (realText text)
        let stack ← of (match content with
          | none => .ok stack
          | some content => (stack.append (.text content)).mapErr (rewrap buffer s))
        let slice ← of (Res.unwrap (sliceB s e buffer))
        let stack ← handleTagAny buffer s slice stack
        elementLoopAny buffer selfClosingRoot fuel (s, e) stack

/-- `parse_str`, lib.rs:381-602 -/
def parseStrAny (buffer : Str) : Runs Document := do
  let fuel := blen buffer + 1
  let pro ← of (prologLoop buffer fuel ⟨none, [], 0, (0, 0)⟩)
  let rootSlice ← of (Res.unwrap (sliceB pro.tagSpan.1 pro.tagSpan.2 buffer))
  let stripped ← of (Res.unwrap (stripTag rootSlice))
  let root ← parseNewElementAny stripped buffer pro.tagSpan.1 none
  let stack ← of (ParseTree.new.push root)
  let selfClosing := endsWith rootSlice c%"/>"
  let stack ← of (if selfClosing then stack.pop else .ok stack)
  let stack ← elementLoopAny buffer selfClosing fuel pro.tagSpan stack
  if !stack.emptyStack then of (.err (.parsing .rootNotClosed none))
  else do
    let root ← stack.toDomAny
    pure (Document.newWithDeclDtd root pro.decl (some pro.dtds))

mutual
/-- `to_string_with_prefix_and_indent`, dom.rs:1415-1486 -/
def ElementF.toStringPIAny (pre indent : Str) (inline : Bool) : Element → Runs Str
  | ⟨name, cs, attrs, xmlns, pfx, ctx⟩ => do
    let tagName := ElementF.tagName ⟨name, cs, attrs, xmlns, pfx, ctx⟩
    let l ← anyOrder attrs
    let start := (if inline then [] else pre) ++ c%"<" ++ tagName ++ attrsToString (sortAttrs l)
    if cs.length == 0 then pure (start ++ c%"/>")
    else if cs.length == 1 && !(cs.any Node.isElement) then do
      let inner ← childrenToStringAny [] [] true cs
      pure (start ++ (c%">" ++ inner ++ c%"</" ++ tagName ++ c%">"))
    else do
      let inline := inline || cs.any Node.isText
      let inner ← childrenToStringAny (pre ++ indent) indent inline cs
      pure (start ++ (c%">" ++ (if inline then [] else c%"\n") ++ inner ++ (if inline then [] else pre) ++
        c%"</" ++ tagName ++ c%">"))
/-- the loop of dom.rs:1461-1478 -/
def childrenToStringAny (pre indent : Str) (inline : Bool) : List Node → Runs Str
  | [] => pure []
  | c :: cs => do
    let first ← Node.toStringPIAny pre indent inline c
    let rest ← childrenToStringAny pre indent inline cs
    pure (first ++ (if inline then [] else c%"\n") ++ rest)
/-- the body of the loop, dom.rs:1462-1476 -/
def Node.toStringPIAny (pre indent : Str) (inline : Bool) : Node → Runs Str
  | .text t => pure (textEscape t)
  | .element e => ElementF.toStringPIAny pre indent inline e
  | .comment c => pure ((if inline then [] else pre) ++ commentToString c)
  | .cdata c => pure ((if inline then [] else pre) ++ cdataToString c)
end

/-- `Element::to_string_with_indent`, dom.rs:1543-1551 -/
def ElementF.toStringWithIndentAny (e : Element) (indent : Str) : Runs Str :=
  if validateIndent indent then e.toStringPIAny [] indent false else e.toStringPIAny [] c%"  " false

/-! ## programs that change an element -/

/-- a call of a method that changes an element, or such a call for one of its child elements (reached with
`children_mut` and `as_element_mut`, dom.rs:864-866, 1527) -/
inductive Call where
  | setAttr (k v : Str) | removeAttr (k : Str) | clearAttributes
  | setText (t : Str) | clearChildren
  | append (n : Node) | appendAll (l : List Node) | insert (i : Nat) (n : Node)
  | remove (i : Nat) | removeElement (i : Nat) | removeElementsByName (n : Str)
  | removeBy (p : Node → Bool) | removeAll (p : Node → Bool)
  | removeElements (p : Element → Bool) | removeAllElements (p : Element → Bool)
  | inChild (i : Nat) (c : Call)

/-- the element after the call; a call for a child that is not an element does nothing -/
def Call.run : Call → Element → R Element
  | .setAttr k v, e => e.setAttr k v
  | .removeAttr k, e => .ok (e.removeAttr k).2
  | .clearAttributes, e => .ok e.clearAttributes
  | .setText t, e => e.setText t
  | .clearChildren, e => .ok e.clearChildren
  | .append n, e => e.append n
  | .appendAll l, e => e.appendAll l
  | .insert i n, e => e.insert i n
  | .remove i, e => do let r ← e.remove i; pure r.2
  | .removeElement i, e => do let r ← e.removeElement i; pure r.2
  | .removeElementsByName n, e => do let r ← e.removeElementsByName n; pure r.1
  | .removeBy p, e => do let r ← e.removeBy p; pure r.1
  | .removeAll p, e => do let r ← e.removeAll p; pure r.1
  | .removeElements p, e => do let r ← e.removeElements p; pure r.1
  | .removeAllElements p, e => do let r ← e.removeAllElements p; pure r.1
  | .inChild i c, e => match e.children[i]? with
    | some (.element k) => do let k ← c.run k; pure { e with children := e.children.set i (.element k) }
    | _ => .ok e

/-- the same with the order of the maps left open: only the calls that add nodes loop over maps -/
def Call.runAny : Call → Element → Runs Element
  | .setText t, e => e.clearChildren.appendAny (.text t)
  | .append n, e => e.appendAny n
  | .appendAll l, e => e.appendAllAny l
  | .insert i n, e => e.insertAny i n
  | .inChild i c, e => match e.children[i]? with
    | some (.element k) => do let k ← c.runAny k; pure { e with children := e.children.set i (.element k) }
    | _ => pure e
  | c, e => of (c.run e)

/-- one call after the other, up to the first error -/
def runCalls : List Call → Element → R Element
  | [], e => .ok e
  | c :: cs, e => do let e ← c.run e; runCalls cs e

/-- the same with the order of the maps left open -/
def runCallsAny : List Call → Element → Runs Element
  | [], e => pure e
  | c :: cs, e => do let e ← c.runAny e; runCallsAny cs e

end KissXml
