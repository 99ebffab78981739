import Verif.Model.Cost
/-!
# The parser with a counter for compiled regular expressions

`check_attr_name`, `check_elem_name`, `Text::is_whitespace`, `check_element_tag` and `real_text` keep their pattern in a `OnceCell` to compile it
only once.  But the cells are `const` items (dom.rs:980, 994, 1639; lib.rs:728, 866): every use of such a name is a new cell, so that
`get_or_init` always finds it empty.  Here `pattern` stands for such a use; it counts the calls of `Regex::new`.
-/
namespace KissXml
open Run

/-- `OnceCell::get_or_init`: the value, the cell after the call, and how often the closure was called -/
def getOrInit {α : Type} (cell : Option α) (init : α) : α × Option α × Nat :=
  match cell with
  | some a => (a, some a, 0)
  | none => (init, some init, 1)

/-- uses of one cell, one after the other, as of a `static` item: how often the closure is called -/
def staticUses {α : Type} (init : α) : Nat → Option α → Nat
  | 0, _ => 0
  | n + 1, cell => (getOrInit cell init).2.2 + staticUses init n (getOrInit cell init).2.1

/-- uses of a `const` item, `let singleton = CELL;` (dom.rs:983, 997, 1658; lib.rs:731, 871): each begins with the empty cell -/
def constUses {α : Type} (init : α) : Nat → Nat
  | 0 => 0
  | n + 1 => (getOrInit (none : Option α) init).2.2 + constUses init n

/-- one use of a pattern -/
def pattern : Run Unit := rounds (constUses () 1)

/-- the loop over the attributes of `Element::new`, dom.rs:450-454 -/
def checkAttrsComp : List (Str × Str) → Run Unit
  | [] => pure ()
  | kv :: l => do
    pattern
    free (checkAttrName kv.1)
    checkAttrsComp l

/-- `Element::new`, dom.rs:435-497, without text and children -/
def newComp (name : Str) (attrs : SMap) (xmlns pfx : Option Str) : Run Element := do
  pattern
  free (checkElemName name)
  checkAttrsComp attrs.entries
  free (ElementF.new name none (some attrs) xmlns pfx none)

/-- `real_text`, lib.rs:869-878. -/
def realTextComp (text : Str) : Run (Option Str) := do
  pattern
  free (realText text)

/-- `parse_new_element`, lib.rs:620-691. -/
def parseNewElementComp (tagContent buffer : Str) (spanStart : Nat) (parent : Option Element) : Run Element := do
  match quoteAwareSplit tagContent with
  | [] => free (.err (errAt .emptyTag buffer spanStart))
  | components => do
    let components := joinSpacedAttributes components
    let attrs ← free (parseAttrs buffer spanStart (components.drop 1) SMap.empty)
    let name ← free (Res.unwrap components[0]?)
    let (inhDefault, inhCtx) : Option Str × Option SMap := match parent with
      | none => (none, none)
      | some p => (p.defaultNamespace, some p.ctx)
    let (name, xmlns, pfx) ← (if contains name c%":" then do
        let (a, b) ← free (Res.unwrap (splitOnce ':' name))
        let key := c%"xmlns:" ++ a
        if attrs.containsKey key then pure (b, attrs.get key, some a)
        else match inhCtx with
          | none => free (.err (errAt (.undefinedPrefix a) buffer spanStart))
          | some ctx => pure (b, ctx.get key, some a)
      else pure (name, none, none) : Run (Str × Option Str × Option Str))
    let e ← newComp name attrs xmlns pfx
    pure (e.setNamespaceContext inhDefault inhCtx)

/-- the prolog loop of `parse_str`, lib.rs:388-449 -/
def prologLoopComp (buffer : Str) : Nat → Prolog → Run Prolog
  | 0, _ => free .diverge
  | fuel + 1, st => do
    match ← free (Res.unwrap (nextTag buffer st.tagSpan.2)) with
    | (none, _) => free (.err (.parsing .noXmlContent none))
    | (some tagStart, none) => free (.err (errAt .unmatchedLt buffer tagStart))
    | (some tagStart, some tagEnd) =>
      let textBetween ← free (Res.unwrap (sliceB st.tagSpan.2 tagStart buffer))
      if (← realTextComp textBetween).isSome then free (.err (errAt .textOutsideRoot buffer st.tagSpan.2))
      else
        let slice ← free (Res.unwrap (sliceB tagStart tagEnd buffer))
        let span := (tagStart, tagEnd)
        if startsWith slice c%"<?xml" then
          if st.tagSpan.1 ≠ 0 then free (.err (errAt .declNotAtStart buffer tagStart))
          else
            let d ← free (Declaration.fromStr slice)
            prologLoopComp buffer fuel { st with decl := some d, tagSpan := span }
        else if startsWith slice c%"<!--" then
          let _ ← free (if st.noCommentWarn = 0 then Res.unwrap (abbreviate slice 32) else pure [] : R Str)
          prologLoopComp buffer fuel { st with noCommentWarn := st.noCommentWarn + 1, tagSpan := span }
        else if startsWith slice c%"<!DOCTYPE" then
          let d ← free (DTD.fromString slice)
          prologLoopComp buffer fuel { st with dtds := st.dtds ++ [d], tagSpan := span }
        else if startsWith slice c%"<!" then
          prologLoopComp buffer fuel { st with tagSpan := span }
        else if startsWith slice c%"</" then free (.err (errAt .startsWithClosing buffer tagStart))
        else
          pattern
          let _ ← free ((checkElementTag slice).mapErr (fun _ => errAt .invalidSyntax buffer tagStart))
          pure { st with tagSpan := span }

/-- the part of the element loop of `parse_str` that handles one tag, lib.rs:498-587; comments and CDATA sections need no pattern -/
def handleTagComp (buffer : Str) (tagStart : Nat) (slice : Str) (stack : ParseTree) : Run ParseTree :=
  if startsWith slice c%"<!" then free (handleTag buffer tagStart slice stack)
  else do
    let tagDef ← free (Res.unwrap (stripTag slice))
    pattern
    let _ ← free ((checkElementTag slice).mapErr (rewrap buffer tagStart))
    if startsWith slice c%"</" then
      match ← free stack.topElement with
      | none => free (.err (errAt .rootAlreadyClosed buffer tagStart))
      | some active =>
        if tagDef ≠ active.tagName then free (.err (errAt (.closingMismatch slice active.tagName) buffer tagStart))
        else free stack.pop
    else
      let top ← free stack.topElement
      let e ← parseNewElementComp tagDef buffer tagStart top
      if endsWith slice c%"/>" then free ((stack.append (.element e)).mapErr (rewrap buffer tagStart))
      else free (stack.push e)

/-- the element loop of `parse_str`, lib.rs:458-589. -/
def elementLoopComp (buffer : Str) (selfClosingRoot : Bool) : Nat → Nat × Nat → ParseTree → Run ParseTree
  | 0, _, _ => free .diverge
  | fuel + 1, tagSpan, stack => do
    match ← free (Res.unwrap (nextTag buffer tagSpan.2)) with
    | (none, _) => pure stack
    | (some s, none) => free (.err (errAt .invalidSyntax buffer s))
    | (some s, some e) =>
      if selfClosingRoot then free (.err (errAt .onlyOneRoot buffer s))
      else
        let text ← free (Res.unwrap (sliceB tagSpan.2 s buffer))
        let stack ← (match ← realTextComp text with
          | none => pure stack
          | some content => free ((stack.append (.text content)).mapErr (rewrap buffer s)) : Run ParseTree)
        let slice ← free (Res.unwrap (sliceB s e buffer))
        let stack ← handleTagComp buffer s slice stack
        elementLoopComp buffer selfClosingRoot fuel (s, e) stack

/-- one round of the removal loop of `cleanup_text_nodes`, dom.rs:1212-1217 -/
def dropOneComp (n : Node) (index : Nat) (l : List Node) : Run (List Node) :=
  if n.isText then do
    let t ← free (expect n.asText)
    pattern
    if textIsWhitespace t then do
      let (_, l) ← free (Res.unwrap (vecRemove l index))
      pure l
    else pure l
  else pure l

/-- the removal loop of `cleanup_text_nodes`, dom.rs:1210-1219 -/
def dropWsComp (index : Nat) (l : List Node) : Run (List Node) := do
  let n ← free (Res.unwrap l[index]?)
  let l ← dropOneComp n index l
  match index with
  | 0 => pure l
  | i + 1 => dropWsComp i l

/-- `cleanup_text_nodes`, dom.rs:1192-1221 -/
def cleanupTextNodesComp (l : List Node) : Run (List Node) :=
  if l.length = 0 then pure l
  else do
    let l ← free (mergeTextLoop (l.length - 1) l)
    if l.length > 0 then dropWsComp (l.length - 1) l else free .panic

/-- `append_boxed`, dom.rs:1167-1172. -/
def appendComp (e : Element) (n : Node) : Run Element := do
  let n := applyXmlnsContext e.defaultNamespace e.ctx n
  let l ← cleanupTextNodesComp (e.children ++ [n])
  pure { e with children := l }

/-- one call of `append` for each node -/
def appendEachComp : List Node → Element → Run Element
  | [], e => pure e
  | n :: l, e => do
    let e ← appendComp e n
    appendEachComp l e

/-- the loop of `to_dom`, parsing.rs:107-117 -/
def toDomLoopComp : Nat → List (Nat × PTNode) → Run (List (Nat × PTNode))
  | 0, d => pure d
  | i + 1, d => do
    let node ← free (Res.unwrap (LMap.get d (i + 1)))
    let d := LMap.remove d (i + 1)
    let value := ParseTree.flipElement node.value
    let parentIndex ← free (Res.unwrap node.parent)
    let p ← free (Res.unwrap (LMap.get d parentIndex))
    let e ← free (expect p.value.asElement)
    let e ← appendComp e value
    toDomLoopComp i (LMap.insert d parentIndex ⟨.element e, p.parent⟩)

/-- `to_dom`, parsing.rs:96-129. -/
def toDomComp (t : ParseTree) : Run Element :=
  if t.data.isEmpty then free (.err (.parsing .noRootElement none))
  else do
    let d ← toDomLoopComp (t.data.length - 1) t.data
    let root ← free (Res.unwrap (LMap.get d 0))
    let e ← free (expect root.value.asElement)
    pure e.reverseChildren

/-- `parse_str`, lib.rs:381-602. -/
def parseStrComp (buffer : Str) : Run Document := do
  let fuel := blen buffer + 1
  let pro ← prologLoopComp buffer fuel ⟨none, [], 0, (0, 0)⟩
  let rootSlice ← free (Res.unwrap (sliceB pro.tagSpan.1 pro.tagSpan.2 buffer))
  let stripped ← free (Res.unwrap (stripTag rootSlice))
  let root ← parseNewElementComp stripped buffer pro.tagSpan.1 none
  let stack ← free (ParseTree.new.push root)
  let selfClosing := endsWith rootSlice c%"/>"
  let stack ← free (if selfClosing then stack.pop else pure stack : R ParseTree)
  let stack ← elementLoopComp buffer selfClosing fuel pro.tagSpan stack
  if !stack.emptyStack then free (.err (.parsing .rootNotClosed none))
  else do
    let root ← toDomComp stack
    pure (Document.newWithDeclDtd root pro.decl (some pro.dtds))

end KissXml
