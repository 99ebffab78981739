import Verif.Model.Parse
/-!
# The parser with a counter

The same definitions as in `Model/Escape.lean`, `Model/Dom.lean`, `Model/ParseTree.lean` and `Model/Parse.lean`, which also count
the rounds of these loops of `parse_str`:

* `next_tag` with `quote_aware_find` and `nested_quote_aware_find_close`: one for every character of a `char_indices()` loop and
  one for every position that `str::find` tries;
* `quote_aware_split`: one for every character;
* the inner loop of `unescape`: one for every character;
* both loops of `cleanup_text_nodes`: one for every index;
* the loop of `set_namespace_context`: one for every prefix of the parent;
* the loop of `to_dom`: one for every node.

`C94_same` says that the results are those of the definitions without a counter.

Not counted: copying of strings, comparisons, regular expressions (linear in the text by the documentation of the regex crate),
operations of `HashMap` and `Vec`, the loop of `line_and_column` (at most once for one input, when an error is made), and what is
done once for every attribute.
-/
namespace KissXml

/-- the `for (j, k) in slice.char_indices()` loop of `unescape`, lib.rs:291-328, as `unescapeInner` -/
def unescapeInnerC (i : Nat) (slice : Str) : Nat → Str → Str → Nat → Option (Str × Nat) × Nat
  | _, [], buffer, charSize => (some (buffer, charSize), 0)
  | j, k :: rest, buffer, _ =>
    let charSize := k.utf8Size
    if k = ';' then
      match takeB j slice with
      | none => (none, 1)
      | some sl =>
        match unescapeAt buffer charSize i (i + j + 1) sl with
        | none => (none, 1)
        | some (buffer', charSize') =>
          let r := unescapeInnerC i slice (j + k.utf8Size) rest buffer' charSize'
          (r.1, r.2 + 1)
    else
      let r := unescapeInnerC i slice (j + k.utf8Size) rest buffer charSize
      (r.1, r.2 + 1)

/-- the outer `loop` of `unescape`, lib.rs:282-332, as `unescapeLoop`: the rounds of the inner loop are counted -/
def unescapeLoopC {ε : Type} : Nat → Str → Nat → Res ε Str × Nat
  | 0, _, _ => (.diverge, 0)
  | fuel + 1, buffer, lastI =>
    if lastI ≥ blen buffer then (.ok buffer, 0)
    else
      match dropB lastI buffer with
      | none => (.panic, 0)
      | some tail =>
        match find c%"&" tail with
        | none => (.ok buffer, 0)
        | some i0 =>
          let i := i0 + lastI
          match dropB i buffer with
          | none => (.panic, 0)
          | some slice =>
            match unescapeInnerC i slice 0 slice buffer 1 with
            | (none, n) => (.panic, n)
            | (some (buffer', charSize), n) =>
              let r := unescapeLoopC fuel buffer' (i + charSize)
              (r.1, r.2 + n)

/-- `unescape`, lib.rs:279-334. -/
def unescapeC {ε : Type} (text : Str) : Res ε Str × Nat := unescapeLoopC (blen text + 1) text 0

/-- `str::find(pat)`: the positions tried -/
def findC (pat : Str) : Str → Option Nat × Nat
  | [] => (if startsWith [] pat then some 0 else none, 0)
  | c :: s =>
    if startsWith (c :: s) pat then (some 0, 1)
    else ((findC pat s).1.map (c.utf8Size + ·), (findC pat s).2 + 1)

/-- loop of `quote_aware_find`, lib.rs:814-830, as `qafLoop` -/
def qafLoopC (pattern : Str) : Nat → Option Char → Str → Option Nat × Nat
  | _, _, [] => (none, 0)
  | i, some q, c :: s =>
    let r := if c = q then qafLoopC pattern (i + c.utf8Size) none s else qafLoopC pattern (i + c.utf8Size) (some q) s
    (r.1, r.2 + 1)
  | i, none, c :: s =>
    let r :=
      if c = '"' then qafLoopC pattern (i + c.utf8Size) (some '"') s
      else if c = '\'' then qafLoopC pattern (i + c.utf8Size) (some '\'') s
      else if startsWith (c :: s) pattern then (some i, 0)
      else qafLoopC pattern (i + c.utf8Size) none s
    (r.1, r.2 + 1)

/-- `quote_aware_find`, lib.rs:811-832 -/
def quoteAwareFindC (text pattern : Str) (from_ : Nat) : Option (Option Nat × Nat) :=
  (dropB from_ text).map (qafLoopC pattern from_ none)

/-- loop of `nested_quote_aware_find_close`, lib.rs:839-860, as `nestedLoop` -/
def nestedLoopC : Nat → Nat → Option Char → Str → Option Nat × Nat
  | _, _, _, [] => (none, 0)
  | i, depth, some q, c :: s =>
    let r := if c = q then nestedLoopC (i + c.utf8Size) depth none s else nestedLoopC (i + c.utf8Size) depth (some q) s
    (r.1, r.2 + 1)
  | i, depth, none, c :: s =>
    let r :=
      if c = '"' then nestedLoopC (i + c.utf8Size) depth (some '"') s
      else if c = '\'' then nestedLoopC (i + c.utf8Size) depth (some '\'') s
      else if c = '<' then nestedLoopC (i + c.utf8Size) (depth + 1) none s
      else if c = '>' then
        match depth with
        | 0 => (some i, 0)
        | d + 1 => nestedLoopC (i + c.utf8Size) d none s
      else nestedLoopC (i + c.utf8Size) depth none s
    (r.1, r.2 + 1)

/-- `nested_quote_aware_find_close`, lib.rs:835-862. -/
def nestedQuoteAwareFindCloseC (text : Str) (from_ : Nat) : Option (Option Nat × Nat) :=
  (dropB from_ text).map (nestedLoopC from_ 0 none)

/-- `next_tag`, lib.rs:747-773, as `nextTag` -/
def nextTagC (buffer : Str) (from_ : Nat) : Option ((Option Nat × Option Nat) × Nat) :=
  (dropB from_ buffer).bind fun tail =>
  match findC c%"<" tail with
  | (none, n) => some ((none, none), n)
  | (some i, n) =>
    let start := i + from_
    (dropB start buffer).bind fun sub =>
    if startsWith sub c%"<!--" then
      some ((some start, (findC c%"-->" sub).1.map (· + start + 3)), n + (findC c%"-->" sub).2)
    else if startsWith sub c%"<?" then
      (quoteAwareFindC sub c%"?>" 2).map fun r => ((some start, r.1.map (· + start + 2)), n + r.2)
    else if startsWith sub c%"<![CDATA[" then
      some ((some start, (findC c%"]]>" sub).1.map (· + start + 3)), n + (findC c%"]]>" sub).2)
    else if startsWith sub c%"<!" then
      (nestedQuoteAwareFindCloseC sub 2).map fun r => ((some start, r.1.map (· + start + 1)), n + r.2)
    else (quoteAwareFindC sub c%">" 1).map fun r => ((some start, r.1.map (· + start + 1)), n + r.2)

/-- What `parse_str` does with `next_tag` (lib.rs:388-389 and 458-460): it calls it again and again, each time from the end of
the tag found before (`tag_span.1`).  The counts of the first `calls` calls are added. -/
def tagsC : Nat → Str → Nat → Nat
  | 0, _, _ => 0
  | calls + 1, buffer, from_ =>
    match nextTagC buffer from_ with
    | none => 0
    | some ((_, none), n) => n
    | some ((_, some e), n) => n + tagsC calls buffer e

/-- a result together with a number of rounds -/
structure Run (α : Type) where
  out : R α
  count : Nat

namespace Run
/-- first the one, then the other -/
def bind {α β : Type} (r : Run α) (f : α → Run β) : Run β :=
  match r.out with
  | .ok a => ⟨(f a).out, r.count + (f a).count⟩
  | .err e => ⟨.err e, r.count⟩
  | .panic => ⟨.panic, r.count⟩
  | .diverge => ⟨.diverge, r.count⟩

instance : Monad Run where
  pure a := ⟨.ok a, 0⟩
  bind := Run.bind

/-- nothing is counted -/
def free {α : Type} (r : R α) : Run α := ⟨r, 0⟩
/-- `n` rounds -/
def rounds (n : Nat) : Run Unit := ⟨.ok (), n⟩
end Run
open Run

/-- `unescape`, lib.rs:279-334. -/
def unescapeRun (text : Str) : Run Str := ⟨(unescapeC text).1, (unescapeC text : R Str × Nat).2⟩

/-- `next_tag`, lib.rs:747-773 -/
def nextTagRun (buffer : Str) (from_ : Nat) : Run (Option Nat × Option Nat) :=
  match nextTagC buffer from_ with
  | none => ⟨.panic, 0⟩
  | some (r, n) => ⟨.ok r, n⟩

/-- `real_text`, lib.rs:869-878. -/
def realTextRun (text : Str) : Run (Option Str) :=
  if text.all isWs then pure none
  else do
    let s ← unescapeRun text
    pure (some s)

/-- the attribute loop of `parse_new_element`, lib.rs:632-657. -/
def parseAttrsRun (buffer : Str) (spanStart : Nat) : List Str → SMap → Run SMap
  | [], attrs => pure attrs
  | kv :: rest, attrs =>
    if !contains kv c%"=" then free (.err (errAt .attrForm buffer spanStart))
    else do
      let (k, v) ← free (Res.unwrap (splitOnce '=' kv))
      if blen v = 0 then free (.err (errAt .attrNoContent buffer spanStart))
      else if blen v < 2 || !((startsWith v c%"\"" && endsWith v c%"\"") || (startsWith v c%"'" && endsWith v c%"'")) then
        free (.err (errAt .attrUnquoted buffer spanStart))
      else do
        let v ← free (Res.unwrap (sliceB 1 (blen v - 1) v))
        let u ← unescapeRun v
        parseAttrsRun buffer spanStart rest (attrs.insert k u)

/-- the loop over `parent_prefixes` of `set_namespace_context`, dom.rs:818-827 -/
def setNamespaceContextRun (e : Element) (parentDefault : Option Str) (parentPrefixes : Option SMap) : Run Element := do
  rounds (match parentPrefixes with | none => 0 | some ps => ps.len)
  pure (e.setNamespaceContext parentDefault parentPrefixes)

/-- `parse_new_element`, lib.rs:620-691. -/
def parseNewElementRun (tagContent buffer : Str) (spanStart : Nat) (parent : Option Element) : Run Element := do
  rounds tagContent.length
  match quoteAwareSplit tagContent with
  | [] => free (.err (errAt .emptyTag buffer spanStart))
  | components => do
    let components := joinSpacedAttributes components
    let attrs ← parseAttrsRun buffer spanStart (components.drop 1) SMap.empty
    let name ← free (Res.unwrap components[0]?)
    let (inhDefault, inhCtx) : Option Str × Option SMap := match parent with
      | none => (none, none)
      | some p => (p.defaultNamespace, some p.ctx)
    let (name, xmlns, pfx) ← (if contains name c%":" then do
        let (a, b) ← free (Res.unwrap (splitOnce ':' name))
        let key := c%"xmlns:" ++ a
        if attrs.containsKey key then pure (b, attrs.get key, some a)
        else match inhCtx with
          | none => free (.err (errAt (.undefinedPrefix a) buffer spanStart))
          | some ctx => pure (b, ctx.get key, some a)
      else pure (name, none, none) : Run (Str × Option Str × Option Str))
    let e ← free (ElementF.new name none (some attrs) xmlns pfx none)
    setNamespaceContextRun e inhDefault inhCtx

/-- the prolog loop of `parse_str`, lib.rs:388-449 -/
def prologLoopRun (buffer : Str) : Nat → Prolog → Run Prolog
  | 0, _ => free .diverge
  | fuel + 1, st => do
    match ← nextTagRun buffer st.tagSpan.2 with
    | (none, _) => free (.err (.parsing .noXmlContent none))
    | (some tagStart, none) => free (.err (errAt .unmatchedLt buffer tagStart))
    | (some tagStart, some tagEnd) =>
      let textBetween ← free (Res.unwrap (sliceB st.tagSpan.2 tagStart buffer))
      if (← realTextRun textBetween).isSome then free (.err (errAt .textOutsideRoot buffer st.tagSpan.2))
      else
        let slice ← free (Res.unwrap (sliceB tagStart tagEnd buffer))
        let span := (tagStart, tagEnd)
        if startsWith slice c%"<?xml" then
          if st.tagSpan.1 ≠ 0 then free (.err (errAt .declNotAtStart buffer tagStart))
          else
            let d ← free (Declaration.fromStr slice)
            prologLoopRun buffer fuel { st with decl := some d, tagSpan := span }
        else if startsWith slice c%"<!--" then
          let _ ← free (if st.noCommentWarn = 0 then Res.unwrap (abbreviate slice 32) else pure [] : R Str)
          prologLoopRun buffer fuel { st with noCommentWarn := st.noCommentWarn + 1, tagSpan := span }
        else if startsWith slice c%"<!DOCTYPE" then
          let d ← free (DTD.fromString slice)
          prologLoopRun buffer fuel { st with dtds := st.dtds ++ [d], tagSpan := span }
        else if startsWith slice c%"<!" then
          prologLoopRun buffer fuel { st with tagSpan := span }
        else if startsWith slice c%"</" then free (.err (errAt .startsWithClosing buffer tagStart))
        else
          let _ ← free ((checkElementTag slice).mapErr (fun _ => errAt .invalidSyntax buffer tagStart))
          pure { st with tagSpan := span }

/-- the part of the element loop of `parse_str` that handles one tag, lib.rs:498-587: a new element is counted, the rest is as in
`handleTag` -/
def handleTagRun (buffer : Str) (tagStart : Nat) (slice : Str) (stack : ParseTree) : Run ParseTree :=
  if startsWith slice c%"<!" || startsWith slice c%"</" then free (handleTag buffer tagStart slice stack)
  else do
    let tagDef ← free (Res.unwrap (stripTag slice))
    let _ ← free ((checkElementTag slice).mapErr (rewrap buffer tagStart))
    let top ← free stack.topElement
    let e ← parseNewElementRun tagDef buffer tagStart top
    if endsWith slice c%"/>" then free ((stack.append (.element e)).mapErr (rewrap buffer tagStart))
    else free (stack.push e)

/-- the element loop of `parse_str`, lib.rs:458-589. -/
def elementLoopRun (buffer : Str) (selfClosingRoot : Bool) : Nat → Nat × Nat → ParseTree → Run ParseTree
  | 0, _, _ => free .diverge
  | fuel + 1, tagSpan, stack => do
    match ← nextTagRun buffer tagSpan.2 with
    | (none, _) => pure stack
    | (some s, none) => free (.err (errAt .invalidSyntax buffer s))
    | (some s, some e) =>
      if selfClosingRoot then free (.err (errAt .onlyOneRoot buffer s))
      else
        let text ← free (Res.unwrap (sliceB tagSpan.2 s buffer))
        let stack ← (match ← realTextRun text with
          | none => pure stack
          | some content => free ((stack.append (.text content)).mapErr (rewrap buffer s)) : Run ParseTree)
        let slice ← free (Res.unwrap (sliceB s e buffer))
        let stack ← handleTagRun buffer s slice stack
        elementLoopRun buffer selfClosingRoot fuel (s, e) stack

/-- the merge loop of `cleanup_text_nodes`, dom.rs:1197-1207 -/
def mergeTextRun : Nat → List Node → Run (List Node)
  | 0, l => pure l
  | index + 1, l => do
    rounds 1
    let back ← free (Res.unwrap l[index + 1]?)
    let front ← free (Res.unwrap l[index]?)
    if back.isText && front.isText then
      let (back, l) ← free (Res.unwrap (vecRemove l (index + 1)))
      let (front, l) ← free (Res.unwrap (vecRemove l index))
      let ft ← free (expect front.asText)
      let bt ← free (expect back.asText)
      let l ← free (Res.unwrap (vecInsert l index (.text (textConcat ft bt))))
      mergeTextRun index l
    else mergeTextRun index l

/-- the removal loop of `cleanup_text_nodes`, dom.rs:1210-1219 -/
def dropWsRun (index : Nat) (l : List Node) : Run (List Node) := do
  rounds 1
  let n ← free (Res.unwrap l[index]?)
  let l ← free (if n.isText then do
      let t ← expect n.asText
      if textIsWhitespace t then do
        let (_, l) ← Res.unwrap (vecRemove l index)
        pure l
      else pure l
    else pure l)
  match index with
  | 0 => pure l
  | i + 1 => dropWsRun i l

/-- `cleanup_text_nodes`, dom.rs:1192-1221 -/
def cleanupTextNodesRun (l : List Node) : Run (List Node) :=
  if l.length = 0 then pure l
  else do
    let l ← mergeTextRun (l.length - 1) l
    if l.length > 0 then dropWsRun (l.length - 1) l else free .panic

/-- `apply_xmlns_context_to_child_node`, dom.rs:1174-1190. -/
def applyXmlnsContextRun (dflt : Option Str) (ctx : SMap) : Node → Run Node
  | .element e => do
    let e ← setNamespaceContextRun e dflt (some ctx)
    pure (.element e)
  | n => pure n

/-- `append_boxed`, dom.rs:1167-1172. -/
def appendRun (e : Element) (n : Node) : Run Element := do
  let n ← applyXmlnsContextRun e.defaultNamespace e.ctx n
  let l ← cleanupTextNodesRun (e.children ++ [n])
  pure { e with children := l }

/-- the loop of `to_dom`, parsing.rs:107-117 -/
def toDomLoopRun : Nat → List (Nat × PTNode) → Run (List (Nat × PTNode))
  | 0, d => pure d
  | i + 1, d => do
    rounds 1
    let node ← free (Res.unwrap (LMap.get d (i + 1)))
    let d := LMap.remove d (i + 1)
    let value := ParseTree.flipElement node.value
    let parentIndex ← free (Res.unwrap node.parent)
    let p ← free (Res.unwrap (LMap.get d parentIndex))
    let e ← free (expect p.value.asElement)
    let e ← appendRun e value
    toDomLoopRun i (LMap.insert d parentIndex ⟨.element e, p.parent⟩)

/-- `to_dom`, parsing.rs:96-129. -/
def toDomRun (t : ParseTree) : Run Element :=
  if t.data.isEmpty then free (.err (.parsing .noRootElement none))
  else do
    let d ← toDomLoopRun (t.data.length - 1) t.data
    let root ← free (Res.unwrap (LMap.get d 0))
    let e ← free (expect root.value.asElement)
    pure e.reverseChildren

/-- `parse_str`, lib.rs:381-602. -/
def parseStrRun (buffer : Str) : Run Document := do
  let fuel := blen buffer + 1
  let pro ← prologLoopRun buffer fuel ⟨none, [], 0, (0, 0)⟩
  let rootSlice ← free (Res.unwrap (sliceB pro.tagSpan.1 pro.tagSpan.2 buffer))
  let stripped ← free (Res.unwrap (stripTag rootSlice))
  let root ← parseNewElementRun stripped buffer pro.tagSpan.1 none
  let stack ← free (ParseTree.new.push root)
  let selfClosing := endsWith rootSlice c%"/>"
  let stack ← free (if selfClosing then stack.pop else pure stack : R ParseTree)
  let stack ← elementLoopRun buffer selfClosing fuel pro.tagSpan stack
  if !stack.emptyStack then free (.err (.parsing .rootNotClosed none))
  else do
    let root ← toDomRun stack
    pure (Document.newWithDeclDtd root pro.decl (some pro.dtds))

end KissXml
