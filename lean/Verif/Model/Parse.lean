import Verif.Model.Regex
import Verif.Model.ParseTree
/-!
# The parser (`/repo/src/lib.rs` 361-893)
-/
namespace KissXml

/-! ## scanning helpers -/

/-- loop of `quote_aware_find`, lib.rs:814-830.  Arguments: pattern, offset `from + i`, the quote character
when `in_quote` (so `in_quote`/`quote_char` become one `Option Char`), the text from that offset on. -/
def qafLoop (pattern : Str) : Nat → Option Char → Str → Option Nat
  | _, _, [] => none
  | i, some q, c :: s => if c = q then qafLoop pattern (i + c.utf8Size) none s
      else qafLoop pattern (i + c.utf8Size) (some q) s
  | i, none, c :: s =>
    if c = '"' then qafLoop pattern (i + c.utf8Size) (some '"') s
    else if c = '\'' then qafLoop pattern (i + c.utf8Size) (some '\'') s
    else if startsWith (c :: s) pattern then some i
    else qafLoop pattern (i + c.utf8Size) none s

/-- `quote_aware_find`, lib.rs:811-832 (outer `none` = panic of `text[from..]`). -/
def quoteAwareFind (text pattern : Str) (from_ : Nat) : Option (Option Nat) :=
  (dropB from_ text).map (qafLoop pattern from_ none)

/-- loop of `nested_quote_aware_find_close`, lib.rs:839-860.  `depth` is never negative in the source
(it is only decremented when it is not 0), so a `Nat`. -/
def nestedLoop : Nat → Nat → Option Char → Str → Option Nat
  | _, _, _, [] => none
  | i, depth, some q, c :: s => if c = q then nestedLoop (i + c.utf8Size) depth none s
      else nestedLoop (i + c.utf8Size) depth (some q) s
  | i, depth, none, c :: s =>
    if c = '"' then nestedLoop (i + c.utf8Size) depth (some '"') s
    else if c = '\'' then nestedLoop (i + c.utf8Size) depth (some '\'') s
    else if c = '<' then nestedLoop (i + c.utf8Size) (depth + 1) none s
    else if c = '>' then
      match depth with
      | 0 => some i
      | d + 1 => nestedLoop (i + c.utf8Size) d none s
    else nestedLoop (i + c.utf8Size) depth none s

/-- `nested_quote_aware_find_close`, lib.rs:835-862. -/
def nestedQuoteAwareFindClose (text : Str) (from_ : Nat) : Option (Option Nat) :=
  (dropB from_ text).map (nestedLoop from_ 0 none)

/-- `next_tag`, lib.rs:747-773 (outer `none` = panic). -/
def nextTag (buffer : Str) (from_ : Nat) : Option (Option Nat × Option Nat) :=
  (dropB from_ buffer).bind fun tail =>
  match find c%"<" tail with
  | none => some (none, none)
  | some i =>
    let start := i + from_
    (dropB start buffer).bind fun sub =>
    if startsWith sub c%"<!--" then some (some start, (find c%"-->" sub).map (· + start + 3))
    else if startsWith sub c%"<?" then
      (quoteAwareFind sub c%"?>" 2).map fun r => (some start, r.map (· + start + 2))
    else if startsWith sub c%"<![CDATA[" then some (some start, (find c%"]]>" sub).map (· + start + 3))
    else if startsWith sub c%"<!" then
      (nestedQuoteAwareFindClose sub 2).map fun r => (some start, r.map (· + start + 1))
    else (quoteAwareFind sub c%">" 1).map fun r => (some start, r.map (· + start + 1))

/-- loop of `quote_aware_split`, lib.rs:781-807: `builder`, `in_quote`/`quote_char`, rest of the text. -/
def qasLoop : Str → Option Char → Str → List Str
  | builder, _, [] => if builder.isEmpty then [] else [builder]
  | builder, some q, c :: s =>
    if c = q then qasLoop (builder ++ [c]) none s else qasLoop (builder ++ [c]) (some q) s
  | builder, none, c :: s =>
    if c = '\'' ∨ c = '"' then qasLoop (builder ++ [c]) (some c) s
    else if isWs c then
      (if builder.isEmpty then qasLoop builder none s else builder :: qasLoop [] none s)
    else qasLoop (builder ++ [c]) none s

/-- `quote_aware_split`, lib.rs:776-809. -/
def quoteAwareSplit (text : Str) : List Str := qasLoop [] none text

/-- the test of lib.rs:703 and 706: a next component exists and `comp` should be joined with it -/
def needsMerge (comp : Str) : List Str → Bool
  | [] => false
  | f :: _ => endsWith comp c%"=" || startsWith f c%"="

/-- the `while` loop of `join_spaced_attributes`, lib.rs:700-712. -/
def joinLoop : List Str → List Str
  | [] => []
  | comp :: [] => [comp]
  | comp :: a :: [] => if needsMerge comp [a] then [comp ++ a] else comp :: joinLoop [a]
  | comp :: a :: b :: rest =>
    if needsMerge comp (a :: b :: rest) then
      (if needsMerge (comp ++ a) (b :: rest) then (comp ++ a ++ b) :: joinLoop rest
       else (comp ++ a) :: joinLoop (b :: rest))
    else comp :: joinLoop (a :: b :: rest)

/-- `join_spaced_attributes`, lib.rs:694-714. -/
def joinSpacedAttributes : List Str → List Str
  | [] => []
  | name :: rest => name :: joinLoop rest

/-- `strip_tag`, lib.rs:717-724 (`none` = panic of a slice; it never happens: the removed characters are
ASCII, see `Verif.Proofs`). -/
def stripTag (tag : Str) : Option Str :=
  (if startsWith tag c%"<" then dropB 1 tag else some tag).bind fun tag =>
  (if startsWith tag c%"/" then dropB 1 tag else some tag).bind fun tag =>
  (if endsWith tag c%">" then takeB (blen tag - 1) tag else some tag).bind fun tag =>
  (if endsWith tag c%"/" then takeB (blen tag - 1) tag else some tag).bind fun tag =>
  some (trim tag)

/-- `name_start_char`, lib.rs:734. -/
def nameStartRanges : List (Nat × Nat) :=
  [(0x3A, 0x3A), (0x41, 0x5A), (0x5F, 0x5F), (0x61, 0x7A), (0xC0, 0xD6), (0xD8, 0xF6), (0xF8, 0x2FF),
   (0x370, 0x37D), (0x37F, 0x1FFF), (0x200C, 0x200D), (0x2070, 0x218F), (0x2C00, 0x2FEF),
   (0x3001, 0xD7FF), (0xF900, 0xFDCF), (0xFDF0, 0xFFFD), (0x10000, 0xEFFFF)]

/-- `name_char`, lib.rs:735. -/
def nameCharRanges : List (Nat × Nat) :=
  nameStartRanges ++ [(0x2E, 0x2E), (0x2D, 0x2D), (0x30, 0x39), (0xB7, 0xB7), (0x300, 0x36F), (0x203F, 0x2040)]

/-- `{name_start_char}{name_char}*` -/
def nameRe : Re := .seq (.cls nameStartRanges) (.star (.cls nameCharRanges))
/-- `".*?"|'.*?'` under `(?s)` -/
def quotedRe : Re :=
  .alt (.seq (Re.lit '"') (.seq (.star Re.anyChar) (Re.lit '"')))
       (.seq (Re.lit '\'') (.seq (.star Re.anyChar) (Re.lit '\'')))
/-- `\s+{name}=(".*?"|'.*?')` -/
def attrRe : Re := .seq (Re.plus (.cls wsRanges)) (.seq nameRe (.seq (Re.lit '=') quotedRe))
/-- the pattern of `check_element_tag`, lib.rs:736. -/
def elemRe : Re :=
  .seq (Re.lit '<') (.seq (Re.opt (Re.lit '/')) (.seq nameRe (.seq (Re.opt (.seq (Re.lit ':') nameRe))
    (.seq (.star attrRe) (.seq (.star (.cls wsRanges)) (.seq (Re.opt (Re.lit '/')) (Re.lit '>')))))))

/-- `check_element_tag`, lib.rs:730-743. -/
def checkElementTag (text : Str) : R Unit :=
  if Re.isMatch elemRe text then .ok () else .err (.parsing .invalidElementTag none)

/-- `real_text`, lib.rs:869-878 (`^\s*$`). -/
def realText (text : Str) : R (Option Str) :=
  if text.all isWs then .ok none
  else do
    let s ← unescape text
    pure (some s)

/-- loop of `line_and_column`, lib.rs:884-891. -/
def lineColLoop (pos : Nat) : Nat → Nat → Nat → Str → Nat × Nat
  | _, line, col, [] => (line, col)
  | i, line, col, c :: s =>
    let (line, col) := if c = '\n' then (line + 1, 1) else (line, col + 1)
    if i ≥ pos then (line, col) else lineColLoop pos (i + c.utf8Size) line col s

/-- `line_and_column`, lib.rs:881-893. -/
def lineAndColumn (text : Str) (pos : Nat) : Nat × Nat := lineColLoop pos 0 1 1 text

/-- `abbreviate`, lib.rs:605-614 (`none` = panic). -/
def abbreviate (text : Str) (limit : Nat) : Option Str :=
  if limit < 4 ∨ blen text ≤ limit then some text
  else
    (sliceB 0 (limit / 2 - 1) text).bind fun a =>
    (dropB (blen text - limit / 2) text).map fun b => a ++ c%"…" ++ b

/-! ## elements -/

/-- an error with the line and column of a position -/
def errAt (m : PMsg) (buffer : Str) (pos : Nat) : Err := .parsing m (some (lineAndColumn buffer pos))

/-- the attribute loop of `parse_new_element`, lib.rs:632-657. -/
def parseAttrs (buffer : Str) (spanStart : Nat) : List Str → SMap → R SMap
  | [], attrs => .ok attrs
  | kv :: rest, attrs =>
    if !contains kv c%"=" then .err (errAt .attrForm buffer spanStart)
    else do
      let (k, v) ← Res.unwrap (splitOnce '=' kv)
      if blen v = 0 then .err (errAt .attrNoContent buffer spanStart)
      else if blen v < 2 || !((startsWith v c%"\"" && endsWith v c%"\"") || (startsWith v c%"'" && endsWith v c%"'")) then
        .err (errAt .attrUnquoted buffer spanStart)
      else do
        let v ← Res.unwrap (sliceB 1 (blen v - 1) v)
        let u ← unescape v
        parseAttrs buffer spanStart rest (attrs.insert k u)

/-- `parse_new_element`, lib.rs:620-691. -/
def parseNewElement (tagContent buffer : Str) (spanStart : Nat) (parent : Option Element) : R Element :=
  match quoteAwareSplit tagContent with
  | [] => .err (errAt .emptyTag buffer spanStart)
  | components => do
    let components := joinSpacedAttributes components
    let attrs ← parseAttrs buffer spanStart (components.drop 1) SMap.empty
    let name ← Res.unwrap components[0]?
    let (inhDefault, inhCtx) : Option Str × Option SMap := match parent with
      | none => (none, none)
      | some p => (p.defaultNamespace, some p.ctx)
    let (name, xmlns, pfx) ← (if contains name c%":" then do
        let (a, b) ← Res.unwrap (splitOnce ':' name)
        let key := c%"xmlns:" ++ a
        if attrs.containsKey key then pure (b, attrs.get key, some a)
        else match inhCtx with
          | none => .err (errAt (.undefinedPrefix a) buffer spanStart)
          | some ctx => pure (b, ctx.get key, some a)
      else pure (name, none, none) : R (Str × Option Str × Option Str))
    let e ← ElementF.new name none (some attrs) xmlns pfx none
    pure (e.setNamespaceContext inhDefault inhCtx)

/-! ## the document -/

/-- state of the prolog loop, lib.rs:383-386 -/
structure Prolog where
  decl : Option Declaration
  dtds : List DTD
  noCommentWarn : Nat
  tagSpan : Nat × Nat

/-- the prolog loop of `parse_str`, lib.rs:388-449; the result has the span of the root tag. -/
def prologLoop (buffer : Str) : Nat → Prolog → R Prolog
  | 0, _ => .diverge
  | fuel + 1, st => do
    match ← Res.unwrap (nextTag buffer st.tagSpan.2) with
    | (none, _) => .err (.parsing .noXmlContent none)
    | (some tagStart, none) => .err (errAt .unmatchedLt buffer tagStart)
    | (some tagStart, some tagEnd) =>
      let textBetween ← Res.unwrap (sliceB st.tagSpan.2 tagStart buffer)
      if (← realText textBetween).isSome then .err (errAt .textOutsideRoot buffer st.tagSpan.2)
      else
        let slice ← Res.unwrap (sliceB tagStart tagEnd buffer)
        let span := (tagStart, tagEnd)
        if startsWith slice c%"<?xml" then
          if st.tagSpan.1 ≠ 0 then .err (errAt .declNotAtStart buffer tagStart)
          else
            let d ← Declaration.fromStr slice
            prologLoop buffer fuel { st with decl := some d, tagSpan := span }
        else if startsWith slice c%"<!--" then
          let _ ← (if st.noCommentWarn = 0 then Res.unwrap (abbreviate slice 32) else pure [] : R Str)
          prologLoop buffer fuel { st with noCommentWarn := st.noCommentWarn + 1, tagSpan := span }
        else if startsWith slice c%"<!DOCTYPE" then
          let d ← DTD.fromString slice
          prologLoop buffer fuel { st with dtds := st.dtds ++ [d], tagSpan := span }
        else if startsWith slice c%"<!" then
          prologLoop buffer fuel { st with tagSpan := span }
        else if startsWith slice c%"</" then .err (errAt .startsWithClosing buffer tagStart)
        else
          let _ ← (checkElementTag slice).mapErr (fun _ => errAt .invalidSyntax buffer tagStart)
          pure { st with tagSpan := span }

/-- the code of an error re-wrapped by `format!("{} (syntax error on line ..)", e)`; all the errors wrapped
this way (lib.rs:493, 510, 535, 552, 580) are parsing errors -/
def rewrap (buffer : Str) (pos : Nat) : Err → Err
  | .parsing m _ => errAt m buffer pos
  | e => e

/-- the part of the element loop of `parse_str` that handles one tag, lib.rs:498-587: `slice` is the text of
the tag, `tagStart` its offset. -/
def handleTag (buffer : Str) (tagStart : Nat) (slice : Str) (stack : ParseTree) : R ParseTree :=
  if startsWith slice c%"<!--" && endsWith slice c%"-->" then
    let begin_ := 4
    let end_ := blen slice - 3
    if begin_ < end_ then do
      let body ← Res.unwrap (sliceB begin_ end_ slice)
      let c ← commentNew body
      (stack.append (.comment c)).mapErr (rewrap buffer tagStart)
    else if begin_ = end_ then do
      let c ← commentNew []
      stack.append (.comment c)
    else .err (errAt .invalidComment buffer tagStart)
  else if startsWith slice c%"<![CDATA[" then
    if !endsWith slice c%"]]>" then .err (errAt .unclosedCData buffer tagStart)
    else do
      let body ← Res.unwrap (sliceB 9 (blen slice - 3) slice)
      let c ← cdataNew body
      (stack.append (.cdata c)).mapErr (rewrap buffer tagStart)
  else if startsWith slice c%"<!" then do
    let what ← Res.unwrap (abbreviate slice 32)
    .err (.notSupported what (some (lineAndColumn buffer tagStart)))
  else do
    let tagDef ← Res.unwrap (stripTag slice)
    let _ ← (checkElementTag slice).mapErr (rewrap buffer tagStart)
    if startsWith slice c%"</" then
      match ← stack.topElement with
      | none => .err (errAt .rootAlreadyClosed buffer tagStart)
      | some active =>
        if tagDef ≠ active.tagName then .err (errAt (.closingMismatch slice active.tagName) buffer tagStart)
        else stack.pop
    else
      let top ← stack.topElement
      let e ← parseNewElement tagDef buffer tagStart top
      if endsWith slice c%"/>" then (stack.append (.element e)).mapErr (rewrap buffer tagStart)
      else stack.push e

/-- the element loop of `parse_str`, lib.rs:458-589. -/
def elementLoop (buffer : Str) (selfClosingRoot : Bool) : Nat → Nat × Nat → ParseTree → R ParseTree
  | 0, _, _ => .diverge
  | fuel + 1, tagSpan, stack => do
    match ← Res.unwrap (nextTag buffer tagSpan.2) with
    | (none, _) => pure stack
    | (some s, none) => .err (errAt .invalidSyntax buffer s)
    | (some s, some e) =>
      if selfClosingRoot then .err (errAt .onlyOneRoot buffer s)
      else
        let text ← Res.unwrap (sliceB tagSpan.2 s buffer)
        let stack ← (match ← realText text with
          | none => pure stack
          | some content => (stack.append (.text content)).mapErr (rewrap buffer s) : R ParseTree)
        let slice ← Res.unwrap (sliceB s e buffer)
        let stack ← handleTag buffer s slice stack
        elementLoop buffer selfClosingRoot fuel (s, e) stack

/-- `parse_str`, lib.rs:381-602.  The fuel is the number of bytes + 1. -/
def parseStr (buffer : Str) : R Document := do
  let fuel := blen buffer + 1
  let pro ← prologLoop buffer fuel ⟨none, [], 0, (0, 0)⟩
  let rootSlice ← Res.unwrap (sliceB pro.tagSpan.1 pro.tagSpan.2 buffer)
  let stripped ← Res.unwrap (stripTag rootSlice)
  let root ← parseNewElement stripped buffer pro.tagSpan.1 none
  let stack ← ParseTree.new.push root
  let selfClosing := endsWith rootSlice c%"/>"
  let stack ← (if selfClosing then stack.pop else pure stack : R ParseTree)
  let stack ← elementLoop buffer selfClosing fuel pro.tagSpan stack
  if !stack.emptyStack then .err (.parsing .rootNotClosed none)
  else do
    let root ← stack.toDom
    pure (Document.newWithDeclDtd root pro.decl (some pro.dtds))

/-! ## `ParsingError` messages (`/repo/src/errors.rs`) -/

/-- `"ParsingError: "` -/
def parsingErrorPrefix : Str := c%"ParsingError: "

/-- `ParsingError::new`, errors.rs:64-69: the stored message. -/
def parsingErrorNew (msg : Str) : Str := trimStartMatches parsingErrorPrefix msg

/-- `impl Display for ParsingError`, errors.rs:76-80. -/
def parsingErrorDisplay (msg : Str) : Str := parsingErrorPrefix ++ msg

end KissXml
