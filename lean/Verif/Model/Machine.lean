import Verif.Model.Parse
/-!
# The counters of the parser as machine integers

`parse_str` has two counters of type `i32`: `depth` in `nested_quote_aware_find_close` (lib.rs:836) and `no_comment_warn` (lib.rs:385; the
type of an integer literal without other constraints).  In `Model/Parse` they are unbounded.  Here are the functions that use them once
more, with the arithmetic of Rust.  `Props/Machine` shows for which inputs this makes no difference.
-/
namespace KissXml

/-- what `+=` does on overflow: panic (`overflow-checks = on`, the default of debug builds), or wrap around (release builds) -/
inductive Arith where
  | checked
  | wrapping
deriving DecidableEq

/-- the result of an `i32` operation with the mathematical result `n`; `none` = panic -/
def Arith.i32 : Arith → Int → Option Int
  | .checked, n => if -2 ^ 31 ≤ n ∧ n < 2 ^ 31 then some n else none
  | .wrapping, n => some (n.bmod (2 ^ 32))

/-- loop of `nested_quote_aware_find_close`, lib.rs:839-860 (outer `none` = panic) -/
def nestedLoopM (m : Arith) : Nat → Int → Option Char → Str → Option (Option Nat)
  | _, _, _, [] => some none
  | i, depth, some q, c :: s => if c = q then nestedLoopM m (i + c.utf8Size) depth none s
      else nestedLoopM m (i + c.utf8Size) depth (some q) s
  | i, depth, none, c :: s =>
    if c = '"' then nestedLoopM m (i + c.utf8Size) depth (some '"') s
    else if c = '\'' then nestedLoopM m (i + c.utf8Size) depth (some '\'') s
    else if c = '<' then (m.i32 (depth + 1)).bind fun d => nestedLoopM m (i + c.utf8Size) d none s
    else if c = '>' then
      if depth = 0 then some (some i)
      else (m.i32 (depth - 1)).bind fun d => nestedLoopM m (i + c.utf8Size) d none s
    else nestedLoopM m (i + c.utf8Size) depth none s

/-- `nested_quote_aware_find_close`, lib.rs:835-862. -/
def nestedQuoteAwareFindCloseM (m : Arith) (text : Str) (from_ : Nat) : Option (Option Nat) :=
  (dropB from_ text).bind (nestedLoopM m from_ 0 none)

/-- `next_tag`, lib.rs:747-773, as `nextTag`. -/
def nextTagM (m : Arith) (buffer : Str) (from_ : Nat) : Option (Option Nat × Option Nat) :=
  (dropB from_ buffer).bind fun tail =>
  match find c%"<" tail with
  | none => some (none, none)
  | some i =>
    let start := i + from_
    (dropB start buffer).bind fun sub =>
    if startsWith sub c%"<!--" then some (some start, (find c%"-->" sub).map (· + start + 3))
    else if startsWith sub c%"<?" then
      (quoteAwareFind sub c%"?>" 2).map fun r => (some start, r.map (· + start + 2))
    else if startsWith sub c%"<![CDATA[" then some (some start, (find c%"]]>" sub).map (· + start + 3))
    else if startsWith sub c%"<!" then
      (nestedQuoteAwareFindCloseM m sub 2).map fun r => (some start, r.map (· + start + 1))
    else (quoteAwareFind sub c%">" 1).map fun r => (some start, r.map (· + start + 1))

/-- state of the prolog loop, lib.rs:383-386 -/
structure PrologM where
  decl : Option Declaration
  dtds : List DTD
  noCommentWarn : Int
  tagSpan : Nat × Nat

/-- the prolog loop of `parse_str`, lib.rs:388-449, as `prologLoop`. -/
def prologLoopM (m : Arith) (buffer : Str) : Nat → PrologM → R PrologM
  | 0, _ => .diverge
  | fuel + 1, st => do
    match ← Res.unwrap (nextTagM m buffer st.tagSpan.2) with
    | (none, _) => .err (.parsing .noXmlContent none)
    | (some tagStart, none) => .err (errAt .unmatchedLt buffer tagStart)
    | (some tagStart, some tagEnd) =>
      let textBetween ← Res.unwrap (sliceB st.tagSpan.2 tagStart buffer)
      if (← realText textBetween).isSome then .err (errAt .textOutsideRoot buffer st.tagSpan.2)
      else
        let slice ← Res.unwrap (sliceB tagStart tagEnd buffer)
        let span := (tagStart, tagEnd)
        if startsWith slice c%"<?xml" then
          if st.tagSpan.1 ≠ 0 then .err (errAt .declNotAtStart buffer tagStart)
          else
            let d ← Declaration.fromStr slice
            prologLoopM m buffer fuel { st with decl := some d, tagSpan := span }
        else if startsWith slice c%"<!--" then
          let _ ← (if st.noCommentWarn = 0 then Res.unwrap (abbreviate slice 32) else pure [] : R Str)
          let n ← Res.unwrap (m.i32 (st.noCommentWarn + 1))
          prologLoopM m buffer fuel { st with noCommentWarn := n, tagSpan := span }
        else if startsWith slice c%"<!DOCTYPE" then
          let d ← DTD.fromString slice
          prologLoopM m buffer fuel { st with dtds := st.dtds ++ [d], tagSpan := span }
        else if startsWith slice c%"<!" then
          prologLoopM m buffer fuel { st with tagSpan := span }
        else if startsWith slice c%"</" then .err (errAt .startsWithClosing buffer tagStart)
        else
          let _ ← (checkElementTag slice).mapErr (fun _ => errAt .invalidSyntax buffer tagStart)
          pure { st with tagSpan := span }

/-- the element loop of `parse_str`, lib.rs:458-589, as `elementLoop`. -/
def elementLoopM (m : Arith) (buffer : Str) (selfClosingRoot : Bool) : Nat → Nat × Nat → ParseTree → R ParseTree
  | 0, _, _ => .diverge
  | fuel + 1, tagSpan, stack => do
    match ← Res.unwrap (nextTagM m buffer tagSpan.2) with
    | (none, _) => pure stack
    | (some s, none) => .err (errAt .invalidSyntax buffer s)
    | (some s, some e) =>
      if selfClosingRoot then .err (errAt .onlyOneRoot buffer s)
      else
        let text ← Res.unwrap (sliceB tagSpan.2 s buffer)
        let stack ← (match ← realText text with
          | none => pure stack
          | some content => (stack.append (.text content)).mapErr (rewrap buffer s) : R ParseTree)
        let slice ← Res.unwrap (sliceB s e buffer)
        let stack ← handleTag buffer s slice stack
        elementLoopM m buffer selfClosingRoot fuel (s, e) stack

/-- `parse_str`, lib.rs:381-602, as `parseStr`.  The fuel is the number of bytes + 1. -/
def parseStrM (m : Arith) (buffer : Str) : R Document := do
  let fuel := blen buffer + 1
  let pro ← prologLoopM m buffer fuel ⟨none, [], 0, (0, 0)⟩
  let rootSlice ← Res.unwrap (sliceB pro.tagSpan.1 pro.tagSpan.2 buffer)
  let stripped ← Res.unwrap (stripTag rootSlice)
  let root ← parseNewElement stripped buffer pro.tagSpan.1 none
  let stack ← ParseTree.new.push root
  let selfClosing := endsWith rootSlice c%"/>"
  let stack ← (if selfClosing then stack.pop else pure stack : R ParseTree)
  let stack ← elementLoopM m buffer selfClosing fuel pro.tagSpan stack
  if !stack.emptyStack then .err (.parsing .rootNotClosed none)
  else do
    let root ← stack.toDom
    pure (Document.newWithDeclDtd root pro.decl (some pro.dtds))

end KissXml
