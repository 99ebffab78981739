import Verif.Model.Io
/-!
# Warnings (`eprintln!` in `/repo/src/lib.rs` and `/repo/src/dom.rs`)

The functions that print warnings, once more, together with what they print to the standard error stream.  `Props/Warn` shows that they
return the same as the functions in `Model/Parse` and `Model/Serialize`.  A failing standard error stream (where `eprintln!` panics) is
not modelled.
-/
namespace KissXml

/-- what a warning is about -/
inductive Warning where
  | comment (shown : Str)   -- lib.rs:421
  | ignored (markup : Str)  -- lib.rs:430
  | indent (given : Str)    -- dom.rs:133, 1547
deriving DecidableEq, Repr

/-- The line that is printed, without the line end.  The indent is printed with `{:?}`, which is not modelled. -/
def Warning.text : Warning → Option Str
  | .comment s => some (c%"WARNING: Encountered comment " ++ s ++
      c%" outside of root element. Comments outside of the root are not supported and will be ignored.")
  | .ignored s => some (c%"WARNING: Ignoring " ++ s ++ c%" (not supported outside root element)")
  | .indent _ => none

/-- a result, and the warnings printed on the way to it -/
structure Out (α : Type) where
  warned : List Warning
  result : R α

namespace Out
/-- one thing after the other -/
def bind {α β : Type} (x : Out α) (f : α → Out β) : Out β :=
  match x.result with
  | .ok a => ⟨x.warned ++ (f a).warned, (f a).result⟩
  | .err e => ⟨x.warned, .err e⟩
  | .panic => ⟨x.warned, .panic⟩
  | .diverge => ⟨x.warned, .diverge⟩

instance : Monad Out where
  pure a := ⟨[], .ok a⟩
  bind := Out.bind

/-- something that prints nothing -/
def quiet {α : Type} (r : R α) : Out α := ⟨[], r⟩
/-- `eprintln!` -/
def warn (w : Warning) : Out Unit := ⟨[w], .ok ()⟩
end Out
open Out

/-- the prolog loop of `parse_str`, lib.rs:388-449, as `prologLoop` -/
def prologLoopOut (buffer : Str) : Nat → Prolog → Out Prolog
  | 0, _ => quiet .diverge
  | fuel + 1, st => do
    match ← quiet (Res.unwrap (nextTag buffer st.tagSpan.2)) with
    | (none, _) => quiet (.err (.parsing .noXmlContent none))
    | (some tagStart, none) => quiet (.err (errAt .unmatchedLt buffer tagStart))
    | (some tagStart, some tagEnd) =>
      let textBetween ← quiet (Res.unwrap (sliceB st.tagSpan.2 tagStart buffer))
      if (← quiet (realText textBetween)).isSome then quiet (.err (errAt .textOutsideRoot buffer st.tagSpan.2))
      else
        let slice ← quiet (Res.unwrap (sliceB tagStart tagEnd buffer))
        let span := (tagStart, tagEnd)
        if startsWith slice c%"<?xml" then
          if st.tagSpan.1 ≠ 0 then quiet (.err (errAt .declNotAtStart buffer tagStart))
          else
            let d ← quiet (Declaration.fromStr slice)
            prologLoopOut buffer fuel { st with decl := some d, tagSpan := span }
        else if startsWith slice c%"<!--" then
          if st.noCommentWarn = 0 then
            let shown ← quiet (Res.unwrap (abbreviate slice 32))
            warn (.comment shown)
          prologLoopOut buffer fuel { st with noCommentWarn := st.noCommentWarn + 1, tagSpan := span }
        else if startsWith slice c%"<!DOCTYPE" then
          let d ← quiet (DTD.fromString slice)
          prologLoopOut buffer fuel { st with dtds := st.dtds ++ [d], tagSpan := span }
        else if startsWith slice c%"<!" then
          warn (.ignored slice)
          prologLoopOut buffer fuel { st with tagSpan := span }
        else if startsWith slice c%"</" then quiet (.err (errAt .startsWithClosing buffer tagStart))
        else
          let _ ← quiet ((checkElementTag slice).mapErr (fun _ => errAt .invalidSyntax buffer tagStart))
          pure { st with tagSpan := span }

/-- `parse_str`, lib.rs:381-602, as `parseStr`.  Nothing is printed after the prolog. -/
def parseStrOut (buffer : Str) : Out Document := do
  let fuel := blen buffer + 1
  let pro ← prologLoopOut buffer fuel ⟨none, [], 0, (0, 0)⟩
  let rootSlice ← quiet (Res.unwrap (sliceB pro.tagSpan.1 pro.tagSpan.2 buffer))
  let stripped ← quiet (Res.unwrap (stripTag rootSlice))
  let root ← quiet (parseNewElement stripped buffer pro.tagSpan.1 none)
  let stack ← quiet (ParseTree.new.push root)
  let selfClosing := endsWith rootSlice c%"/>"
  let stack ← quiet (if selfClosing then stack.pop else pure stack : R ParseTree)
  let stack ← quiet (elementLoop buffer selfClosing fuel pro.tagSpan stack)
  if !stack.emptyStack then quiet (.err (.parsing .rootNotClosed none))
  else do
    let root ← quiet stack.toDom
    pure (Document.newWithDeclDtd root pro.decl (some pro.dtds))

/-- `Element::to_string_with_indent`, dom.rs:1543-1551: what is printed, and the text. -/
def ElementF.toStringWithIndentOut (e : Element) (indent : Str) : List Warning × Str :=
  if validateIndent indent then ([], e.toStringPI [] indent false) else ([.indent indent], e.toStringPI [] c%"  " false)

/-- `Document::to_string_with_indent`, dom.rs:128-152: what is printed, and the text. -/
def Document.toStringWithIndentOut (d : Document) (indent : Str) : List Warning × Str :=
  let first := if validateIndent indent then ([], indent) else ([Warning.indent indent], c%"  ")
  let root := d.root.toStringWithIndentOut first.2
  (first.1 ++ root.1,
    (match d.declaration with
     | none => []
     | some decl => decl.display ++ c%"\n") ++ dtdsToString d.dtds ++ root.2 ++ c%"\n")

/-- `Document::write_to_file_with_indent`, dom.rs:185-187: what is printed, and the contents of `out` afterwards. -/
noncomputable def Document.writeToFileWithIndentOut (d : Document) (out : ByteArray) (indent : Str) : List Warning × ByteArray :=
  let r := d.toStringWithIndentOut indent
  (r.1, out ++ r.2.utf8Encode)

end KissXml
