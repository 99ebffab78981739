import Verif.Model.Cost
/-!
# Merging of texts with a counter

What is counted here: the bytes that `Text::concat` (dom.rs:1649-1654) copies, which are those of the new text.
-/
namespace KissXml
open Run

/-- `Text::concat`, dom.rs:1649-1654: two calls of `push_str` -/
def textConcatRun (a b : Str) : Run Str := do
  rounds (blen a)
  rounds (blen b)
  pure (textConcat a b)

/-- the merge loop of `cleanup_text_nodes`, dom.rs:1197-1207; argument: the current index -/
def mergeCopyRun : Nat → List Node → Run (List Node)
  | 0, l => pure l
  | index + 1, l => do
    let back ← free (Res.unwrap l[index + 1]?)
    let front ← free (Res.unwrap l[index]?)
    if back.isText && front.isText then
      let (back, l) ← free (Res.unwrap (vecRemove l (index + 1)))
      let (front, l) ← free (Res.unwrap (vecRemove l index))
      let ft ← free (expect front.asText)
      let bt ← free (expect back.asText)
      let t ← textConcatRun ft bt
      let l ← free (Res.unwrap (vecInsert l index (.text t)))
      mergeCopyRun index l
    else mergeCopyRun index l

/-- `cleanup_text_nodes`, dom.rs:1192-1221; the second loop copies nothing -/
def cleanupCopyRun (l : List Node) : Run (List Node) :=
  if l.length = 0 then pure l
  else do
    let l ← mergeCopyRun (l.length - 1) l
    if l.length > 0 then free (dropWsLoop (l.length - 1) l) else free .panic

/-- `append` / `append_boxed`, dom.rs:1162-1172 -/
def appendCopyRun (e : Element) (n : Node) : Run Element := do
  let l ← cleanupCopyRun (e.children ++ [applyXmlnsContext e.defaultNamespace e.ctx n])
  pure { e with children := l }

/-- a program that calls `append` for each of the nodes -/
def appendEachCopyRun : List Node → Element → Run Element
  | [], e => pure e
  | n :: l, e => do
    let e ← appendCopyRun e n
    appendEachCopyRun l e

/-- `append_all`, dom.rs:1249-1269 -/
def appendAllCopyRun (e : Element) (cs : List Node) : Run Element := do
  let l ← free (ElementF.applyAt e.defaultNamespace e.ctx (ElementF.elemIndices e.children.length cs) (e.children ++ cs))
  let l ← cleanupCopyRun l
  pure { e with children := l }

end KissXml
