import Verif.Model.Cost
/-!
# Appending several nodes with a counter

Rounds as in `Model/Cost.lean`, and those of the two loops of `append_all`.
-/
namespace KissXml
open Run

/-- second loop of `append_all`, dom.rs:1261-1266 -/
def applyAtRun (dflt : Option Str) (ctx : SMap) : List Nat → List Node → Run (List Node)
  | [], l => pure l
  | i :: is, l => do
    rounds 1
    let n ← free (Res.unwrap l[i]?)
    let n ← applyXmlnsContextRun dflt ctx n
    applyAtRun dflt ctx is (l.set i n)

/-- `append_all`, dom.rs:1249-1269; the first loop has one round for every new node -/
def appendAllRun (e : Element) (cs : List Node) : Run Element := do
  rounds cs.length
  let l ← applyAtRun e.defaultNamespace e.ctx (ElementF.elemIndices e.children.length cs) (e.children ++ cs)
  let l ← cleanupTextNodesRun l
  pure { e with children := l }

/-- a program that calls `append`, dom.rs:1162-1172, for each node -/
def appendEachRun (e : Element) : List Node → Run Element
  | [] => pure e
  | n :: cs => do
    let e ← appendRun e n
    appendEachRun e cs

end KissXml
