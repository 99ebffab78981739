import Verif.Spec.Dom
/-!
# How large documents are
-/
namespace KissXml.Spec
open KissXml

/-- what each node adds to the size of a tree -/
structure Weights where
  elem : Str → Option Str → SMap → Nat
  text : Str → Nat
  comment : Str → Nat
  cdata : Str → Nat

mutual
/-- the sum over a node and all nodes below it -/
def weigh (w : Weights) : Node → Nat
  | .element ⟨n, cs, as, _, p, _⟩ => w.elem n p as + weighs w cs
  | .text t => w.text t
  | .comment t => w.comment t
  | .cdata t => w.cdata t
/-- the sum over a list -/
def weighs (w : Weights) : List Node → Nat
  | [] => 0
  | n :: l => weigh w n + weighs w l
end

/-- the number of nodes -/
def counting : Weights := ⟨fun _ _ _ => 1, fun _ => 1, fun _ => 1, fun _ => 1⟩

/-- the bytes of an optional string -/
def optBytes : Option Str → Nat
  | none => 0
  | some s => blen s

/-- the bytes (UTF-8) of an attribute written as `k="v"` -/
def attrBytes (kv : Str × Str) : Nat := blen kv.1 + blen kv.2 + 3

/-- the bytes of names, prefixes, attributes and texts -/
def storing : Weights :=
  ⟨fun n p as => blen n + optBytes p + (as.entries.map attrBytes).sum, blen, blen, blen⟩

/-- the bytes of a declaration and document types -/
def headBytes (decl : Option Declaration) (dtds : List DTD) : Nat :=
  optBytes (decl.map (·.declStr)) + (dtds.map fun d => blen d.dtdStr).sum

/-- the bytes of one step of indentation: other than one tab or spaces, two spaces are used -/
def step (i : Str) : Nat := if i = ['\t'] ∨ ∀ c ∈ i, c = ' ' then blen i else 2

mutual
/-- how deep elements are nested -/
def nesting : Node → Nat
  | .element ⟨_, cs, _, _, _, _⟩ => 1 + nestings cs
  | .text _ => 0
  | .comment _ => 0
  | .cdata _ => 0
/-- the deepest of a list -/
def nestings : List Node → Nat
  | [] => 0
  | n :: l => max (nesting n) (nestings l)
end

mutual
/-- the namespace and the map of prefixes of every element at or below a node satisfy `p` -/
def EveryNs (p : Option Str → SMap → Prop) : Node → Prop
  | .element ⟨_, cs, _, x, _, c⟩ => p x c ∧ EveryNsL p cs
  | .text _ => True
  | .comment _ => True
  | .cdata _ => True
/-- the same for a list -/
def EveryNsL (p : Option Str → SMap → Prop) : List Node → Prop
  | [] => True
  | n :: l => EveryNs p n ∧ EveryNsL p l
end

end KissXml.Spec
