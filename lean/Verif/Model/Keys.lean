import Verif.Model.AnyOrder
/-!
# Attribute maps with keys and values that are not strings

`Element::new` takes a `HashMap<TEXT1, TEXT2>` for any two types that can be cloned and turned into strings.  Different keys
may become the same string.
-/
namespace KissXml

/-- the entries of a `HashMap` of any type in the order in which a loop meets them: any order -/
def anyOrderOf {α : Type} (m : List α) : Runs (List α) := ⟨fun r => ∃ l, l.Perm m ∧ r = .ok l⟩

open Runs (of)

/-- `Element::new`, dom.rs:435-497, for an attribute map with the entries `m`, whose keys and values become strings by `key` and
`value` (`Into<String>` after `Clone`, dom.rs:451 and 453; assumed to give the same string each time). -/
def ElementF.newKeysAny {α β : Type} (key : α → Str) (value : β → Str) (name : Str) (text : Option Str) (m : List (α × β))
    (xmlns : Option Str) (xmlnsPrefix : Option Str) (children : Option (List Node)) : Runs Element := do
  of (checkElemName name)
  let l ← anyOrderOf m
  let attrs ← of (checkAndCopy (l.map fun kv => (key kv.1, value kv.2)) SMap.empty)
  let xmlns := match xmlns with
    | some x => some x
    | none => match xmlnsPrefix with
      | none => attrs.get c%"xmlns"
      | some p => attrs.get (c%"xmlns:" ++ p)
  let ctx ← ElementF.contextFromAttributesAny attrs
  let elem : Element := ⟨name, [], attrs, xmlns, xmlnsPrefix, ctx⟩
  let elem ← (match text with
    | none => pure elem
    | some t => elem.appendAny (.text t) : Runs Element)
  match children with
  | none => pure elem
  | some cs => elem.appendAllAny cs

end KissXml
