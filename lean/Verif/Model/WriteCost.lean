import Verif.Model.Serialize
/-!
# Writing with a counter

`to_string_with_prefix_and_indent` and `text` with the number of bytes (UTF-8) that are pushed to the buffers `out` and `builder`, in
all calls together.  Not counted: `next_prefix`, the strings made by `text_escape`, `attribute_escape`, `tag_name` and `format!`, sorting of
attributes, and copies that a growing buffer makes of itself.
-/
namespace KissXml

/-- a buffer, and how many bytes were pushed to it and to the buffers of the calls made meanwhile -/
abbrev Pushed := Str × Nat

/-- `push_str` -/
def Pushed.push (o : Pushed) (s : Str) : Pushed := (o.1 ++ s, o.2 + blen s)

/-- `push_str` of the result of a call that has pushed to a buffer of its own -/
def Pushed.call (o r : Pushed) : Pushed := ((o.push r.1).1, (o.push r.1).2 + r.2)

/-- the loop of dom.rs:1426-1432 -/
def pushAttrs (o : Pushed) : List (Str × Str) → Pushed
  | [] => o
  | (k, v) :: l => pushAttrs (((((o.push c%" ").push k).push c%"=\"").push (attributeEscape v)).push c%"\"") l

mutual
/-- `to_string_with_prefix_and_indent`, dom.rs:1415-1486 -/
def ElementF.writeC (pre indent : Str) (inline : Bool) : Element → Pushed
  | ⟨name, cs, attrs, xmlns, pfx, ctx⟩ =>
    let tagName := ElementF.tagName ⟨name, cs, attrs, xmlns, pfx, ctx⟩
    let o : Pushed := ([], 0)
    let o := if inline then o else o.push pre
    let o := (o.push c%"<").push tagName
    let o := pushAttrs o (sortAttrs attrs.entries)
    if cs.length == 0 then o.push c%"/>"
    else if cs.length == 1 && !(cs.any Node.isElement) then
      let o := childrenWriteC [] [] true (o.push c%">") cs
      ((o.push c%"</").push tagName).push c%">"
    else
      let o := o.push c%">"
      let inline := inline || cs.any Node.isText
      let o := if inline then o else o.push c%"\n"
      let o := childrenWriteC (pre ++ indent) indent inline o cs
      let o := if inline then o else o.push pre
      ((o.push c%"</").push tagName).push c%">"
/-- the loop of dom.rs:1461-1478 -/
def childrenWriteC (pre indent : Str) (inline : Bool) (o : Pushed) : List Node → Pushed
  | [] => o
  | c :: cs =>
    let o := Node.writeC pre indent inline o c
    let o := if inline then o else o.push c%"\n"
    childrenWriteC pre indent inline o cs
/-- the body of the loop, dom.rs:1462-1476 (and, with `inline`, the call of dom.rs:1440) -/
def Node.writeC (pre indent : Str) (inline : Bool) (o : Pushed) : Node → Pushed
  | .text t => o.push (textEscape t)
  | .element e => o.call (ElementF.writeC pre indent inline e)
  | .comment c => (if inline then o else o.push pre).push (commentToString c)
  | .cdata c => (if inline then o else o.push pre).push (cdataToString c)
end

mutual
/-- `text` of an element, dom.rs:1492-1501 -/
def ElementF.textC : Element → Pushed
  | ⟨_, cs, _, _, _, _⟩ => childrenTextC ([], 0) cs
/-- the loop of dom.rs:1495-1499 -/
def childrenTextC (o : Pushed) : List Node → Pushed
  | [] => o
  | .text t :: cs => childrenTextC (o.push t) cs
  | .element e :: cs => childrenTextC (o.call (ElementF.textC e)) cs
  | .comment _ :: cs => childrenTextC o cs
  | .cdata _ :: cs => childrenTextC o cs
end

end KissXml
