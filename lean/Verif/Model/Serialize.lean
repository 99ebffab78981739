import Verif.Model.Dom
/-!
# Serialisation (`dom.rs` 117-152, 1413-1486, 1543-1551; `lib.rs` 336-351, 894-904)
-/
namespace KissXml

/-- `attribute_order`, lib.rs:337-351. -/
def attributeOrder (x y : Str × Str) : Ordering :=
  let a := x.1
  let b := y.1
  if a = b then strCmp x.2 y.2
  else if startsWith a c%"xmlns" && !startsWith b c%"xmlns" then .lt
  else if !startsWith a c%"xmlns" && startsWith b c%"xmlns" then .gt
  else strCmp a b

/-- insertion into a sorted list -/
def insertSorted (x : Str × Str) : List (Str × Str) → List (Str × Str)
  | [] => [x]
  | y :: l => if attributeOrder x y == .gt then y :: insertSorted x l else x :: y :: l

/-- `attrs.sort_by(attribute_order)`, dom.rs:1425.  Any sorting algorithm gives the same list: see
`Verif.Proofs.Order` (a sorted permutation is unique). -/
def sortAttrs : List (Str × Str) → List (Str × Str)
  | [] => []
  | x :: l => insertSorted x (sortAttrs l)

/-- the loop of dom.rs:1426-1432 -/
def attrsToString : List (Str × Str) → Str
  | [] => []
  | (k, v) :: l => c%" " ++ k ++ c%"=\"" ++ attributeEscape v ++ c%"\"" ++ attrsToString l

/-- `validate_indent`, lib.rs:896-904. -/
def validateIndent (indent : Str) : Bool :=
  if indent = c%"\t" then true else indent.all (fun c => c == ' ')

/-- `Comment::to_string_with_indent`, dom.rs:1842-1844. -/
def commentToString (c : Str) : Str := c%"<!--" ++ c ++ c%"-->"
/-- `CData::to_string_with_indent`, dom.rs:1974-1976. -/
def cdataToString (c : Str) : Str := c%"<![CDATA[" ++ c ++ c%"]]>"

mutual
/-- `to_string_with_prefix_and_indent`, dom.rs:1415-1486. -/
def ElementF.toStringPI (pre indent : Str) (inline : Bool) : Element → Str
  | ⟨name, cs, attrs, xmlns, pfx, ctx⟩ =>
    let tagName := ElementF.tagName ⟨name, cs, attrs, xmlns, pfx, ctx⟩
    (if inline then [] else pre) ++ c%"<" ++ tagName ++ attrsToString (sortAttrs attrs.entries) ++
    (if cs.length == 0 then c%"/>"
     else if cs.length == 1 && !(cs.any Node.isElement) then
       -- single non-element child, inline (dom.rs:1437-1443)
       c%">" ++ childrenToString [] [] true cs ++ c%"</" ++ tagName ++ c%">"
     else
       let inline := inline || cs.any Node.isText
       c%">" ++ (if inline then [] else c%"\n") ++
       childrenToString (pre ++ indent) indent inline cs ++
       (if inline then [] else pre) ++ c%"</" ++ tagName ++ c%">")
/-- the loop of dom.rs:1461-1478; `pre` is `next_prefix`. -/
def childrenToString (pre indent : Str) (inline : Bool) : List Node → Str
  | [] => []
  | c :: cs => Node.toStringPI pre indent inline c ++ (if inline then [] else c%"\n") ++
      childrenToString pre indent inline cs
/-- the body of the loop, dom.rs:1462-1476 (and, with `inline`, the call of dom.rs:1440) -/
def Node.toStringPI (pre indent : Str) (inline : Bool) : Node → Str
  | .text t => textEscape t
  | .element e => ElementF.toStringPI pre indent inline e
  | .comment c => (if inline then [] else pre) ++ commentToString c
  | .cdata c => (if inline then [] else pre) ++ cdataToString c
end

/-- `Element::to_string_with_indent`, dom.rs:1543-1551. -/
def ElementF.toStringWithIndent (e : Element) (indent : Str) : Str :=
  if validateIndent indent then e.toStringPI [] indent false else e.toStringPI [] c%"  " false

/-- `Node::to_string_with_indent`, dom.rs:1543, 1722, 1842, 1974. -/
def Node.toStringWithIndent (n : Node) (indent : Str) : Str :=
  match n with
  | .element e => e.toStringWithIndent indent
  | .text t => textEscape t
  | .comment c => commentToString c
  | .cdata c => cdataToString c

/-- `Display` / `Debug` for `Element`, dom.rs:1619-1629. -/
def ElementF.toString (e : Element) : Str := e.toStringWithIndent c%"  "

/-- `Display` / `Debug` of the node types, dom.rs:1619, 1750, 1881, 2013. -/
def Node.toString (n : Node) : Str := n.toStringWithIndent c%"  "

/-- the loop of dom.rs:145-148 -/
def dtdsToString : List DTD → Str
  | [] => []
  | d :: l => d.display ++ c%"\n" ++ dtdsToString l

/-- `Document::to_string_with_indent`, dom.rs:128-152. -/
def Document.toStringWithIndent (d : Document) (indent : Str) : Str :=
  let indent := if validateIndent indent then indent else c%"  "
  (match d.declaration with
   | none => []
   | some decl => decl.display ++ c%"\n") ++
  dtdsToString d.dtds ++ d.root.toStringWithIndent indent ++ c%"\n"

/-- `Document::to_string` / `Display`, dom.rs:117-119, 204-208. -/
def Document.toString (d : Document) : Str := d.toStringWithIndent c%"  "

end KissXml
