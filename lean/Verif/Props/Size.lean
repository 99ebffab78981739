import Verif.Proofs.SizeNs
import Verif.Proofs.SizeOut
/-!
# C91, C92: how large documents are
-/
namespace KissXml.Props
open KissXml KissXml.Spec

/-- **C91** (memory). The declaration, document types, names, prefixes, attributes (each as `k="v"`) and texts of a parsed document need no more bytes than the
source: references are never expanded to something longer.  (The namespaces that elements are given are bounded in `C91_namespaces`.) -/
theorem C91_bytes {x : Str} {d : Document} (h : parseStr x = .ok d) :
    headBytes d.declaration d.dtds + weigh storing (.element d.root) ≤ blen x := parse_bytes h

/-- **C91** (nodes). A parsed document has at most as many nodes as a document with that many `<` can have: a root alone, or twice the number of
`<` without two. -/
theorem C91_nodes {x : Str} {d : Document} (h : parseStr x = .ok d) :
    weigh counting (.element d.root) ≤ max 1 (2 * x.count '<' - 2) := parse_nodes h

/-- **C91** (nesting). Elements are nested no deeper than half the number of `<` allows; this bounds the depth of every recursion over the
tree. -/
theorem C91_nesting {x : Str} {d : Document} (h : parseStr x = .ok d) :
    2 * nesting (.element d.root) ≤ x.count '<' + 1 := parse_nesting h

/-- **C91** (namespaces). The namespace of an element, and its map from prefixes to namespaces need no more bytes than the source,
even with every entry written as `xmlns:k="v"`. -/
theorem C91_namespaces {x : Str} {d : Document} (h : parseStr x = .ok d) :
    EveryNs (fun ns c => optBytes ns ≤ blen x ∧ (c.entries.map attrBytes).sum + 6 * c.entries.length ≤ blen x)
      (.element d.root) := parse_namespaces h

/-- `f` of what is parsed, if it is parsed -/
private def of (f : Document → Nat) (x : Str) : Option Nat :=
  match parseStr x with
  | .ok d => some (f d)
  | _ => none

/-- a declaration, a document type, attributes, a prefix, and all kinds of nodes: 42 of 95 bytes are kept -/
example : of (fun d => headBytes d.declaration d.dtds + weigh storing (.element d.root))
      c%"<?xml version=\"1.0\"?><!DOCTYPE a><a k='&lt;v'><p:b xmlns:p='u'>t</p:b><!--c--><![CDATA[d]]></a>" = some 42 ∧
    blen c%"<?xml version=\"1.0\"?><!DOCTYPE a><a k='&lt;v'><p:b xmlns:p='u'>t</p:b><!--c--><![CDATA[d]]></a>" = 95 := by decide +kernel

/-- the bound on nodes is reached: six nodes, four `<` -/
example : of (fun d => weigh counting (.element d.root)) c%"<a>x<b/>y<c/>z</a>" = some 6 ∧
    2 * (c%"<a>x<b/>y<c/>z</a>").count '<' - 2 = 6 := by decide +kernel

/-- the root alone -/
example : of (fun d => weigh counting (.element d.root)) c%"<a/>" = some 1 ∧ (c%"<a/>").count '<' = 1 := by decide +kernel

/-- the bound on nesting is reached: three levels, five `<` -/
example : of (fun d => nesting (.element d.root)) c%"<a><b><c/></b></a>" = some 3 ∧ (c%"<a><b><c/></b></a>").count '<' = 5 := by decide +kernel

/-- two prefixes and the namespace of a nested element -/
example : of (fun d => match d.root.children with
      | [.element e] => optBytes e.xmlns + 100 * (e.ctx.entries.map attrBytes).sum + 10000 * e.ctx.entries.length
      | _ => 0) c%"<a xmlns:p='u' xmlns:q='v1'><q:b/></a>" = some 21102 := by decide +kernel

/-! ## C92: what is written -/

/-- **C92** (nodes). What is written for a node, with any indentation, has at least the bytes of its names, attributes and texts, and at most six
times as many (for a quote in a value six bytes are written), 13 for every node, and the indentation before its tags. -/
theorem C92_node (n : Node) (i : Str) :
    weigh storing n ≤ blen (n.toStringWithIndent i) ∧
    blen (n.toStringWithIndent i) + 1 ≤ 6 * weigh storing n + (13 + 2 * (nesting n * step i)) * weigh counting n := node_written n i

/-- **C92** (documents). The same for documents: a declaration has five bytes more, a document type one. -/
theorem C92_document (d : Document) (i : Str) :
    headBytes d.declaration d.dtds + weigh storing (.element d.root) ≤ blen (d.toStringWithIndent i) ∧
    blen (d.toStringWithIndent i) ≤ headBytes d.declaration d.dtds + 5 + d.dtds.length +
      6 * weigh storing (.element d.root) + (13 + 2 * (nesting (.element d.root) * step i)) * weigh counting (.element d.root) :=
  document_written d i

/-- **C92** (parsed documents). What is written for a parsed document is bounded by the size of the source and the number of `<` in it.  Without
indentation the bound is linear. -/
theorem C92_parsed {x : Str} {d : Document} (h : parseStr x = .ok d) (i : Str) :
    blen (d.toStringWithIndent i) ≤ 6 * blen x + 6 + (13 + (x.count '<' + 1) * step i) * max 1 (2 * x.count '<' - 2) := parse_written h i

/-- **C92** (growth). With indentation the size is quadratic, indeed: there are sources of `9 n + 5` bytes for which that many bytes and
`n²` times the indentation are written. -/
theorem C92_quadratic (n : Nat) : ∃ x d, parseStr x = .ok d ∧ blen x = 9 * n + 5 ∧
    ∀ i, blen (d.toStringWithIndent i) = n * n * step i + 9 * n + 5 := tower_written n

/-- six bytes for one: a value of two quotes -/
example : blen ((Node.element ⟨c%"a", [], ⟨[(c%"k", c%"\"\"")], by decide⟩, none, none, .empty⟩).toStringWithIndent []) = 21 ∧
    weigh storing (.element ⟨c%"a", [], ⟨[(c%"k", c%"\"\"")], by decide⟩, none, none, .empty⟩) = 7 := by decide +kernel

/-- a declaration, all kinds of nodes, two levels, and a tab -/
example : of (fun d => blen (d.toStringWithIndent c%"\t")) c%"<?xml version=\"1.0\"?><a k='&lt;v'><b><c/><!--c--></b><![CDATA[d]]></a>" = some 85 ∧
    of (fun d => headBytes d.declaration d.dtds + weigh storing (.element d.root)) c%"<?xml version=\"1.0\"?><a k='&lt;v'><b><c/><!--c--></b><![CDATA[d]]></a>"
      = some 28 := by decide +kernel

/-- the sources: nested elements -/
example : of (fun d => blen (d.toStringWithIndent c%"    ")) c%"<a>\n<a>\n<a/>\n</a>\n</a>\n" = some (2 * 2 * 4 + 9 * 2 + 5) ∧
    of (fun d => blen (d.toStringWithIndent c%"x")) c%"<a>\n<a>\n<a/>\n</a>\n</a>\n" = some (2 * 2 * 2 + 9 * 2 + 5) := by decide +kernel

end KissXml.Props
