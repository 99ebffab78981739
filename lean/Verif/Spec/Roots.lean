import Verif.Spec.Arena
import Verif.Spec.Errors
import Verif.Model.Parse
/-!
# Specification: texts that come together at the wrong end, and several top-level elements
-/
namespace KissXml.Spec

/-- put a node in front of a list; a text goes to the *end* of a leading text; the result is dropped when it is a blank text -/
def backCons : Node → List Node → List Node
  | .text t, .text s :: r => if Blank (s ++ t) then r else .text (s ++ t) :: r
  | n, l => if isBlankText n then l else n :: l

/-- Each run of adjacent texts becomes one text in which the texts follow each other in the opposite order; blank texts at the end of
the run are left out. -/
def joinBack : List Node → List Node
  | [] => []
  | n :: l => backCons n (joinBack l)

/-- an element with its children in the opposite order; other nodes as they are -/
def turned : Node → Node
  | .element ⟨n, cs, a, x, p, c⟩ => .element ⟨n, cs.reverse, a, x, p, c⟩
  | n => n

/-- The nodes that the forest stands for inside of the element `e`, in order, each handed the namespaces of its parent; texts inside
of the pushed elements are joined by `joinBack`; children of an appended element are turned around. -/
inductive Laid : Element → Forest → List Node → Prop
  | nil {e : Element} : Laid e .nil []
  | leaf {e : Element} {n n' : Node} {r : Forest} {l : List Node} : HandedDown (givenDefault e) e.ctx (turned n) n' → Laid e r l →
      Laid e (.leaf n r) (n' :: l)
  | elem {e c : Element} {n' : Node} {k r : Forest} {ck l : List Node} : Laid c k ck →
      HandedDown (givenDefault e) e.ctx (.element { c with children := joinBack ck }) n' → Laid e r l → Laid e (.elem c k r) (n' :: l)

/-- pushed elements have no children of their own -/
def Forest.Fresh : Forest → Prop
  | .nil => True
  | .leaf _ r => r.Fresh
  | .elem e k r => e.children = [] ∧ k.Fresh ∧ r.Fresh

/-- one forest after the other -/
def Forest.then : Forest → Forest → Forest
  | .nil, g => g
  | .leaf n r, g => .leaf n (r.then g)
  | .elem e k r, g => .elem e k (r.then g)

/-- the operations that write some top-level elements with their contents -/
def topOps : List (Element × Forest) → List Op
  | [] => []
  | (e, f) :: l => .push e :: (f.ops ++ .pop :: topOps l)

/-- all the contents in one forest -/
def allContent : List (Element × Forest) → Forest
  | [] => .nil
  | (_, f) :: l => f.then (allContent l)

/-! ## top-level elements of a source -/

/-- a top-level element: the text before it, its first tag, and the tokens after that up to the end of the element -/
structure Top where
  text : Str
  tag : Str
  body : List (Str × Str)

/-- its tokens -/
def Top.toks (t : Top) : List (Str × Str) := (t.text, t.tag) :: t.body
/-- the element alone -/
def Top.src (t : Top) : Str := t.tag ++ srcOf t.body

/-- the text node that a piece of text stands for, unless the piece is white space -/
def TextNode (decode : Str → Str → Prop) (text : Str) (l : List Node) : Prop :=
  ((∀ c ∈ text, isWs c = true) ∧ l = []) ∨ ((∃ c ∈ text, isWs c = false) ∧ ∃ t, decode text t ∧ l = [.text t])

/-- like `Content`, but the list also has the texts that are only white space and are written with references -/
inductive Inside (decode : Str → Str → Prop) : Str → List (Str × Str) → List Node → Prop
  | close {n text tag : Str} {l : List Node} : kind tag = .close → Inner tag n → TextNode decode text l →
      Inside decode n [(text, tag)] l
  | comment {n text c : Str} {toks : List (Str × Str)} {l r : List Node} : TextNode decode text l → Inside decode n toks r →
      Inside decode n ((text, c%"<!--" ++ c ++ c%"-->") :: toks) (l ++ .comment c :: r)
  | cdata {n text c : Str} {toks : List (Str × Str)} {l r : List Node} : TextNode decode text l → Inside decode n toks r →
      Inside decode n ((text, c%"<![CDATA[" ++ c ++ c%"]]>") :: toks) (l ++ .cdata c :: r)
  | empty {n text tag : Str} {e : Element} {toks : List (Str × Str)} {l r : List Node} : kind tag = .empty →
      OpenName tag e.tagName → e.children = [] → TextNode decode text l → Inside decode n toks r →
      Inside decode n ((text, tag) :: toks) (l ++ .element e :: r)
  | elem {n text tag : Str} {e : Element} {toks1 toks2 : List (Str × Str)} {l r : List Node} : kind tag = .start →
      OpenName tag e.tagName → Content decode e.tagName toks1 e.children → TextNode decode text l → Inside decode n toks2 r →
      Inside decode n ((text, tag) :: (toks1 ++ toks2)) (l ++ .element e :: r)

/-- a top-level element, what `parse_str` makes of it alone, and the nodes in it -/
structure RootPiece where
  top : Top
  doc : Document
  nodes : List Node

/-- the parts of a piece fit together -/
structure RootPiece.Ok (decode : Str → Str → Prop) (p : RootPiece) : Prop where
  blank : AllWs p.top.text
  lexes : Lexes p.top.src (([], p.top.tag) :: p.top.body) []
  root : ¬ IsProlog p.top.tag
  one : OneRoot (p.top.tag :: p.top.body.map Prod.snd)
  alone : parseStr p.top.src = .ok p.doc
  children : p.doc.root.children = p.nodes.filter (fun n => !isBlankText n)
  nodes : (kind p.top.tag = .empty ∧ p.top.body = [] ∧ p.nodes = []) ∨
    (kind p.top.tag = .start ∧ Inside decode p.doc.root.tagName p.top.body p.nodes)

end KissXml.Spec
