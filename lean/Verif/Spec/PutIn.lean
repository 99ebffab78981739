import Verif.Spec.Local
/-!
# Specification: places in a tree where a node can be put in or taken out
-/
namespace KissXml.Spec

/-- the list of nodes with nothing in the hole -/
def Hole.close : Hole → List Node
  | .here l r => l ++ r
  | .under l e h r => l ++ .element { e with children := h.close } :: r

/-- number of elements that the hole is inside of -/
def Hole.level : Hole → Nat
  | .here _ _ => 0
  | .under _ _ h _ => h.level + 1

/-- anything but a text -/
def isMarkup : Node → Bool
  | .text _ => false
  | _ => true

/-- number of elements, comments and CDATA sections in a list of nodes, those below others included -/
def countMarks (l : List Node) : Nat := ((docOrderL l).filter isMarkup).length

/-- number of elements, comments and CDATA sections before the hole, in document order -/
def Hole.earlier : Hole → Nat
  | .here l _ => countMarks l
  | .under l _ h _ => countMarks l + 1 + h.earlier

/-- what comes directly after the hole -/
def Hole.next : Hole → Option Node
  | .here _ r => r.head?
  | .under _ _ h _ => h.next

/-- the list of nodes with some nodes in the hole -/
def Hole.fill : Hole → List Node → List Node
  | .here l r, m => l ++ m ++ r
  | .under l e h r, m => l ++ .element { e with children := h.fill m } :: r

/-- the hole is where the tags that follow the tags `tags` are read: below as many elements as these tags leave open, and after as many
elements, comments and CDATA sections as these tags write -/
def Hole.After (h : Hole) (tags : List Str) : Prop :=
  (h.level : Int) = depth tags ∧ h.earlier = (tags.filter fun t => kind t != .close).length

/-- a place among some tokens: before a tag that is not the first one, and after the text before this tag -/
structure PlaceIn (toks a : List (Str × Str)) (text tag : Str) (b : List (Str × Str)) : Prop where
  split : toks = a ++ (text, tag) :: b
  inside : a ≠ []

/-- the tag `tag`, with the tokens `body`, is one node: an element from its first to its last tag, a comment or a CDATA section -/
inductive OneNode (tag : Str) : List (Str × Str) → Prop
  | mark : kind tag = .mark → OneNode tag []
  | element {body : List (Str × Str)} : Opening tag → OneRoot (tag :: body.map Prod.snd) → depth (tag :: body.map Prod.snd) = 0 →
      OneNode tag body

/-- the node begins with the tag: a comment or CDATA section is written by it, an element has the name in it -/
def BeginsWith (tag : Str) : Node → Prop
  | .element e => Opening tag ∧ OpenName tag e.tagName
  | n => markSource n = some tag

/-- `u` is the text that the characters `t` stand for -/
def TextFor (t : Str) (u : Str) : Prop := ¬ AllWs t ∧ '<' ∉ t ∧ Unesc t (some u) ∧ ¬ Blank u

/-- the nodes that the characters `t` between two tags stand for: none, or one text -/
inductive StandsFor (t : Str) : List Node → Prop
  | blank : AllWs t → StandsFor t []
  | unseen {u : Str} : ¬ AllWs t → Unesc t (some u) → Blank u → StandsFor t []
  | text {u : Str} : ¬ AllWs t → Unesc t (some u) → ¬ Blank u → StandsFor t [.text u]

end KissXml.Spec
