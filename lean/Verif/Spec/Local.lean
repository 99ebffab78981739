import Verif.Spec.Source
import Verif.Spec.Errors
import Verif.Spec.Conform
/-!
# Specification: elements inside of a source, and nodes inside of a tree
-/
namespace KissXml.Spec

/-- Among some tokens, after the tokens `a`, there is an element: its first tag, with the text before that, and the tokens after that
up to the end of the element. -/
structure ElementIn (toks a : List (Str × Str)) (text tag : Str) (body b : List (Str × Str)) : Prop where
  split : toks = a ++ (text, tag) :: (body ++ b)
  opening : Opening tag
  one : OneRoot (tag :: body.map Prod.snd)
  closed : depth (tag :: body.map Prod.snd) = 0

/-- a list of nodes with a hole for one node, either in the list or below one of its elements -/
inductive Hole where
  | here (before after : List Node)
  | under (before : List Node) (e : Element) (h : Hole) (after : List Node)

/-- put a node in the hole -/
def Hole.plug : Hole → Node → List Node
  | .here l r, n => l ++ n :: r
  | .under l e h r, n => l ++ .element { e with children := h.plug n } :: r

/-- number of elements of a list of nodes, those below others included -/
def countElements (l : List Node) : Nat := ((docOrderL l).filterMap element?).length

/-- number of elements before the hole, in document order -/
def Hole.count : Hole → Nat
  | .here l _ => countElements l
  | .under l _ h _ => countElements l + 1 + h.count

end KissXml.Spec
