import Verif.Spec.PutIn
import Verif.Spec.Source
/-!
# Specification: the events of a document

A tree, read from the beginning to the end, is a list of events, as a streaming parser reports them; so is a list of tags and texts.
-/
namespace KissXml.Spec

/-- what happens while a document is read -/
inductive Event where
  | start (name : Str) (attrs : Str → Option Str)
  | stop (name : Str)
  | text (s : Str)
  | comment (s : Str)
  | cdata (s : Str)

mutual
/-- the events of a node -/
def events : Node → List Event
  | .element ⟨n, cs, a, x, q, c⟩ =>
    .start (ElementF.tagName (⟨n, cs, a, x, q, c⟩ : Element)) a.get :: (eventsL cs ++ [.stop (ElementF.tagName (⟨n, cs, a, x, q, c⟩ : Element))])
  | .text t => [.text t]
  | .comment t => [.comment t]
  | .cdata t => [.cdata t]
/-- the events of nodes one after the other -/
def eventsL : List Node → List Event
  | [] => []
  | n :: l => events n ++ eventsL l
end

/-- attribute values as `unescape` reads them -/
def Read (raw v : Str) : Prop := Unesc raw (some v)

/-- the events that a tag stands for -/
inductive TagEvents : Str → List Event → Prop
  | start {tag : Str} {e : Element} : kind tag = .start → TagWrites Read tag e → TagEvents tag [.start e.tagName e.attrs.get]
  | empty {tag : Str} {e : Element} : kind tag = .empty → TagWrites Read tag e →
      TagEvents tag [.start e.tagName e.attrs.get, .stop e.tagName]
  | close {tag n : Str} : kind tag = .close → Inner tag n → TagEvents tag [.stop n]
  | comment {c : Str} : TagEvents (c%"<!--" ++ c ++ c%"-->") [.comment c]
  | cdata {c : Str} : TagEvents (c%"<![CDATA[" ++ c ++ c%"]]>") [.cdata c]

/-- the events that a text with the tag after it stands for -/
def TokEvents (t : Str × Str) (l : List Event) : Prop := ∃ ns l', StandsFor t.1 ns ∧ TagEvents t.2 l' ∧ l = eventsL ns ++ l'

/-- the texts among the events -/
def Event.text? : Event → Option Str
  | .text s => some s
  | _ => none

mutual
/-- nodes that differ in their namespaces only -/
inductive SameWriting : Node → Node → Prop
  | element {e e' : Element} : e.tagName = e'.tagName → e.attrs.get = e'.attrs.get → SameWritingL e.children e'.children →
      SameWriting (.element e) (.element e')
  | text (t : Str) : SameWriting (.text t) (.text t)
  | comment (t : Str) : SameWriting (.comment t) (.comment t)
  | cdata (t : Str) : SameWriting (.cdata t) (.cdata t)
/-- the same for lists of nodes -/
inductive SameWritingL : List Node → List Node → Prop
  | nil : SameWritingL [] []
  | cons {n n' : Node} {l l' : List Node} : SameWriting n n' → SameWritingL l l' → SameWritingL (n :: l) (n' :: l')
end

end KissXml.Spec
