import Verif.Proofs.Events
import Verif.Proofs.TokenCheck
import Verif.Props.Dom
/-!
# C120: the tree is what is written

Reading the tree of a parsed document from the beginning to the end gives the tags and texts of the input one by one.
-/
namespace KissXml.Props
open KissXml KissXml.Spec

/-- C120: in every parsed document with one top-level element, each text and tag from the root tag on stands for some events: a start tag for the
start of an element with its name and attributes, a closing tag for the end of the element that it names, an empty-element tag for both,
comments and CDATA sections for themselves, and texts for what they are decoded to, or for nothing if they are white space, before or after
they are decoded. The events of the tree are these, in the same order. -/
theorem C120_events (x : Str) (d : Document) (pre rest : List (Str × Str)) (h : parseStr x = .ok d) (hp : Parts x pre rest)
    (h1 : OneRoot (rest.map Prod.snd)) : ∃ ls, List.Forall₂ TokEvents rest ls ∧ events (.element d.root) = ls.flatten :=
  let ⟨ls, h2, h3⟩ := root_events h hp h1
  ⟨ls, h2, h3.symm⟩

/-- C120: the tags and texts determine the events. -/
theorem C120_unique (toks : List (Str × Str)) (ls ls' : List (List Event)) (h : List.Forall₂ TokEvents toks ls)
    (h' : List.Forall₂ TokEvents toks ls') : ls = ls' := toksEvents_unique h h'

/-- C120: the events determine the tree, except for the namespaces (for which see C73). -/
theorem C120_tree (e e' : Element) (h : events (.element e) = events (.element e')) : SameWriting (.element e) (.element e') := events_inj h

/-- C120: two documents whose texts and tags stand for the same events have the same tree, except for the namespaces. -/
theorem C120_same (x x' : Str) (d d' : Document) (pre pre' rest rest' : List (Str × Str)) (ls ls' : List (List Event))
    (h : parseStr x = .ok d) (hp : Parts x pre rest) (h1 : OneRoot (rest.map Prod.snd))
    (h' : parseStr x' = .ok d') (hp' : Parts x' pre' rest') (h1' : OneRoot (rest'.map Prod.snd))
    (hl : List.Forall₂ TokEvents rest ls) (hl' : List.Forall₂ TokEvents rest' ls') (he : ls.flatten = ls'.flatten) :
    SameWriting (.element d.root) (.element d'.root) := by
  obtain ⟨m, g1, g2⟩ := C120_events x d pre rest h hp h1
  obtain ⟨m', g3, g4⟩ := C120_events x' d' pre' rest' h' hp' h1'
  refine C120_tree _ _ ?_
  rw [g2, g4, C120_unique _ _ _ g1 hl, C120_unique _ _ _ g3 hl', he]

/-- C120: `text()` of the root element is all the character data of the input, one text after the other, without those that are white space and
without CDATA sections. -/
theorem C120_text (x : Str) (d : Document) (pre rest : List (Str × Str)) (h : parseStr x = .ok d) (hp : Parts x pre rest)
    (h1 : OneRoot (rest.map Prod.snd)) : ∃ nss, List.Forall₂ (fun t ns => StandsFor t.1 ns) rest nss ∧
      d.root.textOf = (nss.flatten.filterMap text?).flatten := by
  obtain ⟨ls, h2, h3⟩ := C120_events x d pre rest h hp h1
  have h4 := events_texts (.element d.root)
  rw [h3] at h4
  have h5 : (docOrder (.element d.root)).filterMap text? = (descendants d.root).filterMap text? := by
    obtain ⟨n, cs, a, y, q, c⟩ := d.root
    rw [docOrder]; rfl
  rw [C14_text, ← h5, ← h4]
  clear h h3 h4 h5 hp h1
  induction h2 with
  | nil => exact ⟨[], .nil, rfl⟩
  | @cons t l toks ls h6 _ ih =>
    obtain ⟨nss, g1, g2⟩ := ih
    obtain ⟨ns, l', k1, k2, rfl⟩ := h6
    refine ⟨ns :: nss, .cons k1 g1, ?_⟩
    have k3 : l'.filterMap Event.text? = [] := by generalize t.2 = tag at k2; cases k2 <;> rfl
    have k4 : (eventsL ns).filterMap Event.text? = ns.filterMap text? := by cases k1 <;> rfl
    rw [List.flatten_cons, List.filterMap_append, List.flatten_append, g2, List.filterMap_append, k3, k4, List.append_nil,
      List.flatten_cons, List.filterMap_append, List.flatten_append]

/-! ## an example -/

/-- all kinds of tags and texts -/
def evInput : Str := c%"<?xml?> <p:a xmlns:p='u' b='1'> <c/>x&lt;y<!--k--> z<![CDATA[&]]>\n</p:a>"

/-- its tokens after the declaration -/
def evRest : List (Str × Str) := [(c%" ", c%"<p:a xmlns:p='u' b='1'>"), (c%" ", c%"<c/>"), (c%"x&lt;y", c%"<!--k-->"), (c%" z", c%"<![CDATA[&]]>"),
  (c%"\n", c%"</p:a>")]

example : Parts evInput [([], c%"<?xml?>")] evRest ∧ OneRoot (evRest.map Prod.snd) := ⟨partsB_sound [] (by decide) rfl, oneRootB_sound (by decide)⟩

/-- the events, with the values of two attributes -/
def shown : Event → Str × List (Option Str)
  | .start n a => (c%"+" ++ n, [a c%"xmlns:p", a c%"b"])
  | .stop n => (c%"-" ++ n, [])
  | .text s => (c%"T" ++ s, [])
  | .comment s => (c%"C" ++ s, [])
  | .cdata s => (c%"D" ++ s, [])

example : (match parseStr evInput with | .ok d => (events (.element d.root)).map shown | _ => []) =
    [(c%"+p:a", [some c%"u", some c%"1"]), (c%"+c", [none, none]), (c%"-c", []), (c%"Tx<y", []), (c%"Ck", []), (c%"T z", []), (c%"D&", []),
      (c%"-p:a", [])] := by decide +kernel

example : (match parseStr evInput with | .ok d => d.root.textOf | _ => []) = c%"x<y z" := by decide +kernel

end KissXml.Props
