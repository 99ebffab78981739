import Verif.Proofs.RootsParse
import Verif.Proofs.TokenCheck
/-!
# Several top-level elements, and the parse arena for all sequences of operations (C53, C76)
-/
namespace KissXml.Props
open Spec

/-! ## C53: all sequences of operations on the arena -/

/-- The sequences of operations that succeed on a new stack are those that can be completed by closing elements to a sequence that
writes elements, one after the other at the top level, with anything inside of them. -/
theorem C53_success (l : List Op) :
    (∃ t, runOps l ParseTree.new = .ok t) ↔ ∃ n gs, l ++ List.replicate n .pop = topOps gs := by
  constructor
  · rintro ⟨t, h⟩
    obtain ⟨gs, p, rfl⟩ := ops_shape l t h
    obtain ⟨gs', h1, -⟩ := open_close p gs
    exact ⟨_, gs', h1⟩
  · rintro ⟨n, gs, h⟩
    have h1 := (runOps_tops gs).1
    rw [← h, runOps_append] at h1
    obtain ⟨t, h2, -⟩ := bind_eq_ok.1 h1
    exact ⟨t, h2⟩

/-- What `to_dom` returns after any such sequence, when the pushed elements have no children of their own: the element that was
pushed last at the top level; its children are everything that was written inside of any top-level element, in order, handed the
namespaces of that last element; adjacent texts are joined the wrong way round (`joinBack`). -/
theorem C53_dom (l : List Op) (n : Nat) (gs : List (Element × Forest)) (e : Element) (f : Forest)
    (hl : l ++ List.replicate n .pop = topOps (gs ++ [(e, f)]))
    (hf : ∀ g ∈ gs ++ [(e, f)], g.1.children = [] ∧ g.2.Fresh) :
    ∃ t cs, runOps l ParseTree.new = .ok t ∧ Laid e (allContent (gs ++ [(e, f)])) cs ∧
      t.toDom = .ok { e with children := joinBack cs } := by
  have h1 := (runOps_tops (gs ++ [(e, f)])).1
  rw [← hl, runOps_append] at h1
  obtain ⟨t, h2, h3⟩ := bind_eq_ok.1 h1
  refine ⟨t, _, h2, laid_spec _ e, ?_⟩
  rw [← toDom_data (pops_data n t _ h3)]
  exact toDom_tops hf

example : [.push ⟨c%"a", [], .empty, none, none, .empty⟩, .append (.text c%"x"), .append (.text c%"y"), .pop,
      .push ⟨c%"b", [], .empty, none, none, .empty⟩, .append (.text c%"z"), .push ⟨c%"c", [], .empty, none, none, .empty⟩] ++
      List.replicate 2 .pop =
    topOps ([((⟨c%"a", [], .empty, none, none, .empty⟩ : Element), Forest.leaf (.text c%"x") (.leaf (.text c%"y") .nil))] ++
      [(⟨c%"b", [], .empty, none, none, .empty⟩, .leaf (.text c%"z") (.elem ⟨c%"c", [], .empty, none, none, .empty⟩ .nil .nil))]) := by
  rfl
example : ∃ t, runOps [.push ⟨c%"a", [], .empty, none, none, .empty⟩, .append (.text c%"x"), .append (.text c%"y"), .pop,
      .push ⟨c%"b", [], .empty, none, none, .empty⟩, .append (.text c%"z"), .push ⟨c%"c", [], .empty, none, none, .empty⟩]
      ParseTree.new = .ok t ∧
    t.toDom = .ok ⟨c%"b", [.text c%"zyx", .element ⟨c%"c", [], .empty, none, none, .empty⟩], .empty, none, none, .empty⟩ :=
  ⟨_, rfl, rfl⟩
example : joinBack [.text c%"x", .text c%"y", .text c%" "] = [.text c%"yx"] ∧
    joinBack [.text c%" ", .text c%"y"] = [.text c%"y "] := ⟨rfl, rfl⟩

/-! ## C76: documents with several top-level elements -/

/-- An accepted document is a prolog and one or more top-level elements, each of which is accepted alone.  The result is the last of
them with the nodes of all of them, in order, as its children: they are handed the namespaces of the last one, and adjacent texts are
joined the wrong way round (`joinBack`).  If there are several, none is an empty-element tag. -/
theorem C76_roots (x : Str) (d : Document) (pre rest : List (Str × Str)) (h : parseStr x = .ok d) (hp : Parts x pre rest) :
    ∃ (ps : List RootPiece) (q : RootPiece) (l : List Node),
      rest = (ps ++ [q]).flatMap (fun p => p.top.toks) ∧
      (∀ p ∈ ps ++ [q], p.Ok ReadAs) ∧
      (ps ≠ [] → ∀ p ∈ ps ++ [q], kind p.top.tag = .start) ∧
      List.Forall₂ (HandedDown (givenDefault q.doc.root) q.doc.root.ctx) ((ps ++ [q]).flatMap RootPiece.nodes) l ∧
      d.root = { q.doc.root with children := joinBack l } := by
  obtain ⟨text, tag, rest', E, F, rfl, hF, hR, hd, -⟩ := accepted_parts h hp
  obtain ⟨tail, hl⟩ := hp.lexes
  obtain ⟨qs, q, h1, h2, h3, h4, h5, h6, h7⟩ := root_pieces hR (all_iff.2 hF.blank)
    (fun t ht => lexes_toks hl t (List.mem_append_right _ ht))
  refine ⟨qs, q, laid E F, h1, h2, h3, ?_, ?_⟩
  · rw [h6 E, List.forall₂_map_right_iff, List.forall₂_same]
    intro n _
    have hg : givenDefault q.doc.root = E.defaultNamespace := by
      rw [h7, ← givenDefault_eq]; rfl
    have hc : q.doc.root.ctx = E.ctx := by rw [h7]
    rw [hg, hc]
    exact handedDown_apply _ _ _
  · rw [hd, addRev_laid h4 E h5, h7]
    simp [ElementF.reverseChildren]

/-- The elements of such a result (and so of every accepted document, by `C76_roots`): the last top-level element, and the elements
inside of all of them, each as its tag writes it. -/
theorem C76_elements (ps : List RootPiece) (q : RootPiece) (l : List Node) (hp : ∀ p ∈ ps ++ [q], p.Ok ReadAs)
    (hl : List.Forall₂ (HandedDown (givenDefault q.doc.root) q.doc.root.ctx) ((ps ++ [q]).flatMap RootPiece.nodes) l) :
    List.Forall₂ (TagWrites ReadAs) (q.top.tag :: openTags (((ps ++ [q]).flatMap fun p => p.top.body).map Prod.snd))
      (elementsOf { q.doc.root with children := joinBack l }) := by
  rw [elementsOf_eq]
  refine .cons (tagWrites_same (piece_writes (hp q (by simp))).1 (opens_tagName_children _ _) rfl) ?_
  rw [elementsL_joinBack]
  exact writtenAlike_writes (pieces_write hp) (handedDown_elements hl)

/-- Conversely, elements can be written one after the other: a document whose top-level elements are no empty-element tags, followed
by another one without a prolog, is accepted, with the declaration and the DTDs of the first. -/
theorem C76_append (x y : Str) (d d' : Document) (pre rest rest' toks : List (Str × Str)) (text tag text' tag' : Str)
    (hx : parseStr x = .ok d) (hy : parseStr y = .ok d') (hl : Lexes x toks [])
    (hp : Parts x pre ((text, tag) :: rest)) (hk : kind tag = .start)
    (hp' : Parts y [] ((text', tag') :: rest')) (hk' : kind tag' = .start) :
    ∃ d'', parseStr (x ++ y) = .ok d'' ∧ d''.declaration = d.declaration ∧ d''.dtds = d.dtds :=
  parse_append hx hy hl hp hk hp' hk'

/-- two top-level elements, with a prefix and a default namespace -/
def twoRoots : Str := c%"<?xml?><a><p:c xmlns:p='v'/>x &#20;</a> <b xmlns=\"u\">y<d/></b>"
/-- its tokens after the prolog -/
def twoRest : List (Str × Str) :=
  [([], c%"<a>"), ([], c%"<p:c xmlns:p='v'/>"), (c%"x &#20;", c%"</a>"), (c%" ", c%"<b xmlns=\"u\">"), (c%"y", c%"<d/>"),
    ([], c%"</b>")]

example : Parts twoRoots [([], c%"<?xml?>")] twoRest := partsB_sound [] (by decide) rfl
example : (match parseStr twoRoots with
    | .ok d => (d.root.tagName, d.root.children.map Node.textOf, (elementsOf d.root).map ElementF.xmlns)
    | _ => ([], [], [])) =
    (c%"b", [[], c%"yx  ", []], [some c%"u", some c%"v", some c%"u"]) := by decide +kernel

example : Lexes c%"<?xml?><a>x</a>" [([], c%"<?xml?>"), ([], c%"<a>"), (c%"x", c%"</a>")] [] :=
  lexesB_sound (toks := [([], c%"<?xml?>"), ([], c%"<a>"), (c%"x", c%"</a>")]) (tail := []) (by decide)
example : Parts c%"<?xml?><a>x</a>" [([], c%"<?xml?>")] [([], c%"<a>"), (c%"x", c%"</a>")] := partsB_sound [] (by decide) rfl
example : Parts c%" <b>y</b>" [] [(c%" ", c%"<b>"), (c%"y", c%"</b>")] := partsB_sound [] (by decide) rfl
example : kind c%"<a>" = .start ∧ kind c%"<b>" = .start := by decide
example : (∃ d, parseStr c%"<?xml?><a>x</a>" = .ok d) ∧ ∃ d, parseStr c%" <b>y</b>" = .ok d := ⟨⟨_, rfl⟩, ⟨_, rfl⟩⟩
example : (match parseStr (c%"<?xml?><a>x</a>" ++ c%" <b>y</b>") with | .ok d => d.root.toString | _ => []) = c%"<b>yx</b>" := by
  decide +kernel

end KissXml.Props
