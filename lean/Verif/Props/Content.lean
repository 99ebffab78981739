import Verif.Proofs.Content
import Verif.Props.Local
import Verif.Props.Dom
/-!
# The content of an element in the source (C111)
-/
namespace KissXml.Props
open Spec

/-- Two accepted documents with one top-level element each, whose sources are the same but for one element.  The trees are the same but
for this element, which is at the same place.  If the first tags of the two elements are the same too, then the two elements differ in
their children only. -/
theorem C111_frame (x x' : Str) (d d' : Document) (pre rest rest' a body body' b : List (Str × Str)) (text tag tag' tail : Str)
    (h : parseStr x = .ok d) (hp : Parts x pre rest) (hl : Lexes x (pre ++ rest) tail) (h1 : OneRoot (rest.map Prod.snd))
    (he : ElementIn rest a text tag body b)
    (h' : parseStr x' = .ok d') (hp' : Parts x' pre rest') (hl' : Lexes x' (pre ++ rest') tail) (h1' : OneRoot (rest'.map Prod.snd))
    (he' : ElementIn rest' a text tag' body' b) :
    ∃ (H : Hole) (e e' : Element), [.element d.root] = H.plug (.element e) ∧ [.element d'.root] = H.plug (.element e') ∧
      H.count = (openTags (a.map Prod.snd)).length ∧ d'.declaration = d.declaration ∧ d'.dtds = d.dtds ∧
      (tag' = tag → ∃ l, e' = { e with children := l }) :=
  content_frame h hp hl h1 he h' hp' hl' h1' he'

/-- In an accepted document with one top-level element, take an element that is not written as an empty-element tag, and write some
characters other than `<` in place of all that is between its first and its last tag.  The new document is accepted exactly if these
characters stand for a text or for nothing; its tree is the old one with this text, or nothing, in place of the children of the element. -/
theorem C111_content (x : Str) (d : Document) (pre rest a c b : List (Str × Str)) (text tag t0 close tail t : Str)
    (h : parseStr x = .ok d) (hp : Parts x pre rest) (hl : Lexes x (pre ++ rest) tail) (h1 : OneRoot (rest.map Prod.snd))
    (he : ElementIn rest a text tag (c ++ [(t0, close)]) b) (ht : '<' ∉ t) :
    ∃ (H : Hole) (e : Element), [.element d.root] = H.plug (.element e) ∧ H.count = (openTags (a.map Prod.snd)).length ∧
      ∀ d', parseStr (srcOf (pre ++ a ++ (text, tag) :: (t, close) :: b) ++ tail) = .ok d' ↔
        ∃ l r, StandsFor t l ∧ [.element r] = H.plug (.element { e with children := l }) ∧ d' = { d with root := r } := by
  obtain ⟨H, e, i1, i2, i3⟩ := content_text h hp hl h1 he
  refine ⟨H, e, i1, i2, fun d' => ⟨fun h' => ?_, ?_⟩⟩
  · obtain ⟨l, hs⟩ := content_text_out h hp hl h1 he ht h'
    obtain ⟨d'', j1, j2, j3, j4⟩ := i3 t l hs ht
    rw [h'] at j1
    cases j1
    exact ⟨l, d'.root, hs, j2, by rw [← j3, ← j4]⟩
  · rintro ⟨l, r, hs, hr, rfl⟩
    obtain ⟨d'', j1, j2, j3, j4⟩ := i3 t l hs ht
    rw [j1, ← j3, ← j4]
    rw [← j2] at hr
    cases hr
    rfl

/-- In particular: with a text in place of the content, the document read is the old one after `set_text` on this element
(if the text is decoded to white space only, both drop it). -/
theorem C111_set_text (x : Str) (d : Document) (pre rest a c b : List (Str × Str)) (text tag t0 close tail t u : Str)
    (h : parseStr x = .ok d) (hp : Parts x pre rest) (hl : Lexes x (pre ++ rest) tail) (h1 : OneRoot (rest.map Prod.snd))
    (he : ElementIn rest a text tag (c ++ [(t0, close)]) b) (ht : ¬ AllWs t) (hlt : '<' ∉ t) (hu : Unesc t (some u)) :
    ∃ (H : Hole) (e e' r : Element), [.element d.root] = H.plug (.element e) ∧ H.count = (openTags (a.map Prod.snd)).length ∧
      e.setText u = .ok e' ∧ [.element r] = H.plug (.element e') ∧
      parseStr (srcOf (pre ++ a ++ (text, tag) :: (t, close) :: b) ++ tail) = .ok { d with root := r } := by
  obtain ⟨H, e, i1, i2, i3⟩ := content_text h hp hl h1 he
  have hs : StandsFor t (if Blank u then [] else [.text u]) := by
    split
    · exact .unseen ht hu ‹_›
    · exact .text ht hu ‹_›
  obtain ⟨d', j1, j2, j3, j4⟩ := i3 t _ hs hlt
  exact ⟨H, e, _, d'.root, i1, i2, C25_set_text e u, j2, by rw [j1, ← j3, ← j4]⟩

/-- In particular: with at most white space in place of the content, the document read is the old one after `clear_children`. -/
theorem C111_clear (x : Str) (d : Document) (pre rest a c b : List (Str × Str)) (text tag t0 close tail t : Str)
    (h : parseStr x = .ok d) (hp : Parts x pre rest) (hl : Lexes x (pre ++ rest) tail) (h1 : OneRoot (rest.map Prod.snd))
    (he : ElementIn rest a text tag (c ++ [(t0, close)]) b) (ht : AllWs t) (hlt : '<' ∉ t) :
    ∃ (H : Hole) (e r : Element), [.element d.root] = H.plug (.element e) ∧ H.count = (openTags (a.map Prod.snd)).length ∧
      [.element r] = H.plug (.element e.clearChildren) ∧
      parseStr (srcOf (pre ++ a ++ (text, tag) :: (t, close) :: b) ++ tail) = .ok { d with root := r } := by
  obtain ⟨H, e, i1, i2, i3⟩ := content_text h hp hl h1 he
  obtain ⟨d', j1, j2, j3, j4⟩ := i3 t _ (.blank ht) hlt
  exact ⟨H, e, d'.root, i1, i2, j2, by rw [j1, ← j3, ← j4]⟩

/-! ## examples -/

example : ∃ (H : Hole) (d : Document) (e e' r : Element), parseStr localInput = .ok d ∧ [.element d.root] = H.plug (.element e) ∧ H.count = 1 ∧
    e.setText c%"a < b" = .ok e' ∧ [.element r] = H.plug (.element e') ∧
    parseStr c%"<?xml version='1.0'?>\n<p:a xmlns:p='u' xmlns='w'>t&lt;<q:b xmlns:q='v'>a &lt; b</q:b><p:d></p:d> </p:a>\n" =
      .ok { d with root := r } := by
  obtain ⟨d, h⟩ := localOk
  obtain ⟨H, e, e', r, h2, h3, h4, h5, h6⟩ := C111_set_text localInput d _ _ _ [([], c%"<p:c/>")] _ _ _ c%"x" c%"</q:b>" _ c%"a &lt; b" c%"a < b" h
    localParts localLexes (oneRootB_sound (by decide)) localB
    (by unfold AllWs; decide) (by decide) (unescape_ok_iff (ε := Unit).1 rfl)
  exact ⟨H, d, e, e', r, h, h2, h3, h4, h5, h6⟩

example : ∃ (H : Hole) (d : Document) (e r : Element), parseStr localInput = .ok d ∧ [.element d.root] = H.plug (.element e) ∧ H.count = 1 ∧
    [.element r] = H.plug (.element e.clearChildren) ∧
    parseStr c%"<?xml version='1.0'?>\n<p:a xmlns:p='u' xmlns='w'>t&lt;<q:b xmlns:q='v'>\n</q:b><p:d></p:d> </p:a>\n" =
      .ok { d with root := r } := by
  obtain ⟨d, h⟩ := localOk
  obtain ⟨H, e, r, h2, h3, h4, h5⟩ := C111_clear localInput d _ _ _ [([], c%"<p:c/>")] _ _ _ c%"x" c%"</q:b>" _ c%"\n" h
    localParts localLexes (oneRootB_sound (by decide)) localB (by unfold AllWs; decide) (by decide)
  exact ⟨H, d, e, r, h, h2, h3, h4, h5⟩

/-- characters that cannot be decoded -/
example (d' : Document) :
    parseStr c%"<?xml version='1.0'?>\n<p:a xmlns:p='u' xmlns='w'>t&lt;<q:b xmlns:q='v'>&é</q:b><p:d></p:d> </p:a>\n" ≠ .ok d' := by
  obtain ⟨d, h⟩ := localOk
  obtain ⟨H, e, -, -, h4⟩ := C111_content localInput d _ _ _ [([], c%"<p:c/>")] _ _ _ c%"x" c%"</q:b>" _ c%"&é" h
    localParts localLexes (oneRootB_sound (by decide)) localB (by decide)
  intro h'
  obtain ⟨l, r, hs, -⟩ := (h4 d').1 h'
  have key : ∀ u, ¬ Unesc c%"&é" (some u) := by
    intro u hu
    have h0 := unescape_ok_iff (ε := Unit).2 hu
    have h1 : (match (unescape c%"&é" : Res Unit Str) with | .ok _ => true | _ => false) = false := by decide
    rw [h0] at h1
    cases h1
  cases hs with
  | blank h => revert h; unfold AllWs; decide
  | unseen _ h _ => exact key _ h
  | text _ h _ => exact key _ h

/-- another element in the place of `<q:b …>`: all the other nodes are the same -/
def otherRest : List (Str × Str) :=
  [(c%"\n", c%"<p:a xmlns:p='u' xmlns='w'>"), (c%"t&lt;", c%"<q:b xmlns:q='v'>"), ([], c%"<q:z>"), ([], c%"</q:z>"), ([], c%"<!-- k -->"),
   (c%"y", c%"</q:b>"), ([], c%"<p:d>"), ([], c%"</p:d>"), (c%" ", c%"</p:a>")]

example : ∃ (H : Hole) (d d' : Document) (e : Element) (l : List Node), parseStr localInput = .ok d ∧
    parseStr c%"<?xml version='1.0'?>\n<p:a xmlns:p='u' xmlns='w'>t&lt;<q:b xmlns:q='v'><q:z></q:z><!-- k -->y</q:b><p:d></p:d> </p:a>\n" = .ok d' ∧
    [.element d.root] = H.plug (.element e) ∧ [.element d'.root] = H.plug (.element { e with children := l }) ∧ H.count = 1 := by
  obtain ⟨d, h⟩ := localOk
  have hl' : Lexes c%"<?xml version='1.0'?>\n<p:a xmlns:p='u' xmlns='w'>t&lt;<q:b xmlns:q='v'><q:z></q:z><!-- k -->y</q:b><p:d></p:d> </p:a>\n"
      (localPre ++ otherRest) c%"\n" := by
    have h : lexesB (localPre ++ otherRest) c%"\n" = true := by decide
    exact lexesB_sound h
  have hok : ∃ d', parseStr c%"<?xml version='1.0'?>\n<p:a xmlns:p='u' xmlns='w'>t&lt;<q:b xmlns:q='v'><q:z></q:z><!-- k -->y</q:b><p:d></p:d> </p:a>\n" =
      .ok d' := by
    have h : (match parseStr c%"<?xml version='1.0'?>\n<p:a xmlns:p='u' xmlns='w'>t&lt;<q:b xmlns:q='v'><q:z></q:z><!-- k -->y</q:b><p:d></p:d> </p:a>\n" with
      | .ok _ => true | _ => false) = true := by decide +kernel
    generalize parseStr _ = r at h ⊢
    cases r <;> simp_all
  obtain ⟨d', h'⟩ := hok
  obtain ⟨H, e, e', h2, h3, h4, -, -, h5⟩ := C111_frame localInput _ d d' localPre localRest otherRest _ _
    [([], c%"<q:z>"), ([], c%"</q:z>"), ([], c%"<!-- k -->"), (c%"y", c%"</q:b>")] _ _ _ c%"<q:b xmlns:q='v'>" _
    h localParts localLexes (oneRootB_sound (by decide)) localB
    h' (partsB_sound c%"\n" (by decide) rfl) hl' (oneRootB_sound (by decide)) ⟨rfl, by decide, oneRootB_sound (by decide), by decide⟩
  obtain ⟨l, rfl⟩ := h5 rfl
  exact ⟨H, d, d', e, l, h, h', h2, h3, h4⟩

end KissXml.Props
