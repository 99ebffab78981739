import Verif.Proofs.AddAttr
import Verif.Props.Local
import Verif.Props.Variant
/-!
# An element with another name and other attributes in its tags (C107)
-/
namespace KissXml.Props
open Spec

/-- In an accepted document with one top-level element, write another first tag for one of the elements: with the same prefix and
the same namespace declarations, but with another local name and other attributes; and write the new name in its last tag.  The new document is
accepted.  Its tree is the old one where this element has the new name and the new attributes: its content, its namespace and all the other
nodes are as before. -/
theorem C107_retag (x : Str) (d : Document) (pre rest a body body' b : List (Str × Str)) (text tag tag' n n' l tail : Str) (ps ps' : List Str)
    (h : parseStr x = .ok d) (hp : Parts x pre rest) (hl : Lexes x (pre ++ rest) tail) (h1 : OneRoot (rest.map Prod.snd))
    (he : ElementIn rest a text tag body b) (hr : Retag tag tag' n n' l ps ps') (hc : Reclosed n' body body') :
    ∃ (H : Hole) (e : Element) (m : SMap) (d' : Document),
      [.element d.root] = H.plug (.element e) ∧ H.count = (openTags (a.map Prod.snd)).length ∧
      e.tagName = n ∧ ({ e with name := l, attrs := m } : Element).tagName = n' ∧ (∀ k v, e.attrs.get k = some v ↔ Gives ps k v) ∧ (∀ k v, m.get k = some v ↔ Gives ps' k v) ∧
      parseStr (srcOf (pre ++ a ++ (text, tag') :: (body' ++ b)) ++ tail) = .ok d' ∧
      [.element d'.root] = H.plug (.element { e with name := l, attrs := m }) ∧ d'.declaration = d.declaration ∧ d'.dtds = d.dtds :=
  parse_retag h hp hl h1 he hr hc

/-- In an accepted document with one top-level element, put one more attribute at the end of the first tag of one of the elements.  The new
document is accepted.  Its tree is the old one where this element has one more attribute (or another value for one that it had): its
content, its namespace and all the other nodes are as before. -/
theorem C107_add (x : Str) (d : Document) (pre rest a body b : List (Str × Str)) (text tag tag' k raw v tail : Str)
    (h : parseStr x = .ok d) (hp : Parts x pre rest) (hl : Lexes x (pre ++ rest) tail) (h1 : OneRoot (rest.map Prod.snd))
    (he : ElementIn rest a text tag body b) (hpi : ¬ c%"<?" <+: tag)
    (hput : AttrPut tag k raw tag') (hk : OtherName k) (hr : '"' ∉ raw) (hv : Unesc raw (some v)) :
    ∃ (H : Hole) (e : Element) (m : SMap) (d' : Document),
      [.element d.root] = H.plug (.element e) ∧ H.count = (openTags (a.map Prod.snd)).length ∧
      (∀ k', m.get k' = if k' = k then some v else e.attrs.get k') ∧
      parseStr (srcOf (pre ++ a ++ (text, tag') :: (body ++ b)) ++ tail) = .ok d' ∧
      [.element d'.root] = H.plug (.element { e with attrs := m }) ∧ d'.declaration = d.declaration ∧ d'.dtds = d.dtds :=
  parse_addAttr h hp hl h1 he hpi hput hk hr hv

/-! ## examples -/

/-- `<q:b xmlns:q='v'>` becomes `<q:new z='1&gt;' xmlns:q='v' >` -/
theorem exRetag : Retag c%"<q:b xmlns:q='v'>" c%"<q:new z='1&gt;' xmlns:q='v' >" c%"q:b" c%"q:new" c%"new" [c%"xmlns:q='v'"]
    [c%"z='1&gt;'", c%"xmlns:q='v'"] where
  kind := rfl
  good h := by have := badTag_iff.1 h; revert this; decide
  whole := tagAt_self (by decide) rfl
  new := pieces_split (comps := [c%"z='1&gt;'", c%"xmlns:q='v'"]) (inner_iff.2 ⟨rfl, angled_of rfl⟩) rfl
  readable := goodPieces_ok (b := []) (pos := 0) (m := .empty) rfl
  localName := ⟨'n', c%"ew", rfl, by decide, by decide⟩
  names := by
    intro p hp k raw hq
    have hz : Quoted c%"z" c%"1&gt;" c%"z='1&gt;'" := ⟨by decide, '\'', .inr rfl, rfl⟩
    have hx : Quoted c%"xmlns:q" c%"v" c%"xmlns:q='v'" := ⟨by decide, '\'', .inr rfl, rfl⟩
    simp only [List.mem_cons, List.not_mem_nil, or_false] at hp
    rcases hp with rfl | rfl
    · obtain ⟨rfl, -⟩ := quoted_unique hq hz
      exact ⟨'z', [], rfl, by decide, by decide⟩
    · obtain ⟨rfl, -⟩ := quoted_unique hq hx
      exact ⟨'x', c%"mlns:q", rfl, by decide, by decide⟩
  old := pieces_split (comps := [c%"xmlns:q='v'"]) (inner_iff.2 ⟨rfl, angled_of rfl⟩) rfl
  samePrefix := .prefixed (p := c%"q") (l0 := c%"b") (by decide) rfl rfl
  declared := by decide

example : ∃ (H : Hole) (e : Element) (m : SMap) (d d' : Document), parseStr localInput = .ok d ∧ H.count = 1 ∧
    [.element d.root] = H.plug (.element e) ∧ [.element d'.root] = H.plug (.element { e with name := c%"new", attrs := m }) ∧
    parseStr c%"<?xml version='1.0'?>\n<p:a xmlns:p='u' xmlns='w'>t&lt;<q:new z='1&gt;' xmlns:q='v' ><p:c/>x</q:new\n><p:d></p:d> </p:a>\n" = .ok d' := by
  obtain ⟨d, h⟩ := localOk
  obtain ⟨H, e, m, d', h2, h3, -, -, -, -, h4, h5, -⟩ := C107_retag localInput d _ _ _ _ _ _ _ _ _ _ _ _ _ _ _ h localParts localLexes
    (oneRootB_sound (by decide)) localB exRetag (.close (l := [([], c%"<p:c/>")]) (c' := c%"</q:new\n>") rfl
      (fun h => by have := badTag_iff.1 h; revert this; decide) (tagAt_self (by decide) rfl) (inner_iff.2 ⟨rfl, angled_of rfl⟩))
  exact ⟨H, e, m, d, d', h, h3, h2, h5, h4⟩

example : ∃ (H : Hole) (e : Element) (m : SMap) (d d' : Document), parseStr localInput = .ok d ∧ H.count = 2 ∧
    [.element d.root] = H.plug (.element e) ∧ [.element d'.root] = H.plug (.element { e with attrs := m }) ∧
    m.get c%"k" = some c%"it's <>" ∧
    parseStr c%"<?xml version='1.0'?>\n<p:a xmlns:p='u' xmlns='w'>t&lt;<q:b xmlns:q='v'><p:c k=\"it's &lt;>\"/>x</q:b><p:d></p:d> </p:a>\n" = .ok d' := by
  obtain ⟨d, h⟩ := localOk
  obtain ⟨H, e, m, d', h2, h3, h4, h5, h6, -⟩ := C107_add localInput d _ _ (localRest.take 2) [] _ [] c%"<p:c/>" c%"<p:c k=\"it's &lt;>\"/>"
    c%"k" c%"it's &lt;>" c%"it's <>" _ h localParts localLexes
    (oneRootB_sound (by decide)) ⟨rfl, by decide, oneRootB_sound (by decide), by decide⟩ (by decide) ⟨c%"p:c", c%"/>", rfl, rfl, .inl rfl⟩
    ⟨⟨'k', [], rfl, by decide, by decide⟩, ⟨'k', [], rfl, by decide, by decide⟩, by decide, by decide⟩ (by decide)
    (unescape_ok_iff (ε := Unit).1 rfl)
  exact ⟨H, e, m, d, d', h, h3, h2, h6, by rw [h4]; simp, h5⟩

/-- the condition that the tag does not begin with `<?`: such a tag can be accepted inside of the root, but it ends at `?>` only -/
example : (match parseStr c%"<r xmlns:?p='u' x='<c>'><?p:b'<c>'?></?p:b'<c>'?></r>" with | .ok _ => true | _ => false) = true ∧
    (match parseStr c%"<r xmlns:?p='u' x='<c>'><?p:b'<c>'? k=\"v\"></?p:b'<c>'?></r>" with | .ok _ => true | _ => false) = false := by
  decide +kernel

end KissXml.Props
