import Verif.Proofs.PutIn
import Verif.Props.Local
/-!
# Nodes put into a source, and nodes taken out of it (C106)
-/
namespace KissXml.Props
open Spec

/-! ## nodes put in -/

/-- In an accepted document with one top-level element, put the source of an element that is accepted alone before any tag but the first
one.  The new document is accepted.  Its tree is the old one with one element more, at this place: nothing else changes, namespaces
included, and the new element has the names, prefixes, attributes and content that it has alone. -/
theorem C106_element (x y : Str) (d dy : Document) (pre rest a b body' : List (Str × Str)) (text tag tag' text' tail : Str)
    (h : parseStr x = .ok d) (hp : Parts x pre rest) (hl : Lexes x (pre ++ rest) tail) (h1 : OneRoot (rest.map Prod.snd))
    (hs : PlaceIn rest a text tag b)
    (hy : parseStr y = .ok dy) (hpy : Parts y [] ((text', tag') :: body')) (h1y : OneRoot (tag' :: body'.map Prod.snd)) :
    ∃ (H : Hole) (e : Element) (d' : Document),
      [.element d.root] = H.close ∧ H.After (a.map Prod.snd) ∧ (∀ t, H.next ≠ some (.text t)) ∧
      parseStr (srcOf (pre ++ a ++ (text, tag') :: (body' ++ ([], tag) :: b)) ++ tail) = .ok d' ∧
      [.element d'.root] = H.plug (.element e) ∧ bare (.element e) = bare (.element dy.root) ∧
      d'.declaration = d.declaration ∧ d'.dtds = d.dtds := by
  obtain ⟨H, p, i1, i2, i3, i4⟩ := node_inserted h hp hl h1 hs
  obtain ⟨tl, hly⟩ := hpy.lexes
  have htok := lexes_toks hly
  obtain ⟨_, _, _, E, F, g1, -, hR, hd, -⟩ := accepted_parts hy hpy
  cases g1
  have hE := elemToks_of_root hR h1y
  rw [← hd] at hE
  obtain ⟨c', hE', hc'⟩ := elemToks_move hE (some p) (by rintro ⟨⟩)
  obtain ⟨d', j1, j2, j3, j4⟩ := i4 tag' body' _ (.element hE') (htok (text', tag') (by simp)).2 (fun t ht => htok t (by simp [ht]))
  exact ⟨H, c', d', i1, i2, i3, j1, j2, hc', j3, j4⟩

/-- The same for comments. -/
theorem C106_comment (x : Str) (d : Document) (pre rest a b : List (Str × Str)) (text tag tail c : Str)
    (h : parseStr x = .ok d) (hp : Parts x pre rest) (hl : Lexes x (pre ++ rest) tail) (h1 : OneRoot (rest.map Prod.snd))
    (hs : PlaceIn rest a text tag b) (hc : CommentOk c) :
    ∃ (H : Hole) (d' : Document),
      [.element d.root] = H.close ∧ H.After (a.map Prod.snd) ∧ (∀ t, H.next ≠ some (.text t)) ∧
      parseStr (srcOf (pre ++ a ++ (text, c%"<!--" ++ c ++ c%"-->") :: ([], tag) :: b) ++ tail) = .ok d' ∧
      [.element d'.root] = H.plug (.comment c) ∧ d'.declaration = d.declaration ∧ d'.dtds = d.dtds := by
  obtain ⟨H, p, i1, i2, i3, i4⟩ := node_inserted h hp hl h1 hs
  obtain ⟨d', j1, j2, j3, j4⟩ := i4 _ _ _ (.comment hc.1) (tagAt_comment hc) (by simp)
  exact ⟨H, d', i1, i2, i3, j1, j2, j3, j4⟩

/-- The same for CDATA sections. -/
theorem C106_cdata (x : Str) (d : Document) (pre rest a b : List (Str × Str)) (text tag tail c : Str)
    (h : parseStr x = .ok d) (hp : Parts x pre rest) (hl : Lexes x (pre ++ rest) tail) (h1 : OneRoot (rest.map Prod.snd))
    (hs : PlaceIn rest a text tag b) (hc : CDataOk c) :
    ∃ (H : Hole) (d' : Document),
      [.element d.root] = H.close ∧ H.After (a.map Prod.snd) ∧ (∀ t, H.next ≠ some (.text t)) ∧
      parseStr (srcOf (pre ++ a ++ (text, c%"<![CDATA[" ++ c ++ c%"]]>") :: ([], tag) :: b) ++ tail) = .ok d' ∧
      [.element d'.root] = H.plug (.cdata c) ∧ d'.declaration = d.declaration ∧ d'.dtds = d.dtds := by
  obtain ⟨H, p, i1, i2, i3, i4⟩ := node_inserted h hp hl h1 hs
  obtain ⟨d', j1, j2, j3, j4⟩ := i4 _ _ _ (.cdata hc) (tagAt_cdata hc) (by simp)
  exact ⟨H, d', i1, i2, i3, j1, j2, j3, j4⟩

/-- Where there is at most white space between two tags, a text can be put in its place. -/
theorem C106_text (x : Str) (d : Document) (pre rest a b : List (Str × Str)) (text tag tail t u : Str)
    (h : parseStr x = .ok d) (hp : Parts x pre rest) (hl : Lexes x (pre ++ rest) tail) (h1 : OneRoot (rest.map Prod.snd))
    (hs : PlaceIn rest a text tag b) (hb : AllWs text) (ht : TextFor t u) :
    ∃ (H : Hole) (d' : Document), [.element d.root] = H.close ∧ H.After (a.map Prod.snd) ∧
      parseStr (srcOf (pre ++ a ++ (t, tag) :: b) ++ tail) = .ok d' ∧
      [.element d'.root] = H.plug (.text u) ∧ d'.declaration = d.declaration ∧ d'.dtds = d.dtds := by
  obtain ⟨H, i1, i2, i3⟩ := text_inserted h hp hl h1 hs hb
  obtain ⟨d', j⟩ := i3 t u ht
  exact ⟨H, d', i1, i2, j⟩

/-! ## nodes taken out -/

/-- In an accepted document with one top-level element, take out the source of one element (not the root), comment or CDATA section,
with the text on one of its sides, which has to be white space or empty.  The new document is accepted.  Its tree is the old one without
this node; nothing else changes. -/
theorem C106_out (x : Str) (d : Document) (pre rest a body b : List (Str × Str)) (text tag text' tag' kept tail : Str)
    (h : parseStr x = .ok d) (hp : Parts x pre rest) (hl : Lexes x (pre ++ rest) tail) (h1 : OneRoot (rest.map Prod.snd))
    (hs : PlaceIn rest a text tag (body ++ (text', tag') :: b)) (hn : OneNode tag body)
    (hk : AllWs text ∧ kept = text' ∨ AllWs text' ∧ kept = text) :
    ∃ (H : Hole) (n : Node) (d' : Document), [.element d.root] = H.plug n ∧ BeginsWith tag n ∧ H.After (a.map Prod.snd) ∧
      parseStr (srcOf (pre ++ a ++ (kept, tag') :: b) ++ tail) = .ok d' ∧ [.element d'.root] = H.close ∧
      d'.declaration = d.declaration ∧ d'.dtds = d.dtds :=
  node_removed h hp hl h1 hs hn hk

/-- The node with the texts on both of its sides taken out, and any text, or nothing, put in their place.  In the tree the node and
these texts are replaced by the new text; nothing else changes.  If the new text is made of the two old ones they come together in
one node. -/
theorem C106_replace (x : Str) (d : Document) (pre rest a body b : List (Str × Str)) (text tag text' tag' kept tail : Str) (m : List Node)
    (h : parseStr x = .ok d) (hp : Parts x pre rest) (hl : Lexes x (pre ++ rest) tail) (h1 : OneRoot (rest.map Prod.snd))
    (hs : PlaceIn rest a text tag (body ++ (text', tag') :: b)) (hn : OneNode tag body) (hk : StandsFor kept m) (hk' : '<' ∉ kept) :
    ∃ (H : Hole) (n : Node) (l l' : List Node) (d' : Document), [.element d.root] = H.fill (l ++ n :: l') ∧ BeginsWith tag n ∧
      StandsFor text l ∧ StandsFor text' l' ∧ H.After (a.map Prod.snd) ∧
      parseStr (srcOf (pre ++ a ++ (kept, tag') :: b) ++ tail) = .ok d' ∧ [.element d'.root] = H.fill m ∧
      d'.declaration = d.declaration ∧ d'.dtds = d.dtds := by
  obtain ⟨H, n, l, l', i1, i2, i3, i4, i5, i6⟩ := node_replaced h hp hl h1 hs hn
  obtain ⟨d', j⟩ := i6 kept m hk hk'
  exact ⟨H, n, l, l', d', i1, i2, i3, i4, i5, j⟩

/-! ## examples -/

/-- before `</q:b>`, after the text `x` -/
theorem localPlace : PlaceIn localRest (localRest.take 3) c%"x" c%"</q:b>" (localRest.drop 4) := ⟨rfl, by decide⟩

example : ∃ (H : Hole) (d d' : Document), parseStr localInput = .ok d ∧ [.element d.root] = H.close ∧ H.level = 2 ∧ H.earlier = 3 ∧
    parseStr c%"<?xml version='1.0'?>\n<p:a xmlns:p='u' xmlns='w'>t&lt;<q:b xmlns:q='v'><p:c/>x<!-- k --></q:b><p:d></p:d> </p:a>\n" = .ok d' ∧
    [.element d'.root] = H.plug (.comment c%" k ") := by
  obtain ⟨d, h⟩ := localOk
  obtain ⟨H, d', h2, ⟨h3, h4⟩, -, h5, h6, -⟩ := C106_comment localInput d _ _ _ _ _ _ _ c%" k " h localParts localLexes
    (oneRootB_sound (by decide)) localPlace (by unfold CommentOk; decide)
  refine ⟨H, d, d', h, h2, ?_, ?_, h5, h6⟩
  · have : depth ((localRest.take 3).map Prod.snd) = 2 := by decide
    omega
  · rw [h4]; decide

example : ∃ (H : Hole) (d d' : Document), parseStr localInput = .ok d ∧ [.element d.root] = H.close ∧
    parseStr c%"<?xml version='1.0'?>\n<p:a xmlns:p='u' xmlns='w'>t&lt;<q:b xmlns:q='v'><p:c/>x<![CDATA[<]]></q:b><p:d></p:d> </p:a>\n" = .ok d' ∧
    [.element d'.root] = H.plug (.cdata c%"<") := by
  obtain ⟨d, h⟩ := localOk
  obtain ⟨H, d', h2, -, -, h5, h6, -⟩ := C106_cdata localInput d _ _ _ _ _ _ _ c%"<" h localParts localLexes
    (oneRootB_sound (by decide)) localPlace (by unfold CDataOk; decide)
  exact ⟨H, d, d', h, h2, h5, h6⟩

example : ∃ (H : Hole) (e : Element) (d d' : Document), parseStr localInput = .ok d ∧ [.element d.root] = H.close ∧
    parseStr c%"<?xml version='1.0'?>\n<p:a xmlns:p='u' xmlns='w'>t&lt;<q:b xmlns:q='v'><p:c/>x<z>k</z></q:b><p:d></p:d> </p:a>\n" = .ok d' ∧
    [.element d'.root] = H.plug (.element e) ∧ bare (.element e) = .element ⟨c%"z", [.text c%"k"], .empty, none, none, .empty⟩ := by
  obtain ⟨d, h⟩ := localOk
  obtain ⟨H, e, d', h2, -, -, h5, h6, h7, -⟩ := C106_element localInput c%"<z>k</z>" d _ _ _ _ _ _ _ _ _ _ _ h localParts localLexes
    (oneRootB_sound (by decide)) localPlace
    (rfl : parseStr c%"<z>k</z>" = .ok ⟨none, [], ⟨c%"z", [.text c%"k"], .empty, none, none, .empty⟩⟩)
    (partsB_sound (pre := []) (rest := [([], c%"<z>"), (c%"k", c%"</z>")]) [] (by decide) rfl) (oneRootB_sound (by decide))
  exact ⟨H, e, d, d', h, h2, h5, h6, h7⟩

example : ∃ (H : Hole) (d d' : Document), parseStr localInput = .ok d ∧ [.element d.root] = H.close ∧
    parseStr c%"<?xml version='1.0'?>\n<p:a xmlns:p='u' xmlns='w'>t&lt;<q:b xmlns:q='v'><p:c/>x</q:b><p:d>a&amp;b </p:d> </p:a>\n" = .ok d' ∧
    [.element d'.root] = H.plug (.text c%"a&b ") := by
  obtain ⟨d, h⟩ := localOk
  obtain ⟨H, d', h2, -, h5, h6, -⟩ := C106_text localInput d _ _ (localRest.take 5) _ [] c%"</p:d>" _ c%"a&amp;b " c%"a&b " h localParts
    localLexes (oneRootB_sound (by decide)) ⟨rfl, by decide⟩ (by decide)
    ⟨by decide, by decide, unescape_ok_iff.1 (rfl : (unescape c%"a&amp;b " : R Str) = .ok _), by decide⟩
  exact ⟨H, d, d', h, h2, h5, h6⟩

/-- `<q:b …>…</q:b>` taken out of the document: the text before it stays -/
example : ∃ (H : Hole) (e : Element) (d d' : Document), parseStr localInput = .ok d ∧ [.element d.root] = H.plug (.element e) ∧
    OpenName c%"<q:b xmlns:q='v'>" e.tagName ∧
    parseStr c%"<?xml version='1.0'?>\n<p:a xmlns:p='u' xmlns='w'>t&lt;<p:d></p:d> </p:a>\n" = .ok d' ∧ [.element d'.root] = H.close := by
  obtain ⟨d, h⟩ := localOk
  obtain ⟨H, n, d', h2, h3, -, h5, h6, -⟩ := C106_out localInput d _ _ (localRest.take 1) [([], c%"<p:c/>"), (c%"x", c%"</q:b>")] _ c%"t&lt;"
    c%"<q:b xmlns:q='v'>" [] c%"<p:d>" c%"t&lt;" _ h localParts localLexes (oneRootB_sound (by decide)) ⟨rfl, by decide⟩
    (.element (by decide) (oneRootB_sound (by decide)) (by decide)) (.inr ⟨by decide, rfl⟩)
  cases n with
  | element e =>
    exact ⟨H, e, d, d', h, h2, h3.2, h5, h6⟩
  | text t => cases h3
  | comment c => cases h3
  | cdata c => cases h3

/-- `<b/>` taken out from between two texts: they become one -/
example : ∃ (H : Hole) (n : Node) (l l' : List Node) (d' : Document),
    [.element ⟨c%"a", [.text c%"x ", .element ⟨c%"b", [], .empty, none, none, .empty⟩, .text c%"&y"], .empty, none, none, .empty⟩] =
      H.fill (l ++ n :: l') ∧ BeginsWith c%"<b/>" n ∧ StandsFor c%"x " l ∧ StandsFor c%"&amp;y" l' ∧
    parseStr c%"<a>x &amp;y</a>" = .ok d' ∧ [.element d'.root] = H.fill [.text c%"x &y"] := by
  obtain ⟨H, n, l, l', d', h1, h2, h3, h4, -, h6, h7, -⟩ := C106_replace c%"<a>x <b/>&amp;y</a>" _ [] _ [([], c%"<a>")] [] [] c%"x " c%"<b/>"
    c%"&amp;y" c%"</a>" c%"x &amp;y" [] [.text c%"x &y"]
    (rfl : parseStr c%"<a>x <b/>&amp;y</a>" = .ok ⟨none, [], ⟨c%"a", [.text c%"x ", .element ⟨c%"b", [], .empty, none, none, .empty⟩,
      .text c%"&y"], .empty, none, none, .empty⟩⟩)
    (partsB_sound (pre := []) (rest := [([], c%"<a>"), (c%"x ", c%"<b/>"), (c%"&amp;y", c%"</a>")]) [] (by decide) rfl)
    (lexesB_sound (toks := [([], c%"<a>"), (c%"x ", c%"<b/>"), (c%"&amp;y", c%"</a>")]) (tail := []) (by decide))
    (oneRootB_sound (by decide)) ⟨rfl, by decide⟩ (.element (by decide) (oneRootB_sound (by decide)) (by decide))
    (.text (by decide) (unescape_ok_iff.1 (rfl : (unescape c%"x &amp;y" : R Str) = .ok _)) (by decide)) (by decide)
  exact ⟨H, n, l, l', d', h1, h2, h3, h4, h6, h7⟩

end KissXml.Props
