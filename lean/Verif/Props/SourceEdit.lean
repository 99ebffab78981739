import Verif.Proofs.SourceEdit
import Verif.Props.PutIn
import Verif.Props.Retag
/-!
# Editing the source and editing the tree (C108)

C106 and C107 say what a change of the source does to the tree.  Here: it is what the calls that edit the tree do, at the same place.
In each theorem `p` (or `e`) is the element of the old tree that the call is made on, `G` (or `H`) is the tree around it, and the place
is fixed by the tags that come before it in the source.
-/
namespace KissXml.Props
open Spec

/-- A comment put into the source: the document read is the old one after `insert` of this comment. -/
theorem C108_comment (x : Str) (d : Document) (pre rest a b : List (Str × Str)) (text tag tail c : Str)
    (h : parseStr x = .ok d) (hp : Parts x pre rest) (hl : Lexes x (pre ++ rest) tail) (h1 : OneRoot (rest.map Prod.snd))
    (hs : PlaceIn rest a text tag b) (hc : CommentOk c) :
    ∃ (G : Hole) (p p' r : Element) (i : Nat),
      [.element d.root] = G.plug (.element p) ∧ (G.child p i).After (a.map Prod.snd) ∧
      p.insert i (.comment c) = .ok p' ∧ [.element r] = G.plug (.element p') ∧
      parseStr (srcOf (pre ++ a ++ (text, c%"<!--" ++ c ++ c%"-->") :: ([], tag) :: b) ++ tail) = .ok { d with root := r } := by
  obtain ⟨H, d', i1, i2, -, i4, i5, i6, i7⟩ := C106_comment x d pre rest a b text tag tail c h hp hl h1 hs hc
  obtain ⟨G, p, p', i, j1, j2, j3, j4⟩ := edit_insert h hp h1 hs i1 i2 i4 i5 rfl
  exact ⟨G, p, p', d'.root, i, j1, j2, j3, j4, by rw [i4, ← i6, ← i7]⟩

/-- The same for CDATA sections. -/
theorem C108_cdata (x : Str) (d : Document) (pre rest a b : List (Str × Str)) (text tag tail c : Str)
    (h : parseStr x = .ok d) (hp : Parts x pre rest) (hl : Lexes x (pre ++ rest) tail) (h1 : OneRoot (rest.map Prod.snd))
    (hs : PlaceIn rest a text tag b) (hc : CDataOk c) :
    ∃ (G : Hole) (p p' r : Element) (i : Nat),
      [.element d.root] = G.plug (.element p) ∧ (G.child p i).After (a.map Prod.snd) ∧
      p.insert i (.cdata c) = .ok p' ∧ [.element r] = G.plug (.element p') ∧
      parseStr (srcOf (pre ++ a ++ (text, c%"<![CDATA[" ++ c ++ c%"]]>") :: ([], tag) :: b) ++ tail) = .ok { d with root := r } := by
  obtain ⟨H, d', i1, i2, -, i4, i5, i6, i7⟩ := C106_cdata x d pre rest a b text tag tail c h hp hl h1 hs hc
  obtain ⟨G, p, p', i, j1, j2, j3, j4⟩ := edit_insert h hp h1 hs i1 i2 i4 i5 rfl
  exact ⟨G, p, p', d'.root, i, j1, j2, j3, j4, by rw [i4, ← i6, ← i7]⟩

/-- A text put where there is at most white space between two tags. -/
theorem C108_text (x : Str) (d : Document) (pre rest a b : List (Str × Str)) (text tag tail t u : Str)
    (h : parseStr x = .ok d) (hp : Parts x pre rest) (hl : Lexes x (pre ++ rest) tail) (h1 : OneRoot (rest.map Prod.snd))
    (hs : PlaceIn rest a text tag b) (hb : AllWs text) (ht : TextFor t u) :
    ∃ (G : Hole) (p p' r : Element) (i : Nat),
      [.element d.root] = G.plug (.element p) ∧ (G.child p i).After (a.map Prod.snd) ∧
      p.insert i (.text u) = .ok p' ∧ [.element r] = G.plug (.element p') ∧
      parseStr (srcOf (pre ++ a ++ (t, tag) :: b) ++ tail) = .ok { d with root := r } := by
  obtain ⟨H, d', i1, i2, i4, i5, i6, i7⟩ := C106_text x d pre rest a b text tag tail t u h hp hl h1 hs hb ht
  obtain ⟨G, p, p', i, j1, j2, j3, j4⟩ := edit_insert h hp h1 hs i1 i2 i4 i5 rfl
  exact ⟨G, p, p', d'.root, i, j1, j2, j3, j4, by rw [i4, ← i6, ← i7]⟩

/-- An element put into the source: the document read is the old one after `insert` of the element that is read from its source alone,
but for the namespaces in this element: `insert` does not work out all of them again (C18, C56). -/
theorem C108_element (x y : Str) (d dy : Document) (pre rest a b body' : List (Str × Str)) (text tag tag' text' tail : Str)
    (h : parseStr x = .ok d) (hp : Parts x pre rest) (hl : Lexes x (pre ++ rest) tail) (h1 : OneRoot (rest.map Prod.snd))
    (hs : PlaceIn rest a text tag b)
    (hy : parseStr y = .ok dy) (hpy : Parts y [] ((text', tag') :: body')) (h1y : OneRoot (tag' :: body'.map Prod.snd)) :
    ∃ (G : Hole) (p p' r c c' : Element) (i : Nat),
      [.element d.root] = G.plug (.element p) ∧ (G.child p i).After (a.map Prod.snd) ∧
      p.insert i (.element dy.root) = .ok p' ∧ p'.children[i]? = some (.element c) ∧ bare (.element c) = bare (.element c') ∧
      [.element r] = G.plug (.element { p' with children := p'.children.set i (.element c') }) ∧
      parseStr (srcOf (pre ++ a ++ (text, tag') :: (body' ++ ([], tag) :: b)) ++ tail) = .ok { d with root := r } := by
  obtain ⟨H, e, d', i1, i2, -, i4, i5, i8, i6, i7⟩ := C106_element x y d dy pre rest a b body' text tag tag' text' tail h hp hl h1 hs hy hpy h1y
  obtain ⟨G, p, p', c, i, j1, j2, j3, j4, j5, j6⟩ := edit_insert_element (c := dy.root) h hp h1 hs i1 i2 i5 i8
  exact ⟨G, p, p', d'.root, c, e, i, j1, j2, j3, j4, j5, j6, by rw [i4, ← i6, ← i7]⟩

/-- An element (not the root), comment or CDATA section taken out of the source, with the text on one of its sides, which has to be white
space or empty: the document read is the old one after `remove` of this node. -/
theorem C108_out (x : Str) (d : Document) (pre rest a body b : List (Str × Str)) (text tag text' tag' kept tail : Str)
    (h : parseStr x = .ok d) (hp : Parts x pre rest) (hl : Lexes x (pre ++ rest) tail) (h1 : OneRoot (rest.map Prod.snd))
    (hs : PlaceIn rest a text tag (body ++ (text', tag') :: b)) (hn : OneNode tag body)
    (hk : AllWs text ∧ kept = text' ∨ AllWs text' ∧ kept = text) :
    ∃ (G : Hole) (p p' r : Element) (i : Nat) (n : Node),
      [.element d.root] = G.plug (.element p) ∧ (G.child p i).After (a.map Prod.snd) ∧ BeginsWith tag n ∧
      p.remove i = .ok (n, p') ∧ [.element r] = G.plug (.element p') ∧
      parseStr (srcOf (pre ++ a ++ (kept, tag') :: b) ++ tail) = .ok { d with root := r } := by
  obtain ⟨H, n, d', i1, i2, i3, i4, i5, i6, i7⟩ := C106_out x d pre rest a body b text tag text' tag' kept tail h hp hl h1 hs hn hk
  obtain ⟨G, p, p', i, j1, j2, j3, j4⟩ := edit_remove h1 hs i1 i3 i5
  exact ⟨G, p, p', d'.root, i, n, j1, j2, i2, j3, j4, by rw [i4, ← i6, ← i7]⟩

/-- One more attribute put at the end of the first tag of an element: the document read is equal to the old one after `set_attr`; it is
the same in all but the order of the attributes of this element. -/
theorem C108_attr (x : Str) (d : Document) (pre rest a body b : List (Str × Str)) (text tag tag' k raw v tail : Str)
    (h : parseStr x = .ok d) (hp : Parts x pre rest) (hl : Lexes x (pre ++ rest) tail) (h1 : OneRoot (rest.map Prod.snd))
    (he : ElementIn rest a text tag body b) (hpi : ¬ c%"<?" <+: tag)
    (hput : AttrPut tag k raw tag') (hk : OtherName k) (hr : '"' ∉ raw) (hv : Unesc raw (some v)) :
    ∃ (H : Hole) (e e' r : Element) (m : SMap) (d' : Document),
      [.element d.root] = H.plug (.element e) ∧ H.count = (openTags (a.map Prod.snd)).length ∧
      e.setAttr k v = .ok e' ∧ [.element r] = H.plug (.element e') ∧
      parseStr (srcOf (pre ++ a ++ (text, tag') :: (body ++ b)) ++ tail) = .ok d' ∧ d'.eq { d with root := r } = true ∧
      [.element d'.root] = H.plug (.element { e' with attrs := m }) ∧ ∀ k', m.get k' = e'.attrs.get k' := by
  obtain ⟨H, e, m, d', i1, i2, i3, i4, i5, i6, i7⟩ := C107_add x d pre rest a body b text tag tag' k raw v tail h hp hl h1 he hpi hput hk hr hv
  have hm : ∀ k', m.get k' = (e.attrs.insert k v).get k' := by
    intro k'
    rw [i3, SMap.get_insert]
    by_cases hkk : k' = k
    · rw [if_pos hkk, if_pos hkk.symm]
    · rw [if_neg hkk, if_neg (Ne.symm hkk)]
  obtain ⟨r, j1, j2⟩ := plug_attrs (e' := { e with attrs := e.attrs.insert k v }) i1 i5 hm i6 i7
  exact ⟨H, e, _, r, m, d', i1, i2, setAttr_of_name hk.api, j1, i4, j2, i5, hm⟩

/-- An attribute taken out of the first tag of an element: the document read is equal to the old one after `remove_attr`, which returns
the value that the attribute had. -/
theorem C108_attr_out (x : Str) (d : Document) (pre rest a body b : List (Str × Str)) (text tag tag' n l tail : Str) (ps qs : List Str)
    (q k raw v : Str) (h : parseStr x = .ok d) (hp : Parts x pre rest) (hl : Lexes x (pre ++ rest) tail) (h1 : OneRoot (rest.map Prod.snd))
    (he : ElementIn rest a text tag body b) (hr : Retag tag tag' n n l (ps ++ q :: qs) (ps ++ qs)) (hc : Reclosed n body body)
    (hq : Quoted k raw q) (hv : Unesc raw (some v)) (ho : ∀ p ∈ ps ++ qs, ∀ raw', ¬ Quoted k raw' p) :
    ∃ (H : Hole) (e e' r : Element) (m : SMap) (d' : Document),
      [.element d.root] = H.plug (.element e) ∧ H.count = (openTags (a.map Prod.snd)).length ∧
      e.removeAttr k = (some v, e') ∧ [.element r] = H.plug (.element e') ∧
      parseStr (srcOf (pre ++ a ++ (text, tag') :: (body ++ b)) ++ tail) = .ok d' ∧ d'.eq { d with root := r } = true ∧
      [.element d'.root] = H.plug (.element { e' with attrs := m }) ∧ ∀ k', m.get k' = e'.attrs.get k' := by
  obtain ⟨H, e, m, d', i1, i2, i3, i3', ga, gm, i4, i5, i6, i7⟩ := C107_retag x d pre rest a body body b text tag tag' n n l tail _ _ h hp hl h1 he hr hc
  obtain rfl := name_of_tagName (i3'.trans i3.symm)
  have hg : e.attrs.get k = some v := (ga k v).2 ⟨ps, q, qs, raw, rfl, hq, fun p hp => ho p (by simp [hp]), hv⟩
  have hm : ∀ k', m.get k' = (e.attrs.remove k).get k' := by
    intro k'
    rw [SMap.get_remove]
    apply Option.ext
    intro w
    rw [gm, gives_without hq ho, ← ga]
    by_cases hkk : k = k'
    · simp [hkk]
    · simp [hkk, Ne.symm hkk]
  obtain ⟨r, j1, j2⟩ := plug_attrs (e' := { e with attrs := e.attrs.remove k }) i1 i5 hm i6 i7
  exact ⟨H, e, _, r, m, d', i1, i2, by simp [ElementF.removeAttr, hg], j1, i4, j2, i5, hm⟩

/-! ## examples -/

example : ∃ (G : Hole) (p p' r : Element) (i : Nat) (d : Document), parseStr localInput = .ok d ∧ [.element d.root] = G.plug (.element p) ∧
    (G.child p i).level = 2 ∧ (G.child p i).earlier = 3 ∧ p.insert i (.comment c%" k ") = .ok p' ∧ [.element r] = G.plug (.element p') ∧
    parseStr c%"<?xml version='1.0'?>\n<p:a xmlns:p='u' xmlns='w'>t&lt;<q:b xmlns:q='v'><p:c/>x<!-- k --></q:b><p:d></p:d> </p:a>\n" =
      .ok { d with root := r } := by
  obtain ⟨d, h⟩ := localOk
  obtain ⟨G, p, p', r, i, h2, ⟨h3, h4⟩, h5, h6, h7⟩ := C108_comment localInput d _ _ _ _ _ _ _ c%" k " h localParts localLexes
    (oneRootB_sound (by decide)) localPlace (by unfold CommentOk; decide)
  refine ⟨G, p, p', r, i, d, h, h2, ?_, ?_, h5, h6, h7⟩
  · have : depth ((localRest.take 3).map Prod.snd) = 2 := by decide
    omega
  · rw [h4]; decide

example : ∃ (G : Hole) (p p' r : Element) (i : Nat) (d : Document), parseStr localInput = .ok d ∧ [.element d.root] = G.plug (.element p) ∧
    p.insert i (.cdata c%"<") = .ok p' ∧ [.element r] = G.plug (.element p') ∧
    parseStr c%"<?xml version='1.0'?>\n<p:a xmlns:p='u' xmlns='w'>t&lt;<q:b xmlns:q='v'><p:c/>x<![CDATA[<]]></q:b><p:d></p:d> </p:a>\n" =
      .ok { d with root := r } := by
  obtain ⟨d, h⟩ := localOk
  obtain ⟨G, p, p', r, i, h2, -, h5, h6, h7⟩ := C108_cdata localInput d _ _ _ _ _ _ _ c%"<" h localParts localLexes
    (oneRootB_sound (by decide)) localPlace (by unfold CDataOk; decide)
  exact ⟨G, p, p', r, i, d, h, h2, h5, h6, h7⟩

example : ∃ (G : Hole) (p p' r : Element) (i : Nat) (d : Document), parseStr localInput = .ok d ∧ [.element d.root] = G.plug (.element p) ∧
    p.insert i (.text c%"a&b ") = .ok p' ∧ [.element r] = G.plug (.element p') ∧
    parseStr c%"<?xml version='1.0'?>\n<p:a xmlns:p='u' xmlns='w'>t&lt;<q:b xmlns:q='v'><p:c/>x</q:b><p:d>a&amp;b </p:d> </p:a>\n" =
      .ok { d with root := r } := by
  obtain ⟨d, h⟩ := localOk
  obtain ⟨G, p, p', r, i, h2, -, h5, h6, h7⟩ := C108_text localInput d _ _ (localRest.take 5) _ [] c%"</p:d>" _ c%"a&amp;b " c%"a&b " h localParts
    localLexes (oneRootB_sound (by decide)) ⟨rfl, by decide⟩ (by decide)
    ⟨by decide, by decide, unescape_ok_iff.1 (rfl : (unescape c%"a&amp;b " : R Str) = .ok _), by decide⟩
  exact ⟨G, p, p', r, i, d, h, h2, h5, h6, h7⟩

example : ∃ (G : Hole) (p p' r c c' : Element) (i : Nat) (d : Document), parseStr localInput = .ok d ∧
    [.element d.root] = G.plug (.element p) ∧
    p.insert i (.element ⟨c%"z", [.text c%"k"], .empty, none, none, .empty⟩) = .ok p' ∧ p'.children[i]? = some (.element c) ∧
    bare (.element c) = bare (.element c') ∧ [.element r] = G.plug (.element { p' with children := p'.children.set i (.element c') }) ∧
    parseStr c%"<?xml version='1.0'?>\n<p:a xmlns:p='u' xmlns='w'>t&lt;<q:b xmlns:q='v'><p:c/>x<z>k</z></q:b><p:d></p:d> </p:a>\n" =
      .ok { d with root := r } := by
  obtain ⟨d, h⟩ := localOk
  obtain ⟨G, p, p', r, c, c', i, h2, -, h5, h6, h7, h8, h9⟩ := C108_element localInput c%"<z>k</z>" d _ _ _ _ _ _ _ _ _ _ _ h localParts localLexes
    (oneRootB_sound (by decide)) localPlace
    (rfl : parseStr c%"<z>k</z>" = .ok ⟨none, [], ⟨c%"z", [.text c%"k"], .empty, none, none, .empty⟩⟩)
    (partsB_sound (pre := []) (rest := [([], c%"<z>"), (c%"k", c%"</z>")]) [] (by decide) rfl) (oneRootB_sound (by decide))
  exact ⟨G, p, p', r, c, c', i, d, h, h2, h5, h6, h7, h8, h9⟩

/-- the namespaces do differ: `<z/>` read before `<y/>` in `<a xmlns='w'>` is in the namespace `w`, inserted there it is in none -/
example : (parseStr c%"<a xmlns='w'><z/><y/></a>").bind (fun d => .ok (d.root.childElements.map (·.xmlns))) = .ok [some c%"w", some c%"w"] ∧
    (parseStr c%"<a xmlns='w'><y/></a>").bind (fun d => (d.root.insert 0 (.element ⟨c%"z", [], .empty, none, none, .empty⟩)).bind
      fun e => .ok (e.childElements.map (·.xmlns))) = .ok [none, some c%"w"] := by decide +kernel

/-- `<q:b …>…</q:b>` taken out of the document -/
example : ∃ (G : Hole) (p p' r : Element) (i : Nat) (n : Node) (d : Document), parseStr localInput = .ok d ∧
    [.element d.root] = G.plug (.element p) ∧ BeginsWith c%"<q:b xmlns:q='v'>" n ∧ p.remove i = .ok (n, p') ∧ [.element r] = G.plug (.element p') ∧
    parseStr c%"<?xml version='1.0'?>\n<p:a xmlns:p='u' xmlns='w'>t&lt;<p:d></p:d> </p:a>\n" = .ok { d with root := r } := by
  obtain ⟨d, h⟩ := localOk
  obtain ⟨G, p, p', r, i, n, h2, -, h3, h5, h6, h7⟩ := C108_out localInput d _ _ (localRest.take 1) [([], c%"<p:c/>"), (c%"x", c%"</q:b>")] _ c%"t&lt;"
    c%"<q:b xmlns:q='v'>" [] c%"<p:d>" c%"t&lt;" _ h localParts localLexes (oneRootB_sound (by decide)) ⟨rfl, by decide⟩
    (.element (by decide) (oneRootB_sound (by decide)) (by decide)) (.inr ⟨by decide, rfl⟩)
  exact ⟨G, p, p', r, i, n, d, h, h2, h3, h5, h6, h7⟩

/-- `k` put into `<p:c/>` -/
example : ∃ (H : Hole) (e e' r : Element) (d d' : Document), parseStr localInput = .ok d ∧ H.count = 2 ∧
    [.element d.root] = H.plug (.element e) ∧ e.setAttr c%"k" c%"it's <>" = .ok e' ∧ [.element r] = H.plug (.element e') ∧
    parseStr c%"<?xml version='1.0'?>\n<p:a xmlns:p='u' xmlns='w'>t&lt;<q:b xmlns:q='v'><p:c k=\"it's &lt;>\"/>x</q:b><p:d></p:d> </p:a>\n" = .ok d' ∧
    d'.eq { d with root := r } = true := by
  obtain ⟨d, h⟩ := localOk
  obtain ⟨H, e, e', r, m, d', h2, h3, h4, h5, h6, h7, -⟩ := C108_attr localInput d _ _ (localRest.take 2) [] _ [] c%"<p:c/>" c%"<p:c k=\"it's &lt;>\"/>"
    c%"k" c%"it's &lt;>" c%"it's <>" _ h localParts localLexes
    (oneRootB_sound (by decide)) ⟨rfl, by decide, oneRootB_sound (by decide), by decide⟩ (by decide) ⟨c%"p:c", c%"/>", rfl, rfl, .inl rfl⟩
    ⟨⟨'k', [], rfl, by decide, by decide⟩, ⟨'k', [], rfl, by decide, by decide⟩, by decide, by decide⟩ (by decide)
    (unescape_ok_iff (ε := Unit).1 rfl)
  exact ⟨H, e, e', r, d, d', h, h3, h2, h4, h5, h6, h7⟩

/-- `x='1'` taken out of the tag `<b x='1' y='2'/>` -/
theorem exOut : Retag c%"<b x='1' y='2'/>" c%"<b y='2'/>" c%"b" c%"b" c%"b" ([] ++ c%"x='1'" :: [c%"y='2'"]) ([] ++ [c%"y='2'"]) where
  kind := rfl
  good h := by have := badTag_iff.1 h; revert this; decide
  whole := tagAt_self (by decide) rfl
  new := pieces_split (comps := [c%"y='2'"]) (inner_iff.2 ⟨rfl, angled_of rfl⟩) rfl
  readable := goodPieces_ok (b := []) (pos := 0) (m := .empty) rfl
  localName := ⟨'b', [], rfl, by decide, by decide⟩
  names := by
    intro p hp k raw hq
    have hy : Quoted c%"y" c%"2" c%"y='2'" := ⟨by decide, '\'', .inr rfl, rfl⟩
    simp only [List.nil_append, List.mem_cons, List.not_mem_nil, or_false] at hp
    subst hp
    obtain ⟨rfl, -⟩ := quoted_unique hq hy
    exact ⟨'y', [], rfl, by decide, by decide⟩
  old := pieces_split (comps := [c%"x='1'", c%"y='2'"]) (inner_iff.2 ⟨rfl, angled_of rfl⟩) rfl
  samePrefix := .plain (by decide) (by decide) rfl
  declared := by decide

example : ∃ (H : Hole) (e e' r : Element) (d d' : Document), parseStr c%"<a><b x='1' y='2'/>t</a>" = .ok d ∧ H.count = 1 ∧
    [.element d.root] = H.plug (.element e) ∧ e.removeAttr c%"x" = (some c%"1", e') ∧ [.element r] = H.plug (.element e') ∧
    parseStr c%"<a><b y='2'/>t</a>" = .ok d' ∧ d'.eq { d with root := r } = true := by
  obtain ⟨d, h⟩ : ∃ d, parseStr c%"<a><b x='1' y='2'/>t</a>" = .ok d := by
    have h : (match parseStr c%"<a><b x='1' y='2'/>t</a>" with | .ok _ => true | _ => false) = true := by decide +kernel
    cases hp : parseStr c%"<a><b x='1' y='2'/>t</a>" <;> simp_all
  have hrest : Parts c%"<a><b x='1' y='2'/>t</a>" [] [([], c%"<a>"), ([], c%"<b x='1' y='2'/>"), (c%"t", c%"</a>")] :=
    partsB_sound [] (by decide) rfl
  obtain ⟨H, e, e', r, m, d', h2, h3, h4, h5, h6, h7, -⟩ := C108_attr_out c%"<a><b x='1' y='2'/>t</a>" d [] _ [([], c%"<a>")] [] _ []
    c%"<b x='1' y='2'/>" c%"<b y='2'/>" c%"b" c%"b" [] _ _ c%"x='1'" c%"x" c%"1" c%"1"
    h hrest
    (lexesB_sound (toks := [([], c%"<a>"), ([], c%"<b x='1' y='2'/>"), (c%"t", c%"</a>")]) (tail := []) (by decide)) (oneRootB_sound (by decide)) ⟨rfl, by decide, oneRootB_sound (by decide), by decide⟩ exOut .empty
    ⟨by decide, '\'', .inr rfl, rfl⟩ (unescape_ok_iff (ε := Unit).1 rfl) (by
      intro p hp raw hq
      simp only [List.nil_append, List.mem_cons, List.not_mem_nil, or_false] at hp
      subst hp
      have hy : Quoted c%"y" c%"2" c%"y='2'" := ⟨by decide, '\'', .inr rfl, rfl⟩
      exact absurd (quoted_unique hq hy).1 (by decide))
  exact ⟨H, e, e', r, d, d', h, h3, h2, h4, h5, h6, h7⟩

end KissXml.Props
