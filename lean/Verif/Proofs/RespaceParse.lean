import Verif.Proofs.Respace
import Verif.Proofs.Content
/-!
# Other white space: documents
-/
namespace KissXml
open Spec

variable {σ : Char → Str}

/-- an element as the parser makes them: plain name and plain keys -/
def ENice (e : Element) : Prop := KeysPlain e.ctx ∧ ∀ c ∈ e.name, ¬ Sp c

def NNice : Node → Prop
  | .element e => KeysPlain e.ctx
  | _ => True

/-- the same for all elements of a forest -/
def FNice : Forest → Prop
  | .nil => True
  | .leaf n r => NNice n ∧ FNice r
  | .elem e k r => KeysPlain e.ctx ∧ FNice k ∧ FNice r

def respaceForest (σ : Char → Str) : Forest → Forest
  | .nil => .nil
  | .leaf n r => .leaf (respaceNode σ n) (respaceForest σ r)
  | .elem e k r => .elem (respaceElement σ e) (respaceForest σ k) (respaceForest σ r)

theorem parseAttrs_grow {b : Str} {pos : Nat} {l : List Str} : ∀ {m m' : SMap}, parseAttrs b pos l m = .ok m' → ∀ k, (m.get k).isSome →
    (m'.get k).isSome := by
  induction l with
  | nil => intro m m' h k hk; cases h; exact hk
  | cons kv l ih =>
    intro m m' h k hk
    obtain ⟨k', u, -, h2⟩ := parseAttrs_cons.1 h
    refine ih h2 k ?_
    rw [SMap.get_insert]
    split
    · rfl
    · exact hk

theorem opening_of {tag : Str} (h1 : ¬ c%"</" <+: tag) (h2 : ¬ c%"<!" <+: tag) : Opening tag := by
  unfold Opening kind
  rw [if_neg h2, if_neg h1]
  split <;> simp

theorem fappend_nice {f g : Forest} (hf : FNice f) (hg : FNice g) : FNice (fappend f g) := by
  induction f with
  | nil => exact hg
  | leaf n r ih => exact ⟨hf.1, ih hf.2⟩
  | elem e k r _ ih => exact ⟨hf.1, hf.2.1, ih hf.2.2⟩

theorem respaceForest_append (f g : Forest) : respaceForest σ (fappend f g) = fappend (respaceForest σ f) (respaceForest σ g) := by
  induction f with
  | nil => rfl
  | leaf n r ih => simp [fappend, respaceForest, ih]
  | elem e k r _ ih => simp [fappend, respaceForest, ih]

namespace Spec.Respacing
variable (hσ : Respacing σ)
include hσ

theorem attrOf {kv k u : Str} (h : AttrOf kv k u) (hv : ∀ k raw, Quoted k raw kv → SimpleRefs raw) (hk : ∀ c ∈ k, ¬ Sp c) :
    AttrOf (respace σ kv) k (respace σ u) := by
  obtain ⟨q, m, hq, h1, rfl, h2⟩ := h
  refine ⟨q, respace σ m, hq, h1, ?_, hσ.unesc (hv k m ⟨h1, q, hq, by simp⟩) h2⟩
  have hq' : ¬ Sp q := by rcases hq with rfl | rfl <;> decide
  rw [respace_append, hσ.fix hk, hσ.cons_other (by decide), hσ.cons_other hq', respace_append, hσ.fix (p := [q]) (by simpa using hq')]

theorem attrs {b : Str} {pos : Nat} {l : List Str} : ∀ {m m' : SMap}, parseAttrs b pos l m = .ok m' →
    (∀ p ∈ l, ∀ k raw, Quoted k raw p → SimpleRefs raw) → KeysPlain m' →
    parseAttrs b pos (l.map (respace σ)) (respaceMap σ m) = .ok (respaceMap σ m') := by
  induction l with
  | nil => intro m m' h _ _; cases h; rfl
  | cons kv l ih =>
    intro m m' h hv hk
    obtain ⟨k, u, h1, h2⟩ := parseAttrs_cons.1 h
    have hkk := hk k (parseAttrs_grow h2 k (by rw [SMap.get_insert, if_pos rfl]; rfl))
    refine parseAttrs_cons.2 ⟨k, respace σ u, hσ.attrOf h1 (hv kv (by simp)) hkk, ?_⟩
    rw [← hσ.insert_map]
    exact ih h2 (fun p hp => hv p (by simp [hp])) hk

theorem own_ns {m : SMap} (h : KeysPlain m) (q : Option Str) : ownNs (respaceMap σ m) (q.map (respace σ)) = (ownNs m q).map (respace σ) := by
  cases q with
  | none => exact hσ.get_map m _
  | some p =>
    have := hσ.get_both h (c%"xmlns:" ++ p)
    rw [respace_append, hσ.fix (p := c%"xmlns:") (by decide)] at this
    exact this

theorem nameSplit_map {parent : Option Element} {attrs : SMap} {n0 n : Str} {x q : Option Str} (h : NameSplit parent attrs n0 n x q)
    (ha : KeysPlain attrs) (hp : ∀ p, parent = some p → KeysPlain p.ctx) (hn : ∀ c ∈ n, ¬ Sp c) :
    NameSplit (parent.map (respaceElement σ)) (respaceMap σ attrs) (respace σ n0) n (x.map (respace σ)) (q.map (respace σ)) := by
  have key : ∀ (m : SMap), KeysPlain m → ∀ a, (respaceMap σ m).get (c%"xmlns:" ++ respace σ a) = (m.get (c%"xmlns:" ++ a)).map (respace σ) := by
    intro m hm a
    exact hσ.own_ns hm (some a)
  cases h with
  | plain h =>
    rw [hσ.fix hn]
    exact .plain h
  | @own a b v h1 h2 h3 =>
    subst h1
    rw [respace_append, hσ.cons_other (by decide), hσ.fix hn]
    exact .own rfl (by rwa [hσ.mem_iff (by decide)]) (by rw [key _ ha, h3]; rfl)
  | @inh a b p h1 h2 h3 h4 =>
    subst h1
    rw [respace_append, hσ.cons_other (by decide), hσ.fix hn, ← key _ (hp p h4)]
    exact .inh (p := respaceElement σ p) rfl (by rwa [hσ.mem_iff (by decide)]) (by rw [key _ ha, h3]; rfl) (by rw [h4]; rfl)

theorem newElem {t : Str} {parent : Option Element} {attrs : SMap} {n0 n : Str} {x q : Option Str} {e : Element}
    (h : NewElem t parent attrs n0 n x q e) (hv : ∀ comps, quoteAwareSplit t = n0 :: comps →
      ∀ p ∈ joinLoop comps, ∀ k raw, Quoted k raw p → SimpleRefs raw) (hp : ∀ p, parent = some p → KeysPlain p.ctx) :
    NewElem (respace σ t) (parent.map (respaceElement σ)) (respaceMap σ attrs) (respace σ n0) n (x.map (respace σ)) (q.map (respace σ))
      (respaceElement σ e) ∧ ENice e := by
  obtain ⟨⟨comps, b, pos, h1, h2⟩, h3, h4, h5, rfl⟩ := h
  have ha : KeysPlain attrs := fun k hk => validName_not_sp (h5 k hk)
  have hn := validName_not_sp h4
  have hpc : ∀ m, parent.map ElementF.ctx = some m → KeysPlain m := by
    intro m hm
    cases parent with
    | none => cases hm
    | some p => cases hm; exact hp p rfl
  have hc : KeysPlain (ElementF.xmlnsContextFromAttributes attrs) := ctx_plain ha
  refine ⟨⟨⟨comps.map (respace σ), b, pos, by rw [hσ.split, h1]; rfl, ?_⟩, hσ.nameSplit_map h3 ha hp hn, h4, ?_, ?_⟩, setNs_plain hc hpc, ?_⟩
  · rw [hσ.join]
    exact hσ.attrs h2 (hv comps h1) ha
  · intro k hk
    rw [hσ.get_map, Option.isSome_map] at hk
    exact h5 k hk
  · rw [hσ.setNs hc hpc]
    have e1 : (parent.map (respaceElement σ)).bind ElementF.defaultNamespace = (parent.bind ElementF.defaultNamespace).map (respace σ) := by
      cases parent with
      | none => rfl
      | some p => exact hσ.default_map p
    have e2 : (parent.map (respaceElement σ)).map ElementF.ctx = (parent.map ElementF.ctx).map (respaceMap σ) := by
      cases parent <;> rfl
    rw [e1, e2]
    congr 1
    simp only [respaceElement, respaceNodes, hσ.ctx_map, hσ.own_ns ha]
    cases x <;> rfl
  · have := newElem_fields (t := t) ⟨⟨comps, b, pos, h1, h2⟩, h3, h4, h5, rfl⟩
    rw [this.1]
    exact hn

theorem tagName_map {e : Element} (h : ∀ c ∈ e.name, ¬ Sp c) : (respaceElement σ e).tagName = respace σ e.tagName := by
  obtain ⟨n, cs, a, x, q, c⟩ := e
  cases q with
  | none => exact (hσ.fix h).symm
  | some q =>
    show respace σ q ++ c%":" ++ n = respace σ (q ++ c%":" ++ n)
    rw [respace_append, respace_append, hσ.fix (p := c%":") (by decide), hσ.fix h]

theorem opens {parent : Option Element} {tag : Str} {e : Element} (h : Opens parent tag e) (ha : Angled tag)
    (hv : Opening tag → ∀ n ps, Pieces tag n ps → ∀ p ∈ ps, ∀ k raw, Quoted k raw p → SimpleRefs raw)
    (hp : ∀ p, parent = some p → KeysPlain p.ctx) :
    Opens (parent.map (respaceElement σ)) (respace σ tag) (respaceElement σ e) ∧ ENice e := by
  obtain ⟨h1, h2, h3, t, attrs, n0, n, x, q, h4, h5⟩ := h
  obtain ⟨g1, g2⟩ := hσ.newElem h5 (fun comps hc => hv (opening_of h1 h2) n0 _ (pieces_split (inner_iff.2 ⟨h4, ha⟩) hc)) hp
  exact ⟨⟨by rwa [hσ.pre_iff (by decide)], by rwa [hσ.pre_iff (by decide)], hσ.regex h3, _, _, _, _, _, _, hσ.strip ha h4, g1⟩, g2⟩

theorem closes {e : Element} {tag : Str} (h : Closes e tag) (ha : Angled tag) (he : ENice e) : Closes (respaceElement σ e) (respace σ tag) :=
  ⟨(hσ.pre_iff (by decide)).2 h.slash, hσ.regex h.regex, by rw [hσ.tagName_map he.2]; exact hσ.strip ha h.name⟩

theorem withText {text : Str} {f f' : Forest} (h : WithText text f f') (hs : SimpleRefs text) :
    WithText (respace σ text) (respaceForest σ f) (respaceForest σ f') := by
  cases h with
  | blank h => exact .blank (by rw [hσ.all_ws]; exact h)
  | text h1 h2 => exact .text (by rw [hσ.all_ws]; exact h1) (hσ.unesc hs h2)

omit hσ in
theorem _root_.KissXml.withText_nice {text : Str} {f f' : Forest} (h : WithText text f f') (hf : FNice f) : FNice f' := by
  cases h with
  | blank _ => exact hf
  | text _ _ => exact ⟨trivial, hf⟩

theorem body {e : Element} {toks : List (Str × Str)} {f : Forest} (h : Body e toks f) : ENice e → (∀ t ∈ toks, Angled t.2) → SimpleToks toks →
    Body (respaceElement σ e) (respaceToks σ toks) (respaceForest σ f) ∧ FNice f := by
  induction h with
  | close h1 h2 =>
    intro he ha hs
    refine ⟨.close (hσ.closes h1 (ha _ (List.mem_cons_self ..)) he) (hσ.withText h2 (hs.text _ (List.mem_cons_self ..))), withText_nice h2 trivial⟩
  | @comment e text c toks f f' h1 _ h3 ih =>
    intro he ha hs
    obtain ⟨g1, g2⟩ := ih he (fun t ht => ha t (by simp [ht])) ⟨fun t ht => hs.text t (by simp [ht]), fun t ht => hs.value t (by simp [ht])⟩
    refine ⟨?_, withText_nice h3 ⟨trivial, g2⟩⟩
    have := Body.comment (text := respace σ text) (c := respace σ c) (by rwa [hσ.inf_iff (by decide)]) g1
      (hσ.withText h3 (hs.text _ (List.mem_cons_self ..)))
    simpa only [respaceToks, List.map_cons, respace_append, hσ.fix (p := c%"<!--") (by decide), hσ.fix (p := c%"-->") (by decide)] using this
  | @cdata e text c toks f f' h1 _ h3 ih =>
    intro he ha hs
    obtain ⟨g1, g2⟩ := ih he (fun t ht => ha t (by simp [ht])) ⟨fun t ht => hs.text t (by simp [ht]), fun t ht => hs.value t (by simp [ht])⟩
    refine ⟨?_, withText_nice h3 ⟨trivial, g2⟩⟩
    have := Body.cdata (text := respace σ text) (c := respace σ c) (by rwa [hσ.inf_iff (by decide)]) g1
      (hσ.withText h3 (hs.text _ (List.mem_cons_self ..)))
    simpa only [respaceToks, List.map_cons, respace_append, hσ.fix (p := c%"<![CDATA[") (by decide), hσ.fix (p := c%"]]>") (by decide)] using this
  | @empty e c text tag toks f f' h1 h2 _ h3 ih =>
    intro he ha hs
    obtain ⟨g1, g2⟩ := ih he (fun t ht => ha t (by simp [ht])) ⟨fun t ht => hs.text t (by simp [ht]), fun t ht => hs.value t (by simp [ht])⟩
    obtain ⟨o1, o2⟩ := hσ.opens h1 (ha _ (List.mem_cons_self ..)) (hs.value _ (List.mem_cons_self ..)) (by rintro _ ⟨⟩; exact he.1)
    refine ⟨.empty o1 ((hσ.suf_iff (by decide)).2 h2) g1 ?_, withText_nice h3 ⟨o2.1, g2⟩⟩
    have := hσ.withText h3 (hs.text _ (List.mem_cons_self ..))
    simpa only [respaceForest, respaceNode_element] using this
  | @elem e c text tag toks1 toks2 k f f' h1 h2 _ _ h3 ih1 ih2 =>
    intro he ha hs
    obtain ⟨o1, o2⟩ := hσ.opens h1 (ha _ (List.mem_cons_self ..)) (hs.value _ (List.mem_cons_self ..)) (by rintro _ ⟨⟩; exact he.1)
    obtain ⟨g1, g2⟩ := ih1 o2 (fun t ht => ha t (by simp [ht])) ⟨fun t ht => hs.text t (by simp [ht]), fun t ht => hs.value t (by simp [ht])⟩
    obtain ⟨g3, g4⟩ := ih2 he (fun t ht => ha t (by simp [ht])) ⟨fun t ht => hs.text t (by simp [ht]), fun t ht => hs.value t (by simp [ht])⟩
    refine ⟨?_, withText_nice h3 ⟨o2.1, g2, g4⟩⟩
    have := Body.elem o1 (by rwa [hσ.suf_iff (by decide)]) g1 g3 (hσ.withText h3 (hs.text _ (List.mem_cons_self ..)))
    simpa only [respaceToks, List.map_cons, List.map_append] using this

theorem tops {toks : List (Str × Str)} {e E : Element} {f F : Forest} (h : Tops toks e f E F) : KeysPlain e.ctx → FNice f →
    (∀ t ∈ toks, Angled t.2) → SimpleToks toks →
    Tops (respaceToks σ toks) (respaceElement σ e) (respaceForest σ f) (respaceElement σ E) (respaceForest σ F) ∧ KeysPlain E.ctx ∧ FNice F := by
  induction h with
  | nil => intro he hf _ _; exact ⟨.nil, he, hf⟩
  | @more text tag toks rest e e' E f k F hw hO hs' hB _ ih =>
    intro he hf ha hs
    obtain ⟨o1, o2⟩ := hσ.opens hO (ha _ (List.mem_cons_self ..)) (hs.value _ (List.mem_cons_self ..)) (by rintro _ ⟨⟩)
    obtain ⟨g1, g2⟩ := hσ.body hB o2 (fun t ht => ha t (by simp [ht])) ⟨fun t ht => hs.text t (by simp [ht]), fun t ht => hs.value t (by simp [ht])⟩
    obtain ⟨g3, g4⟩ := ih o2.1 (fappend_nice hf g2) (fun t ht => ha t (by simp [ht])) ⟨fun t ht => hs.text t (by simp [ht]), fun t ht => hs.value t (by simp [ht])⟩
    rw [respaceForest_append] at g3
    refine ⟨?_, g4⟩
    have := Tops.more (e := respaceElement σ e) (text := respace σ text) (by rw [hσ.all_ws]; exact hw) o1 (by rwa [hσ.suf_iff (by decide)]) g1 g3
    simpa only [respaceToks, List.map_cons, List.map_append] using this

theorem rootPart {tag : Str} {rest : List (Str × Str)} {E : Element} {F : Forest} (h : RootPart tag rest E F) (hat : Angled tag)
    (hvt : Opening tag → ∀ n ps, Pieces tag n ps → ∀ p ∈ ps, ∀ k raw, Quoted k raw p → SimpleRefs raw)
    (ha : ∀ t ∈ rest, Angled t.2) (hs : SimpleToks rest) :
    RootPart (respace σ tag) (respaceToks σ rest) (respaceElement σ E) (respaceForest σ F) ∧ KeysPlain E.ctx ∧ FNice F := by
  cases h with
  | empty h1 h2 h3 =>
    obtain ⟨o1, o2⟩ := hσ.opens h1 hat hvt (by rintro _ ⟨⟩)
    exact ⟨.empty o1 ((hσ.suf_iff (by decide)).2 h2) (by rw [h3]; rfl), o2.1, trivial⟩
  | elem h1 h2 h3 h4 h5 =>
    subst h3
    obtain ⟨o1, o2⟩ := hσ.opens h1 hat hvt (by rintro _ ⟨⟩)
    obtain ⟨g1, g2⟩ := hσ.body h4 o2 (fun t ht => ha t (by simp [ht])) ⟨fun t ht => hs.text t (by simp [ht]), fun t ht => hs.value t (by simp [ht])⟩
    obtain ⟨g3, g4⟩ := hσ.tops h5 o2.1 g2 (fun t ht => ha t (by simp [ht])) ⟨fun t ht => hs.text t (by simp [ht]), fun t ht => hs.value t (by simp [ht])⟩
    exact ⟨.elem o1 (by rwa [hσ.suf_iff (by decide)]) (by simp [respaceToks]) g1 g3, g4⟩

/-! ## the tree -/

theorem blank_eq (n : Node) : isBlankText (respaceNode σ n) = isBlankText n := by
  cases n with
  | element e => rw [respaceNode_element]; rfl
  | text t =>
    simp only [respaceNode, isBlankText, decide_eq_decide]
    unfold Blank
    have h1 : respace σ t ≠ [] ↔ t ≠ [] := not_congr ⟨hσ.eq_nil, fun h => by rw [h]; rfl⟩
    have h2 := hσ.all_ws t
    rw [Bool.eq_iff_iff, List.all_eq_true, List.all_eq_true] at h2
    rw [h1, h2]
  | comment t => simp only [respaceNode, isBlankText]
  | cdata t => simp only [respaceNode, isBlankText]

theorem consJoin_map (n : Node) (l : List Node) : (consJoin n l).map (respaceNode σ) = consJoin (respaceNode σ n) (l.map (respaceNode σ)) := by
  cases n with
  | text t =>
    cases l with
    | nil => simp [consJoin, respaceNode]
    | cons m l =>
      cases m with
      | element e => simp [consJoin, respaceNode, respaceNode_element]
      | text u => simp [consJoin, respaceNode, respace_append]
      | comment u => simp [consJoin, respaceNode]
      | cdata u => simp [consJoin, respaceNode]
  | element e => simp [consJoin, respaceNode_element]
  | comment t => simp [consJoin, respaceNode]
  | cdata t => simp [consJoin, respaceNode]

theorem normal_map (l : List Node) : (normalText l).map (respaceNode σ) = normalText (l.map (respaceNode σ)) := by
  have h : (joinRuns l).map (respaceNode σ) = joinRuns (l.map (respaceNode σ)) := by
    induction l with
    | nil => rfl
    | cons n l ih => simp only [joinRuns, List.map_cons, hσ.consJoin_map, ih]
  unfold normalText
  rw [← h, List.filter_map]
  congr 1
  apply List.filter_congr
  intro n _
  simp only [Function.comp, hσ.blank_eq]

theorem addOne_map {e : Element} {n : Node} (he : KeysPlain e.ctx) (hn : NNice n) :
    respaceElement σ (addOne e n) = addOne (respaceElement σ e) (respaceNode σ n) := by
  have ha : respaceNode σ (applyXmlnsContext e.defaultNamespace e.ctx n) =
      applyXmlnsContext (respaceElement σ e).defaultNamespace (respaceElement σ e).ctx (respaceNode σ n) := by
    cases n with
    | element c =>
      rw [respaceNode_element, hσ.default_map]
      show respaceNode σ (.element _) = .element _
      rw [respaceNode_element, hσ.setNs hn (by rintro _ ⟨⟩; exact he)]
      rfl
    | text t => simp only [applyXmlnsContext, respaceNode]
    | comment t => simp only [applyXmlnsContext, respaceNode]
    | cdata t => simp only [applyXmlnsContext, respaceNode]
  unfold addOne
  rw [← ha]
  simp only [respaceElement, respaceNodes_map, hσ.normal_map, List.map_append, List.map_cons, List.map_nil]

omit hσ in
theorem _root_.KissXml.respace_reverse (e : Element) : respaceElement σ e.reverseChildren = (respaceElement σ e).reverseChildren := by
  simp [respaceElement, ElementF.reverseChildren, respaceNodes_map]

omit hσ in
theorem _root_.KissXml.respace_flip (n : Node) : respaceNode σ (ParseTree.flipElement n) = ParseTree.flipElement (respaceNode σ n) := by
  cases n with
  | element e => rw [respaceNode_element]; show respaceNode σ (.element _) = .element _; rw [respaceNode_element, respace_reverse]
  | text t => simp only [ParseTree.flipElement, respaceNode]
  | comment t => simp only [ParseTree.flipElement, respaceNode]
  | cdata t => simp only [ParseTree.flipElement, respaceNode]

omit hσ in
theorem _root_.KissXml.flip_nice {n : Node} (h : NNice n) : NNice (ParseTree.flipElement n) := by
  cases n with
  | element e => exact h
  | text t => exact h
  | comment t => exact h
  | cdata t => exact h

theorem addRev_map (f : Forest) : ∀ e : Element, KeysPlain e.ctx → FNice f →
    respaceElement σ (addRev e f) = addRev (respaceElement σ e) (respaceForest σ f) := by
  induction f with
  | nil => intro e _ _; rfl
  | leaf n r ih =>
    intro e he hf
    have hc : KeysPlain (addRev e r).ctx := by rw [(addRev_fields e r).2.2.2.2]; exact he
    simp only [addRev, respaceForest]
    rw [hσ.addOne_map hc (flip_nice hf.1), ih e he hf.2, respace_flip]
  | elem c k r ih1 ih2 =>
    intro e he hf
    have hc : KeysPlain (addRev e r).ctx := by rw [(addRev_fields e r).2.2.2.2]; exact he
    have hc' : KeysPlain (addRev c k).ctx := by rw [(addRev_fields c k).2.2.2.2]; exact hf.1
    simp only [addRev, respaceForest]
    rw [hσ.addOne_map hc (n := .element (addRev c k).reverseChildren) hc', ih2 e he hf.2.2, respaceNode_element, respace_reverse, ih1 c hf.1 hf.2.1]

/-! ## the prolog -/

theorem blen_zero {s : Str} : blen (respace σ s) = 0 ↔ blen s = 0 := by
  rw [blen_eq_zero, blen_eq_zero]
  exact ⟨hσ.eq_nil, fun h => by rw [h]; rfl⟩

def _root_.KissXml.mapDecl (σ : Char → Str) (d : Option Declaration) : Option Declaration := d.map fun x => ⟨respace σ x.declStr⟩
def _root_.KissXml.mapDtds (σ : Char → Str) (d : List DTD) : List DTD := d.map fun x => ⟨respace σ x.dtdStr⟩

theorem pro {pos prev : Nat} {w : Bool} {d : Option Declaration} {ds : List DTD} {toks : List (Str × Str)} {D : Option Declaration}
    {DS : List DTD} {tag : Str} {rest : List (Str × Str)} (h : Pro pos prev w d ds toks D DS tag rest) :
    ∀ pos' prev', (pos' = 0 ↔ pos = 0) → (prev' = 0 ↔ prev = 0) → (w = false → CommentShown σ toks) →
    Pro pos' prev' w (mapDecl σ d) (mapDtds σ ds) (respaceToks σ toks) (mapDecl σ D) (mapDtds σ DS) (respace σ tag) (respaceToks σ rest) ∧
      ∃ pre text, toks = pre ++ (text, tag) :: rest := by
  have tail : ∀ {t : Str × Str} {toks : List (Str × Str)}, IsProlog t.2 → ¬ c%"<!--" <+: t.2 → CommentShown σ (t :: toks) → CommentShown σ toks := by
    rintro t toks h1 h2 hc a text tag b rfl hp hn
    refine hc (t :: a) text tag b rfl hp ?_
    intro t' ht'
    rw [List.mem_cons] at ht'
    rcases ht' with rfl | ht'
    · exact ⟨h1, h2⟩
    · exact hn t' ht'
  induction h with
  | root h1 h2 h3 h4 h5 =>
    intro pos' prev' _ _ _
    exact ⟨.root (by rw [hσ.all_ws]; exact h1) (by rwa [hσ.pre_iff (by decide)]) (by rwa [hσ.pre_iff (by decide)])
      (by rwa [hσ.pre_iff (by decide)]) (hσ.regex h5), [], _, rfl⟩
  | @decl pos w d ds text m toks D DS r rest h1 h2 _ ih =>
    intro pos' prev' hp hq hc
    obtain rfl := hq.2 rfl
    have e : respace σ (c%"<?" ++ m ++ c%"?>") = c%"<?" ++ respace σ m ++ c%"?>" := by
      rw [respace_append, respace_append, hσ.fix (p := c%"<?") (by decide), hσ.fix (p := c%"?>") (by decide)]
    have hz : ∀ m : Str, blen (c%"<?" ++ m ++ c%"?>") ≠ 0 := by intro m h; rw [blen_eq_zero] at h; simp at h
    have hb := hσ.blen_zero (s := text)
    obtain ⟨g, pre, tx, rfl⟩ := ih (pos' + blen (respace σ text) + blen (c%"<?" ++ respace σ m ++ c%"?>")) (pos' + blen (respace σ text))
      (by have := hz m; have := hz (respace σ m); omega) (by omega)
      (fun hw => tail (.inl (by obtain ⟨u, rfl⟩ := h2; exact ⟨u ++ c%"?>", by simp⟩)) (by rintro ⟨u, hu⟩; simp at hu) (hc hw))
    refine ⟨?_, (text, c%"<?" ++ m ++ c%"?>") :: pre, tx, rfl⟩
    have := Pro.decl (text := respace σ text) (m := respace σ m) (d := mapDecl σ d) (by rw [hσ.all_ws]; exact h1) ((hσ.pre_iff (by decide)).2 h2) g
    rw [← e] at this
    exact this
  | @comment pos prev w d ds text tag toks D DS r rest h1 h2 h3 _ ih =>
    intro pos' prev' hp hq hc
    have hb := hσ.blen_zero (s := text)
    have hb' := hσ.blen_zero (s := tag)
    obtain ⟨g, pre, tx, rfl⟩ := ih (pos' + blen (respace σ text) + blen (respace σ tag)) (pos' + blen (respace σ text)) (by omega) (by omega)
      (fun hw => by cases hw)
    refine ⟨.comment (by rw [hσ.all_ws]; exact h1) ((hσ.pre_iff (by decide)).2 h2) ?_ g, (text, tag) :: pre, tx, rfl⟩
    intro hw
    have := hc hw [] text tag _ rfl h2 (by simp)
    rw [← abbreviate_none] at this
    exact Option.isSome_iff_ne_none.2 this
  | @doctype pos prev w d ds text m toks D DS r rest h1 _ ih =>
    intro pos' prev' hp hq hc
    have e : respace σ (c%"<!DOCTYPE" ++ m ++ c%">") = c%"<!DOCTYPE" ++ respace σ m ++ c%">" := by
      rw [respace_append, respace_append, hσ.fix (p := c%"<!DOCTYPE") (by decide), hσ.fix (p := c%">") (by decide)]
    have hz : ∀ m : Str, blen (c%"<!DOCTYPE" ++ m ++ c%">") ≠ 0 := by intro m h; rw [blen_eq_zero] at h; simp at h
    have hb := hσ.blen_zero (s := text)
    obtain ⟨g, pre, tx, rfl⟩ := ih (pos' + blen (respace σ text) + blen (c%"<!DOCTYPE" ++ respace σ m ++ c%">")) (pos' + blen (respace σ text))
      (by have := hz m; have := hz (respace σ m); omega) (by omega)
      (fun hw => tail (.inr ⟨c%"DOCTYPE" ++ m ++ c%">", by simp⟩) (by rintro ⟨u, hu⟩; simp at hu) (hc hw))
    refine ⟨?_, (text, c%"<!DOCTYPE" ++ m ++ c%">") :: pre, tx, rfl⟩
    have e2 : mapDtds σ (ds ++ [⟨m⟩]) = mapDtds σ ds ++ [⟨respace σ m⟩] := by simp [mapDtds]
    rw [e2] at g
    have := Pro.doctype (text := respace σ text) (m := respace σ m) (prev := prev') (by rw [hσ.all_ws]; exact h1) g
    rw [← e] at this
    exact this
  | @other pos prev w d ds text tag toks D DS r rest h1 h2 h3 h4 _ ih =>
    intro pos' prev' hp hq hc
    have hb := hσ.blen_zero (s := text)
    have hb' := hσ.blen_zero (s := tag)
    obtain ⟨g, pre, tx, rfl⟩ := ih (pos' + blen (respace σ text) + blen (respace σ tag)) (pos' + blen (respace σ text)) (by omega) (by omega)
      (fun hw => tail (.inr h2) h3 (hc hw))
    exact ⟨.other (by rw [hσ.all_ws]; exact h1) ((hσ.pre_iff (by decide)).2 h2) (by rwa [hσ.pre_iff (by decide)])
      (by rwa [hσ.pre_iff (by decide)]) g, (text, tag) :: pre, tx, rfl⟩

theorem parse {x tail : Str} {toks : List (Str × Str)} {d : Document} (h : parseStr x = .ok d) (hl : Lexes x toks tail)
    (hs : SimpleToks toks) (hc : CommentShown σ toks) : parseStr (respace σ x) = .ok (respaceDoc σ d) := by
  obtain ⟨toks', D, DS, tag, rest, E, F, h1, h2, h3, rfl⟩ := (parse_iff.1 h).ex
  obtain ⟨tail', hl'⟩ := lex_lexes h1
  obtain rfl := lexes_unique hl hl'
  obtain ⟨g, pre, text, ht⟩ := hσ.pro h2 0 0 (by simp) (by simp) (fun _ => hc)
  have ha := lex_angled h1
  have hm : (text, tag) ∈ toks := by rw [ht]; simp
  have hr : ∀ t ∈ rest, t ∈ toks := fun t h => by rw [ht]; simp [h]
  obtain ⟨r1, r2, r3⟩ := hσ.rootPart h3 (ha _ hm) (hs.value _ hm) (fun t h => ha t (hr t h))
    ⟨fun t h => hs.text t (hr t h), fun t h => hs.value t (hr t h)⟩
  refine parse_iff.2 ⟨respaceToks σ toks, mapDecl σ D, mapDtds σ DS, respace σ tag, respaceToks σ rest, respaceElement σ E, respaceForest σ F,
    lexes_lex (hσ.lexes hl) 0, g, r1, ?_⟩
  rw [← hσ.addRev_map F E r2 r3, ← respace_reverse]
  rfl

end Spec.Respacing

/-! ## ASCII inputs -/

theorem words_mem {s : Str} {l : List Str} (h : Words s l) : ∀ w ∈ l, ∀ c ∈ w, c ∈ s := by
  induction h with
  | done => simp
  | word _ _ _ ih =>
    intro w hw c hc
    rw [List.mem_cons] at hw
    rcases hw with rfl | hw
    · simp [hc]
    · simp [ih w hw c hc]

theorem joined_mem {ws ps : List Str} (h : Joined ws ps) : ∀ p ∈ ps, ∀ c ∈ p, ∃ w ∈ ws, c ∈ w := by
  induction h with
  | nil => simp
  | one _ _ ih =>
    intro p hp c hc
    rw [List.mem_cons] at hp
    rcases hp with rfl | hp
    · exact ⟨_, List.mem_cons_self .., hc⟩
    · obtain ⟨w, h1, h2⟩ := ih p hp c hc
      exact ⟨w, by simp [h1], h2⟩
  | @two a b l ps _ _ _ ih =>
    intro p hp c hc
    rw [List.mem_cons] at hp
    rcases hp with rfl | hp
    · rcases List.mem_append.1 hc with hc | hc
      · exact ⟨a, by simp, hc⟩
      · exact ⟨b, by simp, hc⟩
    · obtain ⟨w, h1, h2⟩ := ih p hp c hc
      exact ⟨w, by simp [h1], h2⟩
  | @three a b d l ps _ _ _ ih =>
    intro p hp c hc
    rw [List.mem_cons] at hp
    rcases hp with rfl | hp
    · rcases List.mem_append.1 hc with hc | hc
      · rcases List.mem_append.1 hc with hc | hc
        · exact ⟨a, by simp, hc⟩
        · exact ⟨b, by simp, hc⟩
      · exact ⟨d, by simp, hc⟩
    · obtain ⟨w, h1, h2⟩ := ih p hp c hc
      exact ⟨w, by simp [h1], h2⟩

theorem pieces_mem {tag n : Str} {ps : List Str} (h : Pieces tag n ps) : ∀ p ∈ ps, ∀ c ∈ p, c ∈ tag := by
  obtain ⟨s, ws, hi, hw, hj⟩ := h
  intro p hp c hc
  obtain ⟨w, h1, h2⟩ := joined_mem hj p hp c hc
  have hs := words_mem hw w (by simp [h1]) c h2
  obtain ⟨a, m, b, w1, w2, rfl, -, -, rfl, -⟩ := hi
  simp [hs]

theorem toks_mem {x tail : Str} {toks : List (Str × Str)} (h : Lexes x toks tail) : ∀ t ∈ toks, (∀ c ∈ t.1, c ∈ x) ∧ ∀ c ∈ t.2, c ∈ x := by
  rw [lexes_source h]
  clear h
  induction toks with
  | nil => simp
  | cons y toks ih =>
    intro t ht
    rw [srcOf_cons]
    rw [List.mem_cons] at ht
    rcases ht with rfl | ht
    · exact ⟨fun c hc => by simp [hc], fun c hc => by simp [hc]⟩
    · obtain ⟨h1, h2⟩ := ih t ht
      refine ⟨fun c hc => ?_, fun c hc => ?_⟩
      · have := h1 c hc; simp only [List.mem_append] at this ⊢; rcases this with h | h <;> simp [h]
      · have := h2 c hc; simp only [List.mem_append] at this ⊢; rcases this with h | h <;> simp [h]

/-- texts without `&`, or ASCII texts without `#` -/
theorem simpleRefs_of {s x : Str} (hs : ∀ c ∈ s, c ∈ x) (h : '&' ∉ x ∨ ((∀ c ∈ x, c.utf8Size = 1) ∧ '#' ∉ x)) : SimpleRefs s := by
  rcases h with h | ⟨h1, h2⟩
  · exact .inl fun hm => h (hs _ hm)
  · refine .inr ⟨fun c hc => h1 c (hs c (List.mem_of_getLast? hc)), fun hi => h2 (hs _ (hi.subset (by simp)))⟩

theorem simpleToks_of {x tail : Str} {toks : List (Str × Str)} (h : Lexes x toks tail)
    (hx : '&' ∉ x ∨ ((∀ c ∈ x, c.utf8Size = 1) ∧ '#' ∉ x)) : SimpleToks toks := by
  refine ⟨fun t ht => simpleRefs_of (toks_mem h t ht).1 hx, fun t ht _ n ps hp p hpp k raw hq => simpleRefs_of (fun c hc => ?_) hx⟩
  refine (toks_mem h t ht).2 c (pieces_mem hp p hpp c ?_)
  obtain ⟨-, q, -, rfl⟩ := hq
  simp [hc]

theorem commentShown_of {x tail : Str} {toks : List (Str × Str)} (hσ : Respacing σ) (h : Lexes x toks tail)
    (hx : (∀ c ∈ x, c.utf8Size = 1) ∨ ¬ c%"<!--" <:+: x) : CommentShown σ toks := by
  intro a text tag b he hp _
  have hm : (text, tag) ∈ toks := by rw [he]; simp
  rcases hx with hx | hx
  · rw [← abbreviate_none]
    refine abbreviate_ascii (fun c hc => ?_) 32
    rcases hσ.mem hc with ⟨h1, -⟩ | ⟨h1, -⟩
    · exact hx c ((toks_mem h _ hm).2 c h1)
    · exact sp_size h1
  · exfalso
    refine hx (hp.isInfix.trans ?_)
    rw [lexes_source h, he, srcOf_append, srcOf_cons]
    exact ⟨srcOf a ++ text, srcOf b ++ tail, by simp⟩

end KissXml
