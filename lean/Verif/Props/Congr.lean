import Verif.Proofs.CongrExact
import Verif.Proofs.Invariant
import Verif.Props.Dom
/-!
# C82: equal values behave equally

`SameElement` and `SameNode` are `==` (C27).
-/
namespace KissXml.Props
open KissXml KissXml.Spec

/-- C82, queries: equal elements give equal answers. -/
theorem C82_queries {a b : Element} (h : SameElement a b) :
    (a.name = b.name ∧ a.namespace_ = b.namespace_ ∧ a.namespacePrefix = b.namespacePrefix ∧ a.tagName = b.tagName ∧
      a.defaultNamespace = b.defaultNamespace ∧ (∀ k, a.getAttr k = b.getAttr k)) ∧
    (SameList a.children b.children ∧ SameList a.childrenRecursive b.childrenRecursive ∧ SameList a.allChildren b.allChildren ∧
      EachTo SameElement a.childElements b.childElements) ∧
    (∀ n, EachTo SameElement (a.elementsByName n) (b.elementsByName n) ∧
      ResTo SameElement (a.firstElementByName n) (b.firstElementByName n) ∧
      EachTo SameElement (a.searchElementsByName n) (b.searchElementsByName n)) ∧
    (∀ x, EachTo SameElement (a.elementsByNamespace x) (b.elementsByNamespace x) ∧
      EachTo SameElement (a.elementsByNamespacePrefix x) (b.elementsByNamespacePrefix x)) ∧
    (∀ p, Respects p → SameList (a.search p) (b.search p)) ∧
    (∀ p, RespectsE p → EachTo SameElement (a.searchElements p) (b.searchElements p)) ∧
    (∀ p, a.searchText p = b.searchText p ∧ a.searchComments p = b.searchComments p) := by
  obtain ⟨h1, h2, h3, h4, h5⟩ := same_parts h
  have hr := same_childrenRecursive h
  have hs : ∀ p, Respects p → SameList (a.search p) (b.search p) := fun p hp => sameList_filter hp hr
  have hce : EachTo SameElement a.childElements b.childElements := by
    rw [(C15_child_queries a).1, (C15_child_queries b).1]; exact each_elements h5
  have hse : ∀ p, RespectsE p → EachTo SameElement (a.searchElements p) (b.searchElements p) :=
    fun p hp => each_filter hp (each_elements (hs _ respects_isElement))
  refine ⟨⟨h1, h2, h3, ?_, same_default h, same_get h⟩, ⟨h5, hr, hs _ fun _ _ _ => rfl, hce⟩,
    fun n => ⟨?_, each_firstByName hce n, hse _ ?_⟩, fun x => ⟨?_, ?_⟩, hs, hse, fun p => ⟨?_, ?_⟩⟩
  · unfold ElementF.tagName; rw [h1, h3]
  · exact each_filter (fun x y hxy => by simp only [(same_parts hxy).1]) hce
  · exact fun x y hxy => by simp only [(same_parts hxy).1]
  · exact each_filter (fun y z hxy => by simp only [(same_parts hxy).2.1]) hce
  · exact each_filter (fun y z hxy => by simp only [(same_parts hxy).2.2.1]) hce
  · exact congrArg (List.filter p) (texts_eq (hs _ respects_isText)).1
  · exact congrArg (List.filter p) (texts_eq (hs _ respects_isComment)).2

/-- C82, changes that add no elements: equal elements stay equal, and give equal results or the same error. -/
theorem C82_changes {a b : Element} (h : SameElement a b) :
    (∀ k v, ResTo SameElement (a.setAttr k v) (b.setAttr k v)) ∧
    (∀ k, (a.removeAttr k).1 = (b.removeAttr k).1 ∧ SameElement (a.removeAttr k).2 (b.removeAttr k).2) ∧
    SameElement a.clearAttributes b.clearAttributes ∧ SameElement a.clearChildren b.clearChildren ∧
    (∀ t, ResTo SameElement (a.setText t) (b.setText t)) ∧
    (∀ i, ResTo (fun x y => SameNode x.1 y.1 ∧ SameElement x.2 y.2) (a.remove i) (b.remove i)) ∧
    (∀ i, ResTo (fun x y => SameElement x.1 y.1 ∧ SameElement x.2 y.2) (a.removeElement i) (b.removeElement i)) ∧
    (∀ p, Respects p → ResTo (WithCount SameElement) (a.removeBy p) (b.removeBy p) ∧
      ResTo (WithCount SameElement) (a.removeAll p) (b.removeAll p)) ∧
    (∀ p, RespectsE p → ResTo (WithCount SameElement) (a.removeElements p) (b.removeElements p) ∧
      ResTo (WithCount SameElement) (a.removeAllElements p) (b.removeAllElements p)) ∧
    (∀ n, ResTo (WithCount SameElement) (a.removeElementsByName n) (b.removeElementsByName n)) := by
  have hc := (same_parts h).2.2.2.2
  have hre : ∀ p, RespectsE p → ResTo (WithCount SameElement) (a.removeElements p) (b.removeElements p) := by
    intro p hp
    rw [removeElements_eq, removeElements_eq]
    exact .inl ⟨_, _, rfl, rfl, same_children h (sameList_filter (respects_not (respects_elem hp)) hc),
      sameList_countP (respects_elem hp) hc⟩
  refine ⟨fun k v => ?_, fun k => ⟨same_get h k, same_attrs h fun k' => ?_⟩, same_attrs h fun _ => rfl, same_children h .nil,
    fun t => ?_, same_remove h, same_removeElement h, fun p hp => ⟨?_, ?_⟩, fun p hp => ⟨hre p hp, ?_⟩, fun n => hre _ ?_⟩
  · unfold ElementF.setAttr checkAttrName
    by_cases hv : validName k
    · simp only [if_pos hv]
      exact .inl ⟨_, _, rfl, rfl, same_attrs h fun k' => by rw [SMap.get_insert, SMap.get_insert, same_get h]⟩
    · simp only [if_neg hv]
      exact .inr (.inl ⟨_, rfl, rfl⟩)
  · rw [SMap.get_remove, SMap.get_remove, same_get h]
  · exact (same_append (same_children h .nil) (.text t)).2 fun _ _ h => by cases h
  · rw [removeBy_eq, removeBy_eq]
    exact .inl ⟨_, _, rfl, rfl, same_children h (sameList_filter (respects_not hp) hc), sameList_countP hp hc⟩
  · rw [removeAll_eq, removeAll_eq]
    exact .inl ⟨_, _, rfl, rfl, same_children h (same_pruneL hp hc), same_hitsL hp hc⟩
  · rw [removeAllElements_eq, removeAllElements_eq]
    exact .inl ⟨_, _, rfl, rfl, same_children h (same_pruneL (respects_elem hp) hc), same_hitsL (respects_elem hp) hc⟩
  · exact fun x y hxy => by simp only [(same_parts hxy).1]

/-- C82 for `append`, exactly: equal elements stay equal unless the new child is an element with a prefix and without a namespace, and
the prefix means different things to the new child and its parent on the one side and on the other (`==` does not look at that).
Missing: see `C82_false`. -/
theorem C82_append_partial {a b : Element} {n m : Node} (h : SameElement a b) (hn : SameNode n m) :
    ResTo SameElement (a.append n) (b.append m) ↔
      ∀ e f, n = .element e → m = .element f → ∀ p, unresolved n = some p →
        (e.ctx.get p).or (a.ctx.get p) = (f.ctx.get p).or (b.ctx.get p) := same_append h hn

/-- C82 for `append_all`, exactly: equal elements stay equal unless the same happens with one of the new children.
Missing: see `C82_false`. -/
theorem C82_append_all_partial {a b : Element} {l m : List Node} (h : SameElement a b) (hl : SameList l m) :
    ResTo SameElement (a.appendAll l) (b.appendAll m) ↔
      ∀ e f, (Node.element e, Node.element f) ∈ l.zip m → ∀ p, unresolved (.element e) = some p →
        (e.ctx.get p).or (a.ctx.get p) = (f.ctx.get p).or (b.ctx.get p) := by
  have hc := (same_parts h).2.2.2.2
  rw [appendAll_eq, appendAll_eq, ← same_default h, resTo_ok, same_children_iff h,
    kin_normal (kin_append (kin_of_same hc) (kin_map hl)), sameList_append_iff hc, same_map_apply hl]

/-- C82 for `insert`, exactly: at an index that is too large both fail alike; otherwise equal elements stay equal unless the same happens
with the child that is last afterwards, for `insert` resolves the prefix of the last child, not of the new one (C18).
Missing: see `C82_false`. -/
theorem C82_insert_partial {a b : Element} {n m : Node} (h : SameElement a b) (hn : SameNode n m) (i : Nat) :
    ResTo SameElement (a.insert i n) (b.insert i m) ↔
      (i ≤ a.children.length → ∀ e f, (a.children.take i ++ n :: a.children.drop i).getLast? = some (.element e) →
        (b.children.take i ++ m :: b.children.drop i).getLast? = some (.element f) →
        ∀ p, unresolved (.element e) = some p → (e.ctx.get p).or (a.ctx.get p) = (f.ctx.get p).or (b.ctx.get p)) := by
  have hc := (same_parts h).2.2.2.2
  have hX := sameList_append (sameList_take hc i) (.cons hn (sameList_drop hc i))
  rw [insert_eq, insert_eq, ← same_default h, sameList_length hc]
  split
  · exact ⟨fun _ h => by omega, fun _ => .inr (.inl ⟨_, rfl, rfl⟩)⟩
  · rename_i hi
    rw [resTo_ok, same_children_iff h, kin_normal (kin_mapLast hX), same_mapLast_apply hX]
    exact ⟨fun h _ => h, fun h => h (by omega)⟩

/-- C82 for `new`, exactly: the order of the attribute map and the identity of the children do not matter, unless a child has a prefix and
no namespace, the attributes do not declare the prefix, and the child remembers something else about it on the one side than on the other.
(If several attribute names are invalid, which one is reported depends on the order of the map.)
Missing: see `C82_false`. -/
theorem C82_new_partial {name : Str} {text xmlns pfx : Option Str} {A B : SMap} {l m : List Node} {e : Element}
    (hA : ∀ k, A.get k = B.get k) (hl : SameList l m)
    (h : ElementF.new name text (some A) xmlns pfx (some l) = .ok e) :
    ∃ f, ElementF.new name text (some B) xmlns pfx (some m) = .ok f ∧ (SameElement e f ↔
      ∀ x y, (Node.element x, Node.element y) ∈ l.zip m → ∀ p, unresolved (.element x) = some p →
        (x.ctx.get p).or (A.get (c%"xmlns:" ++ p)) = (y.ctx.get p).or (A.get (c%"xmlns:" ++ p))) := by
  rw [new_eq] at h ⊢
  simp only [Option.getD_some] at h ⊢
  split at h
  · cases h
  · rename_i hv
    rw [if_neg hv]
    split at h
    · cases h
    · rename_i hf
      rw [find_invalid.2 fun k hk => find_invalid.1 hf k (by rw [hA k]; exact hk)]
      cases h
      refine ⟨_, rfl, ?_⟩
      have hx : ownNs A pfx = ownNs B pfx := by unfold ownNs; cases pfx <;> simp only [hA]
      have h0 : SameElement ⟨name, [], A, xmlns.or (ownNs A pfx), pfx, ElementF.xmlnsContextFromAttributes A⟩
          ⟨name, [], B, xmlns.or (ownNs B pfx), pfx, ElementF.xmlnsContextFromAttributes B⟩ := by
        rw [hx]; exact .mk (SMap.perm_iff_get.2 hA) .nil
      have ht := sameList_refl (textKids text)
      have := same_children_iff h0 (l := normalText (textKids text ++ l.map (applyXmlnsContext
        (ElementF.defaultNamespace ⟨name, [], A, xmlns.or (ownNs A pfx), pfx, ElementF.xmlnsContextFromAttributes A⟩)
        (ElementF.xmlnsContextFromAttributes A)))) (m := normalText (textKids text ++ m.map (applyXmlnsContext
        (ElementF.defaultNamespace ⟨name, [], B, xmlns.or (ownNs B pfx), pfx, ElementF.xmlnsContextFromAttributes B⟩)
        (ElementF.xmlnsContextFromAttributes B))))
      rw [← same_default h0, kin_normal (kin_append (kin_of_same ht) (kin_map hl)), sameList_append_iff ht, same_map_apply hl] at this
      rw [← same_default h0]
      refine this.trans ?_
      simp only [xmlnsContext_get, ← hA]

/-- `<r xmlns:p="u"/>` after `remove_attr("xmlns:p")` -/
def forgetful : Element := ⟨c%"r", [], .empty, none, none, ⟨[(c%"p", c%"u")], by decide⟩⟩
/-- `<r/>` -/
def fresh : Element := ⟨c%"r", [], .empty, none, none, .empty⟩
/-- `<p:c/>` -/
def wanting : Node := .element ⟨c%"c", [], .empty, none, some c%"p", .empty⟩

theorem forgetful_api : Api (.element forgetful) :=
  .removeAttr (e := ⟨c%"r", [], ⟨[(c%"xmlns:p", c%"u")], by decide⟩, none, none, ⟨[(c%"p", c%"u")], by decide⟩⟩) c%"xmlns:p"
    (.new (name := c%"r") (text := none) (attrs := some ⟨[(c%"xmlns:p", c%"u")], by decide⟩) (xmlns := none) (pfx := none) (cs := none)
      (fun _ h => by cases h) rfl)
theorem fresh_api : Api (.element fresh) := .newFromName (name := c%"r") rfl
theorem wanting_api : Api wanting :=
  .new (name := c%"c") (text := none) (attrs := none) (xmlns := none) (pfx := some c%"p") (cs := none) (fun _ h => by cases h) rfl

/-- C82 is false: an element remembers the prefixes it declared after they are removed, and so two equal elements that a program can
build differ after the same child is appended to both (`<p:c/>` gets a namespace in one of them only). -/
theorem C82_false : ∃ a b n, Api (.element a) ∧ Api (.element b) ∧ Api n ∧ SameElement a b ∧
    ¬ ResTo SameElement (a.append n) (b.append n) := by
  refine ⟨forgetful, fresh, wanting, forgetful_api, fresh_api, wanting_api, .mk (.refl _) .nil, fun h => ?_⟩
  have := (C82_append_partial (a := forgetful) (b := fresh) (.mk (.refl _) .nil) (sameNode_refl wanting)).1 h _ _ rfl rfl c%"p" rfl
  revert this; decide

example : SameElement ⟨c%"r", [.text c%"t"], ⟨[(c%"a", c%"1"), (c%"b", c%"2")], by decide⟩, none, none, .empty⟩
    ⟨c%"r", [.text c%"t"], ⟨[(c%"b", c%"2"), (c%"a", c%"1")], by decide⟩, none, none, .empty⟩ :=
  .mk (List.Perm.swap ..) (.cons (.text _) .nil)
example : Respects (fun n => n.textOf == c%"t") := fun _ _ h => by simp only [same_textOf h]
example : ¬ RespectsE (fun e => e.ctx.isEmpty) := fun h => absurd (h forgetful fresh (.mk (.refl _) .nil)) (by decide)
-- a prefix with a namespace is resolved
example : unresolved (.element ⟨c%"c", [], .empty, some c%"u", some c%"p", .empty⟩) = none := rfl
example : unresolved wanting = some c%"p" := rfl

-- equal elements that are not equal after the same text is inserted in both, before a child whose prefix only one of them remembers
example : ¬ ResTo SameElement (ElementF.insert { forgetful with children := [wanting] } 0 (.text c%"t"))
    (ElementF.insert { fresh with children := [wanting] } 0 (.text c%"t")) := fun h => by
  have := (C82_insert_partial (.mk (.refl _) (sameList_refl _)) (.text _) 0).1 h (by decide) _ _ rfl rfl c%"p" rfl
  revert this; decide
-- but they are after the same text is appended to both
example : ResTo SameElement (ElementF.appendAll { forgetful with children := [wanting] } [.text c%"t"])
    (ElementF.appendAll { fresh with children := [wanting] } [.text c%"t"]) :=
  (C82_append_all_partial (.mk (.refl _) (sameList_refl _)) (sameList_refl _)).2 fun e f h => by simp at h

end KissXml.Props
