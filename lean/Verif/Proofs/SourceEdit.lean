import Verif.Spec.SourceEdit
import Verif.Proofs.PutIn
import Verif.Proofs.Undo
import Verif.Proofs.Congr
import Verif.Proofs.AddAttr
/-!
# Lemmas for C108: editing the source and editing the tree
-/
namespace KissXml
open Spec

/-! ## holes below an element -/

theorem child_close (G : Hole) (p : Element) (i : Nat) : (G.child p i).close = G.plug (.element p) := by
  induction G with
  | here l r => simp [Hole.child, Hole.close, Hole.plug]
  | under l e h r ih => simp [Hole.child, Hole.close, Hole.plug, ih]

theorem child_plug (G : Hole) (p : Element) (i : Nat) (n : Node) :
    (G.child p i).plug n = G.plug (.element { p with children := p.children.take i ++ n :: p.children.drop i }) := by
  induction G with
  | here l r => simp [Hole.child, Hole.plug]
  | under l e h r ih => simp [Hole.child, Hole.plug, ih]

theorem child_level (G : Hole) (p : Element) (i : Nat) : (G.child p i).level = G.level + 1 := by
  induction G with
  | here l r => simp [Hole.child, Hole.level]
  | under l e h r ih => simp [Hole.child, Hole.level, ih]

theorem child_earlier {G : Hole} {p q : Element} {i j : Nat} (h : p.children.take i = q.children.take j) :
    (G.child p i).earlier = (G.child q j).earlier := by
  induction G with
  | here l r => simp [Hole.child, Hole.earlier, h]
  | under l e h r ih => simp [Hole.child, Hole.earlier, ih]

theorem plug_same {n m : Node} (h : SameNode n m) (H : Hole) : SameList (H.plug n) (H.plug m) := by
  induction H with
  | here l r => exact sameList_append (sameList_refl l) (.cons h (sameList_refl r))
  | under l e h r ih => exact sameList_append (sameList_refl l) (.cons (.element (same_children (sameElement_refl e) ih)) (sameList_refl r))

/-- a hole inside of an element is a place among the children of an element -/
theorem hole_child (H : Hole) (h : 0 < H.level) : ∃ (G : Hole) (p : Element) (i : Nat), i ≤ p.children.length ∧
    (∀ tags, (G.child p i).After tags ↔ H.After tags) ∧ G.plug (.element p) = H.close ∧
    (∀ n, G.plug (.element { p with children := p.children.take i ++ n :: p.children.drop i }) = H.plug n) := by
  suffices ∃ (G : Hole) (p : Element) (i : Nat), i ≤ p.children.length ∧ (G.child p i).level = H.level ∧
      (G.child p i).earlier = H.earlier ∧ (G.child p i).close = H.close ∧ ∀ n, (G.child p i).plug n = H.plug n by
    obtain ⟨G, p, i, h1, h2, h3, h4, h5⟩ := this
    refine ⟨G, p, i, h1, fun tags => by unfold Hole.After; rw [h2, h3], by rw [← child_close, h4], fun n => by rw [← child_plug, h5]⟩
  induction H with
  | here l r => simp [Hole.level] at h
  | under l e h' r ih =>
    cases h' with
    | here a b =>
      refine ⟨.here l r, { e with children := a ++ b }, a.length, by simp, ?_, ?_, ?_, ?_⟩
      · simp [Hole.child, Hole.level]
      · simp [Hole.child, Hole.earlier]
      · simp [Hole.child, Hole.close]
      · simp [Hole.child, Hole.plug]
    | under a e' h'' b =>
      obtain ⟨G, p, i, h1, h2, h3, h4, h5⟩ := ih (by simp [Hole.level])
      refine ⟨.under l e G r, p, i, h1, ?_, ?_, ?_, fun n => ?_⟩
      · rw [Hole.child, Hole.level, h2]; rfl
      · rw [Hole.child, Hole.earlier, h3]; rfl
      · rw [Hole.child, Hole.close, h4]; rfl
      · rw [Hole.child, Hole.plug, h5]; rfl

theorem mem_docOrder_plug (H : Hole) (n : Node) : n ∈ docOrderL (H.plug n) := by
  induction H with
  | here l r =>
    rw [Hole.plug, mem_docOrderL]
    exact ⟨n, by simp, by cases n <;> simp [docOrder]⟩
  | under l e h r ih =>
    rw [Hole.plug, mem_docOrderL]
    refine ⟨_, List.mem_append.2 (.inr (List.mem_cons_self ..)), ?_⟩
    rw [docOrder_element]
    exact List.mem_cons_of_mem _ ih

theorem deep_plug {P : Node → Prop} {e : Element} {H : Hole} {n : Node} (h : [.element e] = H.plug n) (hd : Deep P (.element e)) : P n := by
  have := mem_docOrder_plug H n
  rw [← h, mem_docOrderL] at this
  obtain ⟨c, hc, hn⟩ := this
  rw [List.mem_singleton.1 hc] at hn
  exact hd n hn

/-! ## namespaces are handed down -/

/-- the children of an element have been handed down its namespaces -/
def Handed : Node → Prop
  | .element e => ∀ m ∈ e.children, applyXmlnsContext e.defaultNamespace e.ctx m = m
  | _ => True

theorem defaultNamespace_children (e : Element) (cs : List Node) : ({ e with children := cs } : Element).defaultNamespace = e.defaultNamespace := by
  cases e; rfl

theorem settled_plain {e : Element} {f : Forest} (h : Settled e f) (ho : f.Ok) :
    ∀ m ∈ plain f, applyXmlnsContext e.defaultNamespace e.ctx m = m ∧ Deep Handed m := by
  induction f generalizing e with
  | nil => simp [plain]
  | leaf n r ih =>
    intro m hm
    obtain ⟨h1, h2⟩ := h
    have hr : r.Ok := by cases n <;> simp only [Forest.Ok] at ho <;> first | exact ho | exact ho.2
    rw [plain] at hm
    split at hm
    · exact ih h2 hr m hm
    · rcases List.mem_cons.1 hm with rfl | hm
      · refine ⟨h1, ?_⟩
        cases m with
        | element c =>
          have hc : c.children = [] := ho.1
          exact deep_element.2 ⟨fun m hm => by simp [hc] at hm, fun m hm => by simp [hc] at hm⟩
        | text t => exact deep_text.2 trivial
        | comment t => exact deep_comment.2 trivial
        | cdata t => exact deep_cdata.2 trivial
      · exact ih h2 hr m hm
  | elem c k r ih1 ih2 =>
    intro m hm
    obtain ⟨h1, h2, h3⟩ := h
    obtain ⟨-, ho1, ho2⟩ := ho
    rw [plain] at hm
    rcases List.mem_cons.1 hm with rfl | hm
    · refine ⟨h1 _, deep_element.2 ⟨fun m hm => ?_, fun m hm => (ih1 h2 ho1 m hm).2⟩⟩
      rw [defaultNamespace_children]
      exact (ih1 h2 ho1 m hm).1
    · exact ih2 h3 ho2 m hm

theorem elemToks_handed {p : Option Element} {tag : Str} {body : List (Str × Str)} {c : Element} (h : ElemToks p tag body c) :
    Deep Handed (.element c) := by
  cases h with
  | empty hO hs =>
    have hc := opens_children hO
    exact deep_element.2 ⟨fun m hm => by simp [hc] at hm, fun m hm => by simp [hc] at hm⟩
  | start hO hs hB =>
    have := settled_plain (body_settled hB) (body_ok hB)
    exact deep_element.2 ⟨fun m hm => by rw [defaultNamespace_children]; exact (this m hm).1, fun m hm => (this m hm).2⟩

theorem parse_handed {x : Str} {d : Document} {pre rest : List (Str × Str)} (h : parseStr x = .ok d) (hp : Parts x pre rest)
    (h1 : OneRoot (tagsOf rest)) : Deep Handed (.element d.root) := by
  obtain ⟨_, _, _, E, F, rfl, -, hR, hd, -⟩ := accepted_parts h hp
  rw [hd]
  exact elemToks_handed (elemToks_of_root hR h1)

/-! ## insert and remove -/

theorem normalL_of_textNormal {l : List Node} (h : TextNormal l) : NormalL l := ⟨h.apart, fun t ht => (solid_iff.1 (h.solid t ht)).2⟩

theorem mapLast_of_fixed {α : Type} {f : α → α} {l : List α} (h : ∀ x, l.getLast? = some x → f x = x) : mapLast f l = l := by
  rcases List.eq_nil_or_concat l with rfl | ⟨A, x, rfl⟩
  · rfl
  · rw [List.concat_eq_append] at h ⊢
    rw [mapLast_append, h x (by simp)]

theorem insert_exact {p : Element} {i : Nat} {n : Node} (hh : Handed (.element p)) (hi : i ≤ p.children.length) (hn : n.isElement = false)
    (ht : TextNormal (p.children.take i ++ n :: p.children.drop i)) :
    p.insert i n = .ok ({ p with children := p.children.take i ++ n :: p.children.drop i } : Element) := by
  rw [insert_eq, if_neg (by omega), mapLast_of_fixed, normalText_normalL (normalL_of_textNormal ht)]
  intro m hm
  have : m = n ∨ m ∈ p.children := by
    have := List.mem_of_getLast? hm
    simp only [List.mem_append, List.mem_cons] at this
    rcases this with h | h | h
    · exact .inr (List.mem_of_mem_take h)
    · exact .inl h
    · exact .inr (List.mem_of_mem_drop h)
  rcases this with rfl | h
  · cases m <;> first | rfl | simp [Node.isElement] at hn
  · exact hh m h

theorem depth_pos {rest a b : List (Str × Str)} {text tag : Str} (h1 : OneRoot (tagsOf rest)) (hs : PlaceIn rest a text tag b) :
    0 < depth (tagsOf a) := by
  refine h1 (tagsOf a) (tagsOf ((text, tag) :: b)) ?_ ?_ ?_
  · rw [hs.split, tagsOf, tagsOf, tagsOf, List.map_append]
  · intro h; exact hs.inside (List.map_eq_nil_iff.1 h)
  · intro h; simp [tagsOf] at h

/-- a node other than an element that is put into the source is a node that is inserted -/
theorem edit_insert {x x' : Str} {d d' : Document} {pre rest a b : List (Str × Str)} {text tag : Str} {H : Hole} {n : Node}
    (h : parseStr x = .ok d) (hp : Parts x pre rest) (h1 : OneRoot (tagsOf rest)) (hs : PlaceIn rest a text tag b)
    (hH : [.element d.root] = H.close) (hA : H.After (tagsOf a)) (h' : parseStr x' = .ok d') (hH' : [.element d'.root] = H.plug n)
    (hn : n.isElement = false) :
    ∃ (G : Hole) (p p' : Element) (i : Nat), [.element d.root] = G.plug (.element p) ∧ (G.child p i).After (tagsOf a) ∧
      p.insert i n = .ok p' ∧ [.element d'.root] = G.plug (.element p') := by
  obtain ⟨G, p, i, g1, g2, g3, g4⟩ := hole_child H (by have := depth_pos h1 hs; have := hA.1; omega)
  have e1 := hH.trans g3.symm
  have e2 := hH'.trans (g4 n).symm
  refine ⟨G, p, _, i, e1, (g2 _).2 hA, insert_exact (deep_plug e1 (parse_handed h hp h1)) g1 hn ?_, e2⟩
  exact deep_plug e2 (parse_normal h')

theorem nsOnly_bare {n m : Node} (h : NsOnly n m) : bare n = bare m := by
  cases h <;> simp [bare]

/-- an element that is put into the source is an element that is inserted, but for namespaces -/
theorem edit_insert_element {x : Str} {d d' : Document} {pre rest a b : List (Str × Str)} {text tag : Str} {H : Hole} {c c' : Element}
    (h : parseStr x = .ok d) (hp : Parts x pre rest) (h1 : OneRoot (tagsOf rest)) (hs : PlaceIn rest a text tag b)
    (hH : [.element d.root] = H.close) (hA : H.After (tagsOf a)) (hH' : [.element d'.root] = H.plug (.element c'))
    (hc : bare (.element c') = bare (.element c)) :
    ∃ (G : Hole) (p p' c0 : Element) (i : Nat), [.element d.root] = G.plug (.element p) ∧ (G.child p i).After (tagsOf a) ∧
      p.insert i (.element c) = .ok p' ∧ p'.children[i]? = some (.element c0) ∧ bare (.element c0) = bare (.element c') ∧
      [.element d'.root] = G.plug (.element { p' with children := p'.children.set i (.element c') }) := by
  obtain ⟨G, p, i, g1, g2, g3, g4⟩ := hole_child H (by have := depth_pos h1 hs; have := hA.1; omega)
  have e1 := hH.trans g3.symm
  have e2 := hH'.trans (g4 _).symm
  have hh : Handed (.element p) := deep_plug e1 (parse_handed h hp h1)
  have hN : NormalL p.children := normalL_of_textNormal (deep_plug e1 (parse_normal h))
  have hlen : (p.children.take i).length = i := by simp; omega
  have hF : NormalL (p.children.take i ++ .element c :: p.children.drop i) :=
    (normalL_insert (by rwa [List.take_append_drop])).2 (by rintro t ⟨⟩)
  obtain ⟨c0, hc0, hm⟩ : ∃ c0, bare (.element c0) = bare (.element c') ∧
      mapLast (applyXmlnsContext p.defaultNamespace p.ctx) (p.children.take i ++ .element c :: p.children.drop i) =
        p.children.take i ++ .element c0 :: p.children.drop i := by
    by_cases hd : p.children.drop i = []
    · have hb := nsOnly_bare (nsOnly_apply p.defaultNamespace p.ctx (.element c))
      rw [hd, mapLast_append]
      cases ha : applyXmlnsContext p.defaultNamespace p.ctx (.element c) with
      | element c0 => exact ⟨c0, by rw [hc, hb, ha], rfl⟩
      | text t => simp [ha, bare] at hb
      | comment t => simp [ha, bare] at hb
      | cdata t => simp [ha, bare] at hb
    · refine ⟨c, hc.symm, ?_⟩
      rw [mapLast_cons_ne _ _ _ hd, mapLast_of_fixed]
      exact fun m hm => hh m (List.mem_of_mem_drop (List.mem_of_getLast? hm))
  refine ⟨G, p, _, c0, i, e1, (g2 _).2 hA, by rw [insert_eq, if_neg (by omega)], ?_, hc0, ?_⟩
  · rw [normalText_normalL (normalL_mapLast.2 hF), hm]
    simp [hlen]
  · rw [e2, normalText_normalL (normalL_mapLast.2 hF), hm]
    simp [List.set_append_right, hlen]

/-- a node that is taken out of the source is a node that is removed -/
theorem edit_remove {d d' : Document} {rest a b : List (Str × Str)} {text tag : Str} {H : Hole} {n : Node}
    (h1 : OneRoot (tagsOf rest)) (hs : PlaceIn rest a text tag b)
    (hH : [.element d.root] = H.plug n) (hA : H.After (tagsOf a)) (hH' : [.element d'.root] = H.close) :
    ∃ (G : Hole) (p p' : Element) (i : Nat), [.element d.root] = G.plug (.element p) ∧ (G.child p i).After (tagsOf a) ∧
      p.remove i = .ok (n, p') ∧ [.element d'.root] = G.plug (.element p') := by
  obtain ⟨G, p, i, g1, g2, g3, g4⟩ := hole_child H (by have := depth_pos h1 hs; have := hA.1; omega)
  have hlen : (p.children.take i).length = i := by simp; omega
  refine ⟨G, _, p, i, hH.trans (g4 n).symm, ?_, ?_, hH'.trans g3.symm⟩
  · have := (g2 (tagsOf a)).2 hA
    unfold Hole.After at this ⊢
    rwa [child_level, child_earlier (q := p) (j := i) (by simp [hlen]), ← child_level G p i]
  · rw [remove_eq]
    simp [hlen, List.eraseIdx_append_of_length_le]

/-! ## attributes -/

theorem plug_single {H : Hole} {r e : Element} (h : [.element r] = H.plug (.element e)) (e' : Element) :
    ∃ r' : Element, [.element r'] = H.plug (.element e') := by
  cases H with
  | here a b =>
    cases a with
    | nil =>
      simp only [Hole.plug, List.nil_append, List.cons.injEq] at h
      obtain ⟨-, rfl⟩ := h
      exact ⟨e', rfl⟩
    | cons x a => simp [Hole.plug] at h
  | under a E h' b =>
    cases a with
    | nil =>
      simp only [Hole.plug, List.nil_append, List.cons.injEq] at h
      obtain ⟨-, rfl⟩ := h
      exact ⟨_, rfl⟩
    | cons x a => simp [Hole.plug] at h

/-- two trees that differ only in the order of the attributes of one element are equal -/
theorem plug_attrs {H : Hole} {d d' : Document} {e e' : Element} {m : SMap} (h : [.element d.root] = H.plug (.element e))
    (h' : [.element d'.root] = H.plug (.element { e' with attrs := m })) (hm : ∀ k, m.get k = e'.attrs.get k)
    (hd : d'.declaration = d.declaration) (ht : d'.dtds = d.dtds) :
    ∃ r, [.element r] = H.plug (.element e') ∧ d'.eq { d with root := r } = true := by
  obtain ⟨r, hr⟩ := plug_single h e'
  refine ⟨r, hr, ?_⟩
  have hs : SameList [.element d'.root] [.element r] := by
    rw [h', hr]
    exact plug_same (.element (same_attrs (a := e') (b := e') (B := e'.attrs) (sameElement_refl e') hm)) H
  cases hs with
  | cons hs _ =>
    cases hs with
    | element hs => simp [Document.eq, hd, ht, element_eq_iff, hs]

theorem setAttr_of_name {e : Element} {k v : Str} (h : ApiName k) : e.setAttr k v = .ok { e with attrs := e.attrs.insert k v } := by
  unfold ElementF.setAttr checkAttrName
  rw [if_pos (validName_iff.2 h)]
  rfl

theorem gives_without {a b : List Str} {q k raw : Str} (hq : Quoted k raw q) (hn : ∀ p ∈ a ++ b, ∀ raw', ¬ Quoted k raw' p) (k' v : Str) :
    Gives (a ++ b) k' v ↔ k' ≠ k ∧ Gives (a ++ q :: b) k' v := by
  constructor
  · rintro ⟨a1, p, b1, r1, h1, h2, h3, h4⟩
    have hk : k' ≠ k := by
      rintro rfl
      exact hn p (by rw [h1]; simp) r1 h2
    have hqk : ∀ r, ¬ Quoted k' r q := fun r hr => hk (quoted_unique hr hq).1
    refine ⟨hk, ?_⟩
    rcases List.append_eq_append_iff.1 h1 with ⟨c, rfl, rfl⟩ | ⟨c, rfl, hc⟩
    · exact ⟨a ++ q :: c, p, b1, r1, by simp, h2, h3, h4⟩
    · cases c with
      | nil =>
        simp only [List.nil_append] at hc
        subst hc
        exact ⟨a1 ++ [q], p, b1, r1, by simp, h2, h3, h4⟩
      | cons y c =>
        simp only [List.cons_append, List.cons.injEq] at hc
        obtain ⟨rfl, rfl⟩ := hc
        refine ⟨a1, p, c ++ q :: b, r1, by simp, h2, fun p' hp' => ?_, h4⟩
        simp only [List.mem_append, List.mem_cons] at hp'
        rcases hp' with hp' | rfl | hp'
        · exact h3 p' (by simp [hp'])
        · exact hqk
        · exact h3 p' (by simp [hp'])
  · rintro ⟨hk, a1, p, b1, r1, h1, h2, h3, h4⟩
    have hqk : ∀ r, ¬ Quoted k' r q := fun r hr => hk (quoted_unique hr hq).1
    rcases List.append_eq_append_iff.1 h1 with ⟨c, rfl, hc⟩ | ⟨c, rfl, hc⟩
    · cases c with
      | nil =>
        simp only [List.nil_append, List.cons.injEq] at hc
        exact absurd (hc.1 ▸ h2) (hqk r1)
      | cons y c =>
        simp only [List.cons_append, List.cons.injEq] at hc
        obtain ⟨rfl, rfl⟩ := hc
        exact ⟨a ++ c, p, b1, r1, by simp, h2, h3, h4⟩
    · cases c with
      | nil =>
        simp only [List.nil_append, List.cons.injEq] at hc
        exact absurd (hc.1 ▸ h2) (hqk r1)
      | cons y c =>
        simp only [List.cons_append, List.cons.injEq] at hc
        obtain ⟨rfl, rfl⟩ := hc
        exact ⟨a1, p, c ++ b, r1, by simp, h2, fun p' hp' => h3 p' (by simp at hp' ⊢; tauto), h4⟩

theorem name_of_tagName {e : Element} {l : Str} {m : SMap} (h : ({ e with name := l, attrs := m } : Element).tagName = e.tagName) : l = e.name := by
  obtain ⟨n, cs, a, x, q, c⟩ := e
  cases q with
  | none => exact h
  | some q => simpa [ElementF.tagName] using h

end KissXml
