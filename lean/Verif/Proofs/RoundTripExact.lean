import Verif.Proofs.Reread
import Verif.Proofs.Unambiguous
/-!
# What is written determines the document, and exactly when it can be read back
-/
namespace KissXml
open Spec

variable {P Q : Str → Prop} {L M : CTag → Prop}

/-! ## what is written stands for the document -/

theorem decodes_text (t : Str) : Decodes (textEscape t) t := by
  rw [textEscape_eq]; exact Props.decodes_esc isEsc_text _

theorem decodes_attr (t : Str) : Decodes (attributeEscape t) t := by
  rw [attributeEscape, escape_eq]; exact Props.decodes_esc isEsc_attr _

theorem ctag_den {e : Element} (h : ElemShape e) : (ctagOf e).DenBy Decodes e := by
  refine ⟨fun hn => ?_, fun p l hn hp => ?_, fun k v => ?_⟩
  · simp only [ctagOf, qname] at hn ⊢
    cases hp : e.pfx with
    | none => exact ⟨rfl, rfl⟩
    | some p => rw [hp] at hn; simp at hn
  · simp only [ctagOf, qname] at hn
    cases hq : e.pfx with
    | none =>
      rw [hq] at hn
      simp only at hn
      exact absurd (by rw [hn]; simp) h.name.1.2
    | some q =>
      rw [hq] at hn
      have h1 := splitOnce_eq_some.2 ⟨hn, hp⟩
      have h2 : splitOnce ':' (q ++ ':' :: e.name) = some (q, e.name) := splitOnce_eq_some.2 ⟨rfl, (h.pfx q hq).2⟩
      have h3 := h2.symm.trans h1
      cases h3
      exact ⟨rfl, rfl⟩
  · constructor
    · intro hk
      exact ⟨_, List.mem_map.2 ⟨(k, v), mem_sort.2 hk, rfl⟩, rfl, decodes_attr v⟩
    · rintro ⟨a, ha, rfl, hv⟩
      obtain ⟨⟨k, w⟩, hkw, rfl⟩ := List.mem_map.1 ha
      rw [decodes_unique hv (decodes_attr w)]
      exact mem_sort.1 hkw

theorem lead_den {inl : Bool} {lead close : Str} {q cs : List Node} (h : Writes inl lead close q cs) {s : Str} (hs : AllWs s)
    (hs' : inl = true → s = []) : TextBit Decodes (lead ++ s) q := by
  rcases h.lead with ⟨h1, -, rfl⟩ | ⟨h1, t, rfl, h2, rfl, -⟩
  · exact .inl ⟨allWs_append h1 hs, rfl⟩
  · rw [hs' h1, List.append_nil]
    refine .inr ⟨textEscape_not_ws h2, t, decodes_text t, ?_⟩
    rw [if_neg]
    rintro ⟨-, hb⟩
    obtain ⟨c, hc, hw⟩ := h2.1
    rw [hb c hc] at hw; cases hw

mutual
theorem inner_den {u : Str} (hu : AllWs u) {pre : Str} (hp : AllWs pre) (inl : Bool) : (e : Element) →
    (∀ m ∈ docOrder (.element e), NodeShape m) → (innerCst pre u inl e).DenBy Decodes e.children
  | ⟨n, cs, a, x, p, c⟩, hn => by
    rw [innerCst]
    rcases writes_elem hn hp inl with ⟨h1, h2⟩ | ⟨h1, h2⟩
    · rw [if_pos h1]
      exact list_den allWs_nil allWs_nil _ _ _ _ cs h2
    · rw [if_neg (by rw [h1]; simp)]
      exact list_den hu (allWs_append hp hu) _ _ _ _ cs h2
theorem list_den {u : Str} (hu : AllWs u) {pre : Str} (hp : AllWs pre) (inl : Bool) (lead close : Str) (q : List Node) :
    (cs : List Node) → Writes inl lead close q cs → (listCst pre u inl lead close cs).DenBy Decodes (q ++ cs)
  | [], h => by
    rw [listCst, List.append_nil]
    exact .done (lead_den h h.close.1 h.close.2)
  | .text t :: cs, h => by
    obtain ⟨rfl, -, h2⟩ := writes_text h
    rw [listCst, nodeCst]
    exact list_den hu hp inl _ close [.text t] cs h2
  | .comment k :: cs, h => by
    rw [listCst, nodeCst]
    exact .comment (lead_den h (allWs_pre hp inl).1 (allWs_pre hp inl).2) (list_den hu hp inl _ close [] cs (writes_next h))
  | .cdata k :: cs, h => by
    rw [listCst, nodeCst]
    exact .cdata (lead_den h (allWs_pre hp inl).1 (allWs_pre hp inl).2) (list_den hu hp inl _ close [] cs (writes_next h))
  | .element e :: cs, h => by
    rw [listCst, nodeCst]
    have h2 := lead_den h (allWs_pre hp inl).1 (allWs_pre hp inl).2
    have g := list_den hu hp inl _ close [] cs (writes_next h)
    have hk : ∀ m ∈ docOrder (.element e), NodeShape m := fun m hm => h.nodes m (by rw [docOrderL]; simp [hm])
    have k := inner_den hu hp inl e hk
    split
    · rename_i he
      exact .empty h2 (ctag_den (fits_self hk)) (List.isEmpty_iff.1 he) g
    · exact .elem h2 (ctag_den (fits_self hk)) k g
end

theorem cdoc_den {d : Document} (h : DocShape d) (i : Str) : (cdocOf d (realIndent i)).DenBy Decodes d := by
  refine ⟨?_, ?_, ctag_den (fits_self h.nodes), ?_⟩
  · simp only [cdocOf]
    cases hx : d.declaration with
    | none => rfl
    | some x =>
      obtain ⟨m', h1, h2⟩ := h.decl x hx
      simp [h1]
  · simp [cdocOf, h.dtds]
  · cases he : d.root.children.isEmpty with
    | true => simp only [cdocOf, he, if_true]; exact List.isEmpty_iff.1 he
    | false =>
      simp only [cdocOf, he, Bool.false_eq_true, if_false]
      exact inner_den (realIndent_ws i) allWs_nil false d.root h.nodes

/-! ## concrete documents stand for one document only -/

theorem tag_den_same {D : Str → Str → Prop} {t : CTag} {e e' : Element} (h : t.DenBy D e) (h' : t.DenBy D e') :
    e.name = e'.name ∧ e.pfx = e'.pfx ∧ e.attrs.entries.Perm e'.attrs.entries := by
  have ha : e.attrs.entries.Perm e'.attrs.entries := by
    rw [SMap.perm_iff_get]
    intro k
    apply Option.ext
    intro v
    rw [h.attrs, h'.attrs]
  by_cases hn : ':' ∈ t.name
  · cases hs : splitOnce ':' t.name with
    | none => exact absurd hn (splitOnce_eq_none.1 hs)
    | some x =>
      obtain ⟨p, l⟩ := x
      obtain ⟨h1, h2⟩ := splitOnce_eq_some.1 hs
      obtain ⟨g1, g2⟩ := h.prefixed p l h1 h2
      obtain ⟨g3, g4⟩ := h'.prefixed p l h1 h2
      exact ⟨g1.trans g3.symm, g2.trans g4.symm, ha⟩
  · obtain ⟨g1, g2⟩ := h.plain hn
    obtain ⟨g3, g4⟩ := h'.plain hn
    exact ⟨g1.trans g3.symm, g2.trans g4.symm, ha⟩

theorem bare_same {e e' : Element} (h : e.name = e'.name ∧ e.pfx = e'.pfx ∧ e.attrs.entries.Perm e'.attrs.entries)
    (hc : SameList (bareL e.children) (bareL e'.children)) : SameNode (bare (.element e)) (bare (.element e')) := by
  obtain ⟨n, cs, a, x, p, c⟩ := e
  obtain ⟨n', cs', a', x', p', c'⟩ := e'
  obtain ⟨rfl, rfl, ha⟩ := h
  rw [bare, bare]
  exact .element (.mk ha hc)

theorem bareL_append (l m : List Node) : bareL (l ++ m) = bareL l ++ bareL m := by
  induction l with
  | nil => rfl
  | cons n l ih => rw [List.cons_append, bareL, bareL, ih]; rfl

theorem sameList_append {a b c d : List Node} (h : SameList a b) (h' : SameList c d) : SameList (a ++ c) (b ++ d) := by
  induction a generalizing b with
  | nil => cases h; exact h'
  | cons n a ih => cases h with
    | cons h1 h2 => exact .cons h1 (ih h2)

theorem bit_same {text : Str} {l l' : List Node} (h : TextBit Decodes text l) (h' : TextBit Decodes text l') : l = l' := by
  rcases h with ⟨h1, rfl⟩ | ⟨⟨c, hc, hw⟩, t, ht, rfl⟩ <;> rcases h' with ⟨h1', rfl⟩ | ⟨⟨c', hc', hw'⟩, t', ht', rfl⟩
  · rfl
  · rw [h1 c' hc'] at hw'; cases hw'
  · rw [h1' c hc] at hw; cases hw
  · rw [decodes_unique ht ht']

theorem den_next {l l' r r' : List Node} {n n' : Node} (hl : l = l') (hn : SameNode (bare n) (bare n'))
    (hr : SameList (bareL r) (bareL r')) : SameList (bareL (l ++ n :: r)) (bareL (l' ++ n' :: r')) := by
  subst hl
  rw [bareL_append, bareL_append, bareL, bareL]
  exact sameList_append (sameList_refl _) (.cons hn hr)

theorem den_same {c : Cst} {l l' : List Node} (h : c.DenBy Decodes l) (h' : c.DenBy Decodes l') : SameList (bareL l) (bareL l') := by
  induction h generalizing l' with
  | done h => cases h' with | done h' => rw [bit_same h h']; exact sameList_refl _
  | comment h _ ih => cases h' with | comment h' hr => exact den_next (bit_same h h') (sameNode_refl _) (ih hr)
  | cdata h _ ih => cases h' with | cdata h' hr => exact den_next (bit_same h h') (sameNode_refl _) (ih hr)
  | empty h ht hc _ ih => cases h' with
    | empty h' ht' hc' hr =>
      exact den_next (bit_same h h') (bare_same (tag_den_same ht ht') (by rw [hc, hc']; exact .nil)) (ih hr)
  | elem h ht _ _ ih1 ih2 => cases h' with
    | elem h' ht' hc' hr => exact den_next (bit_same h h') (bare_same (tag_den_same ht ht') (ih1 hc')) (ih2 hr)

theorem doc_den_same {c : CDoc} {d d' : Document} (h : c.DenBy Decodes d) (h' : c.DenBy Decodes d') :
    d.declaration.map Declaration.declStr = d'.declaration.map Declaration.declStr ∧ d.dtds.map DTD.dtdStr = d'.dtds.map DTD.dtdStr ∧
    SameNode (bare (.element d.root)) (bare (.element d'.root)) := by
  refine ⟨h.decl.trans h'.decl.symm, h.dtds.trans h'.dtds.symm, bare_same (tag_den_same h.root h'.root) ?_⟩
  have h1 := h.body
  have h2 := h'.body
  cases hb : c.body with
  | none => rw [hb] at h1 h2; simp only at h1 h2; rw [h1, h2]; exact .nil
  | some x => rw [hb] at h1 h2; exact den_same h1 h2

/-! ## what is written determines the document -/

theorem docHas_true (d : Document) : DocHas (fun _ => True) d := by
  intro n _
  cases n with
  | text t => trivial
  | comment t => trivial
  | cdata t => trivial
  | element e => exact fun _ _ _ => trivial

theorem cdoc_wf {d : Document} (h : DocShape d) (i : Str) : (cdocOf d (realIndent i)).Wf :=
  ((cdoc_ok_iff h (fun _ _ => trivial) i).2 (docHas_true d)).toWfFor.mono (fun _ h => h) fun _ _ => trivial

theorem write_inj {d d' : Document} (h : DocShape d) (h' : DocShape d') {i j : Str}
    (he : d.toStringWithIndent i = d'.toStringWithIndent j) :
    d.declaration = d'.declaration ∧ SameNode (bare (.element d.root)) (bare (.element d'.root)) := by
  rw [← cdoc_src h i, ← cdoc_src h' j] at he
  have hc := src_inj (cdoc_wf h i) (cdoc_wf h' j) he
  obtain ⟨h1, -, h2⟩ := doc_den_same (cdoc_den h i) (hc ▸ cdoc_den h' j)
  refine ⟨?_, h2⟩
  cases hd : d.declaration with
  | none => cases hd' : d'.declaration with
    | none => rfl
    | some y => rw [hd, hd'] at h1; cases h1
  | some x => cases hd' : d'.declaration with
    | none => rw [hd, hd'] at h1; cases h1
    | some y =>
      obtain ⟨x⟩ := x
      obtain ⟨y⟩ := y
      rw [hd, hd'] at h1
      simpa using h1

theorem write_of_bare {d d' : Document} (hx : d.declaration = d'.declaration) (ht : d.dtds = d'.dtds)
    (h : SameNode (bare (.element d.root)) (bare (.element d'.root))) (i : Str) : d.toStringWithIndent i = d'.toStringWithIndent i := by
  unfold Document.toStringWithIndent
  rw [hx, ht]
  simp only [ElementF.toStringWithIndent, toStringPI_of_bare h]

/-! ## when it can be read back -/

theorem tag_mix {t : CTag} (h : t.OkFor P L) (h' : t.OkFor Q M) : t.OkFor Q L :=
  ⟨h.name, h'.attrs, h.layout, h.distinct, h.sp⟩

theorem cst_mix {c : Cst} (h : c.OkFor P L) (h' : c.OkFor Q M) : c.OkFor Q L := by
  induction c with
  | done text => exact h'
  | comment text k rest ih => exact ⟨h'.1, h.2.1, ih h.2.2 h'.2.2⟩
  | cdata text k rest ih => exact ⟨h'.1, h.2.1, ih h.2.2 h'.2.2⟩
  | empty text t rest ih => exact ⟨h'.1, tag_mix h.2.1 h'.2.1, ih h.2.2 h'.2.2⟩
  | elem text t inner sp rest ih1 ih2 => exact ⟨h'.1, tag_mix h.2.1 h'.2.1, ih1 h.2.2.1 h'.2.2.1, h.2.2.2.1, ih2 h.2.2.2.2 h'.2.2.2.2⟩

theorem doc_mix {d : CDoc} (h : d.OkFor P L) (h' : d.OkFor Q M) : d.OkFor Q L :=
  ⟨⟨h.decl, h.misc, h.sp, tag_mix h.root h'.root, fun c sp hb => ⟨cst_mix (h.body c sp hb).1 (h'.body c sp hb).1, (h.body c sp hb).2⟩,
    h.tail⟩, h.declared, h.shown⟩

/-- exactly which documents are read back, and as what -/
theorem reparse_iff {d : Document} (h : DocShape d) (i : Str) {d' : Document} :
    parseStr (d.toStringWithIndent i) = .ok d' ↔ DocHas Given d ∧ d' = reDoc d := by
  have hw := (cdoc_ok_iff h (P := fun _ => True) (fun _ _ => trivial) i).2 (docHas_true d)
  rw [← cdoc_src h i, parse_exact hw.toWfFor, docOf_re h, ← cdoc_ok_iff h (fun _ => ws_given) i]
  exact ⟨fun ⟨h1, h2⟩ => ⟨doc_mix hw h1, h2⟩, fun ⟨h1, h2⟩ => ⟨laid_matched h1, h2⟩⟩

/-- the texts and values of the node are decoded as they were -/
def Keeps : Node → Prop
  | .text t => dec (textEscape t) = t
  | .comment _ => True
  | .cdata _ => True
  | .element e => ∀ k v, e.attrs.get k = some v → dec (attributeEscape v) = v

theorem reAttrs_iff {e : Element} (h : ElemShape e) (k v : Str) :
    (attrMap (cattrsOf (sortAttrs e.attrs.entries))).get k = some v ↔ ∃ w, e.attrs.get k = some w ∧ dec (attributeEscape w) = v := by
  have hok := (ctag_ok_iff (P := fun _ => True) h).2 fun _ _ _ => trivial
  rw [attrMap_get (l := cattrsOf (sortAttrs e.attrs.entries)) hok.distinct]
  constructor
  · rintro ⟨a, ha, rfl, hv⟩
    obtain ⟨⟨k, w⟩, hkw, rfl⟩ := List.mem_map.1 ha
    exact ⟨w, mem_sort.1 hkw, hv⟩
  · rintro ⟨w, hk, hv⟩
    exact ⟨_, List.mem_map.2 ⟨(k, w), mem_sort.2 hk, rfl⟩, rfl, hv⟩

/-- name, prefix and attributes of the element read back -/
theorem reElem_fields {e : Element} (h : ElemShape e) (parent : Option Element) :
    (reElem parent e).name = e.name ∧ (reElem parent e).pfx = e.pfx ∧
    (∀ k v, (reElem parent e).attrs.get k = some v ↔ ∃ w, e.attrs.get k = some w ∧ dec (attributeEscape w) = v) ∧
    ∃ E, (reElem parent e).children = reList E e.children := by
  obtain ⟨h1, h2, h3, h4⟩ := mkElem_fields parent (ctagOf e).name (attrMap (ctagOf e).attrs)
  rw [reElem_eq]
  have hn : (mkElem parent (ctagOf e).name (attrMap (ctagOf e).attrs)).name = e.name ∧
      (mkElem parent (ctagOf e).name (attrMap (ctagOf e).attrs)).pfx = e.pfx := by
    cases hp : e.pfx with
    | none =>
      have : (ctagOf e).name = e.name := by simp only [ctagOf, qname, hp]
      rw [← this]
      exact h3 (this ▸ h.name.1.2)
    | some q => exact h4 q e.name (by simp only [ctagOf, qname, hp]) (h.pfx q hp).2
  refine ⟨hn.1, hn.2, ?_, _, rfl⟩
  simp only [h1]
  exact reAttrs_iff h

mutual
theorem keeps_of_same (parent : Option Element) : (e : Element) → (∀ m ∈ docOrder (.element e), NodeShape m) →
    SameNode (bare (.element e)) (bare (.element (reElem parent e))) → ∀ m ∈ docOrder (.element e), Keeps m
  | ⟨n, cs, a, x, p, c⟩, h, hs => by
    have hf := reElem_fields (fits_self h) parent
    obtain ⟨h1, h2, h3, E, h4⟩ := hf
    generalize reElem parent ⟨n, cs, a, x, p, c⟩ = e' at *
    obtain ⟨n', cs', a', x', p', c'⟩ := e'
    rw [docOrder] at h ⊢
    rw [bare, bare] at hs
    simp only at h4
    subst h4
    cases hs with
    | element hs =>
      cases hs with
      | mk hp hl =>
        intro m hm
        rcases List.mem_cons.1 hm with rfl | hm
        · intro k v hk
          have hk' := (SMap.perm_iff_get.1 hp k).symm.trans hk
          obtain ⟨w, hw, hd⟩ := (h3 k v).1 hk'
          have : w = v := by
            have := hw.symm.trans hk
            simpa using this
          rw [this] at hd; exact hd
        · exact keeps_of_sameL E cs (fun m hm => h m (by simp [hm])) hl m hm
theorem keeps_of_sameL (E : Element) : (cs : List Node) → (∀ m ∈ docOrderL cs, NodeShape m) →
    SameList (bareL cs) (bareL (reList E cs)) → ∀ m ∈ docOrderL cs, Keeps m
  | [], _, _ => by intro m hm; rw [docOrderL] at hm; cases hm
  | .text t :: cs, h, hs => by
    rw [docOrderL] at h ⊢
    rw [bareL, reList, reNode, bareL] at hs
    cases hs with
    | cons h1 h2 =>
      intro m hm
      rcases List.mem_append.1 hm with hm | hm
      · rw [docOrder, List.mem_singleton] at hm
        subst hm
        rw [bare, bare] at h1
        generalize hd : dec (textEscape t) = t' at h1
        cases h1
        exact hd
      · exact keeps_of_sameL E cs (fun m hm => h m (by simp [hm])) h2 m hm
  | .comment t :: cs, h, hs => by
    rw [docOrderL] at h ⊢
    rw [bareL, reList, reNode, bareL] at hs
    cases hs with
    | cons h1 h2 =>
      intro m hm
      rcases List.mem_append.1 hm with hm | hm
      · rw [docOrder, List.mem_singleton] at hm
        subst hm; trivial
      · exact keeps_of_sameL E cs (fun m hm => h m (by simp [hm])) h2 m hm
  | .cdata t :: cs, h, hs => by
    rw [docOrderL] at h ⊢
    rw [bareL, reList, reNode, bareL] at hs
    cases hs with
    | cons h1 h2 =>
      intro m hm
      rcases List.mem_append.1 hm with hm | hm
      · rw [docOrder, List.mem_singleton] at hm
        subst hm; trivial
      · exact keeps_of_sameL E cs (fun m hm => h m (by simp [hm])) h2 m hm
  | .element e :: cs, h, hs => by
    rw [docOrderL] at h ⊢
    rw [bareL, reList, reNode, bareL] at hs
    cases hs with
    | cons h1 h2 =>
      intro m hm
      rcases List.mem_append.1 hm with hm | hm
      · exact keeps_of_same (some E) e (fun m hm => h m (by simp [hm])) h1 m hm
      · exact keeps_of_sameL E cs (fun m hm => h m (by simp [hm])) h2 m hm
end

theorem clear_of_kept {t : Str} (hg : Given (textEscape t)) (hk : dec (textEscape t) = t) : TextClear t := by
  have h1 := (unescape_given hg).1
  rw [hk] at h1
  unfold TextClear lastExtra
  rcases List.eq_nil_or_concat t with rfl | ⟨s, z, rfl⟩
  · intro a c b hab; simp at hab
  · rw [List.concat_eq_append] at *
    rw [List.getLast?_concat]
    exact (Props.C01_partial s z).1 h1

theorem value_of_kept {t : Str} (hg : Given (attributeEscape t)) (hk : dec (attributeEscape t) = t) : ValueFits t := by
  have h1 := (unescape_given hg).1
  rw [hk] at h1
  unfold ValueFits lastExtra
  rcases List.eq_nil_or_concat t with rfl | ⟨s, z, rfl⟩
  · intro a c b hab; simp at hab
  · rw [List.concat_eq_append] at *
    rw [List.getLast?_concat]
    exact (Props.C02_partial s z).2.1 h1

theorem fits_of_kept {d : Document} (h : DocShape d) (hg : DocHas Given d) (hk : ∀ m ∈ docOrder (.element d.root), Keeps m) :
    DocFits d := by
  refine ⟨h.decl, h.dtds, fun n hn => ?_, h.declared⟩
  have h1 := h.nodes n hn
  have h2 := hg n hn
  have h3 := hk n hn
  cases n with
  | text t => exact ⟨h1.1, clear_of_kept h2 h3⟩
  | comment c => exact h1
  | cdata c => exact h1
  | element e =>
    exact ⟨h1.name, h1.pfx, fun k v hv => ⟨(h1.attrs k v hv).1, (h1.attrs k v hv).2.1, value_of_kept (h2 k v hv) (h3 k v hv)⟩, h1.apart⟩

/-! ## what is read back can be written -/

theorem reList_map (E : Element) (l : List Node) : reList E l = l.map (reNode E) := by
  induction l with
  | nil => rfl
  | cons n l ih => rw [reList, ih]; rfl

theorem reList_apart {E : Element} {l : List Node} (h : ∀ a b x y, l ≠ a ++ .text x :: .text y :: b) :
    ∀ a b x y, reList E l ≠ a ++ .text x :: .text y :: b := by
  intro a b x y he
  rw [reList_map, List.map_eq_append_iff] at he
  obtain ⟨l1, l2, rfl, -, he⟩ := he
  rw [List.map_eq_cons_iff] at he
  obtain ⟨n1, l3, rfl, h1, he⟩ := he
  rw [List.map_eq_cons_iff] at he
  obtain ⟨n2, l4, rfl, h2, -⟩ := he
  cases n1 <;> rw [reNode] at h1 <;> try cases h1
  cases n2 <;> rw [reNode] at h2 <;> try cases h2
  exact h _ _ _ _ rfl

theorem reElem_shape {e : Element} (h : ElemShape e) (parent : Option Element) : ElemShape (reElem parent e) := by
  obtain ⟨h1, h2, h3, E, h4⟩ := reElem_fields h parent
  refine ⟨h1 ▸ h.name, h2 ▸ h.pfx, fun k v hk => ?_, ?_⟩
  · obtain ⟨w, hw, -⟩ := (h3 k v).1 hk
    exact h.attrs k w hw
  · rw [h4]; exact reList_apart h.apart

mutual
theorem re_shapeE (parent : Option Element) : (e : Element) → (∀ m ∈ docOrder (.element e), NodeShape m) →
    ∀ m ∈ docOrder (.element (reElem parent e)), NodeShape m
  | ⟨n, cs, a, x, p, c⟩, h => by
    have hs := reElem_shape (fits_self h) parent
    obtain ⟨E, h4⟩ := (reElem_fields (fits_self h) parent).2.2.2
    generalize reElem parent ⟨n, cs, a, x, p, c⟩ = e' at *
    obtain ⟨n', cs', a', x', p', c'⟩ := e'
    rw [docOrder] at h ⊢
    simp only at h4
    subst h4
    intro m hm
    rcases List.mem_cons.1 hm with rfl | hm
    · exact hs
    · exact re_shapeL E cs (fun m hm => h m (by simp [hm])) m hm
theorem re_shapeL (E : Element) : (cs : List Node) → (∀ m ∈ docOrderL cs, NodeShape m) →
    ∀ m ∈ docOrderL (reList E cs), NodeShape m
  | [], _ => by intro m hm; rw [reList, docOrderL] at hm; cases hm
  | .text t :: cs, h => by
    rw [docOrderL] at h
    rw [reList, reNode, docOrderL]
    intro m hm
    rcases List.mem_append.1 hm with hm | hm
    · rw [docOrder, List.mem_singleton] at hm
      subst hm
      exact ⟨dec_not_blank (T := fun _ => True) (h (.text t) (by simp [docOrder])), trivial⟩
    · exact re_shapeL E cs (fun m hm => h m (by simp [hm])) m hm
  | .comment t :: cs, h => by
    rw [docOrderL] at h
    rw [reList, reNode, docOrderL]
    intro m hm
    rcases List.mem_append.1 hm with hm | hm
    · exact h m (by simp [hm])
    · exact re_shapeL E cs (fun m hm => h m (by simp [hm])) m hm
  | .cdata t :: cs, h => by
    rw [docOrderL] at h
    rw [reList, reNode, docOrderL]
    intro m hm
    rcases List.mem_append.1 hm with hm | hm
    · exact h m (by simp [hm])
    · exact re_shapeL E cs (fun m hm => h m (by simp [hm])) m hm
  | .element e :: cs, h => by
    rw [docOrderL] at h
    rw [reList, reNode, docOrderL]
    intro m hm
    rcases List.mem_append.1 hm with hm | hm
    · exact re_shapeE (some E) e (fun m hm => h m (by simp [hm])) m hm
    · exact re_shapeL E cs (fun m hm => h m (by simp [hm])) m hm
end

/-- what is read back can be written -/
theorem reDoc_shape {d : Document} (h : DocShape d) : DocShape (reDoc d) := by
  refine ⟨h.decl, rfl, re_shapeE none d.root h.nodes, fun p hp => ?_⟩
  obtain ⟨h1, h2, h3, -⟩ := reElem_fields (fits_self h.nodes) none
  obtain ⟨v, hv⟩ := Option.isSome_iff_exists.1 (h.declared p (h2 ▸ hp))
  exact Option.isSome_iff_exists.2 ⟨_, (h3 _ _).2 ⟨v, hv, rfl⟩⟩

/-- documents that are written as they were after reading them back -/
theorem fits_of_rewrite {d d' : Document} (h : DocShape d) {i j k : Str} (hd : parseStr (d.toStringWithIndent i) = .ok d')
    (he : d'.toStringWithIndent j = d.toStringWithIndent k) : DocFits d := by
  obtain ⟨hg, rfl⟩ := (reparse_iff h i).1 hd
  obtain ⟨-, hs⟩ := write_inj h (reDoc_shape h) he.symm
  exact fits_of_kept h hg (keeps_of_same none d.root h.nodes hs)

mutual
theorem same_bare : {a b : Node} → SameNode a b → SameNode (bare a) (bare b)
  | .element ⟨n, cs, a, x, p, c⟩, .element ⟨_, cs', a', _, _, c'⟩, .element (.mk hp hl) => by
    rw [bare, bare]; exact .element (.mk hp (same_bareL hl))
  | .text _, _, .text _ => sameNode_refl _
  | .comment _, _, .comment _ => sameNode_refl _
  | .cdata _, _, .cdata _ => sameNode_refl _
theorem same_bareL : {a b : List Node} → SameList a b → SameList (bareL a) (bareL b)
  | [], _, .nil => .nil
  | _ :: _, _ :: _, .cons h1 h2 => .cons (same_bare h1) (same_bareL h2)
end

/-- exactly which documents are read back as they were -/
theorem reread_iff {d : Document} (h : DocShape d) (hd : NoDoubles d) (i : Str) :
    (∃ d', parseStr (d.toStringWithIndent i) = .ok d' ∧ d.eq d' = true) ↔ DocFits d ∧ NsFits d := by
  constructor
  · rintro ⟨d', hp, he⟩
    obtain ⟨hg, rfl⟩ := (reparse_iff h i).1 hp
    have hs : SameNode (.element d.root) (.element (reDoc d).root) := by
      have he := he
      simp only [Document.eq, Bool.and_eq_true, element_eq_iff] at he
      exact .element he.2
    have hf := fits_of_kept h hg (keeps_of_same none d.root h.nodes (same_bare hs))
    exact ⟨hf, (reparse_eq_iff hf hd).1 he⟩
  · rintro ⟨hf, hn⟩
    exact ⟨_, reparse hf i, (reparse_eq_iff hf hd).2 hn⟩

end KissXml
