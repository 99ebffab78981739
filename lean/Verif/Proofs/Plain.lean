import Verif.Spec.Edit
import Verif.Proofs.Invariant
import Verif.Proofs.Edit
import Verif.Proofs.RoundTripExact
import Verif.Proofs.Reread
/-!
# Invariants of documents without namespaces
-/
namespace KissXml
open Spec

/-- what every node of a history without namespaces satisfies -/
def Decent (loose : Prop) (n : Node) : Prop := Plain n ∧ (loose ∨ Tidy n)

variable {loose : Prop}

theorem plain_set {e : Element} (h : Plain (.element e)) (d : Option Str) (hd : d = none) (c : SMap) :
    ∃ c', e.setNamespaceContext d (some c) = { e with ctx := c' } := by
  obtain ⟨n, cs, a, x, p, c0⟩ := e
  obtain ⟨-, hp, hx, -⟩ := h
  simp only at hp hx
  subst hp hx hd
  exact ⟨_, rfl⟩

theorem plain_default {e : Element} (h : Plain (.element e)) : e.defaultNamespace = none := by
  unfold ElementF.defaultNamespace
  rw [h.2.1]; exact h.2.2.1

theorem decent_apply {n : Node} {d : Option Str} (hd : d = none) (c : SMap) (h : Deep (Decent loose) n) :
    Deep (Decent loose) (applyXmlnsContext d c n) := by
  cases n with
  | element e =>
    obtain ⟨h1, h2⟩ := deep_element.1 h
    obtain ⟨c', hc⟩ := plain_set h1.1 d hd c
    unfold applyXmlnsContext
    simp only [hc]
    exact deep_element.2 ⟨h1, h2⟩
  | _ => exact h

/-- new children that are put into normal form -/
theorem decent_normal {e : Element} {l : List Node} (h : Deep (Decent loose) (.element e))
    (hl : ∀ n ∈ l, Deep (Decent loose) n) : Deep (Decent loose) (.element { e with children := normalText l }) := by
  refine deep_element.2 ⟨⟨(deep_element.1 h).1.1, ?_⟩, ?_⟩
  · by_cases hs : loose
    · exact .inl hs
    · exact .inr (textNormal_normalText fun t ht => ((deep_text.1 (hl _ ht)).2.resolve_left hs))
  · refine deep_normalText (fun a b ha => ⟨trivial, ha.2.imp id fun (h' : a ≠ []) => ?_⟩) hl
    show a ++ b ≠ []
    simp [h']

theorem decent_append {e e' : Element} {n : Node} (h : Deep (Decent loose) (.element e)) (hn : Deep (Decent loose) n)
    (ha : e.append n = .ok e') : Deep (Decent loose) (.element e') := by
  rw [append_eq] at ha
  cases ha
  refine decent_normal h fun m hm => ?_
  rcases List.mem_append.1 hm with hm | hm
  · exact (deep_element.1 h).2 m hm
  · simp at hm; subst hm; exact decent_apply (plain_default (deep_element.1 h).1.1) _ hn

theorem decent_appendAll {e e' : Element} {l : List Node} (h : Deep (Decent loose) (.element e))
    (hl : ∀ n ∈ l, Deep (Decent loose) n) (ha : e.appendAll l = .ok e') : Deep (Decent loose) (.element e') := by
  rw [appendAll_eq] at ha
  cases ha
  refine decent_normal h fun m hm => ?_
  rcases List.mem_append.1 hm with hm | hm
  · exact (deep_element.1 h).2 m hm
  · obtain ⟨n, hn, rfl⟩ := List.mem_map.1 hm
    exact decent_apply (plain_default (deep_element.1 h).1.1) _ (hl n hn)

theorem decent_text {t : Str} (h : loose ∨ t ≠ []) : Deep (Decent loose) (.text t) := deep_text.2 ⟨trivial, h⟩

theorem tidy_nil {e : Element} (h : e.children = []) : Tidy (.element e) := by
  show TextNormal e.children
  rw [h]; exact ⟨by simp, by simp⟩

theorem decent_new {name : Str} {text : Option Str} {attrs : Option SMap} {cs : Option (List Node)} {e : Element}
    (hn : NcName name) (ht : loose ∨ text ≠ some [])
    (hA : ∀ m, attrs = some m → ∀ k v, m.get k = some v → XmlName k ∧ ¬ c%"xmlns" <+: k)
    (hcs : ∀ l, cs = some l → ∀ n ∈ l, Deep (Decent loose) n)
    (h : ElementF.new name text attrs none none cs = .ok e) : Deep (Decent loose) (.element e) := by
  have key : ∀ A : SMap, (∀ k v, A.get k = some v → XmlName k ∧ ¬ c%"xmlns" <+: k) →
      ElementF.new name text (some A) none none cs = .ok e → Deep (Decent loose) (.element e) := by
    intro A hA h
    unfold ElementF.new checkElemName at h
    obtain ⟨⟨⟩, hv, h'⟩ := bind_eq_ok.1 h
    clear h
    have hv : ApiName name := by
      split at hv
      · rename_i hn; exact validName_iff.1 hn
      · cases hv
    simp only at h'
    split at h'
    · cases h'
    · rename_i hf
      have hattr := find_invalid.1 hf
      have hx : A.get c%"xmlns" = none := by
        cases hg : A.get c%"xmlns" with
        | none => rfl
        | some v => exact absurd List.prefix_rfl (hA _ _ hg).2
      have h0 : ∀ c, Deep (Decent loose) (.element ⟨name, [], A, A.get c%"xmlns", none, c⟩) := by
        intro c
        refine deep_element.2 ⟨⟨⟨⟨hn, hv⟩, rfl, hx, fun k v hk => ?_⟩, .inr (tidy_nil rfl)⟩, by simp⟩
        exact ⟨(hA k v hk).1, validName_iff.1 (hattr k (by rw [show A.get k = some v from hk]; rfl)), (hA k v hk).2⟩
      cases text with
      | none =>
        cases cs with
        | none => cases h'; exact h0 _
        | some l => exact decent_appendAll (h0 _) (hcs l rfl) h'
      | some t =>
        obtain ⟨e1, h1, h2⟩ := bind_eq_ok.1 h'
        have he1 := decent_append (h0 _) (decent_text (ht.imp id fun h h' => h (by rw [h']))) h1
        cases cs with
        | none => cases h2; exact he1
        | some l => exact decent_appendAll he1 (hcs l rfl) h2
  cases attrs with
  | none => exact key _ (fun k v hk => by cases hk) (new_none .. ▸ h)
  | some A => exact key A (hA A rfl) h

/-- any new children, for histories that are not tidy -/
theorem decent_loose {e : Element} {l : List Node} (hs : loose) (h : Deep (Decent loose) (.element e))
    (hl : ∀ n ∈ l, Deep (Decent loose) n) : Deep (Decent loose) (.element { e with children := l }) :=
  deep_element.2 ⟨⟨(deep_element.1 h).1.1, .inl hs⟩, hl⟩

theorem decent_prune {p : Node → Bool} {e : Element} (hs : loose) (h : Deep (Decent loose) (.element e)) :
    Deep (Decent loose) (.element { e with children := pruneL p e.children }) := by
  rw [← prune_element]
  intro m hm
  have hv : ∀ n, Decent loose n → Decent loose (prune p n) := by
    intro n hn
    cases n with
    | element e => rw [prune_element]; exact ⟨hn.1, .inl hs⟩
    | text _ => rw [prune]; exact hn
    | comment _ => rw [prune]; exact hn
    | cdata _ => rw [prune]; exact hn
  rcases docOrder_prune p _ m hm with rfl | ⟨m', h1, -, rfl⟩
  · exact hv _ (deep_element.1 h).1
  · exact hv _ (h m' h1)

theorem onlyElements_text {l m : List Node} (h : OnlyElements l m) {a b : List Node} {t : Str}
    (he : m = a ++ .text t :: b) : ∃ a' b', l = a' ++ .text t :: b' ∧ OnlyElements a' a ∧ OnlyElements b' b := by
  subst he
  induction a generalizing l with
  | nil =>
    cases h with
    | cons h1 h2 =>
      rcases h1 with rfl | ⟨x, y, -, h1⟩
      · exact ⟨[], _, rfl, .nil, h2⟩
      · cases h1
  | cons c a ih =>
    cases h with
    | cons h1 h2 =>
      obtain ⟨a', b', rfl, h3, h4⟩ := ih h2
      exact ⟨_ :: a', b', rfl, .cons h1 h3, h4⟩

theorem onlyElements_normal {l m : List Node} (h : OnlyElements l m) (hl : TextNormal l) : TextNormal m := by
  constructor
  · intro a b x y he
    obtain ⟨a', b', rfl, -, h2⟩ := onlyElements_text h he
    cases h2 with
    | cons h1 h2 =>
      rcases h1 with rfl | ⟨x, y, -, h1⟩
      · exact hl.apart _ _ _ _ rfl
      · cases h1
  · intro t ht
    obtain ⟨a, b, rfl⟩ := List.append_of_mem ht
    obtain ⟨a', b', rfl, -, -⟩ := onlyElements_text h rfl
    exact hl.solid t (by simp)

theorem edits_decent {n : Node} (h : Edits loose n) : Deep (Decent loose) n := by
  induction h with
  | given h => exact h
  | text h => exact decent_text h
  | comment ha h =>
    unfold commentNew at h
    split at h
    · cases h
    · cases h; exact deep_comment.2 ⟨ha, .inr trivial⟩
  | commentSet ha _ ih =>
    unfold commentSetContent
    split
    · exact ih
    · exact deep_comment.2 ⟨ha, .inr trivial⟩
  | cdata h => exact deep_cdata.2 ⟨(deep_cdata (P := Valid)).1 (cdata_ok h), .inr trivial⟩
  | @cdataSet old a _ ih =>
    unfold cdataSetText
    split
    · exact ih
    · rename_i h
      exact deep_cdata.2 ⟨(deep_cdata (P := Valid)).1 (cdata_ok (a := a) (m := []) (if_neg h)), .inr trivial⟩
  | dflt =>
    refine deep_element.2 ⟨⟨⟨⟨⟨⟨'x', [], rfl, by decide, by simp, by decide⟩, by decide⟩, validName_iff.1 (by decide)⟩, rfl, rfl, ?_⟩,
      .inr (tidy_nil rfl)⟩, by simp [ElementF.dflt]⟩
    intro k v hk
    cases hk
  | new hn ht hA _ h ih => exact decent_new hn ht hA ih h
  | @newFromName name e hn h =>
    unfold ElementF.newFromName checkElemName at h
    obtain ⟨⟨⟩, hv, h⟩ := bind_eq_ok.1 h
    cases h
    split at hv
    · rename_i hv'
      refine deep_element.2 ⟨⟨⟨⟨hn, validName_iff.1 hv'⟩, rfl, rfl, ?_⟩, .inr (tidy_nil rfl)⟩, by simp [ElementF.dflt]⟩
      intro k v hk
      cases hk
    · cases hv
  | @setAttr e e' k v hk hk' _ h ih =>
    unfold ElementF.setAttr checkAttrName at h
    obtain ⟨⟨⟩, hv, h⟩ := bind_eq_ok.1 h
    cases h
    split at hv
    · rename_i hn
      obtain ⟨⟨⟨h1, hp, hx, h2⟩, ht⟩, h3⟩ := deep_element.1 ih
      refine deep_element.2 ⟨⟨⟨h1, hp, hx, ?_⟩, ht⟩, h3⟩
      intro k' v' hk''
      simp only at hk''
      by_cases hkk : k' = k
      · subst hkk; exact ⟨hk, validName_iff.1 hn, hk'⟩
      · rw [SMap.get_insert, if_neg (Ne.symm hkk)] at hk''
        exact h2 k' v' hk''
    · cases hv
  | @removeAttr e k _ ih =>
    obtain ⟨⟨⟨h1, hp, hx, h2⟩, ht⟩, h3⟩ := deep_element.1 ih
    refine deep_element.2 ⟨⟨⟨h1, hp, hx, ?_⟩, ht⟩, h3⟩
    intro k' v' hk
    simp only [ElementF.removeAttr] at hk
    rw [SMap.get_remove] at hk
    split at hk
    · cases hk
    · exact h2 k' v' hk
  | @clearAttributes e _ ih =>
    obtain ⟨⟨⟨h1, hp, hx, h2⟩, ht⟩, h3⟩ := deep_element.1 ih
    refine deep_element.2 ⟨⟨⟨h1, hp, hx, ?_⟩, ht⟩, h3⟩
    intro k' v' hk
    cases hk
  | @clearChildren e _ ih => exact deep_element.2 ⟨⟨(deep_element.1 ih).1.1, .inr (tidy_nil rfl)⟩, by simp [ElementF.clearChildren]⟩
  | @setText e e' t ht _ h ih =>
    refine decent_append (e := e.clearChildren) ?_ (decent_text ht) h
    exact deep_element.2 ⟨⟨(deep_element.1 ih).1.1, .inr (tidy_nil rfl)⟩, by simp [ElementF.clearChildren]⟩
  | append _ _ h ih1 ih2 => exact decent_append ih1 ih2 h
  | appendAll _ _ h ih1 ih2 => exact decent_appendAll ih1 ih2 h
  | @insert e e' i n _ _ h ih1 ih2 =>
    rw [insert_eq] at h
    split at h
    · cases h
    · cases h
      refine decent_normal ih1 ?_
      have hall : ∀ m ∈ e.children.take i ++ n :: e.children.drop i, Deep (Decent loose) m := by
        intro m hm
        rcases List.mem_append.1 hm with hm | hm
        · exact (deep_element.1 ih1).2 m (List.mem_of_mem_take hm)
        · rcases List.mem_cons.1 hm with rfl | hm
          · exact ih2
          · exact (deep_element.1 ih1).2 m (List.mem_of_mem_drop hm)
      generalize e.children.take i ++ n :: e.children.drop i = l at hall
      rcases List.eq_nil_or_concat l with rfl | ⟨A, x, rfl⟩
      · intro m hm; cases hm
      · rw [List.concat_eq_append, mapLast_append]
        intro m hm
        rcases List.mem_append.1 hm with hm | hm
        · exact hall m (by simp [hm])
        · simp at hm; subst hm
          exact decent_apply (plain_default (deep_element.1 ih1).1.1) _ (hall x (by simp))
  | elementsMut _ _ hl ih1 ih2 =>
    obtain ⟨⟨h1, h2⟩, h3⟩ := deep_element.1 ih1
    exact deep_element.2 ⟨⟨h1, h2.imp id fun h => onlyElements_normal hl h⟩, ih2⟩
  | child _ hn ih => exact (deep_element.1 ih).2 _ hn
  | clone _ ih => rw [clone_node]; exact ih
  | @remove e e' i n hs _ h ih =>
    rw [remove_eq] at h
    split at h
    · cases h
      exact decent_loose hs ih (fun m hm => (deep_element.1 ih).2 m (List.mem_of_mem_eraseIdx hm))
    · cases h
  | @removeElement e e' c i hs _ h ih =>
    by_cases hi : i < (e.children.filterMap element?).length
    · obtain ⟨A, c', B, h1, h2, h3⟩ := removeElement_ok e i hi
      rw [h3] at h
      cases h
      refine decent_loose hs ih (fun m hm => (deep_element.1 ih).2 m ?_)
      rw [h1]
      rcases List.mem_append.1 hm with hm | hm <;> simp [hm]
    · rw [removeElement_err e i (by omega)] at h
      cases h
  | removeBy hs _ h ih =>
    rw [removeBy_eq] at h
    cases h
    exact decent_loose hs ih (fun m hm => (deep_element.1 ih).2 m (List.mem_filter.1 hm).1)
  | removeAll hs _ h ih =>
    rw [removeAll_eq] at h
    cases h
    exact decent_prune hs ih
  | removeElements hs _ h ih =>
    rw [removeElements_eq] at h
    cases h
    exact decent_loose hs ih (fun m hm => (deep_element.1 ih).2 m (List.mem_filter.1 hm).1)
  | removeAllElements hs _ h ih =>
    rw [removeAllElements_eq] at h
    cases h
    exact decent_prune hs ih
  | childrenMut hs _ _ _ ih1 ih2 => exact decent_loose hs ih1 ih2

/-! ## reading back -/

theorem sameList_mem {l l' : List Node} (h : SameList l l') : ∀ {n : Node}, n ∈ l' → ∃ m ∈ l, SameNode m n := by
  induction l generalizing l' with
  | nil => cases h; intro n hn; cases hn
  | cons c l ih =>
    cases h with
    | cons h1 h2 =>
      intro n hn
      rcases List.mem_cons.1 hn with rfl | hn
      · exact ⟨c, by simp, h1⟩
      · obtain ⟨m, hm, h⟩ := ih h2 hn
        exact ⟨m, by simp [hm], h⟩

theorem sameList_text {l m : List Node} (h : SameList l m) {a b : List Node} {t : Str}
    (he : m = a ++ .text t :: b) : ∃ a' b', l = a' ++ .text t :: b' ∧ SameList a' a ∧ SameList b' b := by
  subst he
  induction a generalizing l with
  | nil =>
    cases h with
    | cons h1 h2 => cases h1; exact ⟨[], _, rfl, .nil, h2⟩
  | cons c a ih =>
    cases h with
    | cons h1 h2 =>
      obtain ⟨a', b', rfl, h3, h4⟩ := ih h2
      exact ⟨_ :: a', b', rfl, .cons h1 h3, h4⟩

theorem sameList_normal {l m : List Node} (h : SameList l m) (hl : TextNormal l) : TextNormal m := by
  constructor
  · intro a b x y he
    obtain ⟨a', b', rfl, -, h2⟩ := sameList_text h he
    cases h2 with
    | cons h1 h2 => cases h1; exact hl.apart _ _ _ _ rfl
  · intro t ht
    obtain ⟨a, b, rfl⟩ := List.append_of_mem ht
    obtain ⟨a', b', rfl, -, -⟩ := sameList_text h rfl
    exact hl.solid t (by simp)

theorem same_tidy {n m : Node} (h : SameNode n m) (hn : Tidy n) : Tidy m := by
  cases h with
  | element h => cases h with | mk h1 h2 => exact sameList_normal h2 hn
  | _ => exact hn

mutual
theorem same_deep_tidy : ∀ {n m : Node}, SameNode n m → Deep Tidy n → Deep Tidy m
  | .text _, _, .text _, h => h
  | .comment _, _, .comment _, h => h
  | .cdata _, _, .cdata _, h => h
  | .element ⟨_, _, _, _, _, _⟩, _, .element (.mk h1 h2), h =>
    deep_element.2 ⟨same_tidy (.element (.mk h1 h2)) (deep_element.1 h).1, same_deep_tidyL h2 (deep_element.1 h).2⟩
theorem same_deep_tidyL : ∀ {l m : List Node}, SameList l m → (∀ n ∈ l, Deep Tidy n) → ∀ n ∈ m, Deep Tidy n
  | [], _, .nil, _ => by simp
  | c :: cs, _, .cons h1 h2, h => by
    have e1 := same_deep_tidy h1 (h c (by simp))
    have e2 := same_deep_tidyL h2 (fun n hn => h n (by simp [hn]))
    intro n hn
    rcases List.mem_cons.1 hn with rfl | hn
    · exact e1
    · exact e2 n hn
end

theorem parse_tidy {x : Str} {d : Document} (h : parseStr x = .ok d) : Deep Tidy (.element d.root) := by
  intro m hm
  have := parse_normal h m hm
  cases m <;> exact this

/-- a document equal to a parsed one is tidy -/
theorem tidy_of_eq {x : Str} {d d' : Document} (h : parseStr x = .ok d') (he : d.eq d' = true) : Deep Tidy (.element d.root) := by
  unfold Document.eq at he
  simp only [Bool.and_eq_true] at he
  exact same_deep_tidy (sameNode_symm (.element (element_eq_iff.1 he.2))) (parse_tidy h)

theorem plain_fits {T V : Str → Prop} {n : Node} (h : Plain n) (ht : ∀ t, n = .text t → TextFitsFor T t)
    (ha : ∀ e, n = .element e → (∀ a b x y, e.children ≠ a ++ .text x :: .text y :: b) ∧ ∀ k v, e.attrs.get k = some v → V v) :
    NodeFitsFor T V n := by
  cases n with
  | text t => exact ht t rfl
  | comment c => exact h
  | cdata c => exact h
  | element e =>
    refine ⟨h.1, ?_, fun k v hk => ⟨(h.2.2.2 k v hk).1, (h.2.2.2 k v hk).2.1, (ha e rfl).2 k v hk⟩, (ha e rfl).1⟩
    intro p hp
    rw [h.2.1] at hp; cases hp

mutual
/-- texts below an element are texts among the children of some element -/
theorem text_parent {t : Str} : (n : Node) → Node.text t ∈ docOrder n → n = .text t ∨
    ∃ e, Node.element e ∈ docOrder n ∧ Node.text t ∈ e.children
  | .text t', h => by simp [docOrder] at h; exact .inl (by rw [h])
  | .comment _, h => by simp [docOrder] at h
  | .cdata _, h => by simp [docOrder] at h
  | .element ⟨n, cs, a, x, p, c⟩, h => by
    rw [docOrder] at h ⊢
    rcases List.mem_cons.1 h with h | h
    · cases h
    · rcases text_parentL cs h with h | ⟨e, he, ht⟩
      · exact .inr ⟨_, List.mem_cons_self, h⟩
      · exact .inr ⟨e, by simp [he], ht⟩
theorem text_parentL {t : Str} : (l : List Node) → Node.text t ∈ docOrderL l → Node.text t ∈ l ∨
    ∃ e, Node.element e ∈ docOrderL l ∧ Node.text t ∈ e.children
  | [], h => by simp [docOrderL] at h
  | c :: cs, h => by
    rw [docOrderL] at h ⊢
    rcases List.mem_append.1 h with h | h
    · rcases text_parent c h with rfl | ⟨e, he, ht⟩
      · exact .inl (by simp)
      · exact .inr ⟨e, by simp [he], ht⟩
    · rcases text_parentL cs h with h | ⟨e, he, ht⟩
      · exact .inl (by simp [h])
      · exact .inr ⟨e, by simp [he], ht⟩
end

/-- every text of a tidy element has a character that is not white space -/
theorem tidy_solid {e : Element} (h : Deep Tidy (.element e)) {t : Str} (ht : Node.text t ∈ docOrder (.element e)) :
    ∃ c ∈ t, isWs c = false := by
  rcases text_parent _ ht with h' | ⟨e', he, ht'⟩
  · cases h'
  · exact (h _ he : TextNormal _).solid t ht'

theorem plain_docFits {T V : Str → Prop} {d : Document}
    (hd : ∀ x, d.declaration = some x → ∃ m, x.declStr = c%"xml" ++ m ∧
      FirstUnquoted none c%"?>" (c%"xml" ++ m) (c%"xml" ++ m ++ c%"?>"))
    (hdt : d.dtds = []) (hp : Deep Plain (.element d.root)) (ht : Deep Tidy (.element d.root))
    (hT : ∀ t, Node.text t ∈ docOrder (.element d.root) → T t)
    (hV : ∀ e, Node.element e ∈ docOrder (.element d.root) → ∀ k v, e.attrs.get k = some v → V v) : DocFitsFor T V d := by
  refine ⟨hd, hdt, fun n hn => plain_fits (hp n hn) ?_ ?_, ?_⟩
  · rintro t rfl
    exact ⟨tidy_solid ht hn, hT t hn⟩
  · rintro e rfl
    exact ⟨(ht _ hn : TextNormal _).apart, hV e hn⟩
  · intro p hp'
    rw [(deep_element.1 hp).1.2.1] at hp'
    cases hp'

theorem plain_nsFits {d : Document} (hp : Deep Plain (.element d.root)) : NsFits d ∧ NoDoubles d := by
  have hx : ∀ e, Node.element e ∈ docOrder (.element d.root) → e.attrs.get c%"xmlns" = none := by
    intro e he
    cases hg : e.attrs.get c%"xmlns" with
    | none => rfl
    | some v => exact absurd List.prefix_rfl ((hp _ he).2.2.2 _ _ hg).2.2
  refine ⟨⟨prefixScope_plain _ _ fun e he => (hp _ he).2.1, fun _ => ?_, ?_⟩, ?_⟩
  · have he := mem_docOrder_self (.element d.root)
    rw [(hp _ he).2.2.1, hx _ he]
  · intro e he c hc _
    have hc' := mem_docOrder_children _ he hc
    rw [(hp _ hc').2.2.1, hx _ hc', (hp _ he).2.2.1]
    split <;> rfl
  · intro e he k hk hk'
    obtain ⟨v, hv⟩ := Option.isSome_iff_exists.1 hk
    exact ((hp _ he).2.2.2 k v hv).2.2 (List.IsPrefix.trans (by decide) hk')

/-- documents without namespaces: which are read back -/
theorem plain_reread {d : Document}
    (hd : ∀ x, d.declaration = some x → ∃ m, x.declStr = c%"xml" ++ m ∧
      FirstUnquoted none c%"?>" (c%"xml" ++ m) (c%"xml" ++ m ++ c%"?>"))
    (hdt : d.dtds = []) (hp : Deep Plain (.element d.root)) (i : Str) :
    (∃ d', parseStr (d.toStringWithIndent i) = .ok d' ∧ d.eq d' = true) ↔
      ∀ n ∈ docOrder (.element d.root), Tidy n ∧ Clear n := by
  constructor
  · rintro ⟨d', h1, h2⟩
    have ht := tidy_of_eq h1 h2
    have hs : DocShape d := plain_docFits hd hdt hp ht (fun _ _ => trivial) fun _ _ _ _ _ => trivial
    have hf := ((reread_iff hs (plain_nsFits hp).2 i).1 ⟨d', h1, h2⟩).1.nodes
    intro n hn
    refine ⟨ht n hn, ?_⟩
    have := hf n hn
    cases n with
    | text t => exact this.2
    | element e => exact fun k v hk => (this.attrs k v hk).2.2
    | _ => trivial
  · intro h
    have ht : Deep Tidy (.element d.root) := fun n hn => (h n hn).1
    have hf : DocFits d := plain_docFits hd hdt hp ht (fun t ht => (h _ ht).2) fun e he => (h _ he).2
    exact (reread_iff (fits_shape hf) (plain_nsFits hp).2 i).2 ⟨hf, (plain_nsFits hp).1⟩

end KissXml
