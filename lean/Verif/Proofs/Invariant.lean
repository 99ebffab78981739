import Verif.Spec.Reach
import Verif.Proofs.Equal
import Verif.Proofs.Safe
/-!
# Invariants of trees
-/
namespace KissXml
open Spec

/-- `P` for a node and everything below it -/
def Deep (P : Node → Prop) (n : Node) : Prop := ∀ m ∈ docOrder n, P m

theorem mem_docOrderL {l : List Node} {m : Node} : m ∈ docOrderL l ↔ ∃ c ∈ l, m ∈ docOrder c := by
  induction l with
  | nil => simp [docOrderL]
  | cons c l ih => rw [docOrderL, List.mem_append, ih]; simp

theorem docOrder_element (e : Element) : docOrder (.element e) = .element e :: docOrderL e.children := by
  obtain ⟨n, cs, a, x, q, c⟩ := e; rw [docOrder]

theorem deep_element {P : Node → Prop} {e : Element} :
    Deep P (.element e) ↔ P (.element e) ∧ ∀ c ∈ e.children, Deep P c := by
  unfold Deep
  rw [docOrder_element]
  simp only [List.mem_cons, forall_eq_or_imp, mem_docOrderL]
  constructor
  · rintro ⟨h1, h2⟩; exact ⟨h1, fun c hc m hm => h2 m ⟨c, hc, hm⟩⟩
  · rintro ⟨h1, h2⟩; exact ⟨h1, fun m ⟨c, hc, hm⟩ => h2 c hc m hm⟩

theorem deep_text {P : Node → Prop} {t : Str} : Deep P (.text t) ↔ P (.text t) := by simp [Deep, docOrder]
theorem deep_comment {P : Node → Prop} {t : Str} : Deep P (.comment t) ↔ P (.comment t) := by simp [Deep, docOrder]
theorem deep_cdata {P : Node → Prop} {t : Str} : Deep P (.cdata t) ↔ P (.cdata t) := by simp [Deep, docOrder]

theorem mem_consJoin {n m : Node} {l : List Node} (h : m ∈ consJoin n l) :
    m = n ∨ m ∈ l ∨ ∃ a b, n = .text a ∧ .text b ∈ l ∧ m = .text (a ++ b) := by
  unfold consJoin at h
  split at h
  · rcases List.mem_cons.1 h with h | h
    · exact .inr (.inr ⟨_, _, rfl, by simp, h⟩)
    · exact .inr (.inl (by simp [h]))
  · rcases List.mem_cons.1 h with h | h
    · exact .inl h
    · exact .inr (.inl h)

theorem mem_joinRuns {m : Node} {l : List Node} (h : m ∈ joinRuns l) :
    m ∈ l ∨ ∃ a b, m = .text (a ++ b) ∧ .text a ∈ l := by
  induction l generalizing m with
  | nil => simp [joinRuns] at h
  | cons n l ih =>
    rw [joinRuns] at h
    rcases mem_consJoin h with rfl | h | ⟨a, b, rfl, h1, rfl⟩
    · simp
    · rcases ih h with h | ⟨a, b, h1, h2⟩
      · simp [h]
      · exact .inr ⟨a, b, h1, by simp [h2]⟩
    · exact .inr ⟨a, b, rfl, by simp⟩

theorem mem_normalText {m : Node} {l : List Node} (h : m ∈ normalText l) :
    m ∈ l ∨ ∃ a b, m = .text (a ++ b) ∧ .text a ∈ l := mem_joinRuns (List.mem_filter.1 h).1

/-- a predicate that does not look at the namespace data of an element -/
def NsFree (P : Node → Prop) : Prop := ∀ n m, NsOnly n m → P n → P m

theorem deep_nsOnly {P : Node → Prop} (hP : NsFree P) {n m : Node} (h : NsOnly n m) (hn : Deep P n) : Deep P m := by
  cases h with
  | refl => exact hn
  | element n cs a x x' p c c' =>
    rw [deep_element] at hn ⊢
    exact ⟨hP _ _ (.element n cs a x x' p c c') hn.1, hn.2⟩

theorem deep_apply {P : Node → Prop} (hP : NsFree P) {n : Node} (d : Option Str) (c : SMap) (hn : Deep P n) :
    Deep P (applyXmlnsContext d c n) := deep_nsOnly hP (nsOnly_apply d c n) hn

theorem deep_normalText {P : Node → Prop} (hcat : ∀ a b, P (.text a) → P (.text (a ++ b))) {l : List Node}
    (h : ∀ n ∈ l, Deep P n) : ∀ n ∈ normalText l, Deep P n := by
  intro n hn
  rcases mem_normalText hn with h1 | ⟨a, b, rfl, h1⟩
  · exact h n h1
  · exact deep_text.2 (hcat a b (deep_text.1 (h _ h1)))

/-! ## validity -/

theorem valid_nsFree : NsFree Valid := by
  intro n m h hn
  cases h <;> exact hn

/-- changing the children of a valid element to valid nodes -/
theorem deep_children {e : Element} {l : List Node} (h : Deep Valid (.element e)) (hl : ∀ n ∈ l, Deep Valid n) :
    Deep Valid (.element { e with children := l }) := deep_element.2 ⟨(deep_element.1 h).1, hl⟩

theorem deep_append {e e' : Element} {n : Node} (h : Deep Valid (.element e)) (hn : Deep Valid n)
    (ha : e.append n = .ok e') : Deep Valid (.element e') := by
  rw [append_eq] at ha
  cases ha
  refine deep_children h (deep_normalText (fun _ _ h => h) ?_)
  intro m hm
  rcases List.mem_append.1 hm with hm | hm
  · exact (deep_element.1 h).2 m hm
  · simp at hm; subst hm; exact deep_apply valid_nsFree _ _ hn

theorem deep_appendAll {e e' : Element} {l : List Node} (h : Deep Valid (.element e)) (hl : ∀ n ∈ l, Deep Valid n)
    (ha : e.appendAll l = .ok e') : Deep Valid (.element e') := by
  rw [appendAll_eq] at ha
  cases ha
  refine deep_children h (deep_normalText (fun _ _ h => h) ?_)
  intro m hm
  rcases List.mem_append.1 hm with hm | hm
  · exact (deep_element.1 h).2 m hm
  · obtain ⟨n, hn, rfl⟩ := List.mem_map.1 hm
    exact deep_apply valid_nsFree _ _ (hl n hn)

theorem deep_prune {p : Node → Bool} {e : Element} (h : Deep Valid (.element e)) :
    Deep Valid (.element { e with children := pruneL p e.children }) := by
  rw [← prune_element]
  intro m hm
  have hv : ∀ n, Valid n → Valid (prune p n) := by
    intro n hn
    cases n with
    | element e => rw [prune_element]; exact hn
    | text _ => rw [prune]; exact hn
    | comment _ => rw [prune]; exact hn
    | cdata _ => rw [prune]; exact hn
  rcases docOrder_prune p _ m hm with rfl | ⟨m', h1, -, rfl⟩
  · exact hv _ (deep_element.1 h).1
  · exact hv _ (h m' h1)

theorem comment_ok {a c m : Str} (h : (if contains a c%"-->" then Res.err (Err.invalidContent m) else Res.ok a : R Str) = .ok c) :
    Deep Valid (.comment c) := by
  split at h
  · cases h
  · rename_i hn
    cases h
    exact deep_comment.2 (fun hi => hn (contains_iff.2 hi))

theorem cdata_ok {a c m : Str} (h : (if contains a c%"]]>" then Res.err (Err.invalidContent m) else Res.ok a : R Str) = .ok c) :
    Deep Valid (.cdata c) := by
  split at h
  · cases h
  · rename_i hn
    cases h
    exact deep_cdata.2 (fun hi => hn (contains_iff.2 hi))

theorem expect_eq_ok {α : Type} {r : R α} {a : α} : expect r = .ok a ↔ r = .ok a := by
  cases r <;> simp [expect]

theorem new_none (name : Str) (text : Option Str) (xmlns pfx : Option Str) (cs : Option (List Node)) :
    ElementF.new name text none xmlns pfx cs = ElementF.new name text (some SMap.empty) xmlns pfx cs := rfl

theorem deep_new_some {name : Str} {text : Option Str} {attrs : SMap} {xmlns pfx : Option Str} {cs : Option (List Node)}
    {e : Element} (hcs : ∀ l, cs = some l → ∀ n ∈ l, Deep Valid n)
    (h : ElementF.new name text (some attrs) xmlns pfx cs = .ok e) : Deep Valid (.element e) := by
  unfold ElementF.new checkElemName at h
  obtain ⟨⟨⟩, hv, h'⟩ := bind_eq_ok.1 h
  clear h
  have hv : ApiName name := by
    split at hv
    · rename_i hn; exact validName_iff.1 hn
    · cases hv
  simp only at h'
  split at h'
  · cases h'
  · rename_i hf
    have hattr := find_invalid.1 hf
    have h0 : ∀ x c, Deep Valid (.element ⟨name, [], attrs, x, pfx, c⟩) := by
      intro x c
      refine deep_element.2 ⟨⟨hv, fun k v hk => validName_iff.1 (hattr k ?_)⟩, by simp⟩
      simp only at hk
      rw [hk]; rfl
    cases text with
    | none =>
      cases cs with
      | none => cases h'; exact h0 _ _
      | some l => exact deep_appendAll (h0 _ _) (hcs l rfl) h'
    | some t =>
      obtain ⟨e1, h1, h2⟩ := bind_eq_ok.1 h'
      have he1 := deep_append (h0 _ _) (deep_text.2 trivial) h1
      cases cs with
      | none => cases h2; exact he1
      | some l => exact deep_appendAll he1 (hcs l rfl) h2

theorem deep_new {name : Str} {text : Option Str} {attrs : Option SMap} {xmlns pfx : Option Str} {cs : Option (List Node)}
    {e : Element} (hcs : ∀ l, cs = some l → ∀ n ∈ l, Deep Valid n) (h : ElementF.new name text attrs xmlns pfx cs = .ok e) :
    Deep Valid (.element e) := by
  cases attrs with
  | none => exact deep_new_some hcs (new_none .. ▸ h)
  | some A => exact deep_new_some hcs h

theorem freshOk_valid : FreshOk (Deep Valid) where
  text := fun _ _ _ _ => deep_text.2 trivial
  comment := fun _ h => deep_comment.2 h
  cdata := fun _ h => deep_cdata.2 h
  element := by
    intro t parent attrs n0 n x q e h
    rw [h.eq]
    have hf := setNamespaceContext_fields (e := ⟨n, [], attrs, x.or (ownNs attrs q), q,
        ElementF.xmlnsContextFromAttributes attrs⟩) (d := parent.bind ElementF.defaultNamespace) (p := parent.map ElementF.ctx)
    refine deep_element.2 ⟨⟨?_, ?_⟩, ?_⟩
    · rw [hf.1]; exact validName_iff.1 h.valid
    · rw [hf.2.2.1]
      intro k v hk
      simp only at hk
      exact validName_iff.1 (h.attrs_valid k (by rw [hk]; rfl))
    · rw [hf.2.1]; simp

theorem deep_flip {n : Node} (h : Deep Valid n) : Deep Valid (ParseTree.flipElement n) := by
  cases n with
  | element e =>
    exact deep_children h (fun m hm => (deep_element.1 h).2 m (List.mem_reverse.1 hm))
  | _ => exact h

theorem deep_addOne {e : Element} {n : Node} (h : Deep Valid (.element e)) (hn : Deep Valid n) :
    Deep Valid (.element (addOne e n)) := deep_append h hn (append_addOne e n)

theorem api_valid {n : Node} (h : Api n) : Deep Valid n := by
  induction h with
  | parsed h => exact parseStr_invariant freshOk_valid (fun n => deep_flip) (fun e n => deep_addOne) h
  | text t => exact deep_text.2 trivial
  | comment h => exact comment_ok h
  | commentFrom h => exact comment_ok (expect_eq_ok.1 h)
  | @commentSet old a _ ih =>
    unfold commentSetContent
    split
    · exact ih
    · rename_i h
      exact comment_ok (a := a) (m := []) (if_neg h)
  | cdata h => exact cdata_ok h
  | cdataFrom h => exact cdata_ok (expect_eq_ok.1 h)
  | @cdataSet old a _ ih =>
    unfold cdataSetText
    split
    · exact ih
    · rename_i h
      exact cdata_ok (a := a) (m := []) (if_neg h)
  | dflt =>
    refine deep_element.2 ⟨⟨validName_iff.1 (by decide), ?_⟩, by simp [ElementF.dflt]⟩
    intro k v hk
    cases hk
  | new _ h ih => exact deep_new ih h
  | @newFromName name e h =>
    unfold ElementF.newFromName checkElemName at h
    obtain ⟨⟨⟩, hv, h⟩ := bind_eq_ok.1 h
    cases h
    split at hv
    · rename_i hn
      refine deep_element.2 ⟨⟨validName_iff.1 hn, ?_⟩, by simp [ElementF.dflt]⟩
      intro k v hk
      cases hk
    · cases hv
  | @setAttr e e' k v _ h ih =>
    unfold ElementF.setAttr checkAttrName at h
    obtain ⟨⟨⟩, hv, h⟩ := bind_eq_ok.1 h
    cases h
    split at hv
    · rename_i hn
      obtain ⟨⟨h1, h2⟩, h3⟩ := deep_element.1 ih
      refine deep_element.2 ⟨⟨h1, ?_⟩, h3⟩
      intro k' v' hk
      simp only at hk
      by_cases hkk : k' = k
      · subst hkk; exact validName_iff.1 hn
      · rw [SMap.get_insert, if_neg (Ne.symm hkk)] at hk
        exact h2 k' v' hk
    · cases hv
  | @removeAttr e k _ ih =>
    obtain ⟨⟨h1, h2⟩, h3⟩ := deep_element.1 ih
    refine deep_element.2 ⟨⟨h1, ?_⟩, h3⟩
    intro k' v' hk
    simp only [ElementF.removeAttr] at hk
    rw [SMap.get_remove] at hk
    split at hk
    · cases hk
    · exact h2 k' v' hk
  | @clearAttributes e _ ih =>
    obtain ⟨⟨h1, h2⟩, h3⟩ := deep_element.1 ih
    refine deep_element.2 ⟨⟨h1, ?_⟩, h3⟩
    intro k' v' hk
    cases hk
  | clearChildren _ ih => exact deep_children ih (by simp)
  | setText _ h ih => exact deep_append (deep_children ih (l := []) (by simp)) (deep_text.2 trivial) h
  | append _ _ h ih1 ih2 => exact deep_append ih1 ih2 h
  | appendAll _ _ h ih1 ih2 => exact deep_appendAll ih1 ih2 h
  | @insert e e' i n _ _ h ih1 ih2 =>
    rw [insert_eq] at h
    split at h
    · cases h
    · cases h
      refine deep_children ih1 (deep_normalText (fun _ _ h => h) ?_)
      have hall : ∀ m ∈ e.children.take i ++ n :: e.children.drop i, Deep Valid m := by
        intro m hm
        rcases List.mem_append.1 hm with hm | hm
        · exact (deep_element.1 ih1).2 m (List.mem_of_mem_take hm)
        · rcases List.mem_cons.1 hm with rfl | hm
          · exact ih2
          · exact (deep_element.1 ih1).2 m (List.mem_of_mem_drop hm)
      generalize e.children.take i ++ n :: e.children.drop i = l at hall
      rcases List.eq_nil_or_concat l with rfl | ⟨A, x, rfl⟩
      · intro m hm; cases hm
      · rw [List.concat_eq_append, mapLast_append]
        intro m hm
        rcases List.mem_append.1 hm with hm | hm
        · exact hall m (by simp [hm])
        · simp at hm; subst hm; exact deep_apply valid_nsFree _ _ (hall x (by simp))
  | @remove e e' i n _ h ih =>
    rw [remove_eq] at h
    split at h
    · cases h
      exact deep_children ih (fun m hm => (deep_element.1 ih).2 m (List.mem_of_mem_eraseIdx hm))
    · cases h
  | @removeElement e e' c i _ h ih =>
    by_cases hi : i < (e.children.filterMap element?).length
    · obtain ⟨A, c', B, h1, h2, h3⟩ := removeElement_ok e i hi
      rw [h3] at h
      cases h
      refine deep_children ih (fun m hm => (deep_element.1 ih).2 m ?_)
      rw [h1]
      rcases List.mem_append.1 hm with hm | hm <;> simp [hm]
    · rw [removeElement_err e i (by omega)] at h
      cases h
  | removeBy _ h ih =>
    rw [removeBy_eq] at h
    cases h
    exact deep_children ih (fun m hm => (deep_element.1 ih).2 m (List.mem_filter.1 hm).1)
  | removeAll _ h ih =>
    rw [removeAll_eq] at h
    cases h
    exact deep_prune ih
  | removeElements _ h ih =>
    rw [removeElements_eq] at h
    cases h
    exact deep_children ih (fun m hm => (deep_element.1 ih).2 m (List.mem_filter.1 hm).1)
  | removeAllElements _ h ih =>
    rw [removeAllElements_eq] at h
    cases h
    exact deep_prune ih
  | child _ hn ih => exact (deep_element.1 ih).2 _ hn
  | clone _ ih => rw [clone_node]; exact ih
  | childrenMut _ _ _ ih1 ih2 => exact deep_children ih1 ih2

/-! ## normal form of parsed texts -/

theorem unescape_ne_nil {ε : Type} (fuel : Nat) (B : Str) (n : Nat) (hB : B ≠ []) :
    (unescapeLoop fuel B n : Res ε Str) ≠ .ok [] := by
  induction fuel generalizing B n with
  | zero => simp [unescapeLoop]
  | succ fuel ih =>
    by_cases hn : blen B ≤ n
    · rw [unescapeLoop_over _ _ _ hn]; simpa using hB
    · cases hd : dropB n B with
      | none => rw [unescapeLoop_split _ _ _ (by omega) hd]; simp
      | some S =>
        obtain ⟨P, rfl, rfl⟩ := dropB_eq_some.1 hd
        by_cases hs : '&' ∈ S
        · obtain ⟨a, b, rfl, ha⟩ := mem_split_first hs
          rw [unescapeLoop_step _ _ _ _ ha]
          refine ih _ _ ?_
          have : after b ≠ [] := by
            unfold after
            split <;> simp
          simp [this]
        · rw [unescapeLoop_done _ _ _ hs]; simpa using hB

/-- elements have normal children, texts are not empty -/
def NormalNode : Node → Prop
  | .element e => TextNormal e.children
  | .text t => t ≠ []
  | _ => True

theorem solid_iff {t : Str} : (∃ c ∈ t, isWs c = false) ↔ t ≠ [] ∧ ¬ Blank t := by
  unfold Blank
  constructor
  · rintro ⟨c, hc, h⟩
    refine ⟨by rintro rfl; simp at hc, ?_⟩
    rintro ⟨-, h'⟩
    rw [h' c hc] at h; cases h
  · rintro ⟨h1, h2⟩
    by_contra hno
    exact h2 ⟨h1, fun c hc => by
      by_contra hw
      exact hno ⟨c, hc, by simpa using hw⟩⟩

theorem normalNode_nsFree : NsFree NormalNode := by
  intro n m h hn
  cases h <;> exact hn

theorem textNormal_reverse {l : List Node} (h : TextNormal l) : TextNormal l.reverse :=
  ⟨noAdjText_reverse h.apart, fun t ht => h.solid t (List.mem_reverse.1 ht)⟩

theorem textNormal_normalText {l : List Node} (h : ∀ t, Node.text t ∈ l → t ≠ []) : TextNormal (normalText l) := by
  refine ⟨noAdjText_normalText l, fun t ht => solid_iff.2 ⟨?_, normalText_not_blank ht⟩⟩
  rcases mem_normalText ht with h1 | ⟨a, b, h1, h2⟩
  · exact h t h1
  · cases h1
    have := h a h2
    simp [this]

theorem normal_flip {n : Node} (h : Deep NormalNode n) : Deep NormalNode (ParseTree.flipElement n) := by
  cases n with
  | element e =>
    obtain ⟨h1, h2⟩ := deep_element.1 h
    exact deep_element.2 ⟨textNormal_reverse h1, fun m hm => h2 m (List.mem_reverse.1 hm)⟩
  | _ => exact h

theorem normal_addOne {e : Element} {n : Node} (h : Deep NormalNode (.element e)) (hn : Deep NormalNode n) :
    Deep NormalNode (.element (addOne e n)) := by
  have hall : ∀ m ∈ e.children ++ [applyXmlnsContext e.defaultNamespace e.ctx n], Deep NormalNode m := by
    intro m hm
    rcases List.mem_append.1 hm with hm | hm
    · exact (deep_element.1 h).2 m hm
    · simp at hm; subst hm; exact deep_apply normalNode_nsFree _ _ hn
  refine deep_element.2 ⟨textNormal_normalText (fun t ht => deep_text.1 (hall _ ht)), ?_⟩
  exact deep_normalText (P := NormalNode) (fun a b ha => by
    have : a ≠ [] := ha
    show a ++ b ≠ []
    simp [this]) hall

theorem freshOk_normal : FreshOk (Deep NormalNode) where
  text := by
    intro s t h hs
    refine deep_text.2 ?_
    rintro rfl
    refine unescape_ne_nil _ _ _ ?_ h
    rintro rfl
    exact hs rfl
  comment := fun _ _ => deep_comment.2 trivial
  cdata := fun _ _ => deep_cdata.2 trivial
  element := by
    intro t parent attrs n0 n x q e h
    rw [h.eq]
    have hf := setNamespaceContext_fields (e := ⟨n, [], attrs, x.or (ownNs attrs q), q,
        ElementF.xmlnsContextFromAttributes attrs⟩) (d := parent.bind ElementF.defaultNamespace) (p := parent.map ElementF.ctx)
    refine deep_element.2 ⟨?_, ?_⟩
    · show TextNormal _
      rw [hf.2.1]; exact ⟨by simp, by simp⟩
    · rw [hf.2.1]; simp

theorem parse_normal {x : Str} {d : Document} (h : parseStr x = .ok d) : Deep NormalNode (.element d.root) :=
  parseStr_invariant freshOk_normal (fun _ => normal_flip) (fun _ _ => normal_addOne) h

end KissXml
