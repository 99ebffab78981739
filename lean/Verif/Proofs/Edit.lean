import Verif.Proofs.Dom
/-!
# DOM edits
-/
namespace KissXml
open Spec

theorem setNamespaceContext_fields (e : Element) (d : Option Str) (p : Option SMap) :
    (e.setNamespaceContext d p).name = e.name ∧ (e.setNamespaceContext d p).children = e.children ∧
    (e.setNamespaceContext d p).attrs = e.attrs ∧ (e.setNamespaceContext d p).pfx = e.pfx := by
  obtain ⟨n, cs, a, x, q, c⟩ := e
  cases q with
  | none =>
    cases x <;> cases p <;> cases d <;> simp [ElementF.setNamespaceContext, ElementF.defaultNamespace]
  | some q =>
    cases x <;> cases p <;> simp [ElementF.setNamespaceContext]

theorem nsOnly_setNamespaceContext (e : Element) (d : Option Str) (p : Option SMap) :
    NsOnly (.element e) (.element (e.setNamespaceContext d p)) := by
  have h := setNamespaceContext_fields e d p
  generalize e.setNamespaceContext d p = e' at h
  obtain ⟨n, cs, a, x, q, c⟩ := e
  obtain ⟨n', cs', a', x', q', c'⟩ := e'
  simp only at h
  obtain ⟨rfl, rfl, rfl, rfl⟩ := h
  exact .element _ _ _ _ _ _ _ _

theorem nsOnly_apply (d : Option Str) (c : SMap) (n : Node) : NsOnly n (applyXmlnsContext d c n) := by
  cases n with
  | element e => exact nsOnly_setNamespaceContext e d (some c)
  | text _ => exact .refl _
  | comment _ => exact .refl _
  | cdata _ => exact .refl _

theorem append_eq (e : Element) (n : Node) :
    e.append n = .ok { e with children := normalText (e.children ++ [applyXmlnsContext e.defaultNamespace e.ctx n]) } := by
  unfold ElementF.append
  simp only [cleanupTextNodes_eq, Res.bind_ok, Res.pure_eq]

theorem apply_nonElement {d : Option Str} {c : SMap} {n : Node} (h : n.isElement = false) : applyXmlnsContext d c n = n := by
  cases n <;> simp_all [applyXmlnsContext, Node.isElement]

theorem applyAt_eq (d : Option Str) (c : SMap) (A cs : List Node) :
    ElementF.applyAt d c (ElementF.elemIndices A.length cs) (A ++ cs) = .ok (A ++ cs.map (applyXmlnsContext d c)) := by
  induction cs generalizing A with
  | nil => simp [ElementF.elemIndices, ElementF.applyAt]
  | cons x cs ih =>
    have h1 : ∀ y : Node, A ++ y :: cs = (A ++ [y]) ++ cs := by intro y; simp
    have h2 : ∀ y : Node, A.length + 1 = (A ++ [y]).length := by intro y; simp
    unfold ElementF.elemIndices
    split
    · unfold ElementF.applyAt
      simp only [List.getElem?_append_right, Nat.le_refl, Nat.sub_self, List.getElem?_cons_zero, Res.unwrap_some,
        Res.bind_ok]
      rw [show (A ++ x :: cs).set A.length (applyXmlnsContext d c x) = A ++ applyXmlnsContext d c x :: cs by simp,
        h1, h2 (applyXmlnsContext d c x), ih]
      simp
    · rename_i h
      rw [h1, h2 x, ih, List.map_cons, apply_nonElement (by simpa using h)]
      simp

theorem appendAll_eq (e : Element) (cs : List Node) :
    e.appendAll cs = .ok
      { e with children := normalText (e.children ++ cs.map (applyXmlnsContext e.defaultNamespace e.ctx)) } := by
  unfold ElementF.appendAll
  simp only [applyAt_eq, cleanupTextNodes_eq, Res.bind_ok, Res.pure_eq]

theorem ctxFold_get (l : List (Str × Str)) (hl : (l.map Prod.fst).Nodup) (m : SMap) (k : Str) :
    (l.foldl (fun m kv => if m.containsKey kv.1 then m else m.insert kv.1 kv.2) m).get k =
      (m.get k).or (LMap.get l k) := by
  induction l generalizing m with
  | nil => simp [LMap.get]
  | cons kv l ih =>
    obtain ⟨k', v⟩ := kv
    simp only [List.map_cons, List.nodup_cons] at hl
    rw [List.foldl_cons, ih hl.2]
    simp only [LMap.get]
    by_cases hm : m.containsKey k' = true
    · rw [if_pos hm]
      by_cases hk : k' = k
      · subst hk
        rw [if_pos rfl]
        have : (m.get k').isSome := by simpa [SMap.containsKey] using hm
        obtain ⟨w, hw⟩ := Option.isSome_iff_exists.1 this
        simp [hw]
      · rw [if_neg hk]
    · rw [if_neg hm, SMap.get_insert]
      have hn : m.get k' = none := by simpa [SMap.containsKey] using hm
      by_cases hk : k' = k
      · subst hk; simp [hn]
      · rw [if_neg hk, if_neg hk]

theorem handedDown_apply (d : Option Str) (ctx : SMap) (n : Node) : HandedDown d ctx n (applyXmlnsContext d ctx n) := by
  cases n with
  | text _ => rfl
  | comment _ => rfl
  | cdata _ => rfl
  | element e =>
    have hf := setNamespaceContext_fields e d (some ctx)
    obtain ⟨n, cs, a, x, q, c⟩ := e
    refine ⟨hf.1, hf.2.1, hf.2.2.1, hf.2.2.2, ?_, ?_⟩
    · intro k
      have h : _ = (c.get k).or (ctx.get k) := ctxFold_get ctx.entries ctx.nodup c k
      cases q <;> cases x <;> simp only [ElementF.setNamespaceContext, ElementF.defaultNamespace] <;>
        (try cases d) <;> simpa using h
    · cases q with
      | none => cases x <;> simp only [ElementF.setNamespaceContext, ElementF.defaultNamespace] <;>
        (try cases d) <;> simp
      | some p =>
        have h := ctxFold_get ctx.entries ctx.nodup c p
        cases x <;> simp only [ElementF.setNamespaceContext] <;>  simp
        exact h

theorem givenDefault_eq (e : Element) : e.defaultNamespace = givenDefault e := by
  obtain ⟨n, cs, a, x, q, c⟩ := e
  cases q <;> simp [ElementF.defaultNamespace, givenDefault]

/-- apply a function to the last member -/
def mapLast {α : Type} (f : α → α) : List α → List α
  | [] => []
  | [a] => [f a]
  | a :: b :: l => a :: mapLast f (b :: l)

theorem mapLast_append {α : Type} (f : α → α) (A : List α) (x : α) : mapLast f (A ++ [x]) = A ++ [f x] := by
  induction A with
  | nil => rfl
  | cons a A ih =>
    cases A with
    | nil => rfl
    | cons b A => simp only [List.cons_append] at ih ⊢; rw [mapLast, ih]

theorem insertIdx_eq {α : Type} (l : List α) (i : Nat) (x : α) (h : i ≤ l.length) :
    l.insertIdx i x = l.take i ++ x :: l.drop i := by
  induction l generalizing i with
  | nil => simp at h; subst h; rfl
  | cons a l ih =>
    cases i with
    | zero => rfl
    | succ i => simp only [List.insertIdx_succ_cons, List.take_succ_cons, List.drop_succ_cons, List.cons_append]
                rw [ih i (by simpa using h)]

theorem insert_eq (e : Element) (i : Nat) (n : Node) : e.insert i n =
    if i > e.children.length then .err (.indexOutOfBounds (asIsize i) (some (0, asIsize e.children.length)))
    else Res.ok ({ e with children := normalText (mapLast (applyXmlnsContext e.defaultNamespace e.ctx)
      (e.children.take i ++ n :: e.children.drop i)) } : Element) := by
  unfold ElementF.insert
  split
  · rfl
  · rename_i h
    have hle : i ≤ e.children.length := by omega
    unfold vecInsert
    simp only [if_pos hle, Res.unwrap_some, Res.bind_ok, insertIdx_eq _ _ _ hle]
    have hne : e.children.take i ++ n :: e.children.drop i ≠ [] := by simp
    generalize e.children.take i ++ n :: e.children.drop i = l at hne
    rcases List.eq_nil_or_concat l with rfl | ⟨A, x, rfl⟩
    · exact absurd rfl hne
    · rw [List.concat_eq_append, mapLast_append]
      simp [cleanupTextNodes_eq]

theorem remove_eq (e : Element) (i : Nat) : e.remove i =
    match e.children[i]? with
    | some n => .ok (n, { e with children := e.children.eraseIdx i })
    | none => .err (.indexOutOfBounds (asIsize i) (some (0, asIsize e.children.length))) := by
  unfold ElementF.remove vecRemove
  split
  · rename_i h
    simp [List.getElem?_eq_none h]
  · rename_i h
    have : i < e.children.length := by omega
    simp [List.getElem?_eq_getElem this]

theorem matchRemove (p : Node → Bool) (A S : List Node) : ∃ idx,
    ElementF.matchIndices p (A ++ S) A.length = .ok idx ∧
    ElementF.removeIndices idx (A ++ S) = .ok (A.filter (fun n => !p n) ++ S) ∧ idx.length = A.countP p := by
  induction hn : A.length generalizing A S with
  | zero =>
    have := List.length_eq_zero_iff.1 hn
    subst this
    exact ⟨[], rfl, rfl, rfl⟩
  | succ k ih =>
    rcases List.eq_nil_or_concat A with rfl | ⟨A, x, rfl⟩
    · simp at hn
    rw [List.concat_eq_append] at *
    have hk : A.length = k := by simpa using hn
    have e1 : (A ++ [x] ++ S)[k]? = some x := by rw [← hk]; simp
    obtain ⟨idx, h1, h2, h3⟩ := ih A ([x] ++ S) hk
    obtain ⟨idx', h1', h2', h3'⟩ := ih A S hk
    rw [← List.append_assoc] at h1
    have hsame : ∀ (l : List Node) (j : Nat), j ≤ A.length → ElementF.matchIndices p (A ++ l) j = ElementF.matchIndices p A j := by
      intro l j
      induction j with
      | zero => intro _; rfl
      | succ j ihj =>
        intro hj
        unfold ElementF.matchIndices
        rw [ihj (by omega), List.getElem?_append_left (by omega)]
    have hidx : idx = idx' := by
      rw [List.append_assoc, hsame _ _ (by omega)] at h1
      rw [hsame _ _ (by omega), h1] at h1'
      simpa using h1'
    subst hidx
    unfold ElementF.matchIndices
    simp only [e1, Res.unwrap_some, Res.bind_ok, h1, Res.pure_eq]
    cases hp : p x with
    | false =>
      refine ⟨idx, by simp, ?_, ?_⟩
      · rw [List.append_assoc, h2]; simp [List.filter_append, hp]
      · simp [h3, List.countP_append, hp]
    | true =>
      refine ⟨k :: idx, by simp, ?_, ?_⟩
      · unfold ElementF.removeIndices
        have hv := vecRemove_append A x S
        rw [hk] at hv
        simp only [show A ++ [x] ++ S = A ++ x :: S by simp, hv, Res.unwrap_some, Res.bind_ok, h2']
        simp [List.filter_append, hp]
      · simp [h3, List.countP_append, hp]

theorem removeBy_eq (e : Element) (p : Node → Bool) :
    e.removeBy p = .ok ({ e with children := e.children.filter (fun n => !p n) }, e.children.countP p) := by
  obtain ⟨idx, h1, h2, h3⟩ := matchRemove p e.children []
  rw [List.append_nil] at h1 h2
  unfold ElementF.removeBy
  simp [h1, h2, h3]

theorem removeElements_eq (e : Element) (p : Element → Bool) :
    e.removeElements p = .ok ({ e with children := e.children.filter (fun n => !ElementF.elemPred p n) },
      e.children.countP (ElementF.elemPred p)) := by
  obtain ⟨idx, h1, h2, h3⟩ := matchRemove (ElementF.elemPred p) e.children []
  rw [List.append_nil] at h1 h2
  unfold ElementF.removeElements
  simp [h1, h2, h3]

/-! ## recursive removal -/

theorem size_pos_child {l : List Node} {n : Node} (h : n ∈ l) : n.size ≤ sizeOfChildren l := by
  induction l with
  | nil => simp at h
  | cons c l ih =>
    rw [sizeOfChildren]
    rcases List.mem_cons.1 h with rfl | h
    · omega
    · have := ih h; omega

theorem sizeOfChildren_filter (p : Node → Bool) (l : List Node) : sizeOfChildren (l.filter p) ≤ sizeOfChildren l := by
  induction l with
  | nil => simp
  | cons c l ih =>
    rw [List.filter_cons]
    split
    · rw [sizeOfChildren, sizeOfChildren]; omega
    · rw [sizeOfChildren]; omega

theorem pruneL_eq (p : Node → Bool) (l : List Node) : pruneL p l = (l.filter (fun n => !p n)).map (prune p) := by
  induction l with
  | nil => simp [pruneL]
  | cons c l ih =>
    rw [pruneL]
    cases h : p c <;> simp [h, ih]

theorem hitsL_eq (p : Node → Bool) (l : List Node) :
    hitsL p l = l.countP p + ((l.filter (fun n => !p n)).map (hits p)).sum := by
  induction l with
  | nil => simp [hitsL]
  | cons c l ih =>
    rw [hitsL]
    cases h : p c <;> simp [h, ih] <;> omega

theorem prune_element (p : Node → Bool) (e : Element) :
    prune p (.element e) = .element { e with children := pruneL p e.children } := by
  obtain ⟨n, cs, a, x, q, c⟩ := e; rw [prune]

theorem hits_element (p : Node → Bool) (e : Element) : hits p (.element e) = hitsL p e.children := by
  obtain ⟨n, cs, a, x, q, c⟩ := e; rw [hits]

theorem forChildElements_eq (p : Node → Bool) (f : Element → R (Element × Nat)) (l : List Node)
    (hf : ∀ e, Node.element e ∈ l → f e = .ok ({ e with children := pruneL p e.children }, hitsL p e.children)) :
    forChildElements f l = .ok (l.map (prune p), (l.map (hits p)).sum) := by
  induction l with
  | nil => rfl
  | cons c l ih =>
    have ih := ih (fun e he => hf e (by simp [he]))
    cases c with
    | element e =>
      rw [forChildElements, hf e (by simp)]
      simp [ih, prune_element, hits_element]
    | text t => rw [forChildElements, ih]; simp [prune, hits]; simp
    | comment t => rw [forChildElements, ih]; simp [prune, hits]; simp
    | cdata t => rw [forChildElements, ih]; simp [prune, hits]; simp

theorem element_size (e : Element) : e.size = 1 + sizeOfChildren e.children := by
  obtain ⟨n, cs, a, x, q, c⟩ := e; rw [ElementF.size]

theorem removeAllF_eq (p : Node → Bool) (fuel : Nat) (e : Element) (h : e.size ≤ fuel) :
    ElementF.removeAllF p fuel e = .ok ({ e with children := pruneL p e.children }, hitsL p e.children) := by
  induction fuel generalizing e with
  | zero => have := element_size e; omega
  | succ fuel ih =>
    rw [element_size] at h
    unfold ElementF.removeAllF
    rw [removeBy_eq]
    simp only [Res.bind_ok]
    rw [forChildElements_eq p]
    · simp only [Res.bind_ok, Res.pure_eq, pruneL_eq, hitsL_eq]
    · intro c hc
      apply ih
      have h1 := size_pos_child hc
      have h2 := sizeOfChildren_filter (fun n => !p n) e.children
      rw [Node.size] at h1
      omega

theorem removeAll_eq (e : Element) (p : Node → Bool) :
    e.removeAll p = .ok ({ e with children := pruneL p e.children }, hitsL p e.children) :=
  removeAllF_eq p e.size e (Nat.le_refl _)

theorem removeAllElements_eq (e : Element) (p : Element → Bool) :
    e.removeAllElements p = .ok ({ e with children := pruneL (ElementF.elemPred p) e.children },
      hitsL (ElementF.elemPred p) e.children) := by
  unfold ElementF.removeAllElements
  rw [removeBy_eq]
  simp only [Res.bind_ok]
  rw [forChildElements_eq (ElementF.elemPred p) _ _ (fun c _ => removeAll_eq c _)]
  simp only [Res.bind_ok, Res.pure_eq, pruneL_eq, hitsL_eq]

mutual
/-- every node left by pruning is the pruned form of a node that did not satisfy the predicate -/
theorem docOrder_prune (p : Node → Bool) : ∀ (n m' : Node), m' ∈ docOrder (prune p n) →
    m' = prune p n ∨ ∃ m, m ∈ docOrder n ∧ p m = false ∧ m' = prune p m
  | .element ⟨n, cs, a, x, q, c⟩, m', h => by
    rw [prune, docOrder] at h
    rcases List.mem_cons.1 h with h | h
    · left; rw [prune, h]
    · obtain ⟨m, h1, h2, h3⟩ := docOrderL_prune p cs m' h
      right; exact ⟨m, by rw [docOrder]; simp [h1], h2, h3⟩
  | .text t, m', h => by rw [prune, docOrder] at h; left; simpa [prune] using h
  | .comment t, m', h => by rw [prune, docOrder] at h; left; simpa [prune] using h
  | .cdata t, m', h => by rw [prune, docOrder] at h; left; simpa [prune] using h
theorem docOrderL_prune (p : Node → Bool) : ∀ (l : List Node) (m' : Node), m' ∈ docOrderL (pruneL p l) →
    ∃ m, m ∈ docOrderL l ∧ p m = false ∧ m' = prune p m
  | [], m', h => by rw [pruneL, docOrderL] at h; simp at h
  | c :: cs, m', h => by
    rw [pruneL] at h
    have hself : c ∈ docOrder c := by cases c <;> simp [docOrder]
    split at h
    · obtain ⟨m, h1, h2, h3⟩ := docOrderL_prune p cs m' h
      exact ⟨m, by rw [docOrderL]; simp [h1], h2, h3⟩
    · rename_i hp
      rw [docOrderL] at h
      rcases List.mem_append.1 h with h | h
      · rcases docOrder_prune p c m' h with h' | ⟨m, h1, h2, h3⟩
        · exact ⟨c, by rw [docOrderL]; simp [hself], by simpa using hp, h'⟩
        · exact ⟨m, by rw [docOrderL]; simp [h1], h2, h3⟩
      · obtain ⟨m, h1, h2, h3⟩ := docOrderL_prune p cs m' h
        exact ⟨m, by rw [docOrderL]; simp [h1], h2, h3⟩
end

/-! ## removing the n-th element child -/

theorem elementIndices_spec (l : List Node) (i : Nat) :
    (ElementF.elementIndices i l).length = (l.filterMap element?).length ∧
    ∀ k j, (ElementF.elementIndices i l)[k]? = some j →
      ∃ A c B, l = A ++ .element c :: B ∧ j = i + A.length ∧ (A.filterMap element?).length = k ∧
        (l.filterMap element?)[k]? = some c := by
  induction l generalizing i with
  | nil => exact ⟨rfl, by intro k j h; simp [ElementF.elementIndices] at h⟩
  | cons n l ih =>
    obtain ⟨h1, h2⟩ := ih (i + 1)
    cases n with
    | element e =>
      have hd : ElementF.elementIndices i (.element e :: l) = i :: ElementF.elementIndices (i + 1) l := by
        simp [ElementF.elementIndices, Node.isElement]
      rw [hd]
      refine ⟨by simp [h1, element?], ?_⟩
      intro k j hk
      cases k with
      | zero =>
        simp at hk; subst hk
        exact ⟨[], e, l, rfl, rfl, rfl, rfl⟩
      | succ k =>
        simp at hk
        obtain ⟨A, c, B, rfl, rfl, h3, h4⟩ := h2 k j hk
        refine ⟨.element e :: A, c, B, rfl, by simp; omega, by simp [element?, h3], ?_⟩
        simpa [element?] using h4
    | text t =>
      have hd : ElementF.elementIndices i (.text t :: l) = ElementF.elementIndices (i + 1) l := by
        simp [ElementF.elementIndices, Node.isElement]
      rw [hd]
      refine ⟨h1, ?_⟩
      intro k j hk
      obtain ⟨A, c, B, rfl, rfl, h3, h4⟩ := h2 k j hk
      exact ⟨.text t :: A, c, B, rfl, by simp; omega, h3, h4⟩
    | comment t =>
      have hd : ElementF.elementIndices i (.comment t :: l) = ElementF.elementIndices (i + 1) l := by
        simp [ElementF.elementIndices, Node.isElement]
      rw [hd]
      refine ⟨h1, ?_⟩
      intro k j hk
      obtain ⟨A, c, B, rfl, rfl, h3, h4⟩ := h2 k j hk
      exact ⟨.comment t :: A, c, B, rfl, by simp; omega, h3, h4⟩
    | cdata t =>
      have hd : ElementF.elementIndices i (.cdata t :: l) = ElementF.elementIndices (i + 1) l := by
        simp [ElementF.elementIndices, Node.isElement]
      rw [hd]
      refine ⟨h1, ?_⟩
      intro k j hk
      obtain ⟨A, c, B, rfl, rfl, h3, h4⟩ := h2 k j hk
      exact ⟨.cdata t :: A, c, B, rfl, by simp; omega, h3, h4⟩

theorem removeElement_ok (e : Element) (k : Nat) (h : k < (e.children.filterMap element?).length) :
    ∃ A c B, e.children = A ++ .element c :: B ∧ (A.filterMap element?).length = k ∧
      e.removeElement k = .ok (c, { e with children := A ++ B }) := by
  obtain ⟨h1, h2⟩ := elementIndices_spec e.children 0
  have hk : k < (ElementF.elementIndices 0 e.children).length := by omega
  obtain ⟨A, c, B, hl, hj, h3, -⟩ := h2 k _ (List.getElem?_eq_getElem hk)
  refine ⟨A, c, B, hl, h3, ?_⟩
  unfold ElementF.removeElement
  simp only [ge_iff_le, Nat.not_le.2 hk, if_false]
  have hv := vecRemove_append A (.element c) B
  rw [List.getElem?_eq_getElem hk, hj]
  simp only [Res.unwrap_some, Res.bind_ok, Nat.zero_add, hl, hv, Node.asElement, expect, Res.pure_eq]

theorem removeElement_err (e : Element) (k : Nat) (h : (e.children.filterMap element?).length ≤ k) :
    e.removeElement k = .err (.indexOutOfBounds (asIsize k) (some (0, asIsize (e.children.filterMap element?).length))) := by
  obtain ⟨h1, -⟩ := elementIndices_spec e.children 0
  unfold ElementF.removeElement
  simp only [ge_iff_le, h1, h, if_true]

/-! ## names, namespaces -/

theorem validName_iff {s : Str} : validName s = true ↔ ApiName s := by
  unfold ApiName
  cases s with
  | nil => simp [validName]
  | cons c t =>
    simp only [validName, Bool.and_eq_true, isAsciiNameStart, inRanges, List.any_cons, List.any_nil, Bool.or_false,
      Bool.or_eq_true, decide_eq_true_eq, List.all_eq_true, Bool.not_eq_true']
    constructor
    · rintro ⟨h1, h2⟩
      refine ⟨c, t, rfl, ?_, h2⟩
      rcases h1 with h | h | h
      · left; exact Char.toNat_inj.1 (by have : ('_' : Char).toNat = 0x5F := rfl; omega)
      · right; left; exact h
      · right; right; exact h
    · rintro ⟨c', t', h, h1, h2⟩
      simp at h
      obtain ⟨rfl, rfl⟩ := h
      refine ⟨?_, h2⟩
      rcases h1 with rfl | h | h
      · left; decide
      · right; left; exact h
      · right; right; exact h

theorem xmlnsKey {k p : Str} : startsWith k c%"xmlns:" = true ∧ k.drop 6 = p ↔ k = c%"xmlns:" ++ p := by
  constructor
  · rintro ⟨h1, h2⟩
    obtain ⟨t, rfl⟩ := startsWith_iff.1 h1
    rw [← h2]; rfl
  · rintro rfl
    exact ⟨startsWith_iff.2 ⟨p, rfl⟩, rfl⟩

theorem xmlnsFold_get (l : List (Str × Str)) (hl : (l.map Prod.fst).Nodup) (m : SMap) (p : Str) :
    (l.foldl (fun m kv => if startsWith kv.1 c%"xmlns:" then m.insert (kv.1.drop 6) kv.2 else m) m).get p =
      match LMap.get l (c%"xmlns:" ++ p) with
      | some v => some v
      | none => m.get p := by
  induction l generalizing m with
  | nil => rfl
  | cons kv l ih =>
    obtain ⟨k, v⟩ := kv
    simp only [List.map_cons, List.nodup_cons] at hl
    rw [List.foldl_cons, ih hl.2]
    simp only [LMap.get]
    by_cases hk : k = c%"xmlns:" ++ p
    · rw [if_pos hk]
      have hn : LMap.get l (c%"xmlns:" ++ p) = none := LMap.get_eq_none.2 (hk ▸ hl.1)
      obtain ⟨h1, h2⟩ := xmlnsKey.2 hk
      rw [hn]
      simp only [h1, if_true, SMap.get_insert, h2]
    · rw [if_neg hk]
      cases LMap.get l (c%"xmlns:" ++ p) with
      | some v => rfl
      | none =>
        simp only
        by_cases h1 : startsWith k c%"xmlns:" = true
        · rw [if_pos h1, SMap.get_insert, if_neg (fun h2 => hk (xmlnsKey.1 ⟨h1, h2⟩))]
        · rw [if_neg h1]

theorem xmlnsContext_get (a : SMap) (p : Str) :
    (ElementF.xmlnsContextFromAttributes a).get p = a.get (c%"xmlns:" ++ p) := by
  unfold ElementF.xmlnsContextFromAttributes
  rw [xmlnsFold_get _ a.nodup]
  show (match a.get (c%"xmlns:" ++ p) with | some v => some v | none => none) = _
  cases a.get (c%"xmlns:" ++ p) <;> rfl

theorem smap_isEmpty {m : SMap} : m.isEmpty = true ↔ ∀ k, m.get k = none := by
  unfold SMap.isEmpty
  constructor
  · intro h k
    have : m.entries = [] := by simpa using h
    simp [SMap.get, this, LMap.get]
  · intro h
    rcases hm : m.entries with _ | ⟨⟨k, v⟩, l⟩
    · rfl
    · have := h k
      simp [SMap.get, hm, LMap.get] at this

end KissXml
