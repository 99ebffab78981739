import Verif.Proofs.CompileSame
import Verif.Proofs.CostLower
import Verif.Proofs.Congr
import Verif.Spec.Compile
/-!
# How many regular expressions are compiled
-/
namespace KissXml
open KissXml.Spec Run

theorem constUses_eq {α : Type} (a : α) (n : Nat) : constUses a n = n := by
  induction n with
  | zero => rfl
  | succ n ih =>
    rw [constUses, ih]
    show 1 + n = n + 1
    omega

theorem staticUses_full {α : Type} (a b : α) (n : Nat) : staticUses a n (some b) = 0 := by
  induction n with
  | zero => rfl
  | succ n ih =>
    rw [staticUses]
    show 0 + staticUses a n (some b) = 0
    omega

theorem staticUses_once {α : Type} (a : α) (n : Nat) : staticUses a (n + 1) none = 1 := by
  rw [staticUses]
  show 1 + staticUses a n (some a) = 1
  rw [staticUses_full]

theorem bind_split {α β : Type} {r : Run α} {f : α → Run β} {b : β} (h : (r >>= f).out = .ok b) :
    ∃ a, r.out = .ok a ∧ (f a).out = .ok b ∧ (r >>= f).count = r.count + (f a).count := by
  rw [out_bind] at h
  obtain ⟨a, h1, h2⟩ := bind_eq_ok.1 h
  exact ⟨a, h1, h2, count_bind_ok h1⟩

/-! ## `append` -/

theorem dropOneComp_count {n : Node} {i : Nat} {l l' : List Node} (h : (dropOneComp n i l).out = .ok l') :
    (dropOneComp n i l).count = (if n.isText then 1 else 0) ∧ l'.take i = l.take i := by
  unfold dropOneComp at h ⊢
  split
  · rename_i hn
    rw [if_pos hn] at h
    obtain ⟨t, h1, h2, h3⟩ := bind_split h
    obtain ⟨u, h4, h5, h6⟩ := bind_split h2
    rw [h3, h6]
    split at h5
    · rename_i hw
      rw [if_pos hw]
      obtain ⟨⟨m, l1⟩, h7, h8, h9⟩ := bind_split h5
      rw [h9]
      refine ⟨rfl, ?_⟩
      cases h8
      have h10 := KissXml.unwrap_eq_ok.1 h7
      unfold vecRemove at h10
      split at h10
      · cases h10
        exact List.take_eraseIdx_eq_take_of_le _ _ _ (Nat.le_refl _)
      · cases h10
    · rename_i hw
      rw [if_neg hw]
      cases h5
      exact ⟨rfl, rfl⟩
  · rename_i hn
    rw [if_neg hn] at h
    cases h
    exact ⟨rfl, rfl⟩

theorem countP_take {l : List Node} {i : Nat} {n : Node} (h : l[i]? = some n) :
    (l.take (i + 1)).countP Node.isText = (l.take i).countP Node.isText + if n.isText then 1 else 0 := by
  rw [List.take_add_one, h, Option.toList_some, List.countP_append, List.countP_singleton]

theorem dropWsComp_count {i : Nat} {l l' : List Node} (h : (dropWsComp i l).out = .ok l') :
    (dropWsComp i l).count = (l.take (i + 1)).countP Node.isText := by
  induction i generalizing l with
  | zero =>
    unfold dropWsComp at h ⊢
    obtain ⟨n, h1, h2, h3⟩ := bind_split h
    obtain ⟨l1, h4, h5, h6⟩ := bind_split h2
    rw [h3, h6, (dropOneComp_count h4).1, countP_take (KissXml.unwrap_eq_ok.1 h1)]
    simp
  | succ i ih =>
    unfold dropWsComp at h ⊢
    obtain ⟨n, h1, h2, h3⟩ := bind_split h
    obtain ⟨l1, h4, h5, h6⟩ := bind_split h2
    have h7 := dropOneComp_count h4
    rw [h3, h6, h7.1, countP_take (KissXml.unwrap_eq_ok.1 h1), ih h5, h7.2, count_free]
    omega

theorem cleanupComp_count (l : List Node) : (cleanupTextNodesComp l).count = (joinRuns l).countP Node.isText := by
  unfold cleanupTextNodesComp
  split
  · rename_i h
    rw [List.length_eq_zero_iff.1 h]; rfl
  · rename_i h
    have hl : l ≠ [] := fun hh => h (by rw [hh]; rfl)
    rw [count_bind_ok (a := joinRuns l) (mergeTextLoop_all l hl)]
    have h3 := joinRuns_ne_nil hl
    rw [if_pos (List.length_pos_of_ne_nil h3), count_free]
    have h4 := cleanupTextNodes_eq l
    unfold cleanupTextNodes at h4
    rw [if_neg h, mergeTextLoop_all l hl] at h4
    simp only [Res.bind_ok] at h4
    rw [if_pos (List.length_pos_of_ne_nil h3), ← comp_dropWs] at h4
    rw [dropWsComp_count h4, List.take_of_length_le (by omega)]
    omega

theorem appendComp_count (e : Element) (n : Node) :
    (appendComp e n).count = (joinRuns (e.children ++ [applyXmlnsContext e.defaultNamespace e.ctx n])).countP Node.isText := by
  unfold appendComp
  simp only
  rw [count_bind_ok (by rw [comp_cleanup]; exact cleanupTextNodes_eq _), cleanupComp_count]
  rfl

/-- the context of namespaces does not matter for texts -/
theorem joinRuns_context (d : Option Str) (x : SMap) (l : List Node) (n : Node) :
    (joinRuns (l ++ [applyXmlnsContext d x n])).countP Node.isText = (joinRuns (l ++ [n])).countP Node.isText := by
  cases n with
  | element e => rw [applyXmlnsContext, joinRuns_element, joinRuns_element, List.countP_append, List.countP_append]; rfl
  | _ => rfl

/-! ## texts and comments in turn -/

/-- a text and a comment, `m` times -/
def pairs (t c : Str) : Nat → List Node
  | 0 => []
  | m + 1 => .text t :: .comment c :: pairs t c m

theorem pairs_snoc (t c : Str) (m : Nat) : pairs t c m ++ [.text t, .comment c] = pairs t c (m + 1) := by
  induction m with
  | zero => rfl
  | succ m ih => rw [pairs, List.cons_append, List.cons_append, ih]; rfl

theorem pairs_flatten (t c : Str) (m : Nat) : pairs t c m = (List.replicate m [Node.text t, Node.comment c]).flatten := by
  induction m with
  | zero => rfl
  | succ m ih => rw [pairs, ih, List.replicate_succ, List.flatten_cons]; rfl

theorem joinRuns_pairs (t c : Str) (m : Nat) (l : List Node) : joinRuns (pairs t c m ++ l) = pairs t c m ++ joinRuns l := by
  induction m with
  | zero => rfl
  | succ m ih => rw [pairs, List.cons_append, List.cons_append, joinRuns, joinRuns, ih]; rfl

theorem countP_pairs (t c : Str) (m : Nat) : (pairs t c m).countP Node.isText = m := by
  induction m with
  | zero => rfl
  | succ m ih => rw [pairs, List.countP_cons, List.countP_cons, ih]; rfl

theorem filter_pairs {t : Str} (ht : ¬ Blank t) (c : Str) (m : Nat) :
    (pairs t c m).filter (fun n => !isBlankText n) = pairs t c m := by
  induction m with
  | zero => rfl
  | succ m ih => rw [pairs, List.filter_cons, List.filter_cons, ih]; simp [isBlankText, ht]

theorem appendEach_pairs {t : Str} (ht : ¬ Blank t) (c : Str) (m k : Nat) (e : Element) (he : e.children = pairs t c k) :
    (appendEachComp (pairs t c m) e).count = m * (m + 1) + 2 * k * m := by
  induction m generalizing e k with
  | zero => rfl
  | succ m ih =>
    have j1 : joinRuns (e.children ++ [.text t]) = pairs t c k ++ [.text t] := by rw [he, joinRuns_pairs]; rfl
    have n1 : normalText (e.children ++ [.text t]) = pairs t c k ++ [.text t] := by
      unfold normalText
      rw [j1, List.filter_append, filter_pairs ht]
      simp [isBlankText, ht]
    have h1 : e.append (.text t) = .ok { e with children := pairs t c k ++ [.text t] } := by
      unfold ElementF.append
      simp only [applyXmlnsContext, cleanupTextNodes_eq, n1, Res.bind_ok, Res.pure_eq]
    have j2 : joinRuns (pairs t c k ++ [.text t] ++ [.comment c]) = pairs t c (k + 1) := by
      rw [List.append_assoc, joinRuns_pairs, ← pairs_snoc]; rfl
    have n2 : normalText (pairs t c k ++ [.text t] ++ [.comment c]) = pairs t c (k + 1) := by
      unfold normalText
      rw [j2, filter_pairs ht]
    have h2 : ({ e with children := pairs t c k ++ [.text t] } : Element).append (.comment c) =
        .ok { e with children := pairs t c (k + 1) } := by
      unfold ElementF.append
      simp only [applyXmlnsContext, cleanupTextNodes_eq, n2, Res.bind_ok, Res.pure_eq]
    rw [pairs]
    unfold appendEachComp
    rw [count_bind_ok (by rw [comp_append]; exact h1), appendComp_count]
    unfold appendEachComp
    rw [count_bind_ok (by rw [comp_append]; exact h2), appendComp_count, ih (k + 1) _ rfl]
    simp only [applyXmlnsContext]
    rw [j1, j2, List.countP_append, countP_pairs, countP_pairs]
    have e1 : 2 * (k + 1) * m = 2 * k * m + 2 * m := by rw [Nat.mul_add, Nat.add_mul]
    have e2 : 2 * k * (m + 1) = 2 * k * m + 2 * k := by rw [Nat.mul_add, Nat.mul_one]
    have e3 : (m + 1) * (m + 1 + 1) = m * (m + 1) + 2 * (m + 1) := by
      rw [Nat.mul_comm, Nat.add_mul (m + 1) 1 (m + 1)]
      have : (m + 1) * (m + 1) = m * (m + 1) + (m + 1) := Nat.succ_mul m (m + 1)
      omega
    rw [e1, e2, e3]
    have e4 : ([Node.text t]).countP Node.isText = 1 := rfl
    omega

theorem places_pairs (t c : Str) (m : Nat) : textPlaces (pairs t c m) = m * m := by
  induction m with
  | zero => rfl
  | succ m ih =>
    rw [pairs, textPlaces, textPlaces, ih, List.countP_cons, List.countP_cons, countP_pairs]
    have e1 : (m + 1) * (m + 1) = m * m + m + (m + 1) := by simp only [Nat.add_mul, Nat.mul_add, Nat.mul_one, Nat.one_mul]
    simp only [Node.isText]
    rw [e1]
    simp
    omega

/-! ## the measure -/

/-- `textPlaces` of the kinds of the nodes -/
def places : List Bool → Nat
  | [] => 0
  | b :: l => (b :: l).countP id + places l

theorem textPlaces_kinds (l : List Node) : textPlaces l = places (l.map Node.isText) := by
  induction l with
  | nil => rfl
  | cons n l ih => rw [textPlaces, List.map_cons, places, ih, ← List.map_cons, List.countP_map]; rfl

theorem places_mono {k l : List Bool} (h : k.Sublist l) : places k ≤ places l := by
  induction h with
  | slnil => exact Nat.le_refl _
  | cons b h ih => rw [places]; omega
  | cons_cons b h ih =>
    rw [places, places]
    have := (List.Sublist.cons_cons b h).countP_le (p := id)
    omega

theorem kinds_joinRuns (l : List Node) : ((joinRuns l).map Node.isText).Sublist (l.map Node.isText) := by
  induction l with
  | nil => exact List.Sublist.slnil
  | cons n l ih =>
    rw [joinRuns]
    unfold consJoin
    split
    · rename_i a b r h
      rw [h] at ih
      simp only [List.map_cons] at ih ⊢
      exact List.Sublist.cons _ ih
    · rw [List.map_cons, List.map_cons]
      exact List.Sublist.cons_cons _ ih

/-- one `append` to a reversed list of children -/
theorem places_append (l : List Node) (n : Node) : textPlaces (normalText (l ++ [n])).reverse ≤
    textPlaces l.reverse + (joinRuns (l ++ [n])).countP Node.isText := by
  have h1 : (normalText (l ++ [n])).Sublist (joinRuns (l ++ [n])) := List.filter_sublist
  have h2 : textPlaces (normalText (l ++ [n])).reverse ≤ textPlaces (joinRuns (l ++ [n])).reverse := by
    rw [textPlaces_kinds, textPlaces_kinds]
    exact places_mono (h1.reverse.map _)
  refine Nat.le_trans h2 ?_
  have h3 := kinds_joinRuns (l ++ [n])
  rcases List.eq_nil_or_concat (joinRuns (l ++ [n])) with h4 | ⟨A, s, h4⟩
  · rw [h4]; exact Nat.zero_le _
  · rw [h4, List.concat_eq_append] at h3 ⊢
    have h5 : (A.map Node.isText).Sublist (l.map Node.isText) := by
      have := h3.reverse
      rw [← List.map_reverse, ← List.map_reverse, List.reverse_append, List.reverse_append] at this
      have h6 := this.tail
      rw [List.reverse_singleton, List.reverse_singleton] at h6
      have h7 := h6.reverse
      simpa using h7
    rw [List.reverse_append, List.reverse_singleton, List.singleton_append, textPlaces]
    have h8 : textPlaces A.reverse ≤ textPlaces l.reverse := by
      rw [textPlaces_kinds, textPlaces_kinds, List.map_reverse, List.map_reverse]
      exact places_mono h5.reverse
    have h9 : (s :: A.reverse).countP Node.isText = (A ++ [s]).countP Node.isText := by
      rw [List.countP_cons, List.countP_append, List.countP_reverse, List.countP_singleton]
    omega

theorem compiled_elem (e : Element) :
    compiled (.element e) = 3 + e.attrs.entries.length + textPlaces e.children + compiledAll e.children := by
  obtain ⟨n, cs, as, x, p, c⟩ := e
  rw [compiled]

theorem compiled_append (a b : List Node) : compiledAll (a ++ b) = compiledAll a + compiledAll b := by
  induction a with
  | nil => simp [compiledAll]
  | cons n a ih => rw [List.cons_append, compiledAll, compiledAll, ih, Nat.add_assoc]

theorem compiled_reverse (a : List Node) : compiledAll a.reverse = compiledAll a := by
  induction a with
  | nil => rfl
  | cons n a ih => rw [List.reverse_cons, compiled_append, ih, compiledAll, compiledAll, compiledAll]; omega

theorem compiled_joinRuns (l : List Node) : compiledAll (joinRuns l) = compiledAll l := by
  induction l with
  | nil => rfl
  | cons n l ih =>
    rw [joinRuns, compiledAll, ← ih]
    unfold consJoin
    split
    · rename_i h
      rw [h]
      simp [compiledAll, compiled]
    · rw [compiledAll]

theorem compiled_filter (p : Node → Bool) (l : List Node) : compiledAll (l.filter p) ≤ compiledAll l := by
  induction l with
  | nil => simp
  | cons n l ih =>
    rw [List.filter_cons]
    split <;> simp only [compiledAll] <;> omega

theorem compiled_context (d : Option Str) (c : SMap) (n : Node) : compiled (applyXmlnsContext d c n) = compiled n := by
  cases n with
  | element e =>
    obtain ⟨h1, h2, h3, h4⟩ := setNamespaceContext_fields e d (some c)
    rw [applyXmlnsContext, compiled_elem, compiled_elem, h2, h3]
  | _ => rfl

/-- the measure of a node of the arena: its children are reversed -/
def weight (n : Node) : Nat := compiled (ParseTree.flipElement n)

theorem weight_elem (e : Element) :
    weight (.element e) = 3 + e.attrs.entries.length + textPlaces e.children.reverse + compiledAll e.children := by
  show compiled (.element e.reverseChildren) = _
  rw [compiled_elem]
  simp only [ElementF.reverseChildren, compiled_reverse]

theorem append_weight {e e' : Element} {n : Node} (h : e.append n = .ok e') :
    weight (.element e') ≤ weight (.element e) + compiled n + (appendComp e n).count := by
  rw [appendComp_count]
  unfold ElementF.append at h
  obtain ⟨l, hl, h⟩ := bind_eq_ok.1 h
  cases h
  rw [cleanupTextNodes_eq] at hl
  cases hl
  have h1 : compiledAll (normalText (e.children ++ [applyXmlnsContext e.defaultNamespace e.ctx n])) ≤ _ := compiled_filter _ _
  rw [compiled_joinRuns, compiled_append, compiledAll, compiledAll, compiled_context] at h1
  have h2 := places_append e.children (applyXmlnsContext e.defaultNamespace e.ctx n)
  rw [weight_elem, weight_elem]
  simp only
  omega

/-! ## the arena -/

/-- the sum over an arena -/
def weights : List (Nat × PTNode) → Nat
  | [] => 0
  | y :: d => weight y.2.value + weights d

theorem weights_remove {d : List (Nat × PTNode)} {k : Nat} {v : PTNode} (h : LMap.get d k = some v) :
    weights (LMap.remove d k) + weight v.value = weights d := by
  induction d with
  | nil => cases h
  | cons y d ih =>
    obtain ⟨k', v'⟩ := y
    unfold LMap.get at h
    unfold LMap.remove
    split at h
    · rename_i hk
      cases h
      rw [if_pos hk, weights, Nat.add_comm]
    · rename_i hk
      have := ih h
      rw [if_neg hk, weights, weights]
      omega

theorem weights_insert {d : List (Nat × PTNode)} {k : Nat} {v : PTNode} (h : LMap.get d k = some v) (v' : PTNode) :
    weights (LMap.insert d k v') + weight v.value = weights d + weight v'.value := by
  induction d with
  | nil => cases h
  | cons y d ih =>
    obtain ⟨k', u⟩ := y
    unfold LMap.get at h
    unfold LMap.insert
    split at h
    · rename_i hk
      cases h
      rw [if_pos hk, weights, weights]
      simp only
      omega
    · rename_i hk
      have := ih h
      rw [if_neg hk, weights, weights]
      omega

theorem weights_add (d : List (Nat × PTNode)) (k : Nat) (v : PTNode) : weights (LMap.insert d k v) ≤ weights d + weight v.value := by
  induction d with
  | nil => simp [LMap.insert, weights]
  | cons y d ih =>
    obtain ⟨k', u⟩ := y
    unfold LMap.insert
    split <;> simp only [weights] <;> omega

theorem toDomLoop_weight (i : Nat) (d : List (Nat × PTNode)) {d' : List (Nat × PTNode)} (h : ParseTree.toDomLoop i d = .ok d') :
    weights d' ≤ weights d + (toDomLoopComp i d).count := by
  induction i generalizing d with
  | zero => cases h; exact Nat.le_refl _
  | succ i ih =>
    unfold ParseTree.toDomLoop at h
    obtain ⟨node, h1, h⟩ := bind_eq_ok.1 h
    obtain ⟨pi, h2, h⟩ := bind_eq_ok.1 h
    obtain ⟨p, h3, h⟩ := bind_eq_ok.1 h
    obtain ⟨e, h4, h⟩ := bind_eq_ok.1 h
    obtain ⟨e', h5, h⟩ := bind_eq_ok.1 h
    have g := ih _ h
    have h5' : (appendComp e (ParseTree.flipElement node.value)).out = .ok e' := by rw [comp_append]; exact h5
    unfold toDomLoopComp
    rw [count_bind_ok h1]
    simp only
    rw [count_bind_ok h2, count_bind_ok h3, count_bind_ok h4, count_bind_ok h5']
    simp only [count_free]
    have a1 := weights_remove (KissXml.unwrap_eq_ok.1 h1)
    have a2 := weights_insert (KissXml.unwrap_eq_ok.1 h3) ⟨.element e', p.parent⟩
    have a3 := append_weight h5
    rw [expect_element h4] at a2
    have a4 : weight node.value = compiled (ParseTree.flipElement node.value) := rfl
    simp only at a2
    omega

theorem toDom_weight {t : ParseTree} {e : Element} (h : t.toDom = .ok e) :
    compiled (.element e) ≤ weights t.data + (toDomComp t).count := by
  unfold ParseTree.toDom at h
  unfold toDomComp
  split at h
  · cases h
  · rename_i hc
    rw [if_neg hc]
    obtain ⟨d, h1, h⟩ := bind_eq_ok.1 h
    obtain ⟨r, h2, h⟩ := bind_eq_ok.1 h
    obtain ⟨e', h3, h⟩ := bind_eq_ok.1 h
    cases h
    have g := toDomLoop_weight _ _ h1
    have g2 := weights_remove (KissXml.unwrap_eq_ok.1 h2)
    rw [expect_element h3] at g2
    have g3 : weight (.element e') = compiled (.element e'.reverseChildren) := rfl
    rw [count_bind_ok (by rw [comp_toDomLoop]; exact h1)]
    omega

/-! ## the parser -/

theorem attrsComp_count {l : List (Str × Str)} (h : (checkAttrsComp l).out = .ok ()) : (checkAttrsComp l).count = l.length := by
  induction l with
  | nil => rfl
  | cons kv l ih =>
    unfold checkAttrsComp at h ⊢
    obtain ⟨_, h1, h2, h3⟩ := bind_split h
    obtain ⟨_, h4, h5, h6⟩ := bind_split h2
    rw [h3, h6, ih h5, List.length_cons]
    simp only [count_pattern, count_free]
    omega

theorem newComp_count {n : Str} {as : SMap} {x p : Option Str} {e : Element} (h : (newComp n as x p).out = .ok e) :
    (newComp n as x p).count = 1 + as.entries.length ∧ e.attrs = as ∧ e.children = [] := by
  have h' := h
  rw [comp_new, new_plain] at h'
  unfold newComp at h ⊢
  obtain ⟨_, h1, h2, h3⟩ := bind_split h
  obtain ⟨_, h4, h5, h6⟩ := bind_split h2
  obtain ⟨_, h7, h8, h9⟩ := bind_split h5
  rw [h3, h6, h9, attrsComp_count h7]
  refine ⟨by simp only [count_pattern, count_free]; omega, ?_⟩
  split at h'
  · cases h'
  · split at h' <;> cases h'
    exact ⟨rfl, rfl⟩

theorem newElementComp_weight {t x : Str} {i : Nat} {p : Option Element} {e : Element} (h : (parseNewElementComp t x i p).out = .ok e) :
    weight (.element e) ≤ 2 + (parseNewElementComp t x i p).count := by
  unfold parseNewElementComp at h ⊢
  cases hq : quoteAwareSplit t with
  | nil => rw [hq] at h; cases h
  | cons a l =>
    rw [hq] at h
    simp only at h ⊢
    obtain ⟨as, h1, h2, h3⟩ := bind_split h
    obtain ⟨n, h4, h5, h6⟩ := bind_split h2
    obtain ⟨⟨n', x', p'⟩, h7, h8, h9⟩ := bind_split h5
    obtain ⟨e0, h10, h11, h12⟩ := bind_split h8
    cases h11
    rw [h3, h6, h9, h12]
    obtain ⟨g1, g2, g3⟩ := newComp_count h10
    have f : ∀ d c, weight (.element (e0.setNamespaceContext d c)) = 3 + as.entries.length := fun d c => by
      obtain ⟨f1, f2, f3, f4⟩ := setNamespaceContext_fields e0 d c
      rw [weight_elem, f2, f3, g2, g3]
      rfl
    rw [g1, f]
    omega

theorem append_weights {t t' : ParseTree} {n : Node} (h : t.append n = .ok t') : weights t'.data ≤ weights t.data + weight n := by
  unfold ParseTree.append at h
  split at h
  · cases h
  · obtain ⟨a, -, h⟩ := bind_eq_ok.1 h
    cases h
    exact weights_add _ _ _

theorem push_weights {t t' : ParseTree} {e : Element} (h : t.push e = .ok t') : weights t'.data ≤ weights t.data + weight (.element e) := by
  unfold ParseTree.push at h
  split at h
  · cases h
    exact weights_add _ _ _
  · obtain ⟨a, -, h⟩ := bind_eq_ok.1 h
    cases h
    exact weights_add _ _ _

theorem handleTag_bang {x g : Str} {i : Nat} {t t' : ParseTree} (hg : startsWith g c%"<!" = true) (h : handleTag x i g t = .ok t') :
    weights t'.data ≤ weights t.data := by
  unfold handleTag at h
  split at h
  · simp only at h
    split at h
    · obtain ⟨b, -, h⟩ := bind_eq_ok.1 h
      obtain ⟨c, -, h⟩ := bind_eq_ok.1 h
      exact append_weights (mapErr_eq_ok.1 h)
    · split at h
      · obtain ⟨c, -, h⟩ := bind_eq_ok.1 h
        exact append_weights h
      · cases h
  · split at h
    · split at h
      · cases h
      · obtain ⟨b, -, h⟩ := bind_eq_ok.1 h
        obtain ⟨c, -, h⟩ := bind_eq_ok.1 h
        exact append_weights (mapErr_eq_ok.1 h)
    · obtain ⟨b, -, h⟩ := bind_eq_ok.1 h
      cases h

theorem handleTag_weight {x g : Str} {i : Nat} {t t' : ParseTree} (h : (handleTagComp x i g t).out = .ok t') :
    weights t'.data ≤ weights t.data + 1 + (handleTagComp x i g t).count := by
  unfold handleTagComp at h ⊢
  split
  · rename_i hg
    rw [if_pos hg] at h
    have := handleTag_bang hg h
    omega
  · rename_i hg
    rw [if_neg hg] at h
    obtain ⟨d, h1, h2, h3⟩ := bind_split h
    obtain ⟨_, h4, h5, h6⟩ := bind_split h2
    obtain ⟨_, h7, h8, h9⟩ := bind_split h5
    rw [h3, h6, h9, count_pattern]
    split at h8
    · rename_i hc
      rw [if_pos hc]
      obtain ⟨o, h10, h11, h12⟩ := bind_split h8
      cases o with
      | none => cases h11
      | some a =>
        simp only at h11
        split at h11
        · cases h11
        · rw [pop_data h11]
          omega
    · rename_i hc
      rw [if_neg hc]
      obtain ⟨o, h10, h11, h12⟩ := bind_split h8
      obtain ⟨e, h13, h14, h15⟩ := bind_split h11
      have g := newElementComp_weight h13
      rw [h12, h15]
      split at h14
      · have := append_weights (mapErr_eq_ok.1 h14)
        omega
      · have := push_weights h14
        omega

theorem elements_weight {x : Str} {b : Bool} {fuel : Nat} {sp : Nat × Nat} {t t' : ParseTree}
    (h : (elementLoopComp x b fuel sp t).out = .ok t') :
    weights t'.data ≤ weights t.data + (elementLoopComp x b fuel sp t).count := by
  induction fuel generalizing sp t with
  | zero => cases h
  | succ fuel ih =>
    unfold elementLoopComp at h ⊢
    obtain ⟨⟨s, e⟩, h1, h2, h3⟩ := bind_split h
    rw [h3]
    rcases s with _ | s
    · cases h2
      exact Nat.le_add_right _ _
    · rcases e with _ | e
      · cases h2
      · simp only at h2 ⊢
        split at h2
        · cases h2
        · rename_i hb
          rw [if_neg hb]
          obtain ⟨u, h4, h5, h6⟩ := bind_split h2
          obtain ⟨o, h7, h8, h9⟩ := bind_split h5
          obtain ⟨t1, h10, h11, h12⟩ := bind_split h8
          obtain ⟨g, h13, h14, h15⟩ := bind_split h11
          obtain ⟨t2, h16, h17, h18⟩ := bind_split h14
          rw [h6, h9, h12, h15, h18]
          have a1 := ih h17
          have a2 := handleTag_weight h16
          have a3 : (realTextComp u).count = 1 := rfl
          have a4 : weights t1.data ≤ weights t.data := by
            cases o with
            | none => cases h10; exact Nat.le_refl _
            | some c => exact append_weights (mapErr_eq_ok.1 h10)
          omega

/-- before the tag of the root its text is looked at, and the tag is checked -/
theorem prolog_weight {x : Str} {fuel : Nat} {st st' : Prolog} (h : (prologLoopComp x fuel st).out = .ok st') :
    2 ≤ (prologLoopComp x fuel st).count := by
  induction fuel generalizing st with
  | zero => cases h
  | succ fuel ih =>
    unfold prologLoopComp at h ⊢
    obtain ⟨⟨s, e⟩, h1, h2, h3⟩ := bind_split h
    rw [h3]
    rcases s with _ | s
    · cases h2
    · rcases e with _ | e
      · cases h2
      · simp only at h2 ⊢
        obtain ⟨u, h4, h5, h6⟩ := bind_split h2
        obtain ⟨o, h7, h8, h9⟩ := bind_split h5
        have a3 : (realTextComp u).count = 1 := rfl
        rw [h6, h9, a3]
        split at h8
        · cases h8
        · rename_i ho
          rw [if_neg ho]
          obtain ⟨g, h10, h11, h12⟩ := bind_split h8
          rw [h12]
          split at h11
          · rename_i hc
            rw [if_pos hc]
            split at h11
            · cases h11
            · rename_i hz
              rw [if_neg hz]
              obtain ⟨d, h13, h14, h15⟩ := bind_split h11
              have := ih h14
              omega
          · rename_i hc
            rw [if_neg hc]
            split at h11
            · rename_i hc
              rw [if_pos hc]
              obtain ⟨d, h13, h14, h15⟩ := bind_split h11
              have := ih h14
              omega
            · rename_i hc
              rw [if_neg hc]
              split at h11
              · rename_i hc
                rw [if_pos hc]
                obtain ⟨d, h13, h14, h15⟩ := bind_split h11
                have := ih h14
                omega
              · rename_i hc
                rw [if_neg hc]
                split at h11
                · rename_i hc
                  rw [if_pos hc]
                  have := ih h11
                  omega
                · rename_i hc
                  rw [if_neg hc]
                  split at h11
                  · cases h11
                  · rename_i hc
                    rw [if_neg hc]
                    obtain ⟨_, h13, h14, h15⟩ := bind_split h11
                    rw [h15, count_pattern]
                    omega

theorem parse_weight {x : Str} {d : Document} (h : parseStr x = .ok d) : compiled (.element d.root) ≤ (parseStrComp x).count := by
  rw [← comp_parse] at h
  unfold parseStrComp at h ⊢
  simp only at h ⊢
  obtain ⟨pro, h1, h, e1⟩ := bind_split h
  obtain ⟨rs, h2, h, e2⟩ := bind_split h
  obtain ⟨st, h3, h, e3⟩ := bind_split h
  obtain ⟨root, h4, h, e4⟩ := bind_split h
  obtain ⟨t0, h5, h, e5⟩ := bind_split h
  obtain ⟨t1, h6, h, e6⟩ := bind_split h
  obtain ⟨t2, h7, h, e7⟩ := bind_split h
  rw [e1, e2, e3, e4, e5, e6, e7]
  have a1 := prolog_weight h1
  have a2 := newElementComp_weight h4
  rw [out_free] at h5 h6
  have a3 := push_weights h5
  have a4 := pop_or_same h6
  have a5 := elements_weight h7
  rw [a4] at a5
  have a6 : weights ParseTree.new.data = 0 := rfl
  split at h
  · cases h
  · rename_i hc
    rw [if_neg hc]
    obtain ⟨r, h8, h, e8⟩ := bind_split h
    cases h
    rw [comp_toDom] at h8
    have a7 := toDom_weight h8
    rw [e8]
    show compiled (.element r) ≤ _
    omega

end KissXml
