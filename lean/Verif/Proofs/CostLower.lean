import Verif.Proofs.CostUpper
import Verif.Spec.Cost
/-!
# The parser needs at least so many rounds
-/
namespace KissXml
open KissXml.Spec Run

theorem squares_elem (e : Element) : squares (.element e) = e.children.length * e.children.length + squaresAll e.children := by
  obtain ⟨n, cs, as, x, p, c⟩ := e
  rw [squares]

theorem squares_append (a b : List Node) : squaresAll (a ++ b) = squaresAll a + squaresAll b := by
  induction a with
  | nil => simp [squaresAll]
  | cons n a ih => rw [List.cons_append, squaresAll, squaresAll, ih, Nat.add_assoc]

theorem squares_reverse (a : List Node) : squaresAll a.reverse = squaresAll a := by
  induction a with
  | nil => rfl
  | cons n a ih => rw [List.reverse_cons, squares_append, ih, squaresAll, squaresAll, squaresAll]; omega

theorem squares_consJoin (n : Node) (l : List Node) : squaresAll (consJoin n l) = squares n + squaresAll l := by
  unfold consJoin
  split
  · simp [squaresAll, squares]
  · rw [squaresAll]

theorem squares_joinRuns (l : List Node) : squaresAll (joinRuns l) = squaresAll l := by
  induction l with
  | nil => rfl
  | cons n l ih => rw [joinRuns, squares_consJoin, ih, squaresAll]

theorem squares_filter (p : Node → Bool) (l : List Node) : squaresAll (l.filter p) ≤ squaresAll l := by
  induction l with
  | nil => simp
  | cons n l ih =>
    rw [List.filter_cons]
    split <;> simp only [squaresAll] <;> omega

theorem squares_normal (l : List Node) : squaresAll (normalText l) ≤ squaresAll l :=
  Nat.le_trans (squares_filter _ _) (Nat.le_of_eq (squares_joinRuns l))

theorem squares_context (d : Option Str) (c : SMap) (n : Node) : squares (applyXmlnsContext d c n) = squares n := by
  cases n with
  | element e =>
    obtain ⟨h1, h2, h3, h4⟩ := setNamespaceContext_fields e d (some c)
    rw [applyXmlnsContext, squares_elem, squares_elem]
    rw [h2]
  | _ => rfl

theorem squares_flip (n : Node) : squares (ParseTree.flipElement n) = squares n := by
  cases n with
  | element e => rw [ParseTree.flipElement, squares_elem, squares_elem]; simp [ElementF.reverseChildren, squares_reverse]
  | _ => rfl

/-- the sum over an arena -/
def potential : List (Nat × PTNode) → Nat
  | [] => 0
  | y :: d => squares y.2.value + potential d

theorem potential_remove {d : List (Nat × PTNode)} {k : Nat} {v : PTNode} (h : LMap.get d k = some v) :
    potential (LMap.remove d k) + squares v.value = potential d := by
  induction d with
  | nil => cases h
  | cons y d ih =>
    obtain ⟨k', v'⟩ := y
    unfold LMap.get at h
    unfold LMap.remove
    split at h
    · rename_i hk
      cases h
      rw [if_pos hk, potential, Nat.add_comm]
    · rename_i hk
      have := ih h
      rw [if_neg hk, potential, potential]
      omega

theorem potential_insert {d : List (Nat × PTNode)} {k : Nat} {v : PTNode} (h : LMap.get d k = some v) (v' : PTNode) :
    potential (LMap.insert d k v') + squares v.value = potential d + squares v'.value := by
  induction d with
  | nil => cases h
  | cons y d ih =>
    obtain ⟨k', u⟩ := y
    unfold LMap.get at h
    unfold LMap.insert
    split at h
    · rename_i hk
      cases h
      rw [if_pos hk, potential, potential]
      simp only
      omega
    · rename_i hk
      have := ih h
      rw [if_neg hk, potential, potential]
      omega

theorem potential_get {d : List (Nat × PTNode)} {k : Nat} {v : PTNode} (h : LMap.get d k = some v) : squares v.value ≤ potential d := by
  have := potential_remove h
  omega

theorem potential_zero {K : Nat} {d : List (Nat × PTNode)} (h : AllFit K 0 d) : potential d = 0 := by
  induction d with
  | nil => rfl
  | cons y d ih =>
    rw [potential, ih fun z hz => h z (List.mem_cons_of_mem _ hz)]
    have := h y (List.mem_cons_self ..)
    cases hv : y.2.value with
    | element e =>
      rw [hv] at this
      have hc : e.children = [] := List.eq_nil_of_length_eq_zero (Nat.le_zero.1 this.1)
      rw [squares_elem, hc]
      rfl
    | _ => rfl

theorem square_step {l j k : Nat} (h1 : k ≤ j) (h2 : j ≤ l + 1) : k * k ≤ l * l + l + j := by
  have h3 : k * k ≤ j * j := Nat.mul_le_mul h1 h1
  rcases Nat.lt_or_ge l j with h | h
  · have : j = l + 1 := by omega
    subst this
    have e1 : (l + 1) * (l + 1) = l * l + l + (l + 1) := by simp only [Nat.add_mul, Nat.mul_add, Nat.mul_one, Nat.one_mul]
    omega
  · have := Nat.mul_le_mul h h
    omega

theorem append_squares {e e' : Element} {n : Node} (h : e.append n = .ok e') :
    squares (.element e') ≤ squares (.element e) + squares n + (appendRun e n).count := by
  rw [appendRun_count]
  unfold ElementF.append at h
  obtain ⟨l, hl, h⟩ := bind_eq_ok.1 h
  cases h
  rw [cleanupTextNodes_eq] at hl
  cases hl
  have h1 := squares_normal (e.children ++ [applyXmlnsContext e.defaultNamespace e.ctx n])
  rw [squares_append, squaresAll, squaresAll, squares_context] at h1
  have h2 := joinRuns_length (e.children ++ [applyXmlnsContext e.defaultNamespace e.ctx n])
  rw [List.length_append, List.length_singleton] at h2
  have h3 : (normalText (e.children ++ [applyXmlnsContext e.defaultNamespace e.ctx n])).length ≤
    (joinRuns (e.children ++ [applyXmlnsContext e.defaultNamespace e.ctx n])).length := List.length_filter_le _ _
  have h4 := square_step h3 h2
  rw [squares_elem, squares_elem]
  simp only
  omega

theorem toDomLoop_squares (i : Nat) (d : List (Nat × PTNode)) {d' : List (Nat × PTNode)} (h : ParseTree.toDomLoop i d = .ok d') :
    potential d' ≤ potential d + (toDomLoopRun i d).count := by
  induction i generalizing d with
  | zero => cases h; simp [toDomLoopRun]
  | succ i ih =>
    unfold ParseTree.toDomLoop at h
    obtain ⟨node, h1, h⟩ := bind_eq_ok.1 h
    obtain ⟨pi, h2, h⟩ := bind_eq_ok.1 h
    obtain ⟨p, h3, h⟩ := bind_eq_ok.1 h
    obtain ⟨e, h4, h⟩ := bind_eq_ok.1 h
    obtain ⟨e', h5, h⟩ := bind_eq_ok.1 h
    have g := ih _ h
    have h5' : (appendRun e (ParseTree.flipElement node.value)).out = .ok e' := by rw [out_append]; exact h5
    unfold toDomLoopRun
    rw [count_rounds_bind, count_bind_ok h1]
    simp only
    rw [count_bind_ok h2, count_bind_ok h3, count_bind_ok h4, count_bind_ok h5']
    simp only [count_free]
    have a1 := potential_remove (KissXml.unwrap_eq_ok.1 h1)
    have a2 := potential_insert (KissXml.unwrap_eq_ok.1 h3) ⟨.element e', p.parent⟩
    have a3 := append_squares h5
    rw [expect_element h4] at a2
    rw [squares_flip] at a3
    simp only at a2
    omega

theorem toDom_squares {K : Nat} {t : ParseTree} {e : Element} (ht : AllFit K 0 t.data) (h : t.toDom = .ok e) :
    squares (.element e) ≤ (toDomRun t).count := by
  unfold ParseTree.toDom at h
  unfold toDomRun
  split at h
  · cases h
  · rename_i hc
    rw [if_neg hc]
    obtain ⟨d, h1, h⟩ := bind_eq_ok.1 h
    obtain ⟨r, h2, h⟩ := bind_eq_ok.1 h
    obtain ⟨e', h3, h⟩ := bind_eq_ok.1 h
    cases h
    have g := toDomLoop_squares _ _ h1
    rw [potential_zero ht] at g
    have g2 := potential_get (KissXml.unwrap_eq_ok.1 h2)
    rw [expect_element h3] at g2
    have g3 := squares_flip (.element e')
    rw [ParseTree.flipElement] at g3
    rw [count_bind_ok (by rw [out_toDomLoop]; exact h1)]
    omega

theorem count_le_bind {α β : Type} (r : Run α) (f : α → Run β) : r.count ≤ (r >>= f).count := by
  cases hr : r.out with
  | ok a => rw [count_bind_ok hr]; omega
  | _ => show _ ≤ (Run.bind r f).count; unfold Run.bind; rw [hr]

theorem rest_le_bind {α β : Type} {r : Run α} {f : α → Run β} {a : α} (h : r.out = .ok a) : (f a).count ≤ (r >>= f).count := by
  rw [count_bind_ok h]; omega

theorem parse_squares {x : Str} {d : Document} (h : parseStr x = .ok d) : squares (.element d.root) ≤ (parseStrRun x).count := by
  unfold parseStr at h
  obtain ⟨pro, h1, h⟩ := bind_eq_ok.1 h
  obtain ⟨rs, h2, h⟩ := bind_eq_ok.1 h
  obtain ⟨st, h3, h⟩ := bind_eq_ok.1 h
  obtain ⟨root, h4, h⟩ := bind_eq_ok.1 h
  obtain ⟨t0, h5, h⟩ := bind_eq_ok.1 h
  obtain ⟨t1, h6, h⟩ := bind_eq_ok.1 h
  obtain ⟨t2, h7, h⟩ := bind_eq_ok.1 h
  obtain ⟨hs1, hs2⟩ := prolog_span _ _ _ h1
  obtain ⟨attrs, n0, n1, x1, q, hN⟩ := parseNewElement_ok h4
  obtain ⟨f1, f2⟩ := newElem_fit hN
  simp only [Option.map_none, optLen, Nat.add_zero] at f2
  have g2 := strip_bytes (KissXml.unwrap_eq_ok.1 h3)
  have g3 := slice_bytes h2
  have fit0 := push_fit (K := blen st) (c := 0) h5 (fun y hy => by cases hy) ⟨by rw [f1]; exact Nat.le_refl _, f2⟩
  have hd := pop_or_same h6
  have fit1 : AllFit pro.tagSpan.2 0 t1.data := by rw [hd]; exact allFit_mono (by omega) (Nat.le_refl _) fit0.1
  have len1 : t1.data.length ≤ pro.tagSpan.2 := by
    rw [hd]
    have := fit0.2
    simp only [ParseTree.new, List.length_nil] at this
    omega
  obtain ⟨e1, -⟩ := elementLoop_fit _ _ _ hs2 fit1 len1 h7
  split at h
  · cases h
  · rename_i hc
    obtain ⟨r, h8, h⟩ := bind_eq_ok.1 h
    cases h
    refine Nat.le_trans (toDom_squares e1 h8) ?_
    unfold parseStrRun
    refine Nat.le_trans ?_ (rest_le_bind (by rw [out_prolog]; exact h1))
    refine Nat.le_trans ?_ (rest_le_bind h2)
    refine Nat.le_trans ?_ (rest_le_bind h3)
    refine Nat.le_trans ?_ (rest_le_bind (by rw [out_newElement]; exact h4))
    refine Nat.le_trans ?_ (rest_le_bind h5)
    refine Nat.le_trans ?_ (rest_le_bind h6)
    refine Nat.le_trans ?_ (rest_le_bind (by rw [out_elements]; exact h7))
    rw [if_neg hc]
    exact count_le_bind _ _

/-! ## a text between two tags -/

/-- `<a>`, a text, `</a>` -/
def wrapped (t : Str) : Str := c%"<a>" ++ (t ++ c%"</a>")

theorem wrapped_slice (t : Str) : sliceB 0 3 (wrapped t) = some c%"<a>" := sliceB_eq_some.2 ⟨[], t ++ c%"</a>", rfl, rfl, rfl⟩

theorem wrapped_prolog (t : Str) (n : Nat) : prologLoop (wrapped t) (n + 1) ⟨none, [], 0, (0, 0)⟩ = .ok ⟨none, [], 0, (0, 3)⟩ := by
  have h1 : nextTag (wrapped t) 0 = some (some 0, some 3) := by
    have := nextTag_some (pre := []) (t := []) (sub := wrapped t) (by simp) ⟨_, rfl⟩
    exact this
  have h2 : sliceB 0 0 (wrapped t) = some [] := sliceB_eq_some.2 ⟨[], wrapped t, rfl, rfl, rfl⟩
  unfold prologLoop
  simp only [h1, Res.unwrap, Res.bind_ok, h2, wrapped_slice]
  rfl

theorem wrapped_root (t : Str) : parseNewElement c%"a" (wrapped t) 0 none =
    .ok ⟨c%"a", [], SMap.empty, none, none, SMap.empty⟩ := by
  rfl

theorem wrapped_le {t : Str} (h1 : '<' ∉ t) (h2 : t.all isWs = false) : (unescapeRun t).count ≤ (parseStrRun (wrapped t)).count := by
  unfold parseStrRun
  refine Nat.le_trans ?_ (rest_le_bind (by rw [out_prolog]; exact wrapped_prolog t _))
  refine Nat.le_trans ?_ (rest_le_bind (a := c%"<a>") (congrArg Res.unwrap (wrapped_slice t)))
  refine Nat.le_trans ?_ (rest_le_bind (a := c%"a") rfl)
  refine Nat.le_trans ?_ (rest_le_bind (by rw [out_newElement]; exact wrapped_root t))
  refine Nat.le_trans ?_ (rest_le_bind rfl)
  refine Nat.le_trans ?_ (rest_le_bind rfl)
  refine Nat.le_trans ?_ (count_le_bind _ _)
  unfold elementLoopRun
  have h3 : nextTag (wrapped t) 3 = some (some (3 + blen t), some (4 + (3 + blen t))) := by
    have := nextTag_some (pre := c%"<a>") (t := t) (sub := c%"</a>") h1 ⟨_, rfl⟩
    exact this
  refine Nat.le_trans ?_ (rest_le_bind (by rw [out_nextTag]; exact congrArg Res.unwrap h3))
  simp only
  have h4 : sliceB 3 (3 + blen t) (wrapped t) = some t := sliceB_eq_some.2 ⟨c%"<a>", c%"</a>", rfl, rfl, rfl⟩
  rw [if_neg (by decide)]
  refine Nat.le_trans ?_ (rest_le_bind (r := free (Res.unwrap (sliceB 3 (3 + blen t) (wrapped t)))) (a := t) (by rw [h4]; rfl))
  refine Nat.le_trans ?_ (count_le_bind _ _)
  unfold realTextRun
  rw [if_neg (by rw [h2]; decide)]
  exact count_le_bind _ _

end KissXml
