import Verif.Proofs.Compile
/-!
# No more patterns than twice the rounds of the loops
-/
namespace KissXml
open KissXml.Spec Run

/-- two programs with the same results, step by step: `c` may be spent by the first, `c'` is left after the first step -/
theorem sim_bind {α β : Type} {r s : Run α} {f g : α → Run β} {c : Nat} (c' : Nat) (ho : r.out = s.out) (hc : r.count + c' ≤ 2 * s.count + c)
    (h : ∀ a, r.out = .ok a → (f a).count ≤ 2 * (g a).count + c') : (r >>= f).count ≤ 2 * (s >>= g).count + c := by
  cases hr : r.out with
  | ok a =>
    rw [count_bind_ok hr, count_bind_ok (ho ▸ hr)]
    have := h a hr
    omega
  | _ =>
    have h1 := count_le_bind s g
    have h2 : (r >>= f).count = r.count := by
      show (Run.bind r f).count = _
      unfold Run.bind
      rw [hr]
    omega

theorem sim_pay {a n m : Nat} (c : Nat) (h : a ≤ 2 * m + c) (hn : c ≤ 2 * n) : a ≤ 2 * (n + m) + 0 := by omega

theorem sim_same {a b c : Nat} (h : a = b) : a + c ≤ 2 * b + c := by omega

theorem pattern_bind {β : Type} (f : Unit → Run β) : (pattern >>= f).count = 1 + (f ()).count := rfl

theorem qas_length (b : Str) (q : Option Char) (s : Str) : (qasLoop b q s).length ≤ s.length + if b.isEmpty then 0 else 1 := by
  induction s generalizing b q with
  | nil =>
    unfold qasLoop
    split <;> simp
  | cons c s ih =>
    have h1 : ∀ q, (qasLoop (b ++ [c]) q s).length ≤ s.length + 1 := fun q => by
      have := ih (b ++ [c]) q
      simpa using this
    have h2 := ih [] none
    have h3 := ih b none
    cases q with
    | some q =>
      unfold qasLoop
      rw [List.length_cons]
      split
      · have := h1 none; omega
      · have := h1 (some q); omega
    | none =>
      unfold qasLoop
      rw [List.length_cons]
      split
      · have := h1 (some c); omega
      · split
        · split
          · rename_i hb
            rw [if_pos hb] at h3
            omega
          · simp only [List.isEmpty_nil, if_true, List.length_cons] at h2 ⊢
            omega
        · have := h1 none; omega

theorem join_length (l : List Str) : (joinLoop l).length ≤ l.length := by
  fun_induction joinLoop l <;> simp_all <;> omega

theorem attrs_length {x : Str} {i : Nat} {l : List Str} {m m' : SMap} (h : parseAttrs x i l m = .ok m') :
    m'.entries.length ≤ m.entries.length + l.length := by
  induction l generalizing m with
  | nil => cases h; simp
  | cons kv l ih =>
    obtain ⟨k, u, h1, h2⟩ := parseAttrs_cons.1 h
    have h3 := ih h2
    have h4 : (m.insert k u).entries.length ≤ m.entries.length + 1 := by
      exact insert_length _ _ _
    rw [List.length_cons]
    omega

theorem attrsComp_le (l : List (Str × Str)) : (checkAttrsComp l).count ≤ l.length := by
  induction l with
  | nil => exact Nat.le_refl _
  | cons kv l ih =>
    unfold checkAttrsComp
    rw [pattern_bind, List.length_cons]
    have : (free (checkAttrName kv.1 : R Unit) >>= fun _ => checkAttrsComp l).count ≤ l.length := count_free_le fun _ _ => ih
    omega

theorem newComp_le (n : Str) (as : SMap) (x p : Option Str) : (newComp n as x p).count ≤ 1 + as.entries.length := by
  unfold newComp
  rw [pattern_bind]
  refine Nat.add_le_add_left ?_ 1
  refine count_free_le fun _ _ => ?_
  refine Nat.le_trans (count_bind_le (b := 0) fun _ _ => Nat.le_refl _) ?_
  exact attrsComp_le _

theorem newElement_sim (t x : Str) (i : Nat) (p : Option Element) :
    (parseNewElementComp t x i p).count ≤ 2 * (parseNewElementRun t x i p).count + 0 := by
  unfold parseNewElementComp parseNewElementRun
  rw [count_rounds_bind]
  cases hq : quoteAwareSplit t with
  | nil => exact Nat.zero_le _
  | cons a l =>
    have h1 := qas_length [] none t
    rw [show qasLoop [] none t = a :: l from hq] at h1
    simp only [List.isEmpty_nil, if_true, List.length_cons] at h1
    simp only
    refine sim_pay (2 * t.length) ?_ (Nat.le_refl _)
    refine sim_bind (2 * t.length) (out_attrs ..).symm (by simp only [count_free]; omega) fun as h2 => ?_
    have h3 : as.entries.length ≤ l.length := by
      have := attrs_length h2
      simp only [joinSpacedAttributes, List.drop_succ_cons, List.drop_zero] at this
      have h4 := join_length l
      have h5 : SMap.empty.entries.length = 0 := rfl
      omega
    refine sim_bind (2 * t.length) rfl (sim_same rfl) fun n _ => ?_
    refine sim_bind (2 * t.length) rfl (sim_same rfl) fun q _ => ?_
    refine sim_bind 0 (comp_new ..) ?_ fun e _ => Nat.zero_le _
    exact Nat.le_trans (newComp_le _ _ _ _) (by omega)

theorem append_sim (e : Element) (n : Node) : (appendComp e n).count ≤ 2 * (appendRun e n).count + 0 := by
  rw [appendComp_count, appendRun_count]
  have := List.countP_le_length (p := Node.isText) (l := joinRuns (e.children ++ [applyXmlnsContext e.defaultNamespace e.ctx n]))
  omega

theorem toDomLoop_sim (i : Nat) (d : List (Nat × PTNode)) : (toDomLoopComp i d).count ≤ 2 * (toDomLoopRun i d).count + 0 := by
  induction i generalizing d with
  | zero => exact Nat.le_refl _
  | succ i ih =>
    unfold toDomLoopComp toDomLoopRun
    rw [count_rounds_bind]
    refine sim_pay 0 ?_ (Nat.zero_le _)
    refine sim_bind 0 rfl (by simp) fun node _ => ?_
    refine sim_bind 0 rfl (by simp) fun pi _ => ?_
    refine sim_bind 0 rfl (by simp) fun p _ => ?_
    refine sim_bind 0 rfl (by simp) fun e _ => ?_
    exact sim_bind 0 (by rw [comp_append, out_append]) (append_sim _ _) fun e' _ => ih _

theorem toDom_sim (t : ParseTree) : (toDomComp t).count ≤ 2 * (toDomRun t).count + 0 := by
  unfold toDomComp toDomRun
  split
  · exact Nat.zero_le _
  · exact sim_bind 0 (by rw [comp_toDomLoop, out_toDomLoop]) (toDomLoop_sim _ _) fun d _ =>
      sim_bind 0 rfl (by simp) fun r _ => sim_bind 0 rfl (by simp) fun e _ => Nat.zero_le _

theorem findC_pos {p s : Str} {i n : Nat} (hp : p ≠ []) (h : findC p s = (some i, n)) : 1 ≤ n := by
  cases s with
  | nil =>
    unfold findC at h
    cases p with
    | nil => exact absurd rfl hp
    | cons c p => cases h
  | cons c s =>
    unfold findC at h
    split at h
    · cases h; omega
    · have := congrArg Prod.snd h
      simp only at this
      omega

theorem nextTag_pos {x : Str} {i s : Nat} {e : Option Nat} (h : nextTag x i = some (some s, e)) : 1 ≤ (nextTagRun x i).count := by
  rw [← nextTagC_same] at h
  unfold nextTagRun
  cases hc : nextTagC x i with
  | none => rw [hc] at h; cases h
  | some rn =>
    obtain ⟨r, n⟩ := rn
    rw [hc] at h
    cases h
    show 1 ≤ n
    unfold nextTagC at hc
    obtain ⟨tail, h1, h2⟩ := Option.bind_eq_some_iff.1 hc
    split at h2
    · cases h2
    · rename_i j m hf
      have := findC_pos (by simp) hf
      obtain ⟨sub, h3, h4⟩ := Option.bind_eq_some_iff.1 h2
      split at h4
      · cases h4; omega
      · split at h4
        · obtain ⟨a, -, h5⟩ := Option.map_eq_some_iff.1 h4; cases h5; omega
        · split at h4
          · cases h4; omega
          · split at h4
            · obtain ⟨a, -, h5⟩ := Option.map_eq_some_iff.1 h4; cases h5; omega
            · obtain ⟨a, -, h5⟩ := Option.map_eq_some_iff.1 h4; cases h5; omega

theorem handleTag_sim (x : Str) (i : Nat) (g : Str) (t : ParseTree) : (handleTagComp x i g t).count ≤ 2 * (handleTagRun x i g t).count + 1 := by
  unfold handleTagComp handleTagRun
  cases h1 : startsWith g c%"<!" with
  | true => exact Nat.zero_le _
  | false =>
    rw [if_neg (by decide)]
    cases h2 : startsWith g c%"</" with
    | true =>
      simp only [Bool.false_or, if_true]
      refine Nat.le_trans (m := 1) ?_ (Nat.le_add_left _ _)
      refine count_free_le fun d _ => ?_
      rw [pattern_bind]
      refine Nat.add_le_add_left (m := 0) ?_ 1
      refine count_free_le fun _ _ => count_free_le fun o _ => ?_
      cases o with
      | none => exact Nat.le_refl _
      | some a => simp only; split <;> exact Nat.le_refl _
    | false =>
      simp only [Bool.false_or, Bool.false_eq_true, if_false]
      refine sim_bind 1 rfl (by simp) fun d _ => ?_
      rw [pattern_bind, Nat.add_comm]
      refine Nat.succ_le_succ (m := 2 * _ + 0) ?_
      refine sim_bind (c := 0) 0 rfl (by simp) fun _ _ => ?_
      refine sim_bind 0 rfl (by simp) fun o _ => ?_
      refine sim_bind 0 (by rw [comp_newElement, out_newElement]) (newElement_sim _ _ _ _) fun e _ => ?_
      split <;> exact Nat.le_refl _

theorem elements_sim (x : Str) (b : Bool) (fuel : Nat) (sp : Nat × Nat) (t : ParseTree) :
    (elementLoopComp x b fuel sp t).count ≤ 2 * (elementLoopRun x b fuel sp t).count + 0 := by
  induction fuel generalizing sp t with
  | zero => exact Nat.le_refl _
  | succ fuel ih =>
    unfold elementLoopComp elementLoopRun
    cases hn : nextTag x sp.2 with
    | none => exact Nat.zero_le _
    | some r =>
      have h1 : (nextTagRun x sp.2).out = .ok r := by rw [out_nextTag, hn]; rfl
      rw [count_bind_ok (a := r) rfl, count_bind_ok h1]
      rcases r with ⟨_ | s, _ | e⟩
      · exact Nat.zero_le _
      · exact Nat.zero_le _
      · exact Nat.zero_le _
      · have h2 := nextTag_pos hn
        simp only
        rw [count_free, Nat.zero_add]
        refine sim_pay 2 ?_ (by omega)
        split
        · exact Nat.zero_le _
        · refine sim_bind 2 rfl (by simp) fun u _ => ?_
          refine sim_bind 1 (by rw [comp_realText, out_realText]) (by show 1 + 1 ≤ _; omega) fun o _ => ?_
          refine sim_bind 1 rfl (by cases o <;> simp) fun t1 _ => ?_
          refine sim_bind 1 rfl (by simp) fun g _ => ?_
          exact sim_bind 0 (by rw [comp_handleTag, out_handleTag]) (handleTag_sim _ _ _ _) fun t2 _ => ih _ _

theorem prolog_sim (x : Str) (fuel : Nat) (st : Prolog) :
    (prologLoopComp x fuel st).count ≤ 2 * (prologLoopRun x fuel st).count + 0 := by
  induction fuel generalizing st with
  | zero => exact Nat.le_refl _
  | succ fuel ih =>
    unfold prologLoopComp prologLoopRun
    cases hn : nextTag x st.tagSpan.2 with
    | none => exact Nat.zero_le _
    | some r =>
      have h1 : (nextTagRun x st.tagSpan.2).out = .ok r := by rw [out_nextTag, hn]; rfl
      rw [count_bind_ok (a := r) rfl, count_bind_ok h1]
      rcases r with ⟨_ | s, _ | e⟩
      · exact Nat.zero_le _
      · exact Nat.zero_le _
      · exact Nat.zero_le _
      · have h2 := nextTag_pos hn
        simp only
        rw [count_free, Nat.zero_add]
        refine sim_pay 2 ?_ (by omega)
        refine sim_bind 2 rfl (by simp) fun u _ => ?_
        refine sim_bind 1 (by rw [comp_realText, out_realText]) (by show 1 + 1 ≤ _; omega) fun o _ => ?_
        have ih1 : ∀ st, (prologLoopComp x fuel st).count ≤ 2 * (prologLoopRun x fuel st).count + 1 :=
          fun st => Nat.le_trans (ih st) (Nat.add_le_add_left (Nat.zero_le 1) _)
        split
        · exact Nat.zero_le _
        · refine sim_bind 1 rfl (by simp) fun g _ => ?_
          split
          · split
            · exact Nat.zero_le _
            · exact sim_bind 1 rfl (by simp) fun d _ => ih1 _
          · split
            · exact sim_bind 1 rfl (by simp) fun d _ => ih1 _
            · split
              · exact sim_bind 1 rfl (by simp) fun d _ => ih1 _
              · split
                · exact ih1 _
                · split
                  · exact Nat.zero_le _
                  · rw [pattern_bind, Nat.add_comm]
                    refine Nat.succ_le_succ (m := 2 * _ + 0) ?_
                    exact sim_bind (c := 0) 0 rfl (by simp) fun _ _ => Nat.zero_le _

theorem parse_sim (x : Str) : (parseStrComp x).count ≤ 2 * (parseStrRun x).count := by
  show _ ≤ 2 * (parseStrRun x).count + 0
  unfold parseStrComp parseStrRun
  simp only
  refine sim_bind 0 (by rw [comp_prolog, out_prolog]) (prolog_sim _ _ _) fun pro _ => ?_
  refine sim_bind 0 rfl (by simp) fun rs _ => ?_
  refine sim_bind 0 rfl (by simp) fun st _ => ?_
  refine sim_bind 0 (by rw [comp_newElement, out_newElement]) (newElement_sim _ _ _ _) fun e _ => ?_
  refine sim_bind 0 rfl (by simp) fun t _ => ?_
  refine sim_bind 0 rfl (by simp) fun t _ => ?_
  refine sim_bind 0 (by rw [comp_elements, out_elements]) (elements_sim _ _ _ _ _) fun t _ => ?_
  split
  · exact Nat.zero_le _
  · exact sim_bind 0 (by rw [comp_toDom, out_toDom]) (toDom_sim _) fun r _ => Nat.zero_le _

end KissXml
