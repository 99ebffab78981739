import Verif.Proofs.CostSame
import Verif.Proofs.SizeNs
/-!
# An upper bound for the rounds of the parser
-/
namespace KissXml
open Run KissXml.Spec

/-! ## counts of compositions -/

theorem count_bind_ok {α β : Type} {r : Run α} {f : α → Run β} {a : α} (h : r.out = .ok a) : (r >>= f).count = r.count + (f a).count := by
  show (Run.bind r f).count = _
  unfold Run.bind
  rw [h]

theorem count_bind_le {α β : Type} {r : Run α} {f : α → Run β} {b : Nat} (h : ∀ a, r.out = .ok a → (f a).count ≤ b) :
    (r >>= f).count ≤ r.count + b := by
  show (Run.bind r f).count ≤ _
  unfold Run.bind
  cases hr : r.out with
  | ok a => have := h a hr; simp only; omega
  | err e => simp
  | panic => simp
  | diverge => simp

@[simp] theorem count_pure {α : Type} (a : α) : (pure a : Run α).count = 0 := rfl
@[simp] theorem count_free {α : Type} (r : R α) : (free r).count = 0 := rfl
@[simp] theorem count_rounds (n : Nat) : (rounds n).count = n := rfl

theorem count_free_le {α β : Type} {r : R α} {f : α → Run β} {b : Nat} (h : ∀ a, r = .ok a → (f a).count ≤ b) :
    (free r >>= f).count ≤ b := by
  have := count_bind_le (r := free r) (f := f) (b := b) h
  simpa using this

theorem count_rounds_bind {β : Type} (n : Nat) (f : Unit → Run β) : (rounds n >>= f).count = n + (f ()).count := rfl

/-! ## pieces -/

theorem tri_mono {a b : Nat} (h : a ≤ b) : a * (a + 1) ≤ b * (b + 1) := Nat.mul_le_mul h (by omega)

theorem tri_add (a b : Nat) : a * (a + 1) + b * (b + 1) ≤ (a + b) * (a + b + 1) := by
  have h1 : a * (a + 1) ≤ a * (a + b + 1) := Nat.mul_le_mul_left _ (by omega)
  have h2 : b * (b + 1) ≤ b * (a + b + 1) := Nat.mul_le_mul_left _ (by omega)
  rw [Nat.add_mul]
  omega

theorem unescapeRun_le (s : Str) : 2 * (unescapeRun s).count ≤ blen s * (blen s + 1) := by
  have := (unescapeLoopC_le (ε := Err) (blen s + 1) [] s).1
  exact Nat.le_trans this (tri_mono (length_le_blen s))

theorem realTextRun_le (s : Str) : 2 * (realTextRun s).count ≤ blen s * (blen s + 1) := by
  unfold realTextRun
  split
  · simp
  · have h1 := unescapeRun_le s
    have h2 := count_bind_le (r := unescapeRun s) (f := fun s => (pure (some s) : Run (Option Str))) (b := 0) (fun _ _ => Nat.le_refl _)
    omega

theorem parseAttrsRun_le (x : Str) (i : Nat) (l : List Str) (m : SMap) :
    2 * (parseAttrsRun x i l m).count ≤ total l * (total l + 1) := by
  induction l generalizing m with
  | nil => simp [parseAttrsRun]
  | cons kv l ih =>
    have ht : total (kv :: l) = blen kv + total l := by simp [total]
    rw [ht]
    suffices h : (parseAttrsRun x i (kv :: l) m).count ≤ (blen kv * (blen kv + 1) + total l * (total l + 1)) / 2 by
      have := tri_add (blen kv) (total l)
      omega
    unfold parseAttrsRun
    split
    · simp
    · refine count_free_le fun kv' hkv => ?_
      obtain ⟨k, v⟩ := kv'
      have hv : blen v ≤ blen kv := by
        obtain ⟨hk, -⟩ := splitOnce_eq_some.1 (KissXml.unwrap_eq_ok.1 hkv)
        rw [hk]; simp only [blen_append, blen_cons]; omega
      simp only
      split
      · simp
      · split
        · simp
        · refine count_free_le fun v' hv' => ?_
          have hv2 : blen v' ≤ blen kv := by
            obtain ⟨a, b, e, -, -⟩ := sliceB_eq_some.1 (KissXml.unwrap_eq_ok.1 hv')
            have := congrArg blen e
            simp only [blen_append] at this
            omega
          have h1 := unescapeRun_le v'
          have h2 := tri_mono hv2
          have h3 := count_bind_le (r := unescapeRun v') (f := fun u => parseAttrsRun x i l (m.insert k u))
            (b := total l * (total l + 1) / 2) (fun u _ => by have := ih (m.insert k u); omega)
          omega

theorem insert_length {κ ν : Type} [DecidableEq κ] (l : List (κ × ν)) (k : κ) (v : ν) : (LMap.insert l k v).length ≤ l.length + 1 := by
  induction l with
  | nil => simp [LMap.insert]
  | cons a l ih =>
    unfold LMap.insert
    split
    · simp
    · simp only [List.length_cons]; omega

theorem merged_length (l : List (Str × Str)) : ∀ m : SMap,
    (l.foldl (fun m kv => if m.containsKey kv.1 then m else m.insert kv.1 kv.2) m).len ≤ m.len + l.length := by
  induction l with
  | nil => intro m; simp
  | cons a l ih =>
    intro m
    rw [List.foldl_cons]
    refine Nat.le_trans (ih _) ?_
    split
    · simp only [List.length_cons]; omega
    · have := insert_length m.entries a.1 a.2
      simp only [SMap.len, SMap.insert, List.length_cons] at this ⊢
      omega

theorem fromAttrs_length (l : List (Str × Str)) : ∀ m : SMap,
    (l.foldl (fun m kv => if startsWith kv.1 c%"xmlns:" then m.insert (kv.1.drop 6) kv.2 else m) m).len ≤ m.len + l.length := by
  induction l with
  | nil => intro m; simp
  | cons a l ih =>
    intro m
    rw [List.foldl_cons]
    refine Nat.le_trans (ih _) ?_
    split
    · have := insert_length m.entries (a.1.drop 6) a.2
      simp only [SMap.len, SMap.insert, List.length_cons] at this ⊢
      omega
    · simp only [List.length_cons]; omega

/-- prefixes of the parent -/
def optLen : Option SMap → Nat
  | none => 0
  | some m => m.len

theorem context_length (e : Element) (d : Option Str) (ps : Option SMap) : (e.setNamespaceContext d ps).ctx.len ≤ e.ctx.len + optLen ps := by
  have step1 : ∀ e1 : Element, e1.ctx = e.ctx →
      (match (generalizing := false) ps with
        | none => e1
        | some ps => { e1 with ctx := ps.entries.foldl (fun m kv => if m.containsKey kv.1 then m else m.insert kv.1 kv.2) e1.ctx } : Element).ctx.len
      ≤ e.ctx.len + optLen ps := by
    intro e1 h1
    cases ps with
    | none => rw [h1]; exact Nat.le_refl _
    | some c => simp only [h1]; exact merged_length _ _
  have step2 : ∀ (e2 : Element) (b : Nat), e2.ctx.len ≤ b →
      (if e2.xmlns.isNone then match e2.pfx with | none => e2 | some p => { e2 with xmlns := e2.ctx.get p } else e2 : Element).ctx.len ≤ b := by
    intro e2 b h2
    split
    · cases e2.pfx with
      | none => exact h2
      | some p => exact h2
    · exact h2
  unfold ElementF.setNamespaceContext
  refine step2 _ _ (step1 _ ?_)
  cases e.pfx with
  | some _ => rfl
  | none =>
    cases e.defaultNamespace with
    | some _ => rfl
    | none => rfl

theorem entryBytes_length (l : List (Str × Str)) : l.length ≤ entryBytes l := by
  induction l with
  | nil => simp
  | cons a l ih => simp only [entryBytes, List.map_cons, List.sum_cons, attrBytes, List.length_cons] at ih ⊢; omega

theorem newElem_fit {t : Str} {p : Option Element} {attrs : SMap} {n0 n : Str} {x q : Option Str} {e : Element}
    (h : NewElem t p attrs n0 n x q e) : e.children = [] ∧ e.ctx.len ≤ blen t + optLen (p.map ElementF.ctx) := by
  rw [h.eq]
  refine ⟨(setNamespaceContext_fields _ _ _).2.1, Nat.le_trans (context_length _ _ _) ?_⟩
  obtain ⟨comps, buffer, pos, h5, h6⟩ := h.attrs_ok
  have h7 := qas_bytes t [] none
  rw [show qasLoop [] none t = n0 :: comps from h5] at h7
  have h8 := parseAttrs_bytes _ h6
  rw [join_bytes _ _ (Nat.le_refl _)] at h8
  have h9 : entryBytes SMap.empty.entries = 0 := rfl
  have h10 := entryBytes_length attrs.entries
  have h11 := fromAttrs_length attrs.entries SMap.empty
  have h12 : SMap.empty.len = 0 := rfl
  simp only [total, List.map_cons, List.sum_cons, blen_nil] at h7 h8
  simp only [ElementF.xmlnsContextFromAttributes]
  omega

theorem newElementRun_le (t x : Str) (i : Nat) (p : Option Element) :
    2 * (parseNewElementRun t x i p).count ≤ 2 * blen t + blen t * (blen t + 1) + 2 * optLen (p.map ElementF.ctx) := by
  unfold parseNewElementRun
  rw [count_rounds_bind]
  have hl := length_le_blen t
  cases hq : quoteAwareSplit t with
  | nil => simp only [count_free]; omega
  | cons n0 comps =>
    simp only [joinSpacedAttributes, List.drop_succ_cons, List.drop_zero, List.getElem?_cons_zero, Res.unwrap_some]
    have h7 := qas_bytes t [] none
    rw [show qasLoop [] none t = n0 :: comps from hq] at h7
    simp only [total, List.map_cons, List.sum_cons, blen_nil] at h7
    have h1 := parseAttrsRun_le x i (joinLoop comps) SMap.empty
    rw [join_bytes _ _ (Nat.le_refl _)] at h1
    have h2 : total comps ≤ blen t := by simp only [total]; omega
    have h3 := tri_mono h2
    have ctxle : ∀ (e : Element) (d : Option Str) (c : Option SMap), (setNamespaceContextRun e d c).count = optLen c := by
      intro e d c
      cases c <;> rfl
    have tail : ∀ (r : Run (Str × Option Str × Option Str)) (attrs : SMap) (d : Option Str) (c : Option SMap), r.count = 0 →
        (r >>= fun z => free (ElementF.new z.1 none (some attrs) z.2.1 z.2.2 none) >>= fun e => setNamespaceContextRun e d c).count ≤ optLen c := by
      intro r attrs d c hr
      have := count_bind_le (r := r) (f := fun z => free (ElementF.new z.1 none (some attrs) z.2.1 z.2.2 none) >>= fun e => setNamespaceContextRun e d c)
        (b := optLen c) (fun z _ => count_free_le fun e _ => Nat.le_of_eq (ctxle _ _ _))
      omega
    have free0 : ∀ {α β : Type} (r : R α) (f : α → Run β), (∀ a, (f a).count = 0) → (free r >>= f).count = 0 := by
      intro α β r f h
      exact Nat.le_zero.1 (count_free_le fun a _ => Nat.le_of_eq (h a))
    rcases p with _ | p
    · refine Nat.le_trans (Nat.mul_le_mul_left 2 (Nat.add_le_add_left (count_bind_le (b := 0) fun attrs _ => ?_) _)) ?_
      · refine count_free_le fun name _ => ?_
        refine tail _ attrs none none ?_
        split
        · refine free0 _ _ fun ab => ?_
          split <;> rfl
        · rfl
      · simp only [Option.map_none, optLen]
        omega
    · refine Nat.le_trans (Nat.mul_le_mul_left 2 (Nat.add_le_add_left (count_bind_le (b := p.ctx.len) fun attrs _ => ?_) _)) ?_
      · refine count_free_le fun name _ => ?_
        refine tail _ attrs _ (some p.ctx) ?_
        split
        · refine free0 _ _ fun ab => ?_
          split <;> rfl
        · rfl
      · simp only [Option.map_some, optLen]
        omega

/-! ## the arena -/

/-- an element with at most `c` children and at most `K` prefixes -/
def Fit (K c : Nat) : Node → Prop
  | .element e => e.children.length ≤ c ∧ e.ctx.len ≤ K
  | _ => True

theorem fit_mono {K K' c c' : Nat} (h : K ≤ K') (hc : c ≤ c') {n : Node} (hn : Fit K c n) : Fit K' c' n := by
  cases n with
  | element e => exact ⟨Nat.le_trans hn.1 hc, Nat.le_trans hn.2 h⟩
  | _ => trivial

/-- all nodes of the arena -/
def AllFit (K c : Nat) (d : List (Nat × PTNode)) : Prop := ∀ y ∈ d, Fit K c y.2.value

theorem allFit_mono {K K' c c' : Nat} (h : K ≤ K') (hc : c ≤ c') {d : List (Nat × PTNode)} (hd : AllFit K c d) : AllFit K' c' d :=
  fun y hy => fit_mono h hc (hd y hy)

theorem mem_insert_any {κ ν : Type} [DecidableEq κ] {l : List (κ × ν)} {k : κ} {v : ν} : ∀ kv ∈ LMap.insert l k v, kv ∈ l ∨ kv = (k, v) := by
  induction l with
  | nil => intro kv h; simp [LMap.insert] at h; exact .inr h
  | cons a l ih =>
    intro kv h
    unfold LMap.insert at h
    split at h
    · rcases List.mem_cons.1 h with h | h
      · exact .inr (by simpa using h)
      · exact .inl (List.mem_cons_of_mem _ h)
    · rcases List.mem_cons.1 h with h | h
      · exact .inl (by rw [h]; exact List.mem_cons_self ..)
      · rcases ih kv h with h | h
        · exact .inl (List.mem_cons_of_mem _ h)
        · exact .inr h

theorem mem_remove_any {κ ν : Type} [DecidableEq κ] {l : List (κ × ν)} {k : κ} : ∀ kv ∈ LMap.remove l k, kv ∈ l := by
  induction l with
  | nil => intro kv h; simp [LMap.remove] at h
  | cons a l ih =>
    intro kv h
    unfold LMap.remove at h
    split at h
    · exact List.mem_cons_of_mem _ h
    · rcases List.mem_cons.1 h with h | h
      · rw [h]; exact List.mem_cons_self ..
      · exact List.mem_cons_of_mem _ (ih kv h)

theorem mem_of_get {κ ν : Type} [DecidableEq κ] {l : List (κ × ν)} {k : κ} {v : ν} (h : LMap.get l k = some v) : (k, v) ∈ l := by
  induction l with
  | nil => cases h
  | cons a l ih =>
    obtain ⟨k', v'⟩ := a
    unfold LMap.get at h
    split at h
    · rename_i hk
      cases h
      rw [hk]
      exact List.mem_cons_self ..
    · exact List.mem_cons_of_mem _ (ih h)

theorem allFit_insert {K c : Nat} {d : List (Nat × PTNode)} (hd : AllFit K c d) (i : Nat) {v : PTNode} (hv : Fit K c v.value) :
    AllFit K c (LMap.insert d i v) := by
  intro y hy
  rcases mem_insert_any y hy with h | h
  · exact hd y h
  · rw [h]; exact hv

theorem append_fit {K c : Nat} {t t' : ParseTree} {n : Node} (h : t.append n = .ok t') (ht : AllFit K c t.data) (hn : Fit K c n) :
    AllFit K c t'.data ∧ t'.data.length ≤ t.data.length + 1 := by
  unfold ParseTree.append at h
  split at h
  · cases h
  · obtain ⟨a, -, h⟩ := bind_eq_ok.1 h
    cases h
    exact ⟨allFit_insert ht _ hn, insert_length _ _ _⟩

theorem push_fit {K c : Nat} {t t' : ParseTree} {e : Element} (h : t.push e = .ok t') (ht : AllFit K c t.data) (hn : Fit K c (.element e)) :
    AllFit K c t'.data ∧ t'.data.length ≤ t.data.length + 1 := by
  unfold ParseTree.push at h
  split at h
  · cases h
    exact ⟨allFit_insert ht _ hn, insert_length _ _ _⟩
  · obtain ⟨a, -, h⟩ := bind_eq_ok.1 h
    cases h
    exact ⟨allFit_insert ht _ hn, insert_length _ _ _⟩

theorem pop_data {t t' : ParseTree} (h : t.pop = .ok t') : t'.data = t.data := by
  unfold ParseTree.pop at h
  split at h
  · cases h
  · obtain ⟨a, -, h⟩ := bind_eq_ok.1 h
    cases h
    rfl

theorem expect_element {n : Node} {e : Element} (h : (expect n.asElement : R Element) = .ok e) : n = .element e := by
  cases n with
  | element c =>
    simp only [Node.asElement, expect] at h
    cases h
    rfl
  | _ => simp [Node.asElement, expect] at h

theorem top_fit {K c : Nat} {t : ParseTree} {p : Option Element} (h : t.topElement = .ok p) (ht : AllFit K c t.data) :
    optLen (p.map ElementF.ctx) ≤ K := by
  unfold ParseTree.topElement at h
  split at h
  · cases h; exact Nat.zero_le _
  · obtain ⟨a, h1, h⟩ := bind_eq_ok.1 h
    obtain ⟨e, h2, h⟩ := bind_eq_ok.1 h
    cases h
    have h3 := ht _ (mem_of_get (KissXml.unwrap_eq_ok.1 h1))
    rw [expect_element h2] at h3
    exact h3.2

theorem strip_bytes {g t : Str} (h : stripTag g = some t) : blen t ≤ blen g := by
  obtain ⟨s, h1, h2⟩ := stripTag_infix g
  rw [h] at h1
  cases h1
  exact infix_bytes h2

theorem step_fit {K : Nat} {g : Str} {t t' : ParseTree} (h : TagStep g t t') (ht : AllFit K 0 t.data) :
    AllFit (K + blen g) 0 t'.data ∧ t'.data.length ≤ t.data.length + 1 := by
  have up : AllFit (K + blen g) 0 t.data := allFit_mono (by omega) (Nat.le_refl _) ht
  have elem : ∀ {p : Option Element} {s : Str} {attrs : SMap} {n0 n : Str} {x q : Option Str} {e : Element}, stripTag g = some s →
      t.topElement = .ok p → NewElem s p attrs n0 n x q e → Fit (K + blen g) 0 (.element e) := by
    intro p s attrs n0 n x q e h1 h2 h3
    obtain ⟨h4, h5⟩ := newElem_fit h3
    have h6 := top_fit h2 ht
    have h7 := strip_bytes h1
    exact ⟨by rw [h4]; exact Nat.le_refl _, by omega⟩
  cases h with
  | comment _ _ h => exact append_fit h up trivial
  | cdata _ _ h => exact append_fit h up trivial
  | close _ _ _ _ h => rw [pop_data h]; exact ⟨up, by omega⟩
  | empty _ _ _ _ h1 h2 h3 h => exact append_fit h up (elem h1 h2 h3)
  | start _ _ _ _ h1 h2 h3 h => exact push_fit h up (elem h1 h2 h3)

/-! ## the loops -/

theorem handleTagRun_le {K : Nat} {x : Str} {i : Nat} {g : Str} {t : ParseTree} (ht : AllFit K 0 t.data) :
    2 * (handleTagRun x i g t).count ≤ 2 * blen g + blen g * (blen g + 1) + 2 * K := by
  suffices h : (handleTagRun x i g t).count ≤ (2 * blen g + blen g * (blen g + 1) + 2 * K) / 2 by omega
  unfold handleTagRun
  split
  · simp
  · refine count_free_le fun s hs => count_free_le fun _ _ => count_free_le fun p hp => ?_
    have h1 := newElementRun_le s x i p
    have h2 := strip_bytes (KissXml.unwrap_eq_ok.1 hs)
    have h3 := top_fit hp ht
    have h4 := tri_mono h2
    refine Nat.le_trans (count_bind_le (b := 0) fun e _ => ?_) ?_
    · split <;> exact Nat.le_refl _
    · omega

theorem nextTagRun_le {x : Str} {n : Nat} (h : n ≤ blen x) : n + (nextTagRun x n).count ≤ blen x + 1 ∧
    ∀ s e, (nextTagRun x n).out = .ok (s, some e) → n + (nextTagRun x n).count ≤ e ∧ e ≤ blen x := by
  unfold nextTagRun
  cases hh : nextTagC x n with
  | none => exact ⟨by simp only; omega, by intro s e h; cases h⟩
  | some r =>
    obtain ⟨⟨st, en⟩, m⟩ := r
    have := nextTagC_le hh
    refine ⟨this.1, ?_⟩
    intro s e he
    simp only [Res.ok.injEq, Prod.mk.injEq] at he
    obtain ⟨rfl, rfl⟩ := he
    exact ⟨this.2 e rfl, nextTagC_end hh⟩

theorem slice_bytes {a b : Nat} {x s : Str} (h : (Res.unwrap (sliceB a b x) : R Str) = .ok s) : a + blen s = b := by
  obtain ⟨u, v, -, h1, h2⟩ := sliceB_eq_some.1 (KissXml.unwrap_eq_ok.1 h)
  omega

theorem elementLoopRun_le {x : Str} {b : Bool} (fuel : Nat) (sp : Nat × Nat) (t : ParseTree) {m : Nat} (hm : sp.2 + m = blen x)
    (ht : AllFit sp.2 0 t.data) :
    2 * (elementLoopRun x b fuel sp t).count ≤ m * (m + 1) + 4 * m + 2 + 2 * (blen x * m) := by
  induction fuel generalizing sp t m with
  | zero => simp [elementLoopRun]
  | succ fuel ih =>
    suffices h : (elementLoopRun x b (fuel + 1) sp t).count ≤ (m * (m + 1) + 4 * m + 2 + 2 * (blen x * m)) / 2 by omega
    unfold elementLoopRun
    obtain ⟨hn1, hn2⟩ := nextTagRun_le (x := x) (n := sp.2) (by omega)
    cases hr : (nextTagRun x sp.2).out with
    | err e =>
      refine Nat.le_trans (count_bind_le (b := 0) fun a ha => ?_) (by omega)
      rw [hr] at ha; cases ha
    | panic =>
      refine Nat.le_trans (count_bind_le (b := 0) fun a ha => ?_) (by omega)
      rw [hr] at ha; cases ha
    | diverge =>
      refine Nat.le_trans (count_bind_le (b := 0) fun a ha => ?_) (by omega)
      rw [hr] at ha; cases ha
    | ok a =>
      rw [count_bind_ok hr]
      rcases a with ⟨_ | s, _ | e⟩
      · simp only [count_pure]; omega
      · simp only [count_pure]; omega
      · simp only [count_free]; omega
      · obtain ⟨h1, h2⟩ := hn2 _ _ hr
        simp only
        split
        · simp only [count_free]; omega
        · -- the bytes of this round
          obtain ⟨s', hs'⟩ : ∃ k, sp.2 + k = e := ⟨e - sp.2, by omega⟩
          have hpos : 0 < s' := by
            rw [out_nextTag] at hr
            have := nextTag_bounds (KissXml.unwrap_eq_ok.1 hr)
            have := this.2.2 e rfl
            omega
          obtain ⟨m', hm'⟩ : ∃ k, e + k = blen x := ⟨blen x - e, by omega⟩
          have hmm : m = s' + m' := by omega
          suffices h : ∀ C, (∀ (_ : 2 * C ≤ 2 * s' + s' * (s' + 1) + 2 * blen x + (m' * (m' + 1) + 4 * m' + 2 + 2 * (blen x * m'))),
              (nextTagRun x sp.2).count + C ≤ (m * (m + 1) + 4 * m + 2 + 2 * (blen x * m)) / 2) by
            refine h _ ?_
            suffices h : (free (Res.unwrap (sliceB sp.2 s x)) >>= fun text => realTextRun text >>= fun o =>
                (match o with
                  | none => pure t
                  | some content => free ((t.append (.text content)).mapErr (rewrap x s)) : Run ParseTree) >>= fun stack =>
                free (Res.unwrap (sliceB s e x)) >>= fun slice => handleTagRun x s slice stack >>= fun stack =>
                elementLoopRun x b fuel (s, e) stack).count ≤
                (2 * s' + s' * (s' + 1) + 2 * blen x + (m' * (m' + 1) + 4 * m' + 2 + 2 * (blen x * m'))) / 2 by
              have : ∀ a b c d : Nat, (a + b + c + d) / 2 * 2 ≤ a + b + c + d := fun _ _ _ _ => Nat.div_mul_le_self _ _
              refine Nat.le_trans (Nat.mul_le_mul_left 2 h) ?_
              omega
            refine count_free_le fun text htext => ?_
            have hb := slice_bytes htext
            obtain ⟨g, hg⟩ : ∃ g, blen text + g = s' := ⟨s' - blen text, by
              rw [out_nextTag] at hr
              have := (nextTag_bounds (KissXml.unwrap_eq_ok.1 hr)).2.2 e rfl
              omega⟩
            have hse : s + g = e := by omega
            have htri := tri_add (blen text) g
            rw [hg] at htri
            have hrt := realTextRun_le text
            refine Nat.le_trans (count_bind_le (b := (2 * g + g * (g + 1) + 2 * sp.2 + 0 + (m' * (m' + 1) + 4 * m' + 2 + 2 * (blen x * m'))) / 2) fun o ho => ?_) ?_
            · refine Nat.le_trans (count_bind_le (b := (2 * g + g * (g + 1) + 2 * sp.2 + (m' * (m' + 1) + 4 * m' + 2 + 2 * (blen x * m'))) / 2) fun t1 ht1 => ?_) ?_
              · have hfit1 : AllFit sp.2 0 t1.data := by
                  cases o with
                  | none => cases ht1; exact ht
                  | some c => exact (append_fit (mapErr_eq_ok.1 ht1) ht trivial).1
                refine count_free_le fun slice hslice => ?_
                have hgs : blen slice = g := by have := slice_bytes hslice; omega
                have hh := handleTagRun_le (x := x) (i := s) (g := slice) hfit1
                rw [hgs] at hh
                refine Nat.le_trans (count_bind_le (b := (m' * (m' + 1) + 4 * m' + 2 + 2 * (blen x * m')) / 2) fun t2 ht2 => ?_) ?_
                · rw [out_handleTag] at ht2
                  have hf := (step_fit (handleTag_ok ht2) hfit1).1
                  have := ih (s, e) t2 (m := m') hm' (allFit_mono (by simp only; omega) (Nat.le_refl _) hf)
                  omega
                · omega
              · cases o <;> simp only [count_pure, count_free] <;> omega
            · omega
          intro C hC
          have e1 : m * (m + 1) = s' * (s' + 1) + m' * (m' + 1) + 2 * (s' * m') := by
            rw [hmm]
            simp only [Nat.add_mul, Nat.mul_add, Nat.mul_one, Nat.mul_comm m' s']
            omega
          have e2 : blen x * m = blen x * s' + blen x * m' := by rw [hmm, Nat.mul_add]
          have e3 : blen x ≤ blen x * s' := Nat.le_mul_of_pos_right _ hpos
          omega

theorem elementLoop_fit {x : Str} {b : Bool} (fuel : Nat) (sp : Nat × Nat) (t : ParseTree) {t' : ParseTree} (hm : sp.2 ≤ blen x)
    (ht : AllFit sp.2 0 t.data) (hl : t.data.length ≤ sp.2) (h : elementLoop x b fuel sp t = .ok t') :
    AllFit (blen x) 0 t'.data ∧ t'.data.length ≤ blen x := by
  induction fuel generalizing sp t with
  | zero => cases h
  | succ fuel ih =>
    unfold elementLoop at h
    obtain ⟨⟨s, e⟩, h1, h⟩ := bind_eq_ok.1 h
    rcases s with _ | s
    · cases h
      exact ⟨allFit_mono hm (Nat.le_refl _) ht, by omega⟩
    · rcases e with _ | e
      · cases h
      · have hb := nextTag_bounds (KissXml.unwrap_eq_ok.1 h1)
        have hb2 := hb.2.2 e rfl
        simp only at h
        split at h
        · cases h
        · obtain ⟨text, h2, h⟩ := bind_eq_ok.1 h
          obtain ⟨o, h3, h⟩ := bind_eq_ok.1 h
          obtain ⟨t1, h4, h⟩ := bind_eq_ok.1 h
          obtain ⟨g, h5, h⟩ := bind_eq_ok.1 h
          obtain ⟨t2, h6, h⟩ := bind_eq_ok.1 h
          have hs1 := slice_bytes h2
          have hs2 := slice_bytes h5
          have hfit1 : AllFit sp.2 0 t1.data ∧ t1.data.length ≤ t.data.length + blen text := by
            cases o with
            | none => cases h4; exact ⟨ht, by omega⟩
            | some c =>
              have := append_fit (mapErr_eq_ok.1 h4) ht trivial
              have hpos : 0 < blen text := by
                cases text with
                | nil => simp [realText] at h3
                | cons c s =>
                  have := utf8Size_pos c
                  simp; omega
              exact ⟨this.1, by omega⟩
          have hfit2 := step_fit (handleTag_ok h6) hfit1.1
          exact ih (s, e) t2 (by simp only; omega) (allFit_mono (by simp only; omega) (Nat.le_refl _) hfit2.1) (by simp only; omega) h

theorem prologLoopRun_le {x : Str} (fuel : Nat) (st : Prolog) {m : Nat} (hm : st.tagSpan.2 + m = blen x) :
    2 * (prologLoopRun x fuel st).count ≤ m * (m + 1) + 2 * m + 2 := by
  induction fuel generalizing st m with
  | zero => simp [prologLoopRun]
  | succ fuel ih =>
    suffices h : (prologLoopRun x (fuel + 1) st).count ≤ (m * (m + 1) + 2 * m + 2) / 2 by omega
    unfold prologLoopRun
    obtain ⟨hn1, hn2⟩ := nextTagRun_le (x := x) (n := st.tagSpan.2) (by omega)
    cases hr : (nextTagRun x st.tagSpan.2).out with
    | err e =>
      refine Nat.le_trans (count_bind_le (b := 0) fun a ha => ?_) (by omega)
      rw [hr] at ha; cases ha
    | panic =>
      refine Nat.le_trans (count_bind_le (b := 0) fun a ha => ?_) (by omega)
      rw [hr] at ha; cases ha
    | diverge =>
      refine Nat.le_trans (count_bind_le (b := 0) fun a ha => ?_) (by omega)
      rw [hr] at ha; cases ha
    | ok a =>
      rw [count_bind_ok hr]
      rcases a with ⟨_ | s, _ | e⟩
      · simp only [count_free]; omega
      · simp only [count_free]; omega
      · simp only [count_free]; omega
      · obtain ⟨h1, h2⟩ := hn2 _ _ hr
        rw [out_nextTag] at hr
        have hb := (nextTag_bounds (KissXml.unwrap_eq_ok.1 hr)).2.2 e rfl
        simp only
        obtain ⟨m', hm'⟩ : ∃ k, e + k = blen x := ⟨blen x - e, by omega⟩
        suffices h : ∀ C c, 2 * c ≤ (e - st.tagSpan.2) * (e - st.tagSpan.2 + 1) → C ≤ c + (m' * (m' + 1) + 2 * m' + 2) / 2 →
            (nextTagRun x st.tagSpan.2).count + C ≤ (m * (m + 1) + 2 * m + 2) / 2 by
          have hrec : ∀ st' : Prolog, st'.tagSpan.2 = e → (prologLoopRun x fuel st').count ≤ (m' * (m' + 1) + 2 * m' + 2) / 2 := by
            intro st' hs
            have := ih st' (m := m') (by rw [hs]; exact hm')
            omega
          suffices h' : ∃ c, 2 * c ≤ (e - st.tagSpan.2) * (e - st.tagSpan.2 + 1) ∧ ∀ text, sliceB st.tagSpan.2 s x = some text →
              (realTextRun text).count ≤ c by
            obtain ⟨c, hc, hc2⟩ := h'
            refine h _ c hc ?_
            refine count_free_le fun text htext => ?_
            have hc3 := hc2 text (KissXml.unwrap_eq_ok.1 htext)
            refine Nat.le_trans (count_bind_le (b := (m' * (m' + 1) + 2 * m' + 2) / 2) fun o ho => ?_) (by omega)
            split
            · simp
            · refine count_free_le fun slice _ => ?_
              split
              · split
                · simp
                · exact count_free_le fun d _ => hrec _ rfl
              · split
                · exact count_free_le fun d _ => hrec _ rfl
                · split
                  · exact count_free_le fun d _ => hrec _ rfl
                  · split
                    · exact hrec _ rfl
                    · split
                      · simp
                      · exact count_free_le fun d _ => by simp
          cases ht : sliceB st.tagSpan.2 s x with
          | none => exact ⟨0, by simp, by simp⟩
          | some text =>
            refine ⟨(realTextRun text).count, ?_, by rintro _ ⟨⟩; exact Nat.le_refl _⟩
            have g1 := realTextRun_le text
            have g2 : st.tagSpan.2 + blen text = s := slice_bytes (KissXml.unwrap_eq_ok.2 ht)
            exact Nat.le_trans g1 (tri_mono (by omega))
        intro C c hc hC
        obtain ⟨s', hs'⟩ : ∃ k, st.tagSpan.2 + k = e := ⟨e - st.tagSpan.2, by omega⟩
        rw [show e - st.tagSpan.2 = s' by omega] at hc
        have hmm : m = s' + m' := by omega
        have htri := tri_add s' m'
        rw [← hmm] at htri
        omega

theorem prolog_span {x : Str} (fuel : Nat) (st st' : Prolog) (h : prologLoop x fuel st = .ok st') :
    st'.tagSpan.1 < st'.tagSpan.2 ∧ st'.tagSpan.2 ≤ blen x := by
  induction fuel generalizing st with
  | zero => cases h
  | succ fuel ih =>
    unfold prologLoop at h
    obtain ⟨⟨s, e⟩, h1, h⟩ := bind_eq_ok.1 h
    rcases s with _ | s
    · cases h
    · rcases e with _ | e
      · cases h
      · have hb := nextTag_bounds (KissXml.unwrap_eq_ok.1 h1)
        have hb2 := hb.2.2 e rfl
        simp only at h
        obtain ⟨text, -, h⟩ := bind_eq_ok.1 h
        obtain ⟨o, -, h⟩ := bind_eq_ok.1 h
        split at h
        · cases h
        · obtain ⟨g, -, h⟩ := bind_eq_ok.1 h
          split at h
          · split at h
            · cases h
            · obtain ⟨d, -, h⟩ := bind_eq_ok.1 h
              exact ih _ h
          · split at h
            · obtain ⟨d, -, h⟩ := bind_eq_ok.1 h
              exact ih _ h
            · split at h
              · obtain ⟨d, -, h⟩ := bind_eq_ok.1 h
                exact ih _ h
              · split at h
                · exact ih _ h
                · split at h
                  · cases h
                  · obtain ⟨d, -, h⟩ := bind_eq_ok.1 h
                    cases h
                    exact ⟨hb2.1, hb2.2⟩

/-! ## `to_dom` -/

theorem mergeTextRun_count {i : Nat} {l l' : List Node} (h : mergeTextLoop i l = .ok l') : (mergeTextRun i l).count = i := by
  induction i generalizing l with
  | zero => rfl
  | succ i ih =>
    unfold mergeTextLoop at h
    obtain ⟨a, h1, h⟩ := bind_eq_ok.1 h
    obtain ⟨b, h2, h⟩ := bind_eq_ok.1 h
    unfold mergeTextRun
    rw [count_rounds_bind, count_bind_ok h1, count_bind_ok h2]
    simp only [count_free]
    split at h
    · rename_i hc
      rw [if_pos hc]
      obtain ⟨p, g1, h⟩ := bind_eq_ok.1 h
      obtain ⟨q, g2, h⟩ := bind_eq_ok.1 h
      obtain ⟨f, g3, h⟩ := bind_eq_ok.1 h
      obtain ⟨k, g4, h⟩ := bind_eq_ok.1 h
      obtain ⟨l2, g5, h⟩ := bind_eq_ok.1 h
      rw [count_bind_ok g1, count_bind_ok g2, count_bind_ok g3, count_bind_ok g4, count_bind_ok g5, ih h]
      simp only [count_free]
      omega
    · rename_i hc
      rw [if_neg hc, ih h]
      omega

theorem dropWsRun_count {i : Nat} {l l' : List Node} (h : dropWsLoop i l = .ok l') : (dropWsRun i l).count = i + 1 := by
  induction i generalizing l with
  | zero =>
    unfold dropWsLoop at h
    obtain ⟨a, h1, h⟩ := bind_eq_ok.1 h
    obtain ⟨b, h2, h⟩ := bind_eq_ok.1 h
    unfold dropWsRun
    rw [count_rounds_bind, count_bind_ok h1, count_bind_ok h2]
    rfl
  | succ i ih =>
    unfold dropWsLoop at h
    obtain ⟨a, h1, h⟩ := bind_eq_ok.1 h
    obtain ⟨b, h2, h⟩ := bind_eq_ok.1 h
    unfold dropWsRun
    rw [count_rounds_bind, count_bind_ok h1, count_bind_ok h2]
    simp only [count_free]
    rw [ih h]
    omega

theorem joinRuns_length (l : List Node) : (joinRuns l).length ≤ l.length := by
  induction l with
  | nil => simp [joinRuns]
  | cons n l ih =>
    rw [joinRuns]
    unfold consJoin
    split
    · rename_i a b r h
      rw [h] at ih
      simp only [List.length_cons] at ih ⊢
      omega
    · simp only [List.length_cons]; omega

theorem cleanupRun_count (l : List Node) (h : l ≠ []) : (cleanupTextNodesRun l).count = (l.length - 1) + (joinRuns l).length := by
  unfold cleanupTextNodesRun
  have hl := List.length_pos_of_ne_nil h
  rw [if_neg (by omega)]
  have h1 := mergeTextLoop_all l h
  have h2 : (mergeTextRun (l.length - 1) l).out = .ok (joinRuns l) := by rw [out_merge]; exact h1
  rw [count_bind_ok h2, mergeTextRun_count h1]
  have h3 := List.length_pos_of_ne_nil (joinRuns_ne_nil h)
  rw [if_pos h3]
  have h4 := cleanupTextNodes_eq l
  unfold cleanupTextNodes at h4
  rw [if_neg (by omega), h1] at h4
  simp only [Res.bind_ok] at h4
  rw [if_pos h3] at h4
  rw [dropWsRun_count h4]
  omega

/-- rounds for the prefixes: only for elements -/
def prefixRounds (c : SMap) : Node → Nat
  | .element _ => c.len
  | _ => 0

theorem appendRun_count (e : Element) (n : Node) : (appendRun e n).count = prefixRounds e.ctx n + e.children.length +
    (joinRuns (e.children ++ [applyXmlnsContext e.defaultNamespace e.ctx n])).length := by
  unfold appendRun
  have h1 : (applyXmlnsContextRun e.defaultNamespace e.ctx n).count = prefixRounds e.ctx n := by cases n <;> rfl
  rw [count_bind_ok (out_apply _ _ _), h1]
  have h2 := cleanupTextNodes_eq (e.children ++ [applyXmlnsContext e.defaultNamespace e.ctx n])
  rw [count_bind_ok (by rw [out_cleanup]; exact h2), cleanupRun_count _ (by simp)]
  simp
  omega

theorem toDomLoopRun_le {K : Nat} (i c : Nat) (d : List (Nat × PTNode)) (hd : AllFit K c d) :
    (toDomLoopRun i d).count ≤ i * (K + 2 * (c + i) + 2) := by
  induction i generalizing c d with
  | zero => simp [toDomLoopRun]
  | succ i ih =>
    unfold toDomLoopRun
    rw [count_rounds_bind]
    suffices h : (free (Res.unwrap (LMap.get d (i + 1))) >>= fun node =>
        free (Res.unwrap node.parent) >>= fun parentIndex =>
        free (Res.unwrap (LMap.get (LMap.remove d (i + 1)) parentIndex)) >>= fun p =>
        free (expect p.value.asElement) >>= fun e =>
        appendRun e (ParseTree.flipElement node.value) >>= fun e =>
        toDomLoopRun i (LMap.insert (LMap.remove d (i + 1)) parentIndex ⟨.element e, p.parent⟩)).count ≤
        (K + 2 * c + 1) + i * (K + 2 * (c + 1 + i) + 2) by
      have e1 : (i + 1) * (K + 2 * (c + (i + 1)) + 2) = i * (K + 2 * (c + 1 + i) + 2) + (K + 2 * (c + 1 + i) + 2) := by
        rw [Nat.add_mul, Nat.one_mul, show c + (i + 1) = c + 1 + i by omega]
      rw [e1]
      refine Nat.le_trans (Nat.add_le_add_left h 1) ?_
      omega
    refine count_free_le fun node hnode => count_free_le fun pi hpi => count_free_le fun p hp => count_free_le fun e he => ?_
    have hrem : AllFit K c (LMap.remove d (i + 1)) := fun y hy => hd y (mem_remove_any y hy)
    have hpf := hrem _ (mem_of_get (KissXml.unwrap_eq_ok.1 hp))
    rw [expect_element he] at hpf
    have hcount : (appendRun e (ParseTree.flipElement node.value)).count ≤ K + 2 * c + 1 := by
      rw [appendRun_count]
      have h1 : prefixRounds e.ctx (ParseTree.flipElement node.value) ≤ e.ctx.len := by
        cases ParseTree.flipElement node.value <;> simp [prefixRounds]
      have h2 := joinRuns_length (e.children ++ [applyXmlnsContext e.defaultNamespace e.ctx (ParseTree.flipElement node.value)])
      simp only [List.length_append, List.length_singleton] at h2
      have := hpf.1
      have := hpf.2
      omega
    refine Nat.le_trans (count_bind_le (b := i * (K + 2 * (c + 1 + i) + 2)) fun e' he' => ?_) (Nat.add_le_add_right hcount _)
    refine ih (c + 1) _ (allFit_insert (allFit_mono (Nat.le_refl _) (by omega) hrem) _ ?_)
    rw [out_append] at he'
    unfold ElementF.append at he'
    obtain ⟨l, hl, he'⟩ := bind_eq_ok.1 he'
    cases he'
    rw [cleanupTextNodes_eq] at hl
    cases hl
    refine ⟨?_, hpf.2⟩
    have h2 := joinRuns_length (e.children ++ [applyXmlnsContext e.defaultNamespace e.ctx (ParseTree.flipElement node.value)])
    have h3 : (normalText (e.children ++ [applyXmlnsContext e.defaultNamespace e.ctx (ParseTree.flipElement node.value)])).length ≤
      (joinRuns (e.children ++ [applyXmlnsContext e.defaultNamespace e.ctx (ParseTree.flipElement node.value)])).length := List.length_filter_le _ _
    have := hpf.1
    simp only [List.length_append, List.length_singleton] at h2
    show (normalText _).length ≤ _
    omega

theorem toDomRun_le {n : Nat} {t : ParseTree} (ht : AllFit n 0 t.data) (hl : t.data.length ≤ n) : (toDomRun t).count ≤ n * (3 * n + 2) := by
  unfold toDomRun
  split
  · simp
  · have h1 := toDomLoopRun_le (t.data.length - 1) 0 t.data ht
    refine Nat.le_trans (count_bind_le (b := 0) fun d _ => count_free_le fun r _ => count_free_le fun e _ => Nat.le_refl _) ?_
    refine Nat.le_trans h1 (Nat.mul_le_mul (by omega) (by omega))

theorem pop_or_same {t t' : ParseTree} {b : Bool} (h : (if b then t.pop else pure t : R ParseTree) = .ok t') : t'.data = t.data := by
  split at h
  · exact pop_data h
  · cases h; rfl

theorem parseStrRun_le (x : Str) : (parseStrRun x).count ≤ 6 * (blen x + 1) * (blen x + 1) := by
  unfold parseStrRun
  have hp := prologLoopRun_le (x := x) (blen x + 1) ⟨none, [], 0, (0, 0)⟩ (m := blen x) (by simp)
  have hmul : ∀ a b c : Nat, a * (b + c) = a * b + a * c := Nat.mul_add
  generalize hn : blen x = n at *
  have sq : n * (n + 1) = n * n + n := by rw [Nat.mul_add, Nat.mul_one]
  suffices h : ∀ pro : Prolog, prologLoop x (n + 1) ⟨none, [], 0, (0, 0)⟩ = .ok pro →
      (free (Res.unwrap (sliceB pro.tagSpan.1 pro.tagSpan.2 x)) >>= fun rootSlice =>
        free (Res.unwrap (stripTag rootSlice)) >>= fun stripped =>
        parseNewElementRun stripped x pro.tagSpan.1 none >>= fun root =>
        free (ParseTree.new.push root) >>= fun stack =>
        free (if endsWith rootSlice c%"/>" then stack.pop else pure stack : R ParseTree) >>= fun stack =>
        elementLoopRun x (endsWith rootSlice c%"/>") (n + 1) pro.tagSpan stack >>= fun stack =>
        if !stack.emptyStack then free (.err (.parsing .rootNotClosed none))
        else toDomRun stack >>= fun root => pure (Document.newWithDeclDtd root pro.decl (some pro.dtds))).count ≤ 5 * (n * n) + 7 * n + 2 by
    refine Nat.le_trans (count_bind_le (b := 5 * (n * n) + 7 * n + 2) fun pro hpro => h pro ?_) ?_
    · rw [out_prolog] at hpro; exact hpro
    · have : 6 * (n + 1) * (n + 1) = 6 * (n * n) + 12 * n + 6 := by
        rw [Nat.mul_assoc, Nat.mul_add (n + 1), Nat.mul_one, Nat.mul_comm (n + 1) n, sq]; omega
      rw [sq] at hp
      rw [this]
      omega
  intro pro hpro
  obtain ⟨hs1, hs2⟩ := prolog_span _ _ _ hpro
  refine count_free_le fun rs hrs => count_free_le fun st hst => ?_
  have h1 := newElementRun_le st x pro.tagSpan.1 none
  have h2 := strip_bytes (KissXml.unwrap_eq_ok.1 hst)
  have h3 := slice_bytes hrs
  have h4 : blen st ≤ n := by omega
  have h5 := tri_mono h4
  refine Nat.le_trans (count_bind_le (b := (n * (n + 1) + 4 * n + 2 + 2 * (n * n)) / 2 + n * (3 * n + 2)) fun root hroot => ?_) ?_
  · rw [out_newElement] at hroot
    obtain ⟨attrs, n0, n1, x1, q, hN⟩ := parseNewElement_ok hroot
    obtain ⟨f1, f2⟩ := newElem_fit hN
    simp only [Option.map_none, optLen, Nat.add_zero] at f2
    refine count_free_le fun t0 ht0 => count_free_le fun t1 ht1 => ?_
    have fit0 := push_fit (K := blen st) (c := 0) ht0 (fun y hy => by cases hy) ⟨by rw [f1]; exact Nat.le_refl _, f2⟩
    have hd := pop_or_same ht1
    have fit1 : AllFit pro.tagSpan.2 0 t1.data := by rw [hd]; exact allFit_mono (by omega) (Nat.le_refl _) fit0.1
    have len1 : t1.data.length ≤ pro.tagSpan.2 := by
      rw [hd]
      have := fit0.2
      simp only [ParseTree.new, List.length_nil] at this
      omega
    obtain ⟨m, hm⟩ : ∃ m, pro.tagSpan.2 + m = blen x := ⟨n - pro.tagSpan.2, by omega⟩
    have h6 := elementLoopRun_le (x := x) (b := endsWith rs c%"/>") (n + 1) pro.tagSpan t1 hm fit1
    have h7 : m ≤ n := by omega
    have h8 := tri_mono h7
    have h9 : blen x * m ≤ n * n := Nat.mul_le_mul (by omega) h7
    refine Nat.le_trans (count_bind_le (b := n * (3 * n + 2)) fun t2 ht2 => ?_) (by omega)
    rw [out_elements] at ht2
    obtain ⟨g1, g2⟩ := elementLoop_fit _ _ _ (by omega) fit1 len1 ht2
    rw [hn] at g1 g2
    split
    · simp
    · refine Nat.le_trans (count_bind_le (b := 0) fun r _ => Nat.le_refl _) ?_
      exact toDomRun_le g1 g2
  · have e1 : n * (3 * n + 2) = 3 * (n * n) + 2 * n := by
      rw [Nat.mul_add, Nat.mul_left_comm, Nat.mul_comm n 2]
    simp only [Option.map_none, optLen] at h1
    rw [e1]
    omega

end KissXml
