import Verif.Model.Ask
import Verif.Spec.Ask
import Verif.Proofs.InPlace
import Verif.Proofs.Edit
import Mathlib.Data.List.Perm.Subperm
/-!
# Predicates with a memory
-/
namespace KissXml
open Spec ElementF Act
variable {τ : Type}

theorem judge_snoc (p : Asker τ Node) (X : List Node) (n : Node) (t : τ) : judge p (X ++ [n]) t =
    match p t n with
    | (none, t1) => (none, t1)
    | (some b, t1) =>
      match judge p X t1 with
      | (none, t2) => (none, t2)
      | (some (k, c), t2) => (some (if b then (k, c + 1) else (k ++ [n], c)), t2) := by
  induction X with
  | nil =>
    simp only [List.nil_append, judge]
    rcases p t n with ⟨_ | _ | _, t1⟩ <;> simp
  | cons m X ih =>
    rw [List.cons_append, judge, ih]
    rcases p t n with ⟨_ | b, t1⟩
    · rfl
    · simp only [judge]
      rcases judge p X t1 with ⟨_ | ⟨k, c⟩, t2⟩
      · rfl
      · simp only
        cases b <;> simp only [Bool.false_eq_true, if_false, if_true] <;> rcases p t2 m with ⟨_ | _ | _, t3⟩ <;> rfl

theorem on_ok {σ α : Type} {a : Act σ α} {s s' : σ} {r : R α} {t : τ} (h : a s = (r, s')) : (Act.on a : Act (σ × τ) α) (s, t) = (r, s', t) := by
  unfold Act.on
  rw [h]

theorem matchesA_eq (p : Asker τ Node) (X : List Node) : ∀ (Y : List Node) (e : Element) (t : τ), e.children = X ++ Y →
    match judge p X t with
    | (none, t') => matchesA p X.length (e, t) = (.panic, e, t')
    | (some (k, c), t') => ∃ is, matchesA p X.length (e, t) = (.ok is, e, t') ∧ is.length = c ∧
        ∀ Z, removeIndices is (X ++ Z) = .ok (k ++ Z) := by
  induction X using List.reverseRecOn with
  | nil =>
    intro Y e t h
    exact ⟨[], rfl, rfl, fun Z => rfl⟩
  | append_singleton X n ih =>
    intro Y e t h
    rw [judge_snoc]
    have hn : e.children[X.length]? = some n := by rw [h]; simp
    rw [show (X ++ [n]).length = X.length + 1 by simp]
    unfold matchesA
    rw [bind_apply_ok (on_ok (atM_eq hn))]
    have hask : (p.ask n : Act (Element × τ) Bool) (e, t) = (Res.unwrap (p t n).1, e, (p t n).2) := rfl
    rcases hp : p t n with ⟨_ | b, t1⟩
    · rw [hp] at hask
      show Act.bind _ _ _ = _
      unfold Act.bind
      rw [hask]
      rfl
    · rw [hp] at hask
      simp only
      rw [bind_apply_ok hask]
      have := ih (n :: Y) e t1 (by rw [h]; simp)
      rcases hj : judge p X t1 with ⟨_ | ⟨k, c⟩, t2⟩
      · rw [hj] at this
        simp only at this ⊢
        show Act.bind _ _ _ = _
        unfold Act.bind
        rw [this]
      · rw [hj] at this
        obtain ⟨is, h1, h2, h3⟩ := this
        simp only
        rw [bind_apply_ok h1]
        cases b
        · refine ⟨is, rfl, h2, fun Z => ?_⟩
          simpa using h3 (n :: Z)
        · refine ⟨X.length :: is, rfl, by simp [h2], fun Z => ?_⟩
          unfold removeIndices
          have : vecRemove (X ++ [n] ++ Z) X.length = some (n, X ++ Z) := by
            unfold vecRemove
            simp [List.eraseIdx_append_of_length_le]
          rw [this]
          exact h3 Z

theorem removeByA_eq (p : Asker τ Node) (e : Element) (t : τ) :
    removeByA p (e, t) =
      match judge p e.children t with
      | (none, t') => (.panic, e, t')
      | (some (k, c), t') => (.ok c, { e with children := k }, t') := by
  unfold removeByA
  rw [bind_apply_ok (on_ok (lenM_eq e))]
  have := matchesA_eq p e.children [] e t (by simp)
  rcases hj : judge p e.children t with ⟨_ | ⟨k, c⟩, t'⟩ <;> rw [hj] at this
  · simp only at this ⊢
    show Act.bind _ _ _ = _
    unfold Act.bind
    rw [this]
  · obtain ⟨is, h1, h2, h3⟩ := this
    simp only
    have h4 := h3 []
    rw [List.append_nil, List.append_nil] at h4
    rw [bind_apply_ok h1, bind_apply_ok (on_ok (removeIndicesM_eq is h4)), ← h2]
    rfl

theorem eachChildA_spec (p : Asker τ Node) (f : Act (Element × τ) Nat) (B : List Node) :
    (∀ x, Node.element x ∈ B → ∀ t, ∃ r cs t', Weeded p t x.children r cs t' ∧ f (x, t) = (Res.unwrap r, { x with children := cs }, t')) →
    ∀ (A : List Node) (e : Element) (t : τ), ∃ r B' t', WeededIn p t B r B' t' ∧
      eachChildA f A.length B.length ({ e with children := A ++ B }, t) = (Res.unwrap r, { e with children := A ++ B' }, t') := by
  induction B with
  | nil => intro _ A e t; exact ⟨_, _, _, .nil, rfl⟩
  | cons n B ih =>
    intro hf A e t
    have ih := ih fun x hx => hf x (List.mem_cons_of_mem _ hx)
    have hn : ({ e with children := A ++ n :: B } : Element).children[A.length]? = some n := by simp
    rw [List.length_cons]
    unfold eachChildA
    rw [bind_apply_ok (on_ok (atM_eq hn))]
    have other : (∀ x, n ≠ .element x) → ∃ r B' t', WeededIn p t (n :: B) r B' t' ∧
        eachChildA f (A.length + 1) B.length ({ e with children := A ++ n :: B }, t) = (Res.unwrap r, { e with children := A ++ B' }, t') := by
      intro hx
      obtain ⟨r, B', t', h1, h2⟩ := ih (A ++ [n]) e t
      refine ⟨r, _, t', .other hx h1, ?_⟩
      simpa using h2
    cases n with
    | text s => exact other (by intro x h; cases h)
    | comment s => exact other (by intro x h; cases h)
    | cdata s => exact other (by intro x h; cases h)
    | element x =>
      rw [if_pos (show (Node.element x).isElement = true from rfl)]
      obtain ⟨r, cs, t1, h1, h2⟩ := hf x (List.mem_cons_self ..) t
      have h3 : inChildA f A.length ({ e with children := A ++ .element x :: B }, t) =
          (Res.unwrap r, { e with children := A ++ .element { x with children := cs } :: B }, t1) := by
        unfold inChildA
        rw [hn]
        simp only [h2]
        simp
      cases r with
      | none =>
        refine ⟨none, _, t1, .stop h1, ?_⟩
        show Act.bind _ _ _ = _
        unfold Act.bind
        rw [h3]
        rfl
      | some a =>
        obtain ⟨r, B', t', h4, h5⟩ := ih (A ++ [.element { x with children := cs }]) e t1
        refine ⟨_, _, t', .elem h1 h4, ?_⟩
        rw [bind_apply_ok h3]
        simp only [List.append_assoc, List.singleton_append, List.length_append, List.length_singleton] at h5
        cases r with
        | none =>
          show Act.bind _ _ _ = _
          unfold Act.bind
          rw [h5]
          rfl
        | some m =>
          rw [bind_apply_ok h5]
          rfl

theorem judge_sublist (p : Asker τ Node) (l : List Node) : ∀ {t t' : τ} {k : List Node} {c : Nat}, judge p l t = (some (k, c), t') →
    k.Sublist l ∧ k.length + c = l.length := by
  induction l with
  | nil => intro t t' k c h; cases h; exact ⟨.refl _, rfl⟩
  | cons n l ih =>
    intro t t' k c h
    rw [judge] at h
    rcases hj : judge p l t with ⟨_ | ⟨k1, c1⟩, t1⟩ <;> rw [hj] at h
    · cases h
    · obtain ⟨h1, h2⟩ := ih hj
      simp only at h
      rcases hp : p t1 n with ⟨_ | _ | _, t2⟩ <;> rw [hp] at h <;> cases h
      · exact ⟨.cons_cons _ h1, by simp only [List.length_cons]; omega⟩
      · exact ⟨.cons _ h1, by simp only [List.length_cons]; omega⟩

theorem removal_spec (p : Asker τ Node) (f : Act (Element × τ) Nat) (e : Element) (t : τ)
    (hf : ∀ x, Node.element x ∈ e.children → ∀ t, ∃ r cs t', Weeded p t x.children r cs t' ∧ f (x, t) = (Res.unwrap r, { x with children := cs }, t')) :
    ∃ r cs t', Weeded p t e.children r cs t' ∧
      (do let count ← removeByA p
          let len ← Act.on lenM
          let m ← eachChildA f 0 len
          pure (count + m) : Act (Element × τ) Nat) (e, t) = (Res.unwrap r, { e with children := cs }, t') := by
  have hr := removeByA_eq p e t
  rcases hj : judge p e.children t with ⟨_ | ⟨k, c⟩, t1⟩ <;> rw [hj] at hr <;> simp only at hr
  · refine ⟨none, _, t1, .stop hj, ?_⟩
    show Act.bind _ _ _ = _
    unfold Act.bind
    rw [hr]
    rfl
  · have hk := (judge_sublist p _ hj).1
    obtain ⟨r, B', t', h1, h2⟩ := eachChildA_spec p f k (fun x hx => hf x (hk.subset hx)) [] e t1
    refine ⟨_, B', t', .go hj h1, ?_⟩
    rw [bind_apply_ok hr, bind_apply_ok (on_ok (lenM_eq _))]
    simp only [List.length_nil, List.nil_append] at h2
    cases r with
    | none =>
      show Act.bind _ _ _ = _
      unfold Act.bind
      rw [h2]
      rfl
    | some m =>
      rw [bind_apply_ok h2]
      rfl

theorem removeAllAF_spec (p : Asker τ Node) (fuel : Nat) : ∀ (e : Element) (t : τ), e.size ≤ fuel →
    ∃ r cs t', Weeded p t e.children r cs t' ∧ removeAllAF p fuel (e, t) = (Res.unwrap r, { e with children := cs }, t') := by
  induction fuel with
  | zero => intro e t h; have := element_size e; omega
  | succ fuel ih =>
    intro e t h
    rw [element_size] at h
    refine removal_spec p _ e t fun x hx t => ih x t ?_
    have := size_pos_child hx
    rw [Node.size] at this
    omega

mutual
theorem weeded_det {p : τ → Node → Option Bool × τ} : ∀ {t cs r cs' t'}, Weeded p t cs r cs' t' → ∀ {s ds' u'}, Weeded p t cs s ds' u' →
    r = s ∧ cs' = ds' ∧ t' = u'
  | _, _, _, _, _, .stop h, _, _, _, h' => by
    cases h' with
    | stop h' => rw [h] at h'; cases h'; exact ⟨rfl, rfl, rfl⟩
    | go h' _ => rw [h] at h'; cases h'
  | _, _, _, _, _, .go h i, _, _, _, h' => by
    cases h' with
    | stop h' => rw [h] at h'; cases h'
    | go h' i' =>
      rw [h] at h'; cases h'
      obtain ⟨rfl, rfl, rfl⟩ := weededIn_det i i'
      exact ⟨rfl, rfl, rfl⟩
theorem weededIn_det {p : τ → Node → Option Bool × τ} : ∀ {t cs r cs' t'}, WeededIn p t cs r cs' t' → ∀ {s ds' u'}, WeededIn p t cs s ds' u' →
    r = s ∧ cs' = ds' ∧ t' = u'
  | _, _, _, _, _, .nil, _, _, _, h' => by cases h'; exact ⟨rfl, rfl, rfl⟩
  | _, _, _, _, _, .other hn h, _, _, _, h' => by
    cases h' with
    | other _ h' => obtain ⟨rfl, rfl, rfl⟩ := weededIn_det h h'; exact ⟨rfl, rfl, rfl⟩
    | stop _ => exact absurd rfl (hn _)
    | elem _ _ => exact absurd rfl (hn _)
  | _, _, _, _, _, .stop h, _, _, _, h' => by
    cases h' with
    | other hn _ => exact absurd rfl (hn _)
    | stop h' => obtain ⟨_, rfl, rfl⟩ := weeded_det h h'; exact ⟨rfl, rfl, rfl⟩
    | elem h' _ => exact nomatch (weeded_det h h').1
  | _, _, _, _, _, .elem h i, _, _, _, h' => by
    cases h' with
    | other hn _ => exact absurd rfl (hn _)
    | stop h' => exact nomatch (weeded_det h h').1
    | elem h' i' =>
      obtain ⟨e, rfl, rfl⟩ := weeded_det h h'
      cases e
      obtain ⟨rfl, rfl, rfl⟩ := weededIn_det i i'
      exact ⟨rfl, rfl, rfl⟩
end

theorem weeded_iff {p : τ → Node → Option Bool × τ} {f : Act (Element × τ) Nat} {e : Element} {t : τ}
    (h : ∃ r cs t', Weeded p t e.children r cs t' ∧ f (e, t) = (Res.unwrap r, { e with children := cs }, t')) (e' : Element) (t' : τ) :
    (∀ c, f (e, t) = (.ok c, e', t') ↔ ∃ cs, Weeded p t e.children (some c) cs t' ∧ e' = { e with children := cs }) ∧
    (f (e, t) = (.panic, e', t') ↔ ∃ cs, Weeded p t e.children none cs t' ∧ e' = { e with children := cs }) ∧
    ((∃ c, (f (e, t)).1 = .ok c) ∨ (f (e, t)).1 = .panic) := by
  obtain ⟨r, cs, u, h1, h2⟩ := h
  rw [h2]
  refine ⟨fun c => ⟨fun h => ?_, ?_⟩, ⟨fun h => ?_, ?_⟩, ?_⟩
  · cases r with
    | none => cases h
    | some d => cases h; exact ⟨cs, h1, rfl⟩
  · rintro ⟨ds, h3, rfl⟩
    obtain ⟨rfl, rfl, rfl⟩ := weeded_det h1 h3
    rfl
  · cases r with
    | none => cases h; exact ⟨cs, h1, rfl⟩
    | some d => cases h
  · rintro ⟨ds, h3, rfl⟩
    obtain ⟨rfl, rfl, rfl⟩ := weeded_det h1 h3
    rfl
  · cases r with
    | none => exact .inr rfl
    | some d => exact .inl ⟨d, rfl⟩

/-! ## what is asked -/

/-- everything below the nodes of a list -/
def belowL : List Node → List Node
  | [] => []
  | .element x :: l => docOrderL x.children ++ belowL l
  | _ :: l => belowL l

theorem belowL_other {n : Node} (h : ∀ e, n ≠ .element e) (l : List Node) : belowL (n :: l) = belowL l := by
  cases n with
  | element e => exact absurd rfl (h e)
  | text s => rfl
  | comment s => rfl
  | cdata s => rfl

theorem docOrderL_other {n : Node} (h : ∀ e, n ≠ .element e) (l : List Node) : docOrderL (n :: l) = n :: docOrderL l := by
  cases n with
  | element e => exact absurd rfl (h e)
  | text s => rfl
  | comment s => rfl
  | cdata s => rfl

theorem docOrderL_elem (x : Element) (l : List Node) : docOrderL (.element x :: l) = .element x :: (docOrderL x.children ++ docOrderL l) := by
  obtain ⟨n, cs, a, y, p, c⟩ := x
  rw [docOrderL, docOrder]
  rfl

theorem element_or_other (n : Node) : (∃ x, n = .element x) ∨ ∀ e, n ≠ .element e := by
  cases n with
  | element x => exact .inl ⟨x, rfl⟩
  | text s => exact .inr (by intro e h; cases h)
  | comment s => exact .inr (by intro e h; cases h)
  | cdata s => exact .inr (by intro e h; cases h)

theorem below_perm (l : List Node) : (l ++ belowL l).Perm (docOrderL l) := by
  induction l with
  | nil => exact .refl _
  | cons n l ih =>
    rcases element_or_other n with ⟨x, rfl⟩ | h
    · rw [docOrderL_elem, belowL, List.cons_append]
      refine .cons _ ?_
      refine List.Perm.trans ?_ (ih.append_left _)
      rw [← List.append_assoc, ← List.append_assoc]
      exact List.perm_append_comm.append_right _
    · rw [docOrderL_other h, belowL_other h]
      exact .cons _ ih

theorem below_sublist {k l : List Node} (h : k.Sublist l) : (belowL k).Sublist (belowL l) := by
  induction h with
  | slnil => exact .refl _
  | @cons k l n h ih =>
    rcases element_or_other n with ⟨x, rfl⟩ | hn
    · exact ih.trans (List.sublist_append_right _ _)
    · rw [belowL_other hn]; exact ih
  | @cons_cons k l n h ih =>
    rcases element_or_other n with ⟨x, rfl⟩ | hn
    · exact ih.append_left _
    · rw [belowL_other hn, belowL_other hn]; exact ih

theorem judge_notes (p : Asker τ Node) (l : List Node) : ∀ {t t' : τ} {L L' : List (Node × Bool)} {k : List Node} {c : Nat},
    judge (noting p) l (t, L) = (some (k, c), t', L') →
    ∃ M, L' = M ++ L ∧ M.map Prod.fst = l ∧ k = (M.filter fun x => !x.2).map Prod.fst ∧ c = M.countP fun x => x.2 := by
  induction l with
  | nil => intro t t' L L' k c h; cases h; exact ⟨[], rfl, rfl, rfl, rfl⟩
  | cons n l ih =>
    intro t t' L L' k c h
    rw [judge] at h
    rcases hj : judge (noting p) l (t, L) with ⟨_ | ⟨k1, c1⟩, t1, L1⟩ <;> rw [hj] at h
    · cases h
    · obtain ⟨M, rfl, h2, h3, h4⟩ := ih hj
      unfold noting at h
      simp only at h
      rcases hp : p t1 n with ⟨_ | _ | _, t2⟩ <;> rw [hp] at h <;> cases h
      · exact ⟨(n, false) :: M, rfl, by simp [h2], by simp [h3], by simp [h4]⟩
      · exact ⟨(n, true) :: M, rfl, by simp [h2], by simp [h3], by simp [h4]⟩

theorem judge_notes_stop (p : Asker τ Node) (l : List Node) : ∀ {t t' : τ} {L L' : List (Node × Bool)},
    judge (noting p) l (t, L) = (none, t', L') → ∃ M n, L' = M ++ L ∧ n :: M.map Prod.fst <:+ l := by
  induction l with
  | nil => intro t t' L L' h; cases h
  | cons n l ih =>
    intro t t' L L' h
    rw [judge] at h
    rcases hj : judge (noting p) l (t, L) with ⟨_ | ⟨k1, c1⟩, t1, L1⟩ <;> rw [hj] at h
    · cases h
      obtain ⟨M, m, h1, h2⟩ := ih hj
      exact ⟨M, m, h1, h2.trans (List.suffix_cons _ _)⟩
    · obtain ⟨M, rfl, h2, -, -⟩ := judge_notes p l hj
      unfold noting at h
      simp only at h
      rcases hp : p t1 n with ⟨_ | _ | _, t2⟩ <;> rw [hp] at h <;> cases h
      exact ⟨M, n, rfl, by rw [h2]⟩

theorem thinned_refl (G : Node → Prop) (l : List Node) : Thinned G l l := by
  induction l with
  | nil => exact .nil
  | cons n l ih => exact .keep ih

theorem thinned_mono {G H : Node → Prop} (hGH : ∀ n, G n → H n) {l l' : List Node} (h : Thinned G l l') : Thinned H l l' := by
  induction h with
  | nil => exact .nil
  | drop hn _ ih => exact .drop (hGH _ hn) ih
  | keep _ ih => exact .keep ih
  | into _ _ ih1 ih2 => exact .into ih1 ih2

/-- the nodes answered with `false` of a list, and the removals of a thinning of them -/
theorem thinned_judged {G : Node → Prop} (M : List (Node × Bool)) (hM : ∀ n, (n, true) ∈ M → G n) :
    ∀ {l' : List Node}, Thinned G ((M.filter fun x => !x.2).map Prod.fst) l' → Thinned G (M.map Prod.fst) l' := by
  induction M with
  | nil => intro l' h; exact h
  | cons x M ih =>
    obtain ⟨n, b⟩ := x
    intro l' h
    have ih := @ih fun m hm => hM m (List.mem_cons_of_mem _ hm)
    cases b with
    | true => exact .drop (hM n (List.mem_cons_self ..)) (ih (by simpa using h))
    | false =>
      simp only [Bool.not_false, List.filter_cons_of_pos, List.map_cons] at h
      cases h with
      | drop hn h => exact .drop hn (ih h)
      | keep h => exact .keep (ih h)
      | into h1 h2 => exact .into h1 (ih h2)

/-- what is written down by a predicate while it is used for a removal -/
structure Noted (M : List (Node × Bool)) (all : List Node) (r : Option Nat) (no : Nat) : Prop where
  once : (M.map Prod.fst).Subperm all
  counts : ∀ c, r = some c → M.countP (fun x => x.2) = c ∧ M.countP (fun x => !x.2) = no

mutual
theorem weeded_notes {p : Asker τ Node} : ∀ {s : τ × List (Node × Bool)} {cs r cs'} {s' : τ × List (Node × Bool)},
    Weeded (noting p) s cs r cs' s' →
    ∃ M, s'.2 = M ++ s.2 ∧ Noted M (docOrderL cs) r (docOrderL cs').length ∧ Thinned (fun n => (n, true) ∈ M) cs cs'
  | (t, L), cs, _, _, (t', L'), .stop h => by
    obtain ⟨M, n, h1, h2⟩ := judge_notes_stop p cs h
    refine ⟨M, h1, ⟨?_, fun c hc => by cases hc⟩, thinned_refl _ _⟩
    have := (List.suffix_cons n (M.map Prod.fst)).trans h2
    exact (this.sublist.trans (List.sublist_append_left cs (belowL cs))).subperm.trans (below_perm cs).subperm
  | (t, L), cs, _, cs', s', .go (t1 := t1) (kept := kept) (c := c) (r := r) h i => by
    obtain ⟨t1, L1⟩ := t1
    obtain ⟨M1, rfl, h2, rfl, rfl⟩ := judge_notes p cs h
    obtain ⟨M2, h5, h6, h7, h8⟩ := weededIn_notes i
    refine ⟨M2 ++ M1, by rw [h5, List.append_assoc], ⟨?_, ?_⟩, ?_⟩
    · rw [List.map_append, h2]
      have hs : ((M1.filter fun x => !x.2).map Prod.fst).Sublist cs := by rw [← h2]; exact List.filter_sublist.map _
      refine List.Subperm.trans ?_ (below_perm cs).subperm
      refine List.Subperm.trans ?_ (List.perm_append_comm (l₁ := belowL cs) (l₂ := cs)).subperm
      exact (h6.trans (below_sublist hs).subperm).append (List.Subperm.refl _)
    · intro c hc
      cases r with
      | none => cases hc
      | some m =>
        cases hc
        obtain ⟨h9, h10⟩ := h7 m rfl
        rw [List.countP_append, List.countP_append, h9, ← h10]
        refine ⟨Nat.add_comm _ _, ?_⟩
        rw [List.length_map, ← List.countP_eq_length_filter]
    · rw [← h2]
      refine thinned_judged _ (fun n hn => List.mem_append_right _ hn) ?_
      exact thinned_mono (fun n hn => List.mem_append_left _ hn) h8
theorem weededIn_notes {p : Asker τ Node} : ∀ {s : τ × List (Node × Bool)} {l r l'} {s' : τ × List (Node × Bool)},
    WeededIn (noting p) s l r l' s' →
    ∃ M, s'.2 = M ++ s.2 ∧ (M.map Prod.fst).Subperm (belowL l) ∧
      (∀ c, r = some c → M.countP (fun x => x.2) = c ∧ M.countP (fun x => !x.2) + l.length = (docOrderL l').length) ∧
      Thinned (fun n => (n, true) ∈ M) l l'
  | _, _, _, _, _, .nil => ⟨[], rfl, List.Subperm.refl _, fun c hc => by cases hc; exact ⟨rfl, rfl⟩, .nil⟩
  | s, _, _, _, s', .other (l' := l') hn h => by
    obtain ⟨M, h1, h2, h3, h4⟩ := weededIn_notes h
    refine ⟨M, h1, by rw [belowL_other hn]; exact h2, fun c hc => ⟨(h3 c hc).1, ?_⟩, .keep h4⟩
    rw [docOrderL_other hn, List.length_cons, List.length_cons, ← (h3 c hc).2]
    omega
  | s, _, _, _, s', .stop (x := x) (l := l) h => by
    obtain ⟨M, h1, h2, h3⟩ := weeded_notes h
    exact ⟨M, h1, h2.once.trans (List.sublist_append_left (docOrderL x.children) (belowL l)).subperm, fun c hc => (nomatch hc),
      Thinned.into h3 (thinned_refl _ _)⟩
  | s, _, _, _, s', .elem (x := x) (l := l) (a := a) (cs := cs) (r := r) (l' := l') h i => by
    obtain ⟨M1, h1, h2, h3⟩ := weeded_notes h
    obtain ⟨M2, h4, h5, h6, h7⟩ := weededIn_notes i
    refine ⟨M2 ++ M1, by rw [h4, h1, List.append_assoc], ?_, ?_, ?_⟩
    · rw [List.map_append, belowL]
      exact (h5.append h2.once).trans (List.perm_append_comm).subperm
    · intro c hc
      cases r with
      | none => cases hc
      | some m =>
        cases hc
        obtain ⟨h8, h9⟩ := h6 m rfl
        obtain ⟨h10, h11⟩ := h2.counts a rfl
        rw [List.countP_append, List.countP_append, docOrderL_elem, List.length_cons, List.length_cons, List.length_append, h8, h10, h11, ← h9]
        dsimp only
        exact ⟨Nat.add_comm _ _, by omega⟩
    · exact .into (thinned_mono (fun n hn => List.mem_append_right _ hn) h3) (thinned_mono (fun n hn => List.mem_append_left _ hn) h7)
end

/-! ## predicates without a memory -/

theorem judge_plain (q : Node → Bool) (l : List Node) (t : τ) :
    judge (fun (t : τ) n => (some (q n), t)) l t = (some (l.filter (fun n => !q n), l.countP q), t) := by
  induction l with
  | nil => rfl
  | cons n l ih =>
    rw [judge, ih]
    cases h : q n <;> simp [h]

mutual
theorem weeded_plain (q : Node → Bool) {t : τ} : ∀ {cs r cs' t'}, Weeded (fun (t : τ) n => (some (q n), t)) t cs r cs' t' →
    r = some (hitsL q cs) ∧ cs' = pruneL q cs ∧ t' = t
  | cs, _, _, _, .stop h => by rw [judge_plain] at h; cases h
  | cs, _, _, _, .go h i => by
    rw [judge_plain] at h
    cases h
    obtain ⟨rfl, rfl, rfl⟩ := weededIn_plain q i
    exact ⟨by rw [hitsL_eq]; rfl, by rw [pruneL_eq], rfl⟩
theorem weededIn_plain (q : Node → Bool) {t : τ} : ∀ {l r l' t'}, WeededIn (fun (t : τ) n => (some (q n), t)) t l r l' t' →
    r = some ((l.map (hits q)).sum) ∧ l' = l.map (prune q) ∧ t' = t
  | _, _, _, _, .nil => ⟨rfl, rfl, rfl⟩
  | _, _, _, _, .other (n := n) hn h => by
    obtain ⟨rfl, rfl, rfl⟩ := weededIn_plain q h
    cases n with
    | element e => exact absurd rfl (hn e)
    | text s => exact ⟨by simp [hits], by simp [prune], rfl⟩
    | comment s => exact ⟨by simp [hits], by simp [prune], rfl⟩
    | cdata s => exact ⟨by simp [hits], by simp [prune], rfl⟩
  | _, _, _, _, .stop h => by cases (weeded_plain q h).1
  | _, _, _, _, .elem (x := x) h i => by
    obtain ⟨h1, rfl, rfl⟩ := weeded_plain q h
    cases h1
    obtain ⟨rfl, rfl, rfl⟩ := weededIn_plain q i
    obtain ⟨n, cs, a, y, p, c⟩ := x
    exact ⟨by simp [hits], by simp [prune], rfl⟩
end

end KissXml
