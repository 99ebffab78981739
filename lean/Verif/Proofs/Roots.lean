import Verif.Spec.Roots
import Verif.Proofs.Grammar
import Mathlib.Data.List.Induction
/-!
# What the parse arena builds, for all sequences of operations
-/
namespace KissXml
open Spec

/-! ## joining backwards -/

/-- joined, without blank texts -/
def Clean (l : List Node) : Prop := NoAdjText l ∧ ∀ t, Node.text t ∈ l → ¬ Blank t

theorem clean_tail {n : Node} {l : List Node} (h : Clean (n :: l)) : Clean l :=
  ⟨(noAdjText_cons.1 h.1).2, fun t ht => h.2 t (by simp [ht])⟩

theorem clean_backCons {n : Node} {l : List Node} (h : Clean l) : Clean (backCons n l) := by
  unfold backCons
  split
  · rename_i t s r
    split
    · exact clean_tail h
    · rename_i hb
      refine ⟨noAdjText_cons.2 ⟨fun x y r' _ hr => (noAdjText_cons.1 h.1).1 s y r' rfl hr, (noAdjText_cons.1 h.1).2⟩, ?_⟩
      intro u hu
      rcases List.mem_cons.1 hu with hu | hu
      · cases hu; exact hb
      · exact h.2 u (by simp [hu])
  · rename_i hx
    split
    · exact h
    · rename_i hb
      refine ⟨noAdjText_cons.2 ⟨fun x y r' hn hr => hx x y r' hn hr, h.1⟩, ?_⟩
      intro u hu
      rcases List.mem_cons.1 hu with hu | hu
      · intro hbl; exact hb (isBlankText_iff.2 ⟨u, hu.symm, hbl⟩)
      · exact h.2 u hu

theorem clean_joinBack (l : List Node) : Clean (joinBack l) := by
  induction l with
  | nil => exact ⟨noAdjText_nil, by simp [joinBack]⟩
  | cons n l ih => exact clean_backCons ih

theorem filter_clean {l : List Node} (h : ∀ t, Node.text t ∈ l → ¬ Blank t) : l.filter (fun n => !isBlankText n) = l := by
  apply List.filter_eq_self.2
  intro n hn
  cases n with
  | text t => simp [isBlankText, h t hn]
  | element _ => rfl
  | comment _ => rfl
  | cdata _ => rfl

/-- adding a node at the end and cleaning up is `backCons` on the list read backwards -/
theorem normalText_snoc {n : Node} {l : List Node} (h : Clean l) : normalText (l.reverse ++ [n]) = (backCons n l).reverse := by
  unfold backCons
  split
  · rename_i t s r
    have h1 : NoAdjText (r.reverse ++ [.text (s ++ t)]) := by
      have : NoAdjText (Node.text (s ++ t) :: r) :=
        noAdjText_cons.2 ⟨fun x y r' _ hr => (noAdjText_cons.1 h.1).1 s y r' rfl hr, (noAdjText_cons.1 h.1).2⟩
      simpa using noAdjText_reverse this
    have h2 : joinRuns ((Node.text s :: r).reverse ++ [.text t]) = r.reverse ++ [.text (s ++ t)] := by
      rw [← joinRuns_id h1, joinRuns_eq, joinRuns_eq]
      simp [consJoin]
    have h3 : r.reverse.filter (fun n => !isBlankText n) = r.reverse :=
      filter_clean (fun u hu => h.2 u (by simpa using Or.inr hu))
    unfold normalText
    rw [h2, List.filter_append, h3]
    by_cases hb : Blank (s ++ t) <;> simp [hb, isBlankText]
  · rename_i hx
    have h1 : NoAdjText (l.reverse ++ [n]) := by
      have : NoAdjText (n :: l) := noAdjText_cons.2 ⟨fun x y r' hn hr => hx x y r' hn hr, h.1⟩
      simpa using noAdjText_reverse this
    unfold normalText
    rw [joinRuns_id h1, List.filter_append, filter_clean (fun u hu => h.2 u (by simpa using hu))]
    by_cases hb : isBlankText n = true <;> simp [hb]

/-- the nodes of a forest before their texts are joined -/
def laid (e : Element) : Forest → List Node
  | .nil => []
  | .leaf n r => applyXmlnsContext e.defaultNamespace e.ctx (ParseTree.flipElement n) :: laid e r
  | .elem c k r => applyXmlnsContext e.defaultNamespace e.ctx (.element { c with children := joinBack (laid c k) }) :: laid e r

theorem addRev_laid {f : Forest} (h : f.Fresh) (e : Element) (he : e.children = []) :
    addRev e f = { e with children := (joinBack (laid e f)).reverse } := by
  induction f generalizing e with
  | nil => obtain ⟨n, cs, a, x, p, c⟩ := e; simp at he; simp [addRev, laid, joinBack, he]
  | leaf n r ih =>
    rw [addRev, ih h e he, addOne]
    have := normalText_snoc (n := applyXmlnsContext e.defaultNamespace e.ctx (ParseTree.flipElement n)) (clean_joinBack (laid e r))
    simp only [ElementF.defaultNamespace] at this ⊢
    rw [this]
    rfl
  | elem c k r ih1 ih2 =>
    rw [addRev, ih2 h.2.2 e he, ih1 h.2.1 c h.1, addOne]
    have := normalText_snoc (n := applyXmlnsContext e.defaultNamespace e.ctx (.element { c with children := joinBack (laid c k) }))
      (clean_joinBack (laid e r))
    simp only [ElementF.defaultNamespace, ElementF.reverseChildren, List.reverse_reverse] at this ⊢
    rw [this]
    rfl

theorem flipElement_eq (n : Node) : ParseTree.flipElement n = turned n := by
  cases n with
  | element e => obtain ⟨_, _, _, _, _, _⟩ := e; rfl
  | text _ => rfl
  | comment _ => rfl
  | cdata _ => rfl

theorem laid_spec (f : Forest) (e : Element) : Laid e f (laid e f) := by
  induction f generalizing e with
  | nil => exact .nil
  | leaf n r ih =>
    rw [laid, flipElement_eq]
    exact .leaf (givenDefault_eq e ▸ handedDown_apply _ _ _) (ih e)
  | elem c k r ih1 ih2 => exact .elem (ih1 c) (givenDefault_eq e ▸ handedDown_apply _ _ _) (ih2 e)

/-! ## sequences of operations -/

theorem then_eq (f g : Forest) : f.then g = fappend f g := by
  induction f with
  | nil => rfl
  | leaf n r ih => simp [Forest.then, fappend, ih]
  | elem e k r _ ih => simp [Forest.then, fappend, ih]

theorem then_ops (f g : Forest) : (f.then g).ops = f.ops ++ g.ops := by
  induction f with
  | nil => rfl
  | leaf n r ih => simp [Forest.then, Forest.ops, ih]
  | elem e k r _ ih => simp [Forest.then, Forest.ops, ih]

theorem then_nil (f : Forest) : f.then .nil = f := by
  induction f with
  | nil => rfl
  | leaf n r ih => simp [Forest.then, ih]
  | elem e k r _ ih => simp [Forest.then, ih]

theorem then_assoc (f g h : Forest) : (f.then g).then h = f.then (g.then h) := by
  induction f with
  | nil => rfl
  | leaf n r ih => simp [Forest.then, ih]
  | elem e k r _ ih => simp [Forest.then, ih]

theorem then_fresh {f g : Forest} (hf : f.Fresh) (hg : g.Fresh) : (f.then g).Fresh := by
  induction f with
  | nil => exact hg
  | leaf n r ih => exact ih hf
  | elem e k r _ ih => exact ⟨hf.1, hf.2.1, ih hf.2.2⟩

theorem topOps_append (a b : List (Element × Forest)) : topOps (a ++ b) = topOps a ++ topOps b := by
  induction a with
  | nil => rfl
  | cons g a ih => obtain ⟨e, f⟩ := g; simp [topOps, ih]

theorem allContent_append (a b : List (Element × Forest)) : allContent (a ++ b) = (allContent a).then (allContent b) := by
  induction a with
  | nil => rfl
  | cons g a ih => obtain ⟨e, f⟩ := g; simp [allContent, ih, then_assoc]

theorem allContent_fresh {gs : List (Element × Forest)} (h : ∀ g ∈ gs, g.1.children = [] ∧ g.2.Fresh) : (allContent gs).Fresh := by
  induction gs with
  | nil => trivial
  | cons g gs ih => exact then_fresh (h g (by simp)).2 (ih (fun g hg => h g (by simp [hg])))

/-- the operations that open some elements, with what was written inside of them so far (the innermost first) -/
def openOps : List (Element × Forest) → List Op
  | [] => []
  | (e, f) :: p => openOps p ++ .push e :: f.ops

/-- the arena after some top-level elements -/
def topArena : List (Element × Forest) → List PTNode
  | [] => []
  | gs => match gs.getLast? with
    | none => []
    | some (e, _) => rootArena e (allContent gs)

theorem topArena_snoc (gs : List (Element × Forest)) (e : Element) (f : Forest) :
    topArena (gs ++ [(e, f)]) = rootArena e ((allContent gs).then f) := by
  cases gs with
  | nil => simp [topArena, allContent, then_nil, Forest.then]
  | cons g gs =>
    have : (g :: (gs ++ [(e, f)])).getLast? = some (e, f) := List.getLast?_concat (l := g :: gs)
    simp [topArena, allContent_append, allContent, then_nil, this, then_assoc]

theorem topArena_drop (gs : List (Element × Forest)) (e : Element) :
    (⟨.element e, none⟩ : PTNode) :: (topArena gs).drop 1 = rootArena e (allContent gs) := by
  rcases List.eq_nil_or_concat gs with rfl | ⟨gs, g, rfl⟩
  · rfl
  · obtain ⟨e', f⟩ := g
    rw [List.concat_eq_append, topArena_snoc, allContent_append]
    simp [rootArena, allContent, then_nil]

theorem runOps_tops (gs : List (Element × Forest)) :
    runOps (topOps gs) ParseTree.new = .ok (arena (topArena gs) none) ∧ ArenaOk (topArena gs) none := by
  induction gs using List.reverseRecOn with
  | nil => exact ⟨rfl, arenaOk_new⟩
  | append_singleton gs g ih =>
    obtain ⟨e, f⟩ := g
    obtain ⟨ih1, ih2⟩ := ih
    obtain ⟨A, g1, g2, g3⟩ := push_none ih2 e
    rw [topArena_drop] at g3
    subst g3
    obtain ⟨h1, h2⟩ := runOps_forest f _ 0 g2
    have h3 : rootArena e (allContent gs) ++ flat 0 (rootArena e (allContent gs)).length f = topArena (gs ++ [(e, f)]) := by
      rw [topArena_snoc, then_eq, rootArena, rootArena, flat_fappend]
      simp [flat_length, Nat.add_comm]
    rw [h3] at h1 h2
    obtain ⟨q, k1, k2, m, k3, k4⟩ := pop_some h2
    have hq : q = none := by
      rw [topArena_snoc, rootArena] at k3
      simp at k3
      rw [← k4, ← k3]
    subst hq
    refine ⟨?_, k2⟩
    rw [topOps_append, runOps_append, ih1, Res.bind_ok]
    show runOps (.push e :: (f.ops ++ [.pop])) _ = _
    rw [runOps, g1, Res.bind_ok, runOps_append, h1, Res.bind_ok, runOps, k1]
    rfl

theorem runOps_open (p : List (Element × Forest)) {A : List PTNode} (h : ArenaOk A none) :
    ∃ A' pos, runOps (openOps p) (arena A none) = .ok (arena A' pos) ∧ ArenaOk A' pos ∧ (pos = none ↔ p = []) := by
  induction p with
  | nil => exact ⟨A, none, rfl, h, by simp⟩
  | cons g p ih =>
    obtain ⟨e, f⟩ := g
    obtain ⟨A', pos, h1, h2, -⟩ := ih
    have : ∃ A'' q, (arena A' pos).push e = .ok (arena A'' (some q)) ∧ ArenaOk A'' (some q) := by
      cases pos with
      | none => obtain ⟨A'', g1, g2, -⟩ := push_none h2 e; exact ⟨A'', 0, g1, g2⟩
      | some q => obtain ⟨g1, g2⟩ := push_some h2 e; exact ⟨_, _, g1, g2⟩
    obtain ⟨A'', q, g1, g2⟩ := this
    obtain ⟨k1, k2⟩ := runOps_forest f _ _ g2
    refine ⟨_, _, ?_, k2, by simp⟩
    rw [openOps, runOps_append, h1, Res.bind_ok, runOps, g1, Res.bind_ok, k1]

/-- what a successful sequence of operations has written: complete elements, and elements that are still open -/
theorem ops_shape (l : List Op) (t : ParseTree) (h : runOps l ParseTree.new = .ok t) : ∃ gs p, l = topOps gs ++ openOps p := by
  induction l using List.reverseRecOn generalizing t with
  | nil => exact ⟨[], [], rfl⟩
  | append_singleton l o ih =>
    rw [runOps_append] at h
    obtain ⟨t', h1, h2⟩ := bind_eq_ok.1 h
    obtain ⟨gs, p, rfl⟩ := ih t' h1
    obtain ⟨g1, g2⟩ := runOps_tops gs
    obtain ⟨A', pos, k1, k2, k3⟩ := runOps_open p g2
    rw [runOps_append, g1, Res.bind_ok, k1] at h1
    cases h1
    cases p with
    | nil =>
      have hpos : pos = none := k3.2 rfl
      subst hpos
      cases o with
      | push e => exact ⟨gs, [(e, .nil)], by simp [openOps, Forest.ops]⟩
      | append n => simp [runOps, ParseTree.append, arena] at h2
      | pop => simp [runOps, ParseTree.pop, arena] at h2
    | cons g p =>
      obtain ⟨e, f⟩ := g
      cases o with
      | push e' => exact ⟨gs, (e', .nil) :: (e, f) :: p, by simp [openOps, Forest.ops]⟩
      | append n => exact ⟨gs, (e, f.then (.leaf n .nil)) :: p, by simp [openOps, then_ops, Forest.ops]⟩
      | pop =>
        cases p with
        | nil => exact ⟨gs ++ [(e, f)], [], by simp [openOps, topOps_append, topOps]⟩
        | cons g p =>
          obtain ⟨e', f'⟩ := g
          exact ⟨gs, (e', f'.then (.elem e f .nil)) :: p, by simp [openOps, then_ops, Forest.ops]⟩

/-- closing what is still open -/
theorem open_close (p : List (Element × Forest)) (gs : List (Element × Forest)) :
    ∃ gs', topOps gs ++ openOps p ++ List.replicate p.length .pop = topOps gs' ∧ (gs' = [] → gs = []) := by
  induction h : p.length generalizing p with
  | zero =>
    have : p = [] := List.length_eq_zero_iff.1 h
    subst this
    exact ⟨gs, by simp [openOps], id⟩
  | succ n ih =>
    obtain ⟨g, p, rfl⟩ := List.exists_cons_of_length_eq_add_one h
    obtain ⟨e, f⟩ := g
    simp only [List.length_cons, Nat.add_right_cancel_iff] at h
    cases p with
    | nil =>
      simp only [List.length_nil] at h
      subst h
      exact ⟨gs ++ [(e, f)], by simp [openOps, topOps_append, topOps], by simp⟩
    | cons g p =>
      obtain ⟨e', f'⟩ := g
      obtain ⟨gs', h1, h2⟩ := ih ((e', f'.then (.elem e f .nil)) :: p) (by simpa using h)
      refine ⟨gs', ?_, h2⟩
      rw [← h1]
      simp [openOps, then_ops, Forest.ops, List.replicate_succ]

theorem pops_data (n : Nat) (t t' : ParseTree) (h : runOps (List.replicate n .pop) t = .ok t') : t'.data = t.data := by
  induction n generalizing t with
  | zero => cases h; rfl
  | succ n ih =>
    rw [List.replicate_succ, runOps] at h
    obtain ⟨s, h1, h2⟩ := bind_eq_ok.1 h
    rw [ih s h2]
    unfold ParseTree.pop at h1
    cases hp : t.pos with
    | none => rw [hp] at h1; simp at h1
    | some q =>
      rw [hp] at h1
      obtain ⟨m, -, h4⟩ := bind_eq_ok.1 h1
      cases h4; rfl

theorem toDom_data {t t' : ParseTree} (h : t'.data = t.data) : t'.toDom = t.toDom := by
  unfold ParseTree.toDom
  rw [h]

theorem toDom_tops {gs : List (Element × Forest)} {e : Element} {f : Forest}
    (hf : ∀ g ∈ gs ++ [(e, f)], g.1.children = [] ∧ g.2.Fresh) :
    (arena (topArena (gs ++ [(e, f)])) none).toDom =
      .ok { e with children := joinBack (laid e (allContent (gs ++ [(e, f)]))) } := by
  have h1 := allContent_fresh hf
  rw [topArena_snoc]
  rw [allContent_append] at h1 ⊢
  simp only [allContent, then_nil] at h1 ⊢
  rw [rootArena, toDom_forest, addRev_laid h1 e (hf (e, f) (by simp)).1]
  simp [ElementF.reverseChildren]

end KissXml
