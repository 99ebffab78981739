import Verif.Spec.Prolog
import Verif.Proofs.RootsParse
/-!
# Lemmas for C110: what stands before the root element
-/
namespace KissXml
open Spec

theorem lexes_cut {x tail : Str} {pre rest : List (Str × Str)} (h : Lexes x (pre ++ rest) tail) :
    ∃ u, x = srcOf pre ++ u ∧ Lexes u rest tail := by
  induction pre generalizing x with
  | nil => exact ⟨x, rfl, h⟩
  | cons t pre ih =>
    cases h with
    | @tag text tag r s _ _ h1 hT hs hl =>
      obtain ⟨u, rfl, hu⟩ := ih hl
      exact ⟨u, by rw [srcOf_cons, hs]; simp, hu⟩

theorem lexes_pre {u tail : Str} {pre rest : List (Str × Str)} (hp : ∀ t ∈ pre, TokOk t) (h : Lexes u rest tail) :
    Lexes (srcOf pre ++ u) (pre ++ rest) tail := by
  have := lexes_flat (l := pre) hp (tail := []) (by simp)
  rw [List.append_nil] at this
  exact lexes_append this h

theorem append_cons_inj {α : Type} {a a' l : List α} {x x' : α} (h : a ++ x :: l = a' ++ x' :: l) : a = a' := by
  have := congrArg List.length h
  simp only [List.length_append, List.length_cons] at this
  exact (List.append_inj h (by omega)).1

/-- the first comment can be shortened -/
theorem pro_comment {pos prev : Nat} {w : Bool} {d : Option Declaration} {ds : List DTD} {toks : List (Str × Str)}
    {D : Option Declaration} {DS : List DTD} {tag : Str} {rest : List (Str × Str)}
    (h : Pro pos prev w d ds toks D DS tag rest) : ∀ (pre : List (Str × Str)) (text : Str), toks = pre ++ (text, tag) :: rest → w = false →
    ∀ a tx t b, pre = a ++ (tx, t) :: b → c%"<!--" <+: t → (∀ t ∈ a, ¬ c%"<!--" <+: t.2) → ¬ NoCut t := by
  induction h with
  | root =>
    intro pre text hs _ a tx t b hab
    have : pre = [] := (append_cons_inj (a := []) (by simpa using hs)).symm
    subst this; simp at hab
  | @decl pos w d ds tx0 m toks D DS r rest hw hm _ ih =>
    intro pre text hs hf a tx t b hab hc hn
    cases pre with
    | nil =>
      have : tx0 = text ∧ toks = rest := by simp at hs; exact ⟨hs.1.1, hs.2⟩
      simp at hab
    | cons p pre =>
      simp only [List.cons_append, List.cons.injEq] at hs
      obtain ⟨rfl, hs⟩ := hs
      cases a with
      | nil =>
        simp only [List.nil_append, List.cons.injEq, Prod.mk.injEq] at hab
        obtain ⟨⟨-, rfl⟩, -⟩ := hab
        obtain ⟨u, hu⟩ := hc; simp at hu
      | cons q a =>
        simp only [List.cons_append, List.cons.injEq] at hab
        exact ih pre text hs hf a tx t b hab.2 hc (fun t ht => hn t (List.mem_cons_of_mem _ ht))
  | @comment pos prev w d ds tx0 tg toks D DS r rest hw hc0 ha _ ih =>
    intro pre text hs hf a tx t b hab hc hn
    cases pre with
    | nil => simp at hab
    | cons p pre =>
      simp only [List.cons_append, List.cons.injEq] at hs
      obtain ⟨rfl, hs⟩ := hs
      cases a with
      | nil =>
        simp only [List.nil_append, List.cons.injEq, Prod.mk.injEq] at hab
        obtain ⟨⟨-, rfl⟩, -⟩ := hab
        rw [← abbreviate_none]
        intro h0
        have := ha hf
        rw [h0] at this
        cases this
      | cons q a =>
        simp only [List.cons_append, List.cons.injEq] at hab
        exact absurd hc0 (by have := hn q (List.mem_cons_self ..); rwa [← hab.1] at this)
  | @doctype pos prev w d ds tx0 m toks D DS r rest hw _ ih =>
    intro pre text hs hf a tx t b hab hc hn
    cases pre with
    | nil => simp at hab
    | cons p pre =>
      simp only [List.cons_append, List.cons.injEq] at hs
      obtain ⟨rfl, hs⟩ := hs
      cases a with
      | nil =>
        simp only [List.nil_append, List.cons.injEq, Prod.mk.injEq] at hab
        obtain ⟨⟨-, rfl⟩, -⟩ := hab
        obtain ⟨u, hu⟩ := hc; simp at hu
      | cons q a =>
        simp only [List.cons_append, List.cons.injEq] at hab
        exact ih pre text hs hf a tx t b hab.2 hc (fun t ht => hn t (List.mem_cons_of_mem _ ht))
  | @other pos prev w d ds tx0 tg toks D DS r rest hw h0 h1 h2 _ ih =>
    intro pre text hs hf a tx t b hab hc hn
    cases pre with
    | nil => simp at hab
    | cons p pre =>
      simp only [List.cons_append, List.cons.injEq] at hs
      obtain ⟨rfl, hs⟩ := hs
      cases a with
      | nil =>
        simp only [List.nil_append, List.cons.injEq, Prod.mk.injEq] at hab
        obtain ⟨⟨-, rfl⟩, -⟩ := hab
        exact absurd hc h1
      | cons q a =>
        simp only [List.cons_append, List.cons.injEq] at hab
        exact ih pre text hs hf a tx t b hab.2 hc (fun t ht => hn t (List.mem_cons_of_mem _ ht))

/-- tokens that fit are read as a prolog -/
theorem pro_of {pre rest : List (Str × Str)} {text tag : Str} (hw : AllWs text) (h1 : ¬ c%"<?xml" <+: tag) (h2 : ¬ c%"<!" <+: tag)
    (h3 : ¬ c%"</" <+: tag) (h4 : Re.isMatch elemRe tag = true) (ht : ∀ t ∈ pre, TokOk t) (hp : ∀ t ∈ pre, IsProlog t.2)
    (hb : ∀ t ∈ pre, AllWs t.1) : ∀ (pos prev : Nat) (w : Bool) (d : Option Declaration) (ds : List DTD),
    (∀ a tx t b, pre = a ++ (tx, t) :: b → c%"<?xml" <+: t → (a = [] ∧ prev = 0) ∨ ∃ l, a = [l] ∧ pos + blen l.1 = 0) →
    (w = false → ∀ a tx t b, pre = a ++ (tx, t) :: b → c%"<!--" <+: t → (∀ t ∈ a, ¬ c%"<!--" <+: t.2) → ¬ NoCut t) →
    ∃ D DS, Pro pos prev w d ds (pre ++ (text, tag) :: rest) D DS tag rest := by
  induction pre with
  | nil => intro pos prev w d ds _ _; exact ⟨d, ds, .root (all_iff.2 hw) h1 h2 h3 h4⟩
  | cons p pre ih =>
    intro pos prev w d ds ho hc
    obtain ⟨tx, t⟩ := p
    have ih := ih (fun t h => ht t (List.mem_cons_of_mem _ h)) (fun t h => hp t (List.mem_cons_of_mem _ h)) (fun t h => hb t (List.mem_cons_of_mem _ h))
    have hbl : tx.all isWs = true := all_iff.2 (hb _ (List.mem_cons_self ..))
    have hT := (ht _ (List.mem_cons_self ..)).2
    have ho' : ∀ a tx' t' b, pre = a ++ (tx', t') :: b → c%"<?xml" <+: t' → (a = [] ∧ pos + blen tx = 0) ∨ ∃ l, a = [l] ∧ (pos + blen tx + blen t) + blen l.1 = 0 := by
      intro a tx' t' b hab hx
      rcases ho ((tx, t) :: a) tx' t' b (by rw [hab]; rfl) hx with ⟨h, -⟩ | ⟨l, h, hl⟩
      · cases h
      · simp only [List.cons.injEq] at h
        obtain ⟨rfl, rfl⟩ := h
        exact .inl ⟨rfl, hl⟩
    have hc' : w = false → ¬ c%"<!--" <+: t → ∀ a tx' t' b, pre = a ++ (tx', t') :: b → c%"<!--" <+: t' → (∀ t ∈ a, ¬ c%"<!--" <+: t.2) → ¬ NoCut t' := by
      intro hf hn a tx' t' b hab hx hq
      refine hc hf ((tx, t) :: a) tx' t' b (by rw [hab]; rfl) hx ?_
      intro q hq'
      rcases List.mem_cons.1 hq' with rfl | hq'
      · exact hn
      · exact hq q hq'
    rw [List.cons_append]
    by_cases hx : c%"<?xml" <+: t
    · obtain ⟨m, rfl⟩ := tagAt_pi_form hT (List.IsPrefix.trans ⟨c%"xml", rfl⟩ hx)
      have hprev : prev = 0 := by
        rcases ho [] tx _ pre rfl hx with ⟨-, h⟩ | ⟨l, h, -⟩
        · exact h
        · cases h
      subst hprev
      have hm : c%"xml" <+: m := by
        obtain ⟨v, hv⟩ := hx
        simp only [List.cons_append, List.nil_append, List.cons.injEq, true_and] at hv
        rcases m with _ | ⟨a, _ | ⟨b, _ | ⟨c, m⟩⟩⟩
        · simp at hv
        · simp at hv
        · simp at hv
        · simp only [List.cons_append, List.cons.injEq] at hv
          obtain ⟨rfl, rfl, rfl, -⟩ := hv
          exact ⟨m, rfl⟩
      obtain ⟨D, DS, hP⟩ := ih _ _ w (some ⟨m⟩) ds ho' (fun hf => hc' hf (by rintro ⟨u, hu⟩; simp at hu))
      exact ⟨D, DS, .decl hbl hm hP⟩
    have h0 : c%"<!" <+: t := (hp _ (List.mem_cons_self ..)).resolve_left hx
    by_cases hcm : c%"<!--" <+: t
    · obtain ⟨D, DS, hP⟩ := ih _ _ true d ds ho' (fun hf => by cases hf)
      refine ⟨D, DS, .comment hbl hcm ?_ hP⟩
      intro hf
      have := hc hf [] tx t pre rfl hcm (by simp)
      rw [← abbreviate_none] at this
      exact Option.isSome_iff_ne_none.2 this
    by_cases hd : c%"<!DOCTYPE" <+: t
    · obtain ⟨m, rfl⟩ := tagAt_doctype_form hT hd
      obtain ⟨D, DS, hP⟩ := ih _ _ w d (ds ++ [⟨m⟩]) ho' (fun hf => hc' hf hcm)
      exact ⟨D, DS, .doctype hbl hP⟩
    · obtain ⟨D, DS, hP⟩ := ih _ _ w d ds ho' (fun hf => hc' hf hcm)
      exact ⟨D, DS, .other hbl h0 hcm hd hP⟩

theorem blen_zero_nil {s : Str} (h : blen s = 0) : s = [] := blen_eq_zero.1 h

theorem gives_unique {pre : List (Str × Str)} {D D' : Option Declaration} {ds ds' : List DTD} (h : PrologGives pre D ds)
    (h' : PrologGives pre D' ds') : D = D' ∧ ds = ds' := by
  constructor
  · refine Option.map_injective ?_ (h.decl.trans h'.decl.symm)
    rintro ⟨a⟩ ⟨b⟩ hab
    simp only [List.cons_append, List.nil_append, List.cons.injEq, true_and] at hab
    rw [List.append_cancel_right hab]
  · refine List.map_injective_iff.2 ?_ (h.dtds.trans h'.dtds.symm)
    rintro ⟨a⟩ ⟨b⟩ hab
    simp only [List.cons_append, List.nil_append, List.cons.injEq, true_and] at hab
    rw [List.append_cancel_right hab]

theorem gives_of_facts {pos prev : Nat} {toks : List (Str × Str)} {D : Option Declaration}
    {DS : List DTD} {tag : Str} {rest pre : List (Str × Str)} {text : Str} (h : ProFacts pos prev none [] toks D DS tag rest pre text) :
    PrologGives pre D DS := ⟨h.decl.trans (by simp [tagsWith, tagsOf]), by simpa [tagsWith, tagsOf] using h.dtds⟩

/-- an accepted document is an accepted prolog and an accepted document without prolog -/
theorem parse_prolog {x u : Str} {d : Document} {pre rest : List (Str × Str)} (hp : Parts x pre rest) (hx : x = srcOf pre ++ u) :
    parseStr x = .ok d ↔ PrologFine pre ∧ PrologGives pre d.declaration d.dtds ∧ parseStr u = .ok ⟨none, [], d.root⟩ := by
  obtain ⟨tail, hl⟩ := hp.lexes
  have hk : ∀ t ∈ pre, TokOk t := fun t ht => lexes_toks hl t (List.mem_append_left _ ht)
  obtain ⟨u', hx', hu⟩ := lexes_cut hl
  have : u' = u := List.append_cancel_left (hx'.symm.trans hx)
  subst this
  rw [parse_iff, parse_iff]
  constructor
  · rintro ⟨toks, D, DS, tag, rest', E, F, hL, hP, hR, rfl⟩
    obtain ⟨pre', text, hF⟩ := pro_split hP
    obtain ⟨tail', hT⟩ := lex_lexes hL
    have hs := hF.split
    have h' : Parts x pre' ((text, tag) :: rest') := by
      refine ⟨⟨tail', hs ▸ hT⟩, fun t ht => (hF.prolog t ht).1, ?_⟩
      rintro t r hr
      cases hr
      exact hF.root
    obtain ⟨rfl, rfl⟩ := parts_unique h' hp
    refine ⟨⟨fun t ht => (hF.prolog t ht).2, ?_, pro_comment hP _ _ hs rfl⟩, gives_of_facts hF, ?_⟩
    · intro a tx t b hab hxm
      rcases hF.order a tx t b hab hxm with ⟨rfl, -⟩ | ⟨⟨l, t⟩, rfl, h0⟩
      · exact .inl rfl
      · have : l = [] := blen_zero_nil (by simpa using h0)
        exact .inr ⟨t, by rw [this]⟩
    · obtain ⟨g1, g2, g3, g4⟩ := pro_root hP
      exact ⟨_, none, [], tag, rest', E, F, lexes_lex hu 0, .root (all_iff.2 hF.blank) g1 g2 g3 g4, hR, rfl⟩
  · rintro ⟨hf, hg, toks, D, DS, tag, rest', E, F, hL, hP, hR, hd⟩
    have : toks = rest := (lex_unique hL (lexes_lex hu 0)).1
    subst this
    obtain ⟨pre', text, hF⟩ := pro_split hP
    have hs := hF.split
    have hn : pre' = [] := by
      cases pre' with
      | nil => rfl
      | cons t pre' => exact absurd (hF.prolog t (List.mem_cons_self ..)).1 (hp.root t _ hs)
    subst hn
    obtain ⟨g1, g2, g3, g4⟩ := pro_root hP
    obtain ⟨D', DS', hP'⟩ := pro_of (rest := rest') hF.blank g1 g2 g3 g4 hk hp.prolog hf.blank 0 0 false none []
      (fun a tx t b hab hxm => by
        rcases hf.decl a tx t b hab hxm with rfl | ⟨l, rfl⟩
        · exact .inl ⟨rfl, rfl⟩
        · exact .inr ⟨_, rfl, rfl⟩) (fun _ => hf.comment)
    obtain ⟨q, tx, hF'⟩ := pro_split hP'
    have hq : pre = q := append_cons_inj (hF'.split)
    subst hq
    obtain ⟨e1, e2⟩ := gives_unique hg (gives_of_facts hF')
    rw [List.nil_append] at hs
    refine ⟨_, D', DS', tag, rest', E, F, lexes_lex hl 0, hs ▸ hP', hR, ?_⟩
    obtain ⟨dd, dt, dr⟩ := d
    simp only [Document.newWithDeclDtd, Document.mk.injEq] at hd ⊢
    exact ⟨e1, e2, hd.2.2⟩

/-- another prolog before the same root element -/
theorem parse_new_prolog {x u : Str} {d : Document} {pre pre' rest : List (Str × Str)} {D : Option Declaration} {ds : List DTD}
    (h : parseStr x = .ok d) (hp : Parts x pre rest) (hx : x = srcOf pre ++ u) (hk : ∀ t ∈ pre', TokOk t) (hi : ∀ t ∈ pre', IsProlog t.2)
    (hf : PrologFine pre') (hg : PrologGives pre' D ds) : parseStr (srcOf pre' ++ u) = .ok ⟨D, ds, d.root⟩ := by
  obtain ⟨-, -, hu⟩ := (parse_prolog hp hx).1 h
  obtain ⟨tail, hl⟩ := hp.lexes
  obtain ⟨u', hx', hl'⟩ := lexes_cut hl
  have : u' = u := List.append_cancel_left (hx'.symm.trans hx)
  subst this
  exact (parse_prolog (d := ⟨D, ds, d.root⟩) ⟨⟨tail, lexes_pre hk hl'⟩, hi, hp.root⟩ rfl).2 ⟨hf, hg, hu⟩

theorem parts_toks {x : Str} {pre rest : List (Str × Str)} (hp : Parts x pre rest) : ∀ t ∈ pre, TokOk t := by
  obtain ⟨tail, hl⟩ := hp.lexes
  exact fun t ht => lexes_toks hl t (List.mem_append_left _ ht)

theorem blank_no_lt {w : Str} (h : AllWs w) : '<' ∉ w := fun hm => absurd (h _ hm) (by decide)

theorem tagsWith_append (p : Str) (a b : List (Str × Str)) : tagsWith p (a ++ b) = tagsWith p a ++ tagsWith p b := by simp [tagsWith]

theorem tagsWith_pos {p : Str} {t : Str × Str} (h : p <+: t.2) (b : List (Str × Str)) : tagsWith p (t :: b) = t.2 :: tagsWith p b := by
  simp [tagsWith, List.isPrefixOf_iff_prefix.2 h]

theorem tagsWith_neg {p : Str} {t : Str × Str} (h : ¬ p <+: t.2) (b : List (Str × Str)) : tagsWith p (t :: b) = tagsWith p b := by
  have : p.isPrefixOf t.2 = false := by rw [Bool.eq_false_iff]; exact fun h' => h (List.isPrefixOf_iff_prefix.1 h')
  simp [tagsWith, this]

theorem tagsWith_nil {p : Str} {b : List (Str × Str)} (h : ∀ t ∈ b, ¬ p <+: t.2) : tagsWith p b = [] := by
  induction b with
  | nil => rfl
  | cons t b ih => rw [tagsWith_neg (h t (List.mem_cons_self ..)), ih fun t ht => h t (List.mem_cons_of_mem _ ht)]

/-- a token put into a prolog, no declaration after it -/
theorem fine_in {a b : List (Str × Str)} {t : Str × Str} (h : PrologFine (a ++ b)) (hw : AllWs t.1) (hb : ∀ t ∈ b, ¬ c%"<?xml" <+: t.2)
    (ht : c%"<?xml" <+: t.2 → a = []) (hc : c%"<!--" <+: t.2 → (∃ t ∈ a, c%"<!--" <+: t.2) ∨ ¬ NoCut t.2) : PrologFine (a ++ t :: b) := by
  refine ⟨?_, ?_, ?_⟩
  · intro q hq
    rcases List.mem_append.1 hq with hq | hq
    · exact h.blank q (List.mem_append_left _ hq)
    · rcases List.mem_cons.1 hq with rfl | hq
      · exact hw
      · exact h.blank q (List.mem_append_right _ hq)
  · intro a' tx tg b' hab hx
    rcases append_split hab.symm with ⟨c, rfl, rfl⟩ | ⟨c, rfl, hc'⟩
    · exact h.decl a' tx tg (c ++ b) (by simp) hx
    · cases c with
      | nil =>
        simp only [List.nil_append, List.cons.injEq] at hc'
        obtain ⟨rfl, rfl⟩ := hc'
        exact .inl (by simpa using ht hx)
      | cons q c =>
        simp only [List.cons_append, List.cons.injEq] at hc'
        exact absurd hx (hb (tx, tg) (by rw [hc'.2]; simp))
  · intro a' tx tg b' hab hx hn
    rcases append_split hab.symm with ⟨c, rfl, rfl⟩ | ⟨c, rfl, hc'⟩
    · exact h.comment a' tx tg (c ++ b) (by simp) hx hn
    · cases c with
      | nil =>
        simp only [List.nil_append, List.cons.injEq] at hc'
        obtain ⟨rfl, rfl⟩ := hc'
        rcases hc hx with ⟨q, hq, hq'⟩ | h
        · exact absurd hq' (hn q (by simpa using hq))
        · exact h
      | cons q c =>
        simp only [List.cons_append, List.cons.injEq] at hc'
        obtain ⟨rfl, rfl⟩ := hc'
        refine h.comment (a ++ c) tx tg b' (by simp) hx ?_
        intro q hq
        refine hn q ?_
        rcases List.mem_append.1 hq with hq | hq
        · exact List.mem_append_left _ hq
        · exact List.mem_append_right _ (List.mem_cons_of_mem _ hq)

/-- a token taken out of a prolog -/
theorem fine_out {a b : List (Str × Str)} {t : Str × Str} (h : PrologFine (a ++ t :: b))
    (hc : c%"<!--" <+: t.2 → (∃ t ∈ a, c%"<!--" <+: t.2) ∨ ∀ t ∈ b, c%"<!--" <+: t.2 → ¬ NoCut t.2) : PrologFine (a ++ b) := by
  refine ⟨?_, ?_, ?_⟩
  · intro q hq
    rcases List.mem_append.1 hq with hq | hq
    · exact h.blank q (List.mem_append_left _ hq)
    · exact h.blank q (List.mem_append_right _ (List.mem_cons_of_mem _ hq))
  · intro a' tx tg b' hab hx
    rcases append_split hab.symm with ⟨c, rfl, rfl⟩ | ⟨c, rfl, rfl⟩
    · exact h.decl a' tx tg (c ++ t :: b) (by simp) hx
    · rcases h.decl (a ++ t :: c) tx tg b' (by simp) hx with h' | ⟨s, h'⟩
      · simp at h'
      · have := congrArg List.length h'
        simp only [List.length_append, List.length_cons, List.length_nil] at this
        obtain rfl : a = [] := List.length_eq_zero_iff.1 (by omega)
        obtain rfl : c = [] := List.length_eq_zero_iff.1 (by omega)
        exact .inl rfl
  · intro a' tx tg b' hab hx hn
    rcases append_split hab.symm with ⟨c, rfl, rfl⟩ | ⟨c, rfl, rfl⟩
    · exact h.comment a' tx tg (c ++ t :: b) (by simp) hx hn
    · by_cases ht : c%"<!--" <+: t.2
      · rcases hc ht with ⟨q, hq, hq'⟩ | h
        · exact absurd hq' (hn q (List.mem_append_left _ hq))
        · exact h (tx, tg) (by simp) hx
      · refine h.comment (a ++ t :: c) tx tg b' (by simp) hx ?_
        intro q hq
        rcases List.mem_append.1 hq with hq | hq
        · exact hn q (List.mem_append_left _ hq)
        · rcases List.mem_cons.1 hq with rfl | hq
          · exact ht
          · exact hn q (List.mem_append_right _ hq)

theorem map_split {α β : Type} {f : α → β} {l : List α} {a b : List β} (h : l.map f = a ++ b) :
    ∃ l₁ l₂, l = l₁ ++ l₂ ∧ l₁.map f = a ∧ l₂.map f = b := List.map_eq_append_iff.1 h

end KissXml
