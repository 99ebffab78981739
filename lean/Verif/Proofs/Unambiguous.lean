import Verif.Proofs.SyntaxExact
/-!
# Concrete documents can be written in one way only
-/
namespace KissXml
open Spec

variable {P Q : Str → Prop} {L M : CTag → Prop}

/-- where a run of characters ends -/
theorem run_inj {p : Char → Prop} {a b x y : Str} (h : a ++ x = b ++ y) (ha : ∀ c ∈ a, p c) (hb : ∀ c ∈ b, p c)
    (hx : ∀ c u, x = c :: u → ¬ p c) (hy : ∀ c u, y = c :: u → ¬ p c) : a = b ∧ x = y := by
  induction a generalizing b with
  | nil =>
    cases b with
    | nil => exact ⟨rfl, h⟩
    | cons c b => exact absurd (hb c (by simp)) (hx c _ h)
  | cons c a ih =>
    cases b with
    | nil => exact absurd (ha c (by simp)) (hy c _ h.symm)
    | cons d b =>
      simp only [List.cons_append, List.cons.injEq] at h
      obtain ⟨g1, g2⟩ := ih h.2 (fun c hc => ha c (by simp [hc])) fun c hc => hb c (by simp [hc])
      exact ⟨by rw [h.1, g1], g2⟩

theorem ws_run {a x : Str} (ha : AllWs a) {c : Char} {u : Str} (h : a ++ x = c :: u) (hx : ∀ c u, x = c :: u → isWs c = true ∨ c = '=') :
    isWs c = true ∨ c = '=' := by
  cases a with
  | nil => exact hx c u h
  | cons d a => cases h; exact .inl (ha _ (by simp))

theorem attr_inj {a b : CAttr} (ha : a.OkFor P) (hb : b.OkFor Q) {x y : Str} (h : a.src ++ x = b.src ++ y) : a = b ∧ x = y := by
  obtain ⟨sp, name, sp1, sp2, q, raw⟩ := a
  obtain ⟨sp', name', sp1', sp2', q', raw'⟩ := b
  simp only [CAttr.src, List.append_assoc] at h
  obtain ⟨⟨a1, -⟩, a2, a3, a4, a5, a6, -⟩ := ha
  obtain ⟨⟨b1, -⟩, b2, b3, b4, b5, b6, -⟩ := hb
  simp only at a1 a2 a3 a4 a5 a6 b1 b2 b3 b4 b5 b6
  have hname : ∀ {n : Str} (_ : XmlName n) (r : Str) c u, n ++ r = c :: u → ¬ isWs c = true := by
    intro n hn r c u hc
    obtain ⟨d, t, rfl, -, -, h⟩ := hn
    cases hc
    rw [h c (by simp)]; simp
  obtain ⟨rfl, h1⟩ := run_inj (p := fun c => isWs c = true) h a1 b1 (hname a2 _) (hname b2 _)
  clear a1 b1
  have hn : ∀ {n : Str} (_ : XmlName n), ∀ c ∈ n, ¬ (isWs c = true ∨ c = '=') := by
    rintro n hn c hc (h | rfl)
    · rw [xmlName_ws hn c hc] at h; cases h
    · exact xmlName_not_mem hn '=' (by decide) hc
  have hs : ∀ {s : Str} (_ : AllWs s) (r : Str) c u, s ++ (c%"=" ++ r) = c :: u → ¬ ¬ (isWs c = true ∨ c = '=') := by
    intro s hs r c u hc
    rw [not_not]
    refine ws_run hs hc ?_
    rintro c u ⟨⟩; exact .inr rfl
  clear h
  obtain ⟨rfl, h⟩ := run_inj (p := fun c => ¬ (isWs c = true ∨ c = '=')) h1 (hn a2) (hn b2) (hs a3 _) (hs b3 _)
  have he : ∀ (r : Str) (c : Char) u, c%"=" ++ r = c :: u → ¬ isWs c = true := by
    rintro r c u ⟨⟩; decide
  clear h1
  obtain ⟨rfl, h1⟩ := run_inj (p := fun c => isWs c = true) h a3 b3 (he _) (he _)
  clear h
  have h := List.append_cancel_left h1
  clear h1
  have hq : ∀ (q : Char), (q = '"' ∨ q = '\'') → ∀ (r : Str) (c : Char) u, [q] ++ r = c :: u → ¬ isWs c = true := by
    rintro q (rfl | rfl) r c u ⟨⟩ <;> decide
  obtain ⟨rfl, h1⟩ := run_inj (p := fun c => isWs c = true) h a4 b4 (hq _ a5 _) (hq _ b5 _)
  simp only [List.cons_append, List.nil_append, List.cons.injEq] at h1
  clear h
  obtain ⟨rfl, h⟩ := h1
  obtain ⟨rfl, h2⟩ := run_inj (p := fun c => c ≠ q) h (fun c hc hq => a6 (hq ▸ hc)) (fun c hc hq => b6 (hq ▸ hc))
    (by rintro c u ⟨⟩; simp) (by rintro c u ⟨⟩; simp)
  cases h2
  exact ⟨rfl, rfl⟩

theorem attrs_inj {l m : List CAttr} (hl : ∀ a ∈ l, a.OkFor P) (hm : ∀ a ∈ m, a.OkFor Q) {s s' : Str} (hs : AllWs s) (hs' : AllWs s')
    (h : l.flatMap CAttr.src ++ s = m.flatMap CAttr.src ++ s') : l = m ∧ s = s' := by
  have key : ∀ {R : Str → Prop} {a : CAttr} (_ : a.OkFor R) {r t : Str}, AllWs t → a.src ++ r ≠ t := by
    rintro R a ha r t ht rfl
    have := ht '=' (by simp [CAttr.src])
    revert this; decide
  induction l generalizing m with
  | nil =>
    cases m with
    | nil => exact ⟨rfl, h⟩
    | cons b m =>
      simp only [List.flatMap_cons, List.append_assoc] at h
      exact absurd h.symm (key (hm b (by simp)) hs)
  | cons a l ih =>
    cases m with
    | nil =>
      simp only [List.flatMap_cons, List.append_assoc] at h
      exact absurd h (key (hl a (by simp)) hs')
    | cons b m =>
      simp only [List.flatMap_cons, List.append_assoc] at h
      obtain ⟨hab, h⟩ := attr_inj (hl a (by simp)) (hm b (by simp)) h
      obtain ⟨g1, g2⟩ := ih (fun a ha => hl a (by simp [ha])) (m := m) (fun a ha => hm a (by simp [ha])) h
      exact ⟨by rw [hab, g1], g2⟩

theorem body_inj {t t' : CTag} (h : t.OkFor P L) (h' : t'.OkFor Q M) (he : t.body = t'.body) : t = t' := by
  obtain ⟨n, as, sp⟩ := t
  obtain ⟨n', as', sp'⟩ := t'
  simp only [CTag.body, List.append_assoc] at he
  have key : ∀ {R : Str → Prop} {l : List CAttr} (_ : ∀ a ∈ l, a.OkFor R) {s : Str}, AllWs s → ∀ c u,
      l.flatMap CAttr.src ++ s = c :: u → ¬ isWs c = false := by
    intro R l hl s hs c u hc
    cases l with
    | nil => simp only [List.flatMap_nil, List.nil_append] at hc; rw [hs c (by rw [hc]; simp)]; simp
    | cons a l =>
      obtain ⟨⟨h1, h2⟩, -⟩ := hl a (by simp)
      cases hsp : a.sp with
      | nil => exact absurd hsp h2
      | cons d r =>
        simp only [List.flatMap_cons, CAttr.src, hsp, List.cons_append, List.cons.injEq] at hc
        rw [← hc.1, h1 d (by rw [hsp]; simp)]; simp
  obtain ⟨rfl, hr⟩ := run_inj (p := fun c => isWs c = false) he (xmlName_ws h.name)
    (xmlName_ws h'.name) (key h.attrs h.sp) (key h'.attrs h'.sp)
  obtain ⟨rfl, rfl⟩ := attrs_inj h.attrs h'.attrs h.sp h'.sp hr
  rfl

theorem start_inj {t t' : CTag} (h : t.OkFor P L) (h' : t'.OkFor Q M) (he : t.start = t'.start) : t = t' :=
  body_inj h h' (List.append_cancel_left (List.append_cancel_right he))

theorem empty_inj {t t' : CTag} (h : t.OkFor P L) (h' : t'.OkFor Q M) (he : t.empty = t'.empty) : t = t' :=
  body_inj h h' (List.append_cancel_left (List.append_cancel_right he))

theorem start_ne_empty {t t' : CTag} (h : t.OkFor P L) : t.start ≠ t'.empty := fun he =>
  start_not_empty h (he ▸ ⟨c%"<" ++ t'.body, rfl⟩)

theorem tag_ne_mark {t : CTag} (h : t.OkFor P L) (s : Str) {x : Str} (hx : c%"</" <+: x ∨ c%"<!" <+: x) : c%"<" ++ t.body ++ s ≠ x := by
  rintro rfl
  exact hx.elim (name_not_mark h s).1 (name_not_mark h s).2

theorem closing_mark (n s : Str) : c%"</" <+: closing n s := by simp [closing]

theorem toksOf_inj {c c' : Cst} (h : c.OkFor P L) (h' : c'.OkFor Q M) {close close' : Str} (hc : c%"</" <+: close)
    (hc' : c%"</" <+: close') {r r' : List (Str × Str)} (he : toksOf close c ++ r = toksOf close' c' ++ r') :
    c = c' ∧ close = close' ∧ r = r' := by
  have h1 : ∀ {k s : Str}, ¬ c%"</" <+: c%"<!--" ++ k ++ s := by rintro k s ⟨u, hu⟩; simp at hu
  have h2 : ∀ {k s : Str}, ¬ c%"</" <+: c%"<![CDATA[" ++ k ++ s := by rintro k s ⟨u, hu⟩; simp at hu
  have h3 : ∀ {k s : Str}, c%"<!" <+: c%"<!--" ++ k ++ s := by intro k s; simp
  have h4 : ∀ {k s : Str}, c%"<!" <+: c%"<![CDATA[" ++ k ++ s := by intro k s; simp
  induction c generalizing c' close close' r r' with
  | done text =>
    cases c' with
    | done text' => simp [toksOf] at he; obtain ⟨⟨rfl, rfl⟩, rfl⟩ := he; exact ⟨rfl, rfl, rfl⟩
    | comment text' k' rest' =>
      simp only [toksOf, List.cons_append, List.nil_append, List.cons.injEq, Prod.mk.injEq] at he
      exact absurd (he.1.2 ▸ hc) h1
    | cdata text' k' rest' =>
      simp only [toksOf, List.cons_append, List.nil_append, List.cons.injEq, Prod.mk.injEq] at he
      exact absurd (he.1.2 ▸ hc) h2
    | empty text' t' rest' =>
      simp only [toksOf, List.cons_append, List.nil_append, List.cons.injEq, Prod.mk.injEq] at he
      exact absurd he.1.2.symm (tag_ne_mark h'.2.1 _ (.inl hc))
    | elem text' t' inner' sp' rest' =>
      simp only [toksOf, List.cons_append, List.nil_append, List.cons.injEq, Prod.mk.injEq] at he
      exact absurd he.1.2.symm (tag_ne_mark h'.2.1 _ (.inl hc))
  | comment text k rest ih =>
    cases c' with
    | done text' =>
      simp only [toksOf, List.cons_append, List.nil_append, List.cons.injEq, Prod.mk.injEq] at he
      exact absurd (he.1.2 ▸ hc') h1
    | comment text' k' rest' =>
      simp only [toksOf, List.cons_append, List.cons.injEq, Prod.mk.injEq, List.nil_append, true_and] at he
      obtain ⟨⟨rfl, hk⟩, he⟩ := he
      have hk := List.append_cancel_right hk
      obtain ⟨rfl, rfl, rfl⟩ := ih h.2.2 h'.2.2 hc hc' he
      exact ⟨by rw [hk], rfl, rfl⟩
    | cdata text' k' rest' =>
      simp [toksOf] at he
    | empty text' t' rest' =>
      simp only [toksOf, List.cons_append, List.cons.injEq, Prod.mk.injEq] at he
      exact absurd he.1.2.symm (tag_ne_mark h'.2.1 _ (.inr h3))
    | elem text' t' inner' sp' rest' =>
      simp only [toksOf, List.cons_append, List.cons.injEq, Prod.mk.injEq] at he
      exact absurd he.1.2.symm (tag_ne_mark h'.2.1 _ (.inr h3))
  | cdata text k rest ih =>
    cases c' with
    | done text' =>
      simp only [toksOf, List.cons_append, List.nil_append, List.cons.injEq, Prod.mk.injEq] at he
      exact absurd (he.1.2 ▸ hc') h2
    | comment text' k' rest' =>
      simp [toksOf] at he
    | cdata text' k' rest' =>
      simp only [toksOf, List.cons_append, List.cons.injEq, Prod.mk.injEq, List.nil_append, true_and] at he
      obtain ⟨⟨rfl, hk⟩, he⟩ := he
      have hk := List.append_cancel_right hk
      obtain ⟨rfl, rfl, rfl⟩ := ih h.2.2 h'.2.2 hc hc' he
      exact ⟨by rw [hk], rfl, rfl⟩
    | empty text' t' rest' =>
      simp only [toksOf, List.cons_append, List.cons.injEq, Prod.mk.injEq] at he
      exact absurd he.1.2.symm (tag_ne_mark h'.2.1 _ (.inr h4))
    | elem text' t' inner' sp' rest' =>
      simp only [toksOf, List.cons_append, List.cons.injEq, Prod.mk.injEq] at he
      exact absurd he.1.2.symm (tag_ne_mark h'.2.1 _ (.inr h4))
  | empty text t rest ih =>
    cases c' with
    | done text' =>
      simp only [toksOf, List.cons_append, List.nil_append, List.cons.injEq, Prod.mk.injEq] at he
      exact absurd he.1.2 (tag_ne_mark h.2.1 _ (.inl hc'))
    | comment text' k' rest' =>
      simp only [toksOf, List.cons_append, List.cons.injEq, Prod.mk.injEq] at he
      exact absurd he.1.2 (tag_ne_mark h.2.1 _ (.inr h3))
    | cdata text' k' rest' =>
      simp only [toksOf, List.cons_append, List.cons.injEq, Prod.mk.injEq] at he
      exact absurd he.1.2 (tag_ne_mark h.2.1 _ (.inr h4))
    | empty text' t' rest' =>
      simp only [toksOf, List.cons_append, List.cons.injEq, Prod.mk.injEq] at he
      obtain ⟨⟨rfl, hk⟩, he⟩ := he
      have := empty_inj h.2.1 h'.2.1 hk
      subst this
      obtain ⟨rfl, rfl, rfl⟩ := ih h.2.2 h'.2.2 hc hc' he
      exact ⟨rfl, rfl, rfl⟩
    | elem text' t' inner' sp' rest' =>
      simp only [toksOf, List.cons_append, List.cons.injEq, Prod.mk.injEq] at he
      exact absurd he.1.2.symm (start_ne_empty h'.2.1)
  | elem text t inner sp rest ih1 ih2 =>
    cases c' with
    | done text' =>
      simp only [toksOf, List.cons_append, List.nil_append, List.cons.injEq, Prod.mk.injEq] at he
      exact absurd he.1.2 (tag_ne_mark h.2.1 _ (.inl hc'))
    | comment text' k' rest' =>
      simp only [toksOf, List.cons_append, List.cons.injEq, Prod.mk.injEq] at he
      exact absurd he.1.2 (tag_ne_mark h.2.1 _ (.inr h3))
    | cdata text' k' rest' =>
      simp only [toksOf, List.cons_append, List.cons.injEq, Prod.mk.injEq] at he
      exact absurd he.1.2 (tag_ne_mark h.2.1 _ (.inr h4))
    | empty text' t' rest' =>
      simp only [toksOf, List.cons_append, List.cons.injEq, Prod.mk.injEq] at he
      exact absurd he.1.2 (start_ne_empty h.2.1)
    | elem text' t' inner' sp' rest' =>
      simp only [toksOf, List.cons_append, List.cons.injEq, Prod.mk.injEq, List.append_assoc] at he
      obtain ⟨⟨rfl, hk⟩, he⟩ := he
      have := start_inj h.2.1 h'.2.1 hk
      subst this
      obtain ⟨rfl, hcl, he⟩ := ih1 h.2.2.1 h'.2.2.1 (by simp [closing]) (by simp [closing]) he
      obtain ⟨rfl, rfl, rfl⟩ := ih2 h.2.2.2.2 h'.2.2.2.2 hc hc' he
      have : sp = sp' := by simpa [closing] using hcl
      subst this
      exact ⟨rfl, rfl, rfl⟩

theorem misc_inj {l l' : List (Str × CMisc)} (h : miscToks l = miscToks l') : l = l' := by
  induction l generalizing l' with
  | nil => cases l' with
    | nil => rfl
    | cons => cases h
  | cons x l ih =>
    cases l' with
    | nil => cases h
    | cons y l' =>
      obtain ⟨s, x⟩ := x
      obtain ⟨s', y⟩ := y
      simp only [miscToks, List.map_cons, List.cons.injEq, Prod.mk.injEq] at h
      obtain ⟨⟨rfl, h1⟩, h2⟩ := h
      have : x = y := by cases x <;> cases y <;> simp [CMisc.src] at h1 ⊢ <;> exact h1
      subst this
      rw [ih h2]

theorem src_inj {d d' : CDoc} (h : d.WfFor P L) (h' : d'.WfFor Q M) (he : d.src = d'.src) : d = d' := by
  have hlex := lexes_flat (docToks_ok h) (allWs_lt h.tail)
  have hlex' := lexes_flat (docToks_ok h') (allWs_lt h'.tail)
  rw [docToks_src] at hlex hlex'
  have ht := lexes_unique (he ▸ hlex) hlex'
  have htail : d.tail = d'.tail := by
    have h1 := docToks_src d
    rw [he, ← docToks_src d', ht] at h1
    exact List.append_cancel_left h1
  have hnot : ∀ {R : Str → Prop} {N : CTag → Prop} {d : CDoc} (_ : d.WfFor R N) t r, rootToks d = t :: r → ¬ IsProlog t.2 := by
    intro R N d h t r hr
    have : ∃ s, t.2 = c%"<" ++ d.root.body ++ s := by
      unfold rootToks at hr
      split at hr
      · cases hr; exact ⟨_, rfl⟩
      · cases hr; exact ⟨_, rfl⟩
    obtain ⟨s, hs⟩ := this
    rw [hs]
    rintro (hu | hu)
    · exact name_not_xml h.root _ hu
    · exact (name_not_mark h.root _).2 hu
  have hmisc : ∀ (d : CDoc), ∀ t ∈ miscToks d.misc, c%"<!" <+: t.2 := by
    intro d t ht
    obtain ⟨⟨sp, y⟩, hy, rfl⟩ := List.mem_map.1 ht
    cases y with
    | comment c => simp [CMisc.src]
    | doctype m => simp [CMisc.src]
  have hpre : ∀ (d : CDoc), ∀ t ∈ declToks d.decl ++ miscToks d.misc, IsProlog t.2 := by
    intro d t ht
    rcases List.mem_append.1 ht with ht | ht
    · cases hd : d.decl with
      | none => rw [hd] at ht; cases ht
      | some y =>
        rw [hd, declToks, List.mem_singleton] at ht
        subst ht
        exact .inl (by simp)
    · exact .inr (hmisc d t ht)
  rw [docToks, docToks, ← List.append_assoc, ← List.append_assoc] at ht
  obtain ⟨h1, h2⟩ := split_prolog ht (hpre d) (hpre d') (hnot h) (hnot h')
  have hdm : d.decl = d'.decl ∧ d.misc = d'.misc := by
    cases hd : d.decl with
    | none =>
      cases hd' : d'.decl with
      | none =>
        rw [hd, hd'] at h1
        exact ⟨rfl, misc_inj h1⟩
      | some y =>
        rw [hd, hd'] at h1
        simp only [declToks, List.nil_append, List.cons_append] at h1
        have := hmisc d _ (by rw [h1]; exact List.mem_cons_self ..)
        simp at this
    | some x =>
      cases hd' : d'.decl with
      | none =>
        rw [hd, hd'] at h1
        simp only [declToks, List.nil_append, List.cons_append] at h1
        have := hmisc d' _ (by rw [← h1]; exact List.mem_cons_self ..)
        simp at this
      | some y =>
        rw [hd, hd'] at h1
        simp only [declToks, List.nil_append, List.cons_append, List.cons.injEq, Prod.mk.injEq] at h1
        obtain ⟨⟨g1, g2⟩, g3⟩ := h1
        obtain ⟨s, m⟩ := x
        obtain ⟨s', m'⟩ := y
        simp only at g1
        simp at g2
        rw [g1, g2]
        exact ⟨rfl, misc_inj g3⟩
  obtain ⟨decl, misc, sp, root, body, tail⟩ := d
  obtain ⟨decl', misc', sp', root', body', tail'⟩ := d'
  simp only at htail hdm
  obtain ⟨rfl, rfl⟩ := hdm
  subst htail
  cases hb : body with
  | none =>
    cases hb' : body' with
    | none =>
      subst hb hb'
      simp only [rootToks, List.cons.injEq, Prod.mk.injEq, and_true] at h2
      obtain ⟨rfl, h2⟩ := h2
      have := empty_inj h.root h'.root h2
      simp only at this
      subst this
      rfl
    | some y =>
      subst hb hb'
      simp only [rootToks, List.cons.injEq, Prod.mk.injEq] at h2
      exact absurd h2.1.2.symm (start_ne_empty h'.root)
  | some x =>
    cases hb' : body' with
    | none =>
      subst hb hb'
      simp only [rootToks, List.cons.injEq, Prod.mk.injEq] at h2
      exact absurd h2.1.2 (start_ne_empty h.root)
    | some y =>
      subst hb hb'
      obtain ⟨c, s⟩ := x
      obtain ⟨c', s'⟩ := y
      simp only [rootToks, List.cons.injEq, Prod.mk.injEq] at h2
      obtain ⟨⟨rfl, h2⟩, h3⟩ := h2
      have := start_inj h.root h'.root h2
      simp only at this
      subst this
      obtain ⟨rfl, h4, -⟩ := toksOf_inj (r := []) (r' := []) (h.body c s rfl).1 (h'.body c' s' rfl).1
        (closing_mark _ _) (closing_mark _ _)
        (by simpa using h3)
      have : s = s' := by simpa [closing] using h4
      subst this
      rfl

end KissXml
