import Verif.Proofs.Reject
import Verif.Proofs.RoundTripExact
import Verif.Spec.Untrusted
/-!
# What the parser does with written documents, whatever their texts and values
-/
namespace KissXml
open Spec

/-! ## the first difference between two inputs -/

theorem lexesTo_cut {x a t r : Str} {P Q : List (Str × Str)} (h : LexesTo x (P ++ (t, r) :: Q) a) :
    ∃ s, LexesTo x P (t ++ s) ∧ '<' ∉ t ∧ TagAt s r := by
  induction P generalizing x with
  | nil =>
    cases h with
    | @tag _ _ _ s _ _ h1 h2 h3 h4 => exact ⟨s, .done, h1, h2⟩
  | cons p P ih =>
    obtain ⟨t', r'⟩ := p
    cases h with
    | tag h1 h2 h3 h4 =>
      obtain ⟨s, k1, k2, k3⟩ := ih h4
      exact ⟨s, .tag h1 h2 h3 k1, k2, k3⟩

theorem located_exists (a : Str) : ∃ lc, Located a lc := ⟨_, located (x := a ++ ['<']) (b := []) rfl (by decide)⟩

theorem locatedText_exists (a t : Str) : ∃ lc, LocatedText a t lc := by
  by_cases h : c%"\n" <+: t
  · exact ⟨_, .inr ⟨h, rfl⟩⟩
  · obtain ⟨lc, hl⟩ := located_exists a
    exact ⟨lc, .inl ⟨h, hl⟩⟩

theorem returns_or_panics (s : Str) : Returns s ∨ Panics s := by
  obtain ⟨t, ht⟩ := unesc_total s
  cases t with
  | none => exact .inr ht
  | some t => exact .inl ⟨t, ht⟩

/-- Where an input first differs from an accepted one there is something that makes the parser panic: then it does. -/
theorem panic_swap {x y t r t' r' a b : Str} {P Q Q' : List (Str × Str)} (hx : LexesTo x (P ++ (t, r) :: Q) a)
    (hy : LexesTo y (P ++ (t', r') :: Q') b) (hd : ∃ d, parseStr y = .ok d)
    (h : Panics t ∧ ¬ AllWs t ∨ t = t' ∧ ¬ IsProlog r ∧ Opening r ∧ TagCrash r) : parseStr x = .panic := by
  obtain ⟨s, hx1, hx2, hx3⟩ := lexesTo_cut hx
  obtain ⟨s', hy1, hy2, hy3⟩ := lexesTo_cut hy
  have hno := first_ok.1 hd
  rcases read_cases hy1 with ⟨st, pre, rest, g1, rfl, g3⟩ | ⟨pre, rest, text, tag, s2, u, st, g1, g2, g3, g4, g5, g6, g7⟩
  · obtain ⟨i1, i2⟩ := rinv_split g3
    have hn := fun ht => hno pre rest t' s' ⟨hy1, hy2, i1, i2⟩ ht
    have hroot : ∀ t r, rest = [(t, r)] → kind r ≠ .empty := by
      intro t r h1 h2
      obtain ⟨lc, hl⟩ := located_exists (srcOf (pre ++ rest) ++ t')
      exact hn (.inr ⟨_, .second h1 h2 hy3 hl⟩)
    refine parse_panic.2 ⟨pre, rest, t, s, hx1, hx2, i1, i2, (noFaultYet_iff hy1).2 ⟨st, g1⟩, ?_⟩
    rcases h with ⟨h1, h2⟩ | ⟨rfl, h1, h2, h3⟩
    · exact .text hx3 h2 h1 hroot
    · have hret : ¬ AllWs t → Returns t := fun hw => (returns_or_panics t).resolve_right fun hp => hn (.inl (.text hy3 hw hp hroot))
      cases st with
      | prolog st =>
        obtain ⟨-, hr, -⟩ := g3
        refine .root hr hx3 ?_ h1 h2 h3
        by_contra hw
        obtain ⟨lc, hl⟩ := locatedText_exists (srcOf pre) t
        exact hn (.inr ⟨_, .text hr hy3 hw (hret hw) hl⟩)
      | inside pro sc st =>
        obtain ⟨-, hne, -, ⟨o, ho, -⟩, -, -⟩ := g3
        refine .elem hne hroot ho ?_ hx3 h2 h3
        by_cases hw : AllWs t
        · exact .inl hw
        · refine .inr ⟨?_, hret hw⟩
          rintro rfl
          obtain ⟨lc, hl⟩ := located_exists (srcOf (pre ++ rest) ++ t)
          exact hn (.inr ⟨_, .text2 hne hroot ho hy3 hw (hret hw) hl⟩)
  · exfalso
    obtain ⟨i1, i2⟩ := rinv_split g6
    refine hno pre rest text s2 ⟨g2, g3, i1, i2⟩ ?_
    rcases g7 with ⟨e, -, k⟩ | ⟨-, k⟩
    · exact .inr ⟨e, k⟩
    · exact .inl k

theorem forall2_first {α : Type} {R : α → α → Prop} {l m : List α} (h : List.Forall₂ R l m) :
    l = m ∨ ∃ P a b Q Q', l = P ++ a :: Q ∧ m = P ++ b :: Q' ∧ a ≠ b ∧ R a b := by
  classical
  induction h with
  | nil => exact .inl rfl
  | @cons a b l m hab _ ih =>
    by_cases he : a = b
    · subst he
      rcases ih with rfl | ⟨P, c, d, Q, Q', rfl, rfl, h⟩
      · exact .inl rfl
      · exact .inr ⟨a :: P, c, d, Q, Q', rfl, rfl, h⟩
    · exact .inr ⟨[], a, b, l, m, rfl, rfl, he, hab⟩

/-! ## replacing the texts and values that make the parser panic -/

open Classical in
/-- the text, if the library returns something for it -/
noncomputable def fixStr (s : Str) : Str := if Given s then s else []

/-- with the values replaced -/
noncomputable def fixTag (t : CTag) : CTag := { t with attrs := t.attrs.map fun a => { a with raw := fixStr a.raw } }

/-- with the texts and values replaced -/
noncomputable def fixCst : Cst → Cst
  | .done text => .done (fixStr text)
  | .comment text c rest => .comment (fixStr text) c (fixCst rest)
  | .cdata text c rest => .cdata (fixStr text) c (fixCst rest)
  | .empty text t rest => .empty (fixStr text) (fixTag t) (fixCst rest)
  | .elem text t inner sp rest => .elem (fixStr text) (fixTag t) (fixCst inner) sp (fixCst rest)

/-- with the texts and values replaced -/
noncomputable def fixDoc (d : CDoc) : CDoc := { d with root := fixTag d.root, body := d.body.map fun x => (fixCst x.1, x.2) }

theorem given_fix (s : Str) : Given (fixStr s) := by
  unfold fixStr
  split
  · assumption
  · exact given_nil

theorem not_mem_fix {c : Char} {s : Str} (h : c ∉ s) : c ∉ fixStr s := by
  unfold fixStr
  split
  · exact h
  · simp

theorem fix_attr {a : CAttr} (h : a.OkFor P) : CAttr.OkFor Given { a with raw := fixStr a.raw } :=
  ⟨h.sp, h.name, h.sp1, h.sp2, h.quote, not_mem_fix h.raw, given_fix _⟩

theorem fix_layout {l : List CAttr} (h : Layout l) : Layout (l.map fun a => { a with raw := fixStr a.raw }) := by
  induction h with
  | nil => exact .nil
  | one h1 _ ih => exact .one h1 ih
  | @span a b m l h1 h2 _ ih =>
    rw [List.map_cons, List.map_append, List.map_cons]
    exact .span (b := { b with raw := fixStr b.raw }) h1 h2 ih

theorem fix_tag {t : CTag} (h : t.OkFor P CTag.Laid) : (fixTag t).OkFor Given CTag.Laid := by
  refine ⟨h.name, ?_, ⟨fix_layout h.layout.1, h.layout.2.name, ?_⟩, ?_, h.sp⟩
  · intro a ha
    obtain ⟨b, hb, rfl⟩ := List.mem_map.1 ha
    exact fix_attr (h.attrs b hb)
  · intro a ha
    obtain ⟨b, hb, rfl⟩ := List.mem_map.1 ha
    exact h.layout.2.attrs b hb
  · have := h.distinct
    simpa [fixTag, Function.comp_def] using this

theorem fix_text {s : Str} (h : TextOkFor P s) : TextOkFor Given (fixStr s) := ⟨not_mem_fix h.1, given_fix s⟩

theorem fix_cst {c : Cst} (h : c.OkFor P CTag.Laid) : (fixCst c).OkFor Given CTag.Laid := by
  induction c with
  | done text => exact fix_text h
  | comment text k rest ih => exact ⟨fix_text h.1, h.2.1, ih h.2.2⟩
  | cdata text k rest ih => exact ⟨fix_text h.1, h.2.1, ih h.2.2⟩
  | empty text t rest ih => exact ⟨fix_text h.1, fix_tag h.2.1, ih h.2.2⟩
  | elem text t inner sp rest ih1 ih2 => exact ⟨fix_text h.1, fix_tag h.2.1, ih1 h.2.2.1, h.2.2.2.1, ih2 h.2.2.2.2⟩

theorem fix_doc {d : CDoc} (h : d.OkFor P CTag.Laid) : (fixDoc d).OkFor Given CTag.Laid := by
  refine ⟨⟨h.decl, h.misc, h.sp, fix_tag h.root, ?_, h.tail⟩, ?_, h.shown⟩
  · intro c sp hb
    cases hd : d.body with
    | none => simp [fixDoc, hd] at hb
    | some y =>
      obtain ⟨c', sp'⟩ := y
      simp only [fixDoc, hd, Option.map_some, Option.some.injEq, Prod.mk.injEq] at hb
      obtain ⟨rfl, rfl⟩ := hb
      exact ⟨fix_cst (h.body c' sp' hd).1, (h.body c' sp' hd).2⟩
  · intro p l h1 h2
    have := h.declared p l h1 h2
    simpa [fixDoc, fixTag, Function.comp_def] using this

/-- how the tokens change -/
def TokFix (a b : Str × Str) : Prop :=
  (a.1 = b.1 ∨ ¬ Given a.1) ∧ (a.2 = b.2 ∨ ¬ IsProlog a.2 ∧ Opening a.2 ∧ TagCrash a.2)

theorem panics_of_not {s : Str} (h : ¬ Given s) : Panics s := (returns_or_panics s).resolve_left h

theorem fix_cases (s : Str) : s = fixStr s ∨ ¬ Given s := by
  by_cases h : Given s
  · exact .inl (by simp [fixStr, h])
  · exact .inr h

theorem attrs_first (l : List CAttr) : (l.map fun a => { a with raw := fixStr a.raw }) = l ∨
    ∃ u a v, l = u ++ a :: v ∧ (∀ b ∈ u, Given b.raw) ∧ ¬ Given a.raw := by
  induction l with
  | nil => exact .inl rfl
  | cons a l ih =>
    by_cases h : Given a.raw
    · rcases ih with ih | ⟨u, b, v, rfl, h1, h2⟩
      · left
        rw [List.map_cons, ih]
        simp [fixStr, h]
      · exact .inr ⟨a :: u, b, v, rfl, by simpa [h] using h1, h2⟩
    · exact .inr ⟨[], a, l, rfl, by simp, h⟩

theorem tag_crash {t : CTag} (h : t.OkFor P CTag.Laid) {tag s : Str} (ht : tag = t.start ∨ tag = t.empty) (hs : tag = c%"<" ++ t.body ++ s) :
    t = fixTag t ∨ ¬ IsProlog tag ∧ Opening tag ∧ TagCrash tag := by
  rcases attrs_first t.attrs with he | ⟨u, a, v, hl, h1, h2⟩
  · left
    obtain ⟨n, l, sp⟩ := t
    simp only [fixTag, CTag.mk.injEq, true_and, and_true]
    exact he.symm
  · right
    have hm := matched_layout h
    have hmark := name_not_mark h s
    have hxml := name_not_xml h s
    rw [← hs] at hmark hxml
    have hnot : ¬ IsProlog tag := by
      rintro (hu | hu)
      · exact hxml hu
      · exact hmark.2 hu
    have hopen : Opening tag := by
      unfold Opening kind
      rw [if_neg hmark.2, if_neg hmark.1]
      split
      · exact .inr rfl
      · exact .inl rfl
    have hgood : ¬ BadTag tag := by
      rcases ht with rfl | rfl
      · exact not_bad.2 hm.start
      · exact not_bad.2 hm.empty
    have hin : Inner tag (t.name ++ t.attrs.flatMap CAttr.src) := by
      rcases ht with rfl | rfl
      · exact inner_iff.2 ⟨start_strip h, t.body, rfl⟩
      · exact inner_iff.2 ⟨empty_strip h, t.body ++ c%"/", by simp [CTag.empty]⟩
    have hp := pieces_split hin (split_attrs h.name h.attrs)
    rw [join_attrs h.attrs, hl, List.map_append, List.map_cons] at hp
    have hq : ∀ b ∈ t.attrs, Quoted b.name b.raw (kvOf b) := fun b hb =>
      ⟨xmlName_not_mem (h.attrs b hb).name '=' (by decide), b.quote, (h.attrs b hb).quote, by simp [kvOf, CAttr.q]⟩
    refine ⟨hnot, hopen, hgood, t.name, _, kvOf a, _, a.name, a.raw, hp, ?_, hq a (by simp [hl]), panics_of_not h2⟩
    intro p hpu
    obtain ⟨b, hb, rfl⟩ := List.mem_map.1 hpu
    exact ⟨b.name, b.raw, hq b (by simp [hl, hb]), h1 b hb⟩

theorem tok_start {t : CTag} (h : t.OkFor P CTag.Laid) (text : Str) : TokFix (text, t.start) (fixStr text, (fixTag t).start) := by
  refine ⟨fix_cases text, ?_⟩
  rcases tag_crash h (.inl rfl) rfl with he | hc
  · exact .inl (congrArg CTag.start he)
  · exact .inr hc

theorem tok_empty {t : CTag} (h : t.OkFor P CTag.Laid) (text : Str) : TokFix (text, t.empty) (fixStr text, (fixTag t).empty) := by
  refine ⟨fix_cases text, ?_⟩
  rcases tag_crash h (.inr rfl) rfl with he | hc
  · exact .inl (congrArg CTag.empty he)
  · exact .inr hc

theorem toks_fix {c : Cst} (h : c.OkFor P CTag.Laid) (close : Str) : List.Forall₂ TokFix (toksOf close c) (toksOf close (fixCst c)) := by
  induction c generalizing close with
  | done text => exact .cons ⟨fix_cases text, .inl rfl⟩ .nil
  | comment text k rest ih => exact .cons ⟨fix_cases text, .inl rfl⟩ (ih h.2.2 close)
  | cdata text k rest ih => exact .cons ⟨fix_cases text, .inl rfl⟩ (ih h.2.2 close)
  | empty text t rest ih => exact .cons (tok_empty h.2.1 text) (ih h.2.2 close)
  | elem text t inner sp rest ih1 ih2 =>
    exact .cons (tok_start h.2.1 text) (List.rel_append (ih1 h.2.2.1 _) (ih2 h.2.2.2.2 close))

theorem docToks_fix {d : CDoc} (h : d.OkFor P CTag.Laid) : List.Forall₂ TokFix (docToks d) (docToks (fixDoc d)) := by
  have hrefl : ∀ l : List (Str × Str), List.Forall₂ TokFix l l := by
    intro l
    induction l with
    | nil => exact .nil
    | cons t l ih => exact .cons ⟨.inl rfl, .inl rfl⟩ ih
  have hsp : d.sp = fixStr d.sp := by simp [fixStr, ws_given h.sp]
  refine List.rel_append (hrefl _) (List.rel_append (hrefl _) ?_)
  cases hb : d.body with
  | none =>
    simp only [rootToks, fixDoc, hb, Option.map_none]
    have := tok_empty h.root d.sp
    rw [← hsp] at this
    exact .cons this .nil
  | some y =>
    obtain ⟨c, sp⟩ := y
    simp only [rootToks, fixDoc, hb, Option.map_some]
    have := tok_start h.root d.sp
    rw [← hsp] at this
    exact .cons this (toks_fix (h.body c sp hb).1 _)

/-- Documents with the names and the layout that the library allows are read, or the parser panics. -/
theorem read_or_panic {d : CDoc} (h : d.OkFor P CTag.Laid) : (∃ x, parseStr d.src = .ok x) ∨ parseStr d.src = .panic := by
  have hf := fix_doc h
  have hok := parse_given (laid_matched hf)
  have l1 := (lexes_to (lexes_flat (docToks_ok h.toWfFor) (allWs_lt h.tail))).1
  have l2 := (lexes_to (lexes_flat (docToks_ok hf.toWfFor) (allWs_lt hf.tail))).1
  rw [docToks_src] at l1 l2
  rcases forall2_first (docToks_fix h) with he | ⟨T, ⟨t, r⟩, ⟨t', r'⟩, Q, Q', h1, h2, hne, hR⟩
  · left
    have : d.src = (fixDoc d).src := by rw [← docToks_src, ← docToks_src (fixDoc d), he]; rfl
    exact ⟨_, this ▸ hok⟩
  · right
    rw [h1] at l1
    rw [h2] at l2
    refine panic_swap l1 l2 ⟨_, hok⟩ ?_
    obtain ⟨ha, hb⟩ := hR
    by_cases hg : Given t
    · right
      have ht : t = t' := ha.resolve_right (fun h => h hg)
      subst ht
      refine ⟨rfl, hb.resolve_left fun h => hne (by rw [show r = r' from h])⟩
    · exact .inl ⟨panics_of_not hg, fun hw => hg (ws_given hw)⟩

/-- the same for documents that are written by the library -/
theorem written_or_panic {d : Document} (h : DocShape d) (i : Str) :
    (DocHas Given d ∧ parseStr (d.toStringWithIndent i) = .ok (reDoc d)) ∨
    (¬ DocHas Given d ∧ parseStr (d.toStringWithIndent i) = .panic) := by
  have hw := (cdoc_ok_iff h (P := fun _ => True) (fun _ _ => trivial) i).2 (docHas_true d)
  have hrp := read_or_panic hw
  rw [cdoc_src h i] at hrp
  by_cases hg : DocHas Given d
  · exact .inl ⟨hg, (reparse_iff h i).2 ⟨hg, rfl⟩⟩
  · exact .inr ⟨hg, hrp.resolve_left fun ⟨x, hx⟩ => hg ((reparse_iff h i).1 hx).1⟩

/-! ## shapes -/

mutual
theorem shape_refl : (n : Node) → SameShape n n
  | .text t => .text t t
  | .comment c => .comment c
  | .cdata c => .cdata c
  | .element ⟨_, cs, _, _, _, _⟩ => .element rfl rfl (fun _ => Iff.rfl) (shapes_refl cs)
theorem shapes_refl : (l : List Node) → SameShapes l l
  | [] => .nil
  | n :: l => .cons (shape_refl n) (shapes_refl l)
end

mutual
theorem shape_trans : {a b c : Node} → SameShape a b → SameShape b c → SameShape a c
  | _, _, _, .text s _, .text _ u => .text s u
  | _, _, _, .comment c, .comment _ => .comment c
  | _, _, _, .cdata c, .cdata _ => .cdata c
  | _, _, _, .element h1 h2 h3 h4, .element k1 k2 k3 k4 =>
    .element (h1.trans k1) (h2.trans k2) (fun k => (h3 k).trans (k3 k)) (shapes_trans h4 k4)
theorem shapes_trans : {a b c : List Node} → SameShapes a b → SameShapes b c → SameShapes a c
  | _, _, _, .nil, .nil => .nil
  | _, _, _, .cons h1 h2, .cons k1 k2 => .cons (shape_trans h1 k1) (shapes_trans h2 k2)
end

mutual
theorem re_shapeOf (parent : Option Element) : (e : Element) → (∀ m ∈ docOrder (.element e), NodeShape m) →
    SameShape (.element e) (.element (reElem parent e))
  | ⟨n, cs, a, x, p, c⟩, h => by
    obtain ⟨h1, h2, h3, E, h4⟩ := reElem_fields (fits_self h) parent
    refine .element h1.symm h2.symm (fun k => ?_) ?_
    · simp only [Option.isSome_iff_exists, h3]
      exact ⟨fun ⟨v, hv⟩ => ⟨_, v, hv, rfl⟩, fun ⟨_, v, hv, _⟩ => ⟨v, hv⟩⟩
    · rw [h4]
      exact re_shapesOf E cs fun m hm => h m (by rw [docOrder]; simp [hm])
theorem re_shapesOf (E : Element) : (cs : List Node) → (∀ m ∈ docOrderL cs, NodeShape m) → SameShapes cs (reList E cs)
  | [], _ => .nil
  | .text t :: cs, h => .cons (.text _ _) (re_shapesOf E cs fun m hm => h m (by rw [docOrderL]; simp [hm]))
  | .comment t :: cs, h => .cons (.comment _) (re_shapesOf E cs fun m hm => h m (by rw [docOrderL]; simp [hm]))
  | .cdata t :: cs, h => .cons (.cdata _) (re_shapesOf E cs fun m hm => h m (by rw [docOrderL]; simp [hm]))
  | .element e :: cs, h => .cons (re_shapeOf (some E) e fun m hm => h m (by rw [docOrderL]; simp [hm]))
      (re_shapesOf E cs fun m hm => h m (by rw [docOrderL]; simp [hm]))
end

theorem shapes_apart {l m : List Node} (h : SameShapes l m) (ha : ∀ a b x y, l ≠ a ++ .text x :: .text y :: b) :
    ∀ a b x y, m ≠ a ++ .text x :: .text y :: b := by
  intro a b x y hm
  induction a generalizing l m with
  | nil =>
    subst hm
    cases h with
    | cons h1 h2 =>
      cases h1
      cases h2 with
      | cons h1 h2 =>
        cases h1
        exact ha [] _ _ _ rfl
  | cons n a ih =>
    subst hm
    cases h with
    | cons h1 h2 => exact ih h2 (fun a b x y he => ha (_ :: a) b x y (by rw [he]; rfl)) rfl

mutual
theorem shape_nodes : {n m : Node} → SameShape n m → (∀ k ∈ docOrder n, NodeShape k) →
    (∀ t, Node.text t ∈ docOrder m → ∃ c ∈ t, isWs c = false) → ∀ k ∈ docOrder m, NodeShape k
  | _, _, .text s t, _, ht => by
    intro k hk
    rw [docOrder, List.mem_singleton] at hk
    subst hk
    exact ⟨ht t (by simp [docOrder]), trivial⟩
  | _, _, .comment c, h, _ => h
  | _, _, .cdata c, h, _ => h
  | _, _, .element (e := ⟨n, cs, a, x, p, c⟩) (f := ⟨n', cs', a', x', p', c'⟩) h1 h2 h3 h4, h, ht => by
    simp only at h1 h2 h3 h4
    subst h1 h2
    rw [docOrder] at h ht ⊢
    intro k hk
    rcases List.mem_cons.1 hk with rfl | hk
    · have h0 : ElemFitsFor (fun _ => True) ⟨n, cs, a, x, p, c⟩ := h (.element ⟨n, cs, a, x, p, c⟩) (by simp)
      refine ⟨h0.name, h0.pfx, fun k v hv => ?_, shapes_apart h4 h0.apart⟩
      obtain ⟨w, hw⟩ := Option.isSome_iff_exists.1 ((h3 k).2 (Option.isSome_iff_exists.2 ⟨v, hv⟩))
      obtain ⟨g1, g2, -⟩ := h0.attrs k w hw
      exact ⟨g1, g2, trivial⟩
    · exact shapes_nodes h4 (fun k hk => h k (by simp [hk])) (fun t hm => ht t (by simp [hm])) k hk
theorem shapes_nodes : {l m : List Node} → SameShapes l m → (∀ k ∈ docOrderL l, NodeShape k) →
    (∀ t, Node.text t ∈ docOrderL m → ∃ c ∈ t, isWs c = false) → ∀ k ∈ docOrderL m, NodeShape k
  | _, _, .nil, h, _ => h
  | _, _, .cons h1 h2, h, ht => by
    rw [docOrderL] at h ht ⊢
    intro k hk
    rcases List.mem_append.1 hk with hk | hk
    · exact shape_nodes h1 (fun k hk => h k (by simp [hk])) (fun t hm => ht t (by simp [hm])) k hk
    · exact shapes_nodes h2 (fun k hk => h k (by simp [hk])) (fun t hm => ht t (by simp [hm])) k hk
end

/-- other texts and values do not matter for what can be written -/
theorem shape_docShape {d e : Document} (h : DocShape d) (hs : SameShape (.element d.root) (.element e.root)) (h1 : e.declaration = d.declaration)
    (h2 : e.dtds = []) (ht : ∀ t, Node.text t ∈ docOrder (.element e.root) → ∃ c ∈ t, isWs c = false) : DocShape e := by
  refine ⟨by rw [h1]; exact h.decl, h2, shape_nodes hs h.nodes ht, ?_⟩
  cases hs with
  | element g1 g2 g3 g4 =>
    intro p hp
    exact (g3 _).1 (h.declared p (g2.trans hp))

theorem docHas_escaped {d : Document} : ¬ DocHas Given d ↔ ∃ s, Escaped d s ∧ Panics s := by
  constructor
  · intro h
    unfold DocHas at h
    push Not at h
    obtain ⟨n, hn, hh⟩ := h
    cases n with
    | text t => exact ⟨_, .text hn, panics_of_not hh⟩
    | comment c => exact absurd trivial hh
    | cdata c => exact absurd trivial hh
    | element e =>
      have hh : ¬ ∀ k v, e.attrs.get k = some v → Given (attributeEscape v) := hh
      push Not at hh
      obtain ⟨k, v, hv, hp⟩ := hh
      exact ⟨_, .value hn hv, panics_of_not hp⟩
  · rintro ⟨s, hs, hp⟩ h
    have hno : ∀ {s : Str}, Given s → ¬ Panics s := by
      rintro s ⟨t, ht⟩ hp
      have h1 := unesc_out (ε := Unit) ht
      have h2 := unesc_out (ε := Unit) hp
      rw [h1] at h2
      cases h2
    cases hs with
    | text hn => exact hno (h _ hn) hp
    | value hn hv => exact hno (h _ hn _ _ hv) hp

end KissXml
