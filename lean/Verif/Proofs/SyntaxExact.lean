import Verif.Proofs.Syntax
import Verif.Proofs.Faults
/-!
# Exactly which concrete documents are accepted
-/
namespace KissXml
open Spec

variable {P : Str → Prop} {L : CTag → Prop}

/-! ## what is true of every token of an accepted input -/

/-- text that was read and a tag that was accepted -/
def TokRead (t : Str × Str) : Prop :=
  (t.1.all isWs = true ∨ Given t.1) ∧ (c%"</" <+: t.2 ∨ c%"<!" <+: t.2 ∨ ∃ p e, Opens p t.2 e)

theorem withText_read {text : Str} {f f' : Forest} (h : WithText text f f') : text.all isWs = true ∨ Given text := by
  cases h with
  | blank h => exact .inl h
  | text _ h => exact .inr ⟨_, unescape_ok_iff.1 h⟩

theorem body_read {e : Element} {toks : List (Str × Str)} {f : Forest} (h : Body e toks f) : ∀ t ∈ toks, TokRead t := by
  induction h with
  | close hc ht =>
    intro t h
    cases List.mem_singleton.1 h
    exact ⟨withText_read ht, .inl hc.slash⟩
  | comment _ _ ht ih =>
    intro t h
    rcases List.mem_cons.1 h with rfl | h
    · exact ⟨withText_read ht, .inr (.inl (by simp))⟩
    · exact ih t h
  | cdata _ _ ht ih =>
    intro t h
    rcases List.mem_cons.1 h with rfl | h
    · exact ⟨withText_read ht, .inr (.inl (by simp))⟩
    · exact ih t h
  | empty hO _ _ ht ih =>
    intro t h
    rcases List.mem_cons.1 h with rfl | h
    · exact ⟨withText_read ht, .inr (.inr ⟨_, _, hO⟩)⟩
    · exact ih t h
  | elem hO _ _ _ ht ih1 ih2 =>
    intro t h
    rcases List.mem_cons.1 h with rfl | h
    · exact ⟨withText_read ht, .inr (.inr ⟨_, _, hO⟩)⟩
    · rcases List.mem_append.1 h with h | h
      · exact ih1 t h
      · exact ih2 t h

theorem tops_read {toks : List (Str × Str)} {e E : Element} {f F : Forest} (h : Tops toks e f E F) : ∀ t ∈ toks, TokRead t := by
  induction h with
  | nil => intro t h; cases h
  | more hw hO _ hB _ ih =>
    intro t h
    rcases List.mem_cons.1 h with rfl | h
    · exact ⟨.inl hw, .inr (.inr ⟨_, _, hO⟩)⟩
    · rcases List.mem_append.1 h with h | h
      · exact body_read hB t h
      · exact ih t h

theorem rootPart_read {tag : Str} {rest : List (Str × Str)} {E : Element} {F : Forest} (h : RootPart tag rest E F) :
    (∃ e, Opens none tag e) ∧ ∀ t ∈ rest, TokRead t := by
  cases h with
  | empty hO _ hr => subst hr; exact ⟨⟨_, hO⟩, fun t h => by cases h⟩
  | elem hO _ hr hB hT =>
    subst hr
    refine ⟨⟨_, hO⟩, fun t h => ?_⟩
    rcases List.mem_append.1 h with h | h
    · exact body_read hB t h
    · exact tops_read hT t h

/-! ## tags -/

theorem parse_attrs_given {l : List CAttr} (h : ∀ a ∈ l, a.OkFor P) {buffer : Str} {pos : Nat} {m m' : SMap}
    (hp : parseAttrs buffer pos (l.map kvOf) m = .ok m') : ∀ a ∈ l, Given a.raw := by
  induction l generalizing m with
  | nil => intro a ha; cases ha
  | cons a l ih =>
    have ha := h a (by simp)
    rw [List.map_cons, parseAttrs_cons] at hp
    obtain ⟨k, u, ⟨q, v, -, hk, he, hu⟩, hp⟩ := hp
    have hs1 := splitOnce_eq_some.2 ⟨he, hk⟩
    have hs2 : splitOnce '=' (kvOf a) = some (a.name, a.quote :: (a.raw ++ [a.quote])) :=
      splitOnce_eq_some.2 ⟨rfl, xmlName_not_mem ha.name '=' (by decide)⟩
    rw [hs1] at hs2
    simp only [Option.some.injEq, Prod.mk.injEq, List.cons.injEq] at hs2
    obtain ⟨-, rfl, hs2⟩ := hs2
    have := List.append_cancel_right hs2
    subst this
    intro b hb
    rcases List.mem_cons.1 hb with rfl | hb
    · exact ⟨_, unescape_ok_iff.1 hu⟩
    · exact ih (fun b hb => h b (by simp [hb])) hp b hb

/-- what an accepted tag was made of -/
theorem strip_elem {t : CTag} (h : t.OkFor P L) {p : Option Element} {tag : Str} {e : Element}
    (hs : stripTag tag = some (t.name ++ t.attrs.flatMap CAttr.src)) (hO : Opens p tag e) :
    (∀ a ∈ t.attrs, Given a.raw) ∧ (∀ a ∈ t.attrs, ApiName a.name) ∧
      ∃ n x q, NameSplit p (attrMap t.attrs) t.name n x q ∧ validName n = true := by
  obtain ⟨t', attrs, n0, n, x, q, h1, hN⟩ := hO.elem
  rw [hs] at h1
  cases h1
  obtain ⟨comps, buffer, pos, h2, h3⟩ := hN.attrs_ok
  rw [split_attrs h.name h.attrs] at h2
  cases h2
  rw [join_attrs h.attrs] at h3
  have hg := parse_attrs_given h.attrs h3
  rw [parse_attrs fun a ha => (h.attrs a ha).mono fun _ => hg a ha] at h3
  cases h3
  refine ⟨hg, fun a ha => ?_, n, x, q, hN.name, hN.valid⟩
  have := (attrMap_get h.distinct a.name _).2 ⟨a, ha, rfl, rfl⟩
  exact validName_iff.1 (hN.attrs_valid a.name (Option.isSome_iff_exists.2 ⟨_, this⟩))

theorem strip_given {t : CTag} (h : t.OkFor P L) {p : Option Element} {tag : Str} {e : Element}
    (hs : stripTag tag = some (t.name ++ t.attrs.flatMap CAttr.src)) (hO : Opens p tag e) : ∀ a ∈ t.attrs, Given a.raw :=
  (strip_elem h hs hO).1

theorem strip_allowed {t : CTag} (h : t.OkFor P L) {p : Option Element} {tag : Str} {e : Element}
    (hs : stripTag tag = some (t.name ++ t.attrs.flatMap CAttr.src)) (hO : Opens p tag e) : t.Allowed := by
  obtain ⟨-, ha, n, x, q, hN, hv⟩ := strip_elem h hs hO
  refine ⟨?_, ha⟩
  cases hN with
  | plain hn => exact .inl ⟨hn, validName_iff.1 hv⟩
  | own hn hp _ => exact .inr ⟨_, _, hn, hp, validName_iff.1 hv⟩
  | inh hn hp _ _ => exact .inr ⟨_, _, hn, hp, validName_iff.1 hv⟩

theorem strip_declared {t : CTag} (h : t.OkFor P L) {tag : Str} {e : Element}
    (hs : stripTag tag = some (t.name ++ t.attrs.flatMap CAttr.src)) (hO : Opens none tag e) (p l : Str)
    (hpl : t.name = p ++ ':' :: l) (hp : ':' ∉ p) : c%"xmlns:" ++ p ∈ t.attrs.map CAttr.name := by
  obtain ⟨-, -, n, x, q, hN, -⟩ := strip_elem h hs hO
  have hs := splitOnce_eq_some.2 ⟨hpl, hp⟩
  cases hN with
  | plain hn => exact absurd (by rw [hpl]; simp) hn
  | own hn hp' hv =>
    have := splitOnce_eq_some.2 ⟨hn, hp'⟩
    rw [hs] at this
    cases this
    obtain ⟨a, ha, hk, -⟩ := (attrMap_get h.distinct _ _).1 hv
    exact List.mem_map.2 ⟨a, ha, hk⟩
  | inh _ _ _ hn => cases hn

theorem plainName_last {n : Str} (h : PlainName n) {c : Char} (hc : n.getLast? = some c) : c ≠ '/' := by
  obtain ⟨d, t, rfl, h1, h2⟩ := h
  rintro rfl
  have hm := List.mem_of_getLast? hc
  rcases List.mem_cons.1 hm with rfl | hm
  · revert h1; decide
  · have := h2 _ hm; revert this; decide

theorem tagPattern_last {a n w : Str} {as : List Str} (hn : PlainName n) (has : ∀ p ∈ as, AttrPattern p)
    (hw : AllWs w) : ¬ c%"/" <:+ a ++ n ++ as.flatten ++ w := by
  rintro ⟨u, hu⟩
  have hl : (a ++ n ++ as.flatten ++ w).getLast? = some '/' := by rw [← hu]; simp
  rcases List.eq_nil_or_concat w with rfl | ⟨w, c, rfl⟩
  · rw [List.append_nil] at hl
    rcases List.eq_nil_or_concat as with rfl | ⟨as, p, rfl⟩
    · simp only [List.flatten_nil, List.append_nil] at hl
      obtain ⟨d, t, rfl, h1, h2⟩ := id hn
      rw [List.getLast?_append_of_ne_nil _ (by simp)] at hl
      exact plainName_last hn hl rfl
    · obtain ⟨w, k, q, raw, -, -, -, hq, rfl⟩ := has p (by simp)
      simp only [List.concat_eq_append, List.flatten_append, List.flatten_singleton, ← List.append_assoc] at hl
      rw [List.getLast?_append_of_ne_nil _ (by simp)] at hl
      simp only [List.getLast?_singleton, Option.some.injEq] at hl
      subst hl
      revert hq; decide
  · rw [List.concat_eq_append] at *
    rw [← List.append_assoc, List.getLast?_append_of_ne_nil _ (by simp)] at hl
    simp only [List.getLast?_singleton, Option.some.injEq] at hl
    subst hl
    have := hw '/' (by simp)
    revert this; decide

theorem tagPattern_gt {s : Str} (h : TagPattern s) : ∃ s', s = s' ++ c%">" ∧ s' ≠ [] := by
  obtain ⟨a, n, as, w, b, ha, -, -, -, hb, rfl⟩ := h
  have : a ≠ [] := by rcases ha with rfl | rfl <;> simp
  rcases hb with rfl | rfl
  · exact ⟨_, rfl, by simp [this]⟩
  · exact ⟨a ++ n ++ as.flatten ++ w ++ c%"/", by simp, by simp⟩

/-- infixes of `m ++ [c]` -/
theorem infix_snoc {s m : Str} {c : Char} (h : s <:+: m ++ [c]) : s <:+: m ∨ s <:+ m ++ [c] := by
  obtain ⟨a, b, hab⟩ := h
  rcases List.eq_nil_or_concat b with rfl | ⟨b, d, rfl⟩
  · exact .inr ⟨a, by simpa using hab⟩
  · left
    refine ⟨a, b, ?_⟩
    rw [List.concat_eq_append, ← List.append_assoc] at hab
    exact (List.append_inj' hab rfl).1

/-- a slash does not matter -/
theorem bad_slash {m : Str} (h : ¬ c%"/>" <:+ c%"<" ++ m ++ c%">") : BadTag (c%"<" ++ m ++ c%">") ↔ BadTag (c%"<" ++ m ++ c%"/>") := by
  constructor
  · intro hb s hs hp
    obtain ⟨s', rfl, hne⟩ := tagPattern_gt hp
    have he : (c%"<" ++ m ++ c%"/>") = (c%"<" ++ m ++ c%"/") ++ ['>'] := by simp
    rw [he] at hs
    rcases infix_snoc hs with hs | ⟨u, hu⟩
    · rcases infix_snoc hs with hs | ⟨u, hu⟩
      · exact hb _ (hs.trans ⟨[], c%">", by simp⟩) hp
      · rw [← List.append_assoc] at hu
        have := (List.append_inj' hu (by simp)).2
        simp at this
    · rw [← List.append_assoc] at hu
      have hu := (List.append_inj' hu rfl).1
      obtain ⟨a, n, as, w, b, ha, hn, has, hw, hb', hs⟩ := hp
      rcases hb' with rfl | rfl
      · have hs := (List.append_inj' hs rfl).1
        refine tagPattern_last (a := a) hn has hw ?_
        rw [← hs]
        rcases List.eq_nil_or_concat s' with rfl | ⟨s', d, rfl⟩
        · exact absurd rfl hne
        · rw [List.concat_eq_append, ← List.append_assoc] at hu
          obtain ⟨-, h2⟩ := List.append_inj' hu rfl
          rw [List.concat_eq_append, h2]
          exact ⟨s', rfl⟩
      · have hs : s' = a ++ n ++ as.flatten ++ w ++ c%"/" := by
          have : s' ++ c%">" = (a ++ n ++ as.flatten ++ w ++ c%"/") ++ c%">" := by rw [hs]; simp
          exact List.append_cancel_right this
        refine hb (a ++ n ++ as.flatten ++ w ++ c%">") ⟨u, [], ?_⟩ ⟨a, n, as, w, _, ha, hn, has, hw, .inl rfl, rfl⟩
        have hu : u ++ (a ++ n ++ as.flatten ++ w) = c%"<" ++ m := by
          apply List.append_cancel_right (bs := c%"/")
          rw [← hu, hs]; simp
        rw [List.append_nil, ← List.append_assoc, hu]
  · intro hb s hs hp
    rcases infix_snoc hs with hs | ⟨u, hu⟩
    · exact hb _ (hs.trans ⟨[], c%"/>", by simp⟩) hp
    · obtain ⟨a, n, as, w, b, ha, hn, has, hw, hb', rfl⟩ := hp
      rcases hb' with rfl | rfl
      · have hu : u ++ (a ++ n ++ as.flatten ++ w) = c%"<" ++ m := by
          apply List.append_cancel_right (bs := c%">")
          rw [← hu]; simp
        refine hb (a ++ n ++ as.flatten ++ w ++ c%"/>") ⟨u, [], ?_⟩ ⟨a, n, as, w, _, ha, hn, has, hw, .inr rfl, rfl⟩
        rw [List.append_nil, ← List.append_assoc, hu]
      · exact h ⟨u ++ (a ++ n ++ as.flatten ++ w), by rw [← hu]; simp⟩

theorem bad_start_empty {t : CTag} (h : t.OkFor P L) : BadTag t.start ↔ BadTag t.empty := bad_slash (start_not_empty h)

theorem not_bad {tag : Str} : ¬ BadTag tag ↔ Re.isMatch elemRe tag = true := by
  rw [badTag_iff]; simp

theorem matched_iff {t : CTag} (h : t.OkFor P L) : Matched t ↔ ¬ BadTag t.start ∧ t.Allowed :=
  ⟨fun hm => ⟨not_bad.2 hm.start, hm.names⟩,
    fun hm => ⟨not_bad.1 hm.1, not_bad.1 (fun hb => hm.1 ((bad_start_empty h).2 hb)), hm.2⟩⟩

theorem tag_given {t : CTag} (h : t.OkFor P L) {p : Option Element} {tag : Str} {e : Element} (ht : tag = t.start ∨ tag = t.empty)
    (hO : Opens p tag e) : t.OkFor Given Matched := by
  have h2 : Matched t := by
    rw [matched_iff h]
    rcases ht with rfl | rfl
    · exact ⟨not_bad.2 hO.regex, strip_allowed h (start_strip h) hO⟩
    · exact ⟨by rw [bad_start_empty h]; exact not_bad.2 hO.regex, strip_allowed h (empty_strip h) hO⟩
  have h3 : ∀ a ∈ t.attrs, Given a.raw := by
    rcases ht with rfl | rfl
    · exact strip_given h (start_strip h) hO
    · exact strip_given h (empty_strip h) hO
  exact ⟨h.name, fun a ha => (h.attrs a ha).mono fun _ => h3 a ha, h2, h.distinct, h.sp⟩

/-! ## documents -/

theorem blank_given {s : Str} (h : s.all isWs = true) : Given s := by
  refine legible_given (legible_noamp fun hm => ?_)
  have := List.all_eq_true.1 h _ hm
  revert this; decide

theorem read_tag {t : CTag} (h : t.OkFor P L) {text s : Str} (ht : TokRead (text, c%"<" ++ t.body ++ s)) :
    ∃ p e, Opens p (c%"<" ++ t.body ++ s) e := by
  rcases ht.2 with h' | h' | h'
  · exact absurd h' (name_not_mark h _).1
  · exact absurd h' (name_not_mark h _).2
  · exact h'

theorem read_text {text s : Str} (h : TextOkFor P text) (ht : TokRead (text, s)) : TextOkFor Given text :=
  ⟨h.1, ht.1.elim blank_given id⟩

theorem cst_given {c : Cst} (h : c.OkFor P L) {close : Str} (ht : ∀ t ∈ toksOf close c, TokRead t) : c.OkFor Given Matched := by
  induction c generalizing close with
  | done text => exact read_text h (ht _ (List.mem_singleton.2 rfl))
  | comment text k rest ih =>
    rw [toksOf] at ht
    exact ⟨read_text h.1 (ht _ (List.mem_cons_self ..)), h.2.1, ih h.2.2 fun t h => ht t (List.mem_cons_of_mem _ h)⟩
  | cdata text k rest ih =>
    rw [toksOf] at ht
    exact ⟨read_text h.1 (ht _ (List.mem_cons_self ..)), h.2.1, ih h.2.2 fun t h => ht t (List.mem_cons_of_mem _ h)⟩
  | empty text t rest ih =>
    rw [toksOf] at ht
    have h0 := ht _ (List.mem_cons_self ..)
    obtain ⟨p, e, hO⟩ := read_tag h.2.1 h0
    exact ⟨read_text h.1 h0, tag_given h.2.1 (.inr rfl) hO, ih h.2.2 fun t h => ht t (List.mem_cons_of_mem _ h)⟩
  | elem text t inner sp rest ih1 ih2 =>
    rw [toksOf] at ht
    have h0 := ht _ (List.mem_cons_self ..)
    obtain ⟨p, e, hO⟩ := read_tag h.2.1 h0
    exact ⟨read_text h.1 h0, tag_given h.2.1 (.inl rfl) hO, ih1 h.2.2.1 fun t h => ht t (List.mem_cons_of_mem _ (List.mem_append_left _ h)), h.2.2.2.1,
      ih2 h.2.2.2.2 fun t h => ht t (List.mem_cons_of_mem _ (List.mem_append_right _ h))⟩

theorem doc_shown {d : CDoc} {D : Option Declaration} {DS : List DTD} {r : Str} {rest : List (Str × Str)}
    (h : Pro 0 0 false none [] (docToks d) D DS r rest) : Shown d.misc := by
  obtain ⟨tok, toks, hr⟩ : ∃ tok toks, rootToks d = tok :: toks := by
    unfold rootToks
    split <;> exact ⟨_, _, rfl⟩
  rw [docToks, hr] at h
  cases hd : d.decl with
  | none => rw [hd] at h; exact pro_shown h
  | some x =>
    obtain ⟨sp, m⟩ := x
    rw [hd] at h
    generalize hq : (declToks (some (sp, m)) ++ (miscToks d.misc ++ tok :: toks)) = q at h
    simp only [declToks, List.cons_append, List.nil_append] at hq
    cases h with
    | root _ h2 => cases hq; exact absurd ⟨m ++ c%"?>", by simp⟩ h2
    | decl _ _ h2 =>
      have := (List.cons.inj hq).2
      subst this
      exact pro_shown h2
    | comment _ h1 _ _ => cases hq; obtain ⟨u, hu⟩ := h1; simp at hu
    | doctype _ _ => simp at hq
    | other _ h1 _ _ _ => cases hq; obtain ⟨u, hu⟩ := h1; simp at hu

theorem given_of_parse {d : CDoc} (h : d.WfFor P L) {x : Document} (hx : parseStr d.src = .ok x) : d.OkFor Given Matched := by
  obtain ⟨toks, D, DS, tag, rest, E, F, hlex, hpro, hroot, -⟩ := (parse_iff.1 hx).ex
  have hlex' := lexes_lex (lexes_flat (docToks_ok h) (allWs_lt h.tail)) 0
  rw [docToks_src] at hlex'
  have := (lex_unique hlex hlex').1
  subst this
  obtain ⟨pre, text, hp⟩ := pro_split hpro
  obtain ⟨hO, hrest⟩ := rootPart_read hroot
  have hshown : Shown d.misc := doc_shown hpro
  have hnot : ∀ s, ¬ IsProlog (c%"<" ++ d.root.body ++ s) := by
    rintro s (hu | hu)
    · exact name_not_xml h.root _ hu
    · exact (name_not_mark h.root _).2 hu
  have hpre : ∀ t ∈ declToks d.decl ++ miscToks d.misc, IsProlog t.2 := by
    intro t ht
    rcases List.mem_append.1 ht with ht | ht
    · cases hd : d.decl with
      | none => rw [hd] at ht; cases ht
      | some y =>
        rw [hd, declToks, List.mem_singleton] at ht
        subst ht
        exact .inl (by simp)
    · obtain ⟨⟨sp, y⟩, hy, rfl⟩ := List.mem_map.1 ht
      right
      cases y with
      | comment c => simp [CMisc.src]
      | doctype m => simp [CMisc.src]
  have key : ∀ s toks', rootToks d = (d.sp, c%"<" ++ d.root.body ++ s) :: toks' → tag = c%"<" ++ d.root.body ++ s ∧ rest = toks' := by
    intro s toks' hr
    have hp' := hp.split
    rw [docToks, hr, ← List.append_assoc] at hp'
    obtain ⟨-, h2⟩ := split_prolog hp' hpre (fun t ht => (hp.prolog t ht).1) (by rintro t r ⟨⟩; exact hnot _) (by rintro t r ⟨⟩; exact hp.root)
    cases h2
    exact ⟨rfl, rfl⟩
  cases hb : d.body with
  | none =>
    obtain ⟨rfl, rfl⟩ := key c%"/>" [] (by rw [rootToks, hb]; rfl)
    obtain ⟨e, hO⟩ := hO
    exact ⟨⟨h.decl, h.misc, h.sp, tag_given h.root (.inr rfl) hO, fun c sp hc => (by rw [hb] at hc; cases hc), h.tail⟩,
      strip_declared h.root (empty_strip h.root) hO, hshown⟩
  | some y =>
    obtain ⟨c, sp⟩ := y
    obtain ⟨rfl, rfl⟩ := key c%">" (toksOf (closing d.root.name sp) c) (by rw [rootToks, hb]; rfl)
    obtain ⟨e, hO⟩ := hO
    refine ⟨⟨h.decl, h.misc, h.sp, tag_given h.root (.inl rfl) hO, fun c' sp' hc => ?_, h.tail⟩,
      strip_declared h.root (start_strip h.root) hO, hshown⟩
    rw [hb] at hc
    cases hc
    exact ⟨cst_given (h.body c sp hb).1 hrest, (h.body c sp hb).2⟩

theorem parse_exact {d : CDoc} (h : d.WfFor P L) {x : Document} :
    parseStr d.src = .ok x ↔ d.OkFor Given Matched ∧ x = docOf d := by
  constructor
  · intro hx
    have hg := given_of_parse h hx
    rw [parse_given hg] at hx
    cases hx
    exact ⟨hg, rfl⟩
  · rintro ⟨hg, rfl⟩
    exact parse_given hg

theorem parse_same {f : CTag → CTag} (h : SameTag f) {d d' : CDoc} (hd : d.Wf) (hd' : d'.Wf) (he : d.mapTag f = d'.mapTag f)
    {x x' : Document} (hx : parseStr d.src = .ok x) (hx' : parseStr d'.src = .ok x') : x = x' := by
  rw [((parse_exact hd).1 hx).2, ((parse_exact hd').1 hx').2, ← docOf_mapTag h d', ← he, docOf_mapTag h]

theorem given_nil : Given [] := blank_given rfl

theorem parse_expand_iff {d d' : CDoc} (hd : d.Wf) (he : d.expand = d'.expand) {x : Document} :
    parseStr d.src = .ok x ↔ parseStr d'.src = .ok x := by
  have hd' : d'.Wf := (expand_wf_iff trivial).1 (he ▸ (expand_wf_iff trivial).2 hd)
  rw [parse_exact hd, parse_exact hd', ← docOf_expand d, he, docOf_expand d', ← expand_ok_iff given_nil, he, expand_ok_iff given_nil]

end KissXml
