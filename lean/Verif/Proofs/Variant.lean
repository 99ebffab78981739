import Verif.Spec.Variant
import Verif.Proofs.Local
import Verif.Proofs.Reject
/-!
# Two ways to write the same thing
-/
namespace KissXml
open Spec

/-! ## tags -/

/-- the same but for namespaces and the order of attributes -/
structure TagLike (e e' : Element) : Prop where
  name : e.name = e'.name
  attrs : ∀ k, e.attrs.get k = e'.attrs.get k
  pfx : e.pfx = e'.pfx

theorem TagLike.tagName {e e' : Element} (h : TagLike e e') : e.tagName = e'.tagName := by
  obtain ⟨n, cs, a, x, q, c⟩ := e
  obtain ⟨n', cs', a', x', q', c'⟩ := e'
  obtain ⟨rfl, -, rfl⟩ := h
  rfl

theorem gives_iff {x : Str} {pos : Nat} {ps : List Str} {m : SMap} (h : parseAttrs x pos ps SMap.empty = .ok m) (k v : Str) :
    m.get k = some v ↔ Gives ps k v := by
  obtain ⟨-, h2, -, h4⟩ := parseAttrs_written h
  constructor
  · intro hk
    rcases h2 k v hk with h | ⟨raw, p, hp, hq⟩
    · simp [SMap.get, SMap.empty, LMap.get] at h
    · obtain ⟨a, p, b, raw, h5, h6, h7⟩ := exists_last ⟨p, hp, raw, hq⟩
      obtain ⟨u, h8, h9⟩ := h4 a p b k raw h5 h6 h7
      cases hk.symm.trans h8
      exact ⟨a, p, b, raw, h5, h6, h7, unescape_ok_iff.1 h9⟩
  · rintro ⟨a, p, b, raw, h5, h6, h7, h8⟩
    obtain ⟨u, h9, h10⟩ := h4 a p b k raw h5 h6 h7
    cases h10.symm.trans (unescape_ok_iff.2 h8)
    exact h9

theorem nameSplit_like {p p' : Option Element} {attrs attrs' : SMap} {n0 n : Str} {x q : Option Str} (h : NameSplit p attrs n0 n x q)
    (ha : ∀ k, attrs.get k = attrs'.get k) (hp : p' = none → p = none) : ∃ x', NameSplit p' attrs' n0 n x' q := by
  cases h with
  | plain hc => exact ⟨_, .plain hc⟩
  | own h1 h2 h3 => exact ⟨_, .own h1 h2 (by rw [← ha]; exact h3)⟩
  | inh h1 h2 h3 h4 =>
    cases p' with
    | none => rw [hp rfl] at h4; cases h4
    | some p' => exact ⟨_, .inh h1 h2 (by rw [← ha]; exact h3) rfl⟩

theorem kind_prefix {tag : Str} (h : Opening tag) : ¬ c%"</" <+: tag ∧ ¬ c%"<!" <+: tag ∧ (c%"/>" <:+ tag ↔ kind tag = .empty) := by
  unfold Opening kind at h
  unfold kind
  by_cases h1 : c%"<!" <+: tag
  · simp [h1] at h
  · by_cases h2 : c%"</" <+: tag
    · simp [h1, h2] at h
    · refine ⟨h2, h1, ?_⟩
      rw [if_neg h1, if_neg h2]
      split <;> simp_all

theorem tagVariant_opening {tag tag' : Str} (h : TagVariant tag tag') (ho : Opening tag) : Opening tag' ∧ kind tag' = kind tag := by
  cases h with
  | same h => exact ⟨h ▸ ho, by rw [h]⟩
  | close h _ _ _ _ => rcases ho with ho | ho <;> rw [h] at ho <;> cases ho
  | opening h1 h2 _ _ _ _ _ => exact ⟨by unfold Opening; rw [h2]; exact h1, h2⟩

theorem opens_rewritten {p : Option Element} {tag tag' n : Str} {e : Element} (h : Opens p tag e) (hv : SameOpening tag tag' n) (ho : Opening tag')
    (ha : Angled tag) (p' : Option Element) (hp : p' = none → p = none) : ∃ e', Opens p' tag' e' ∧ TagLike e e' := by
  obtain ⟨ps, ps', h4, h5, h3, h6, h7⟩ := hv
  obtain ⟨-, -, -, t, attrs, n1, n', x, q, g1, hN⟩ := h
  obtain ⟨comps, buf, pos, g2, g3⟩ := hN.attrs_ok
  obtain ⟨comps', g4, rfl⟩ := split_of_pieces (inner_iff.2 ⟨g1, ha⟩) h4
  cases g2.symm.trans g4
  obtain ⟨t', wt, hi', -, -⟩ := id h5
  obtain ⟨comps'', g5, rfl⟩ := split_of_pieces hi' h5
  obtain ⟨attrs', g6⟩ := parseAttrs_all h6 buf pos
  have hg : ∀ k, attrs.get k = attrs'.get k := by
    intro k
    apply Option.ext
    intro v
    rw [gives_iff g3, gives_iff g6]
    exact h7 k v
  obtain ⟨x', hs⟩ := nameSplit_like (p' := p') hN.name hg hp
  have hN' : NewElem t' p' attrs' n n' x' q _ :=
    ⟨⟨_, buf, pos, g5, g6⟩, hs, hN.valid, fun k hk => hN.attrs_valid k (by rw [hg]; exact hk), rfl⟩
  obtain ⟨k1, k2, -⟩ := kind_prefix ho
  obtain ⟨f1, f2, f3⟩ := newElem_fields hN
  obtain ⟨g1', g2', g3'⟩ := newElem_fields hN'
  exact ⟨_, ⟨k1, k2, goodTag_match h3, t', attrs', n, n', x', q, (inner_iff.1 hi').1, hN'⟩, by rw [f1, g1'],
    fun k => by rw [f2, g2', hg], by rw [f3, g3']⟩

theorem opens_variant {p : Option Element} {tag tag' : Str} {e : Element} (h : Opens p tag e) (hv : TagVariant tag tag') (ho : Opening tag)
    (ha : Angled tag) (p' : Option Element) (hp : p' = none → p = none) : ∃ e', Opens p' tag' e' ∧ TagLike e e' := by
  have ho' := (tagVariant_opening hv ho).1
  cases hv with
  | same hs =>
    subst hs
    cases p' with
    | some p' =>
      obtain ⟨e', h1, h2⟩ := opens_move h (some p') (by rintro ⟨⟩)
      exact ⟨e', h1, h2.name, fun k => by rw [h2.attrs], h2.pfx⟩
    | none =>
      rw [hp rfl] at h
      exact ⟨e, h, rfl, fun _ => rfl, rfl⟩
  | close h1 _ _ _ _ => rcases ho with ho | ho <;> rw [h1] at ho <;> cases ho
  | @opening n ps ps' h1 h2 h3 h4 h5 h6 h7 => exact opens_rewritten h ⟨ps, ps', h4, h5, h3, h6, h7⟩ ho' ha p' hp

/-- the name that is read is the tag name -/
theorem same_tagName {p : Option Element} {tag tag' n : Str} {e : Element} (h : Opens p tag e) (hv : SameOpening tag tag' n) (ha : Angled tag) :
    e.tagName = n := by
  obtain ⟨ps, ps', h4, -⟩ := hv
  obtain ⟨-, -, -, t, attrs, n1, n', x, q, g1, hN⟩ := h
  obtain ⟨comps, buf, pos, g2, g3⟩ := hN.attrs_ok
  obtain ⟨comps', g4, rfl⟩ := split_of_pieces (inner_iff.2 ⟨g1, ha⟩) h4
  cases g2.symm.trans g4
  exact newElem_tagName hN

theorem closes_variant {e e' : Element} {tag tag' : Str} (h : Closes e tag) (hv : TagVariant tag tag') (hl : TagLike e e') : Closes e' tag' := by
  have hk := kind_close h.slash
  cases hv with
  | same hs => subst hs; exact ⟨h.slash, h.regex, by rw [h.name, hl.tagName]⟩
  | close _ h2 h3 h4 h5 =>
    refine ⟨(close_prefix h2).2, goodTag_match h3, ?_⟩
    rw [(inner_iff.1 h5).1, ← hl.tagName, ← h.name, (inner_iff.1 h4).1]
  | opening h1 _ _ _ _ _ _ => rcases h1 with h1 | h1 <;> rw [hk] at h1 <;> cases h1

theorem mark_variant {tag tag' : Str} (h : kind tag = .mark) (hv : TagVariant tag tag') : tag = tag' := by
  cases hv with
  | same h => exact h
  | close h1 _ _ _ _ => rw [h] at h1; cases h1
  | opening h1 _ _ _ _ _ _ => rcases h1 with h1 | h1 <;> rw [h] at h1 <;> cases h1

/-! ## texts -/

theorem allWs_iff {t : Str} : AllWs t ↔ t.all isWs = true := by simp [AllWs]

theorem withText_variant {text text' : Str} {f f' : Forest} (h : WithText text f f') (hv : TextVariant text text') :
    ∃ l, bareL l = l ∧ plain f' = l ++ plain f ∧ ∀ g, ∃ g', WithText text' g g' ∧ plain g' = l ++ plain g := by
  have put : ∀ (t : Str) (g : Forest), plain (.leaf (.text t) g) = (if Blank t then [] else [.text t]) ++ plain g := by
    intro t g
    rw [plain]
    by_cases hb : Blank t <;> simp [isBlankText, hb]
  have hb : ∀ t : Str, bareL (if Blank t then [] else [.text t]) = (if Blank t then [] else [.text t]) := by
    intro t; split <;> rfl
  cases h with
  | blank hw =>
    have hw' : text'.all isWs = true := by
      cases hv with
      | same h => exact h ▸ hw
      | blank _ h => exact allWs_iff.1 h
      | text h _ _ _ => exact absurd (allWs_iff.2 hw) h
    exact ⟨[], rfl, rfl, fun g => ⟨g, .blank hw', rfl⟩⟩
  | @text t hw hu =>
    have hw' : text'.all isWs = false ∧ (unescape text' : R Str) = .ok t := by
      cases hv with
      | same h => exact h ▸ ⟨hw, hu⟩
      | blank h _ => rw [allWs_iff.1 h] at hw; cases hw
      | text _ h1 h2 h3 =>
        cases hu.symm.trans (unescape_ok_iff.2 h2)
        refine ⟨?_, unescape_ok_iff.2 h3⟩
        rw [Bool.eq_false_iff]
        exact fun h => h1 (allWs_iff.2 h)
    exact ⟨_, hb t, put t f, fun g => ⟨_, .text hw'.1 hw'.2, put t g⟩⟩

/-! ## content -/

theorem bare_like {e e' : Element} (h : TagLike e e') {cs cs' : List Node} (hc : SameList (bareL cs) (bareL cs')) :
    SameNode (bare (.element { e with children := cs })) (bare (.element { e' with children := cs' })) := by
  obtain ⟨n, _, a, x, q, c⟩ := e
  obtain ⟨n', _, a', x', q', c'⟩ := e'
  obtain ⟨h1, h2, h3⟩ := h
  simp only at h1 h2 h3
  subst h1 h3
  simp only [bare]
  exact .element (.mk (SMap.perm_iff_get.2 h2) hc)

/-- the last tag, if there is one, is a closing tag -/
def EndsClosed (a : List (Str × Str)) : Prop := ∀ b t, a = b ++ [t] → kind t.2 = .close

theorem body_ends {e : Element} {toks : List (Str × Str)} {f : Forest} (h : Body e toks f) : EndsClosed toks ∧ toks ≠ [] := by
  have keep : ∀ (t : Str × Str) {l : List (Str × Str)}, EndsClosed l ∧ l ≠ [] → EndsClosed (t :: l) ∧ t :: l ≠ [] := by
    rintro t l ⟨h1, h2⟩
    refine ⟨fun b u hu => ?_, by simp⟩
    cases b with
    | nil => simp only [List.nil_append, List.cons.injEq] at hu; exact absurd hu.2 h2
    | cons v b => exact h1 b u (List.cons.inj hu).2
  induction h with
  | close hc _ =>
    refine ⟨fun b t ht => ?_, by simp⟩
    cases b with
    | nil => cases ht; exact kind_close hc.slash
    | cons v b => exact absurd (List.cons.inj ht).2 (by simp)
  | comment _ _ _ ih => exact keep _ ih
  | cdata _ _ _ ih => exact keep _ ih
  | empty _ _ _ _ ih => exact keep _ ih
  | elem _ _ _ _ _ ih1 ih2 =>
    refine keep _ ⟨fun b t ht => ?_, by simp [ih1.2]⟩
    obtain ⟨d, u, hd⟩ := List.eq_nil_or_concat _ |>.resolve_left ih2.2
    rw [hd, List.concat_eq_append, ← List.append_assoc] at ht
    have := List.append_inj_right' ht rfl
    cases this
    exact ih2.1 d t (by rw [hd, List.concat_eq_append])

theorem rewritten_split {toks l : List (Str × Str)} (h : Rewritten toks l) : ∀ {a b : List (Str × Str)}, toks = a ++ b → EndsClosed a →
    ∃ c d, Rewritten a c ∧ Rewritten b d ∧ l = c ++ d := by
  have tail : ∀ {t : Str × Str} {a : List (Str × Str)}, EndsClosed (t :: a) → EndsClosed a := by
    intro t a h b u hu
    exact h (t :: b) u (by rw [hu]; rfl)
  induction h with
  | nil =>
    intro a b h _
    obtain ⟨rfl, rfl⟩ := List.append_eq_nil_iff.1 h.symm
    exact ⟨[], [], .nil, .nil, rfl⟩
  | @cons t t' m m' h1 h2 ih =>
    intro a b h hc
    cases a with
    | nil => cases h; exact ⟨[], _, .nil, .cons h1 h2, rfl⟩
    | cons u a =>
      obtain ⟨rfl, h'⟩ := List.cons.inj h
      obtain ⟨c, d, i1, i2, rfl⟩ := ih h' (tail hc)
      exact ⟨_ :: c, d, .cons h1 i1, i2, rfl⟩
  | expand h1 h2 h3 h4 h5 h6 h7 h8 h9 ih =>
    intro a b h hc
    cases a with
    | nil => cases h; exact ⟨[], _, .nil, .expand h1 h2 h3 h4 h5 h6 h7 h8 h9, rfl⟩
    | cons u a =>
      obtain ⟨rfl, h'⟩ := List.cons.inj h
      obtain ⟨c, d, i1, i2, rfl⟩ := ih h' (tail hc)
      exact ⟨_ :: _ :: c, d, .expand h1 h2 h3 h4 h5 h6 h7 h8 i1, i2, rfl⟩
  | collapse h1 h2 h3 h4 h5 h6 h9 ih =>
    intro a b h hc
    cases a with
    | nil => cases h; exact ⟨[], _, .nil, .collapse h1 h2 h3 h4 h5 h6 h9, rfl⟩
    | cons u a =>
      obtain ⟨rfl, h'⟩ := List.cons.inj h
      cases a with
      | nil => have := hc [] _ rfl; rw [h2] at this; cases this
      | cons v a =>
        obtain ⟨rfl, h''⟩ := List.cons.inj h'
        obtain ⟨c, d, i1, i2, rfl⟩ := ih h'' (tail (tail hc))
        exact ⟨_ :: c, d, .collapse h1 h2 h3 h4 h5 h6 i1, i2, rfl⟩

/-- an element without content -/
theorem body_blank {e : Element} {w c : Str} {l : List (Str × Str)} {f : Forest} (h : Body e ((w, c) :: l) f) (hw : AllWs w) (hc : kind c = .close) :
    l = [] ∧ f = .nil := by
  have no : ∀ {a : Str}, c%"<!" <+: a → kind a ≠ .close := by
    intro a h; rw [kind_mark h]; nofun
  cases h with
  | close _ ht =>
    cases ht with
    | blank _ => exact ⟨rfl, rfl⟩
    | text h _ => rw [allWs_iff.1 hw] at h; cases h
  | comment => exact absurd hc (no ⟨_, rfl⟩)
  | cdata => exact absurd hc (no ⟨_, rfl⟩)
  | empty hO hs => rw [kind_empty hO hs] at hc; cases hc
  | elem hO hs => rw [kind_start hO hs] at hc; cases hc

theorem closes_of {e : Element} {c : Str} (h1 : kind c = .close) (h2 : ¬ BadTag c) (h3 : Inner c e.tagName) : Closes e c :=
  ⟨(close_prefix h1).2, goodTag_match h2, (inner_iff.1 h3).1⟩

theorem angled_cons {t : Str × Str} {l : List (Str × Str)} (h : ∀ u ∈ t :: l, Angled u.2) : Angled t.2 ∧ ∀ u ∈ l, Angled u.2 :=
  ⟨h t (by simp), fun u hu => h u (by simp [hu])⟩

theorem body_variant {e : Element} {toks : List (Str × Str)} {f : Forest} (h : Body e toks f) :
    ∀ toks' e', TagLike e e' → Rewritten toks toks' → (∀ t ∈ toks, Angled t.2) →
      ∃ f', Body e' toks' f' ∧ SameList (bareL (plain f)) (bareL (plain f')) := by
  have leaf : ∀ {n n' : Node} {f f1 : Forest} (l : List Node), SameNode (bare n) (bare n') →
      SameList (bareL (plain f)) (bareL (plain f1)) → bareL l = l →
      SameList (bareL (l ++ n :: plain f)) (bareL (l ++ n' :: plain f1)) := by
    intro n n' f f1 l h1 h2 h3
    rw [bareL_append, bareL_append, h3]
    exact sameList_append (sameList_refl _) (.cons h1 h2)
  induction h with
  | @close e text tag f hc hw =>
    intro toks' e' hl hv ha
    have hk := kind_close hc.slash
    cases hv with
    | expand _ h => rw [hk] at h; cases h
    | @cons _ t' _ _ hv hr =>
      cases hr
      obtain ⟨t', g'⟩ := t'
      obtain ⟨l, h1, h2, h3⟩ := withText_variant hw hv.1
      obtain ⟨g', h4, h5⟩ := h3 .nil
      refine ⟨g', .close (closes_variant hc hv.2 hl) h4, ?_⟩
      rw [h2, h5]
      exact sameList_refl _
  | @comment e text c toks f f' hk _ hw ih =>
    intro toks' e' hl hv ha
    have hm : kind (c%"<!--" ++ c ++ c%"-->") = .mark := kind_mark ⟨c%"--" ++ c ++ c%"-->", by simp⟩
    cases hv with
    | expand _ h => rw [hm] at h; cases h
    | collapse _ h => rw [hm] at h; cases h
    | @cons _ t' _ toks' hv hr =>
      obtain ⟨t', g'⟩ := t'
      obtain ⟨f1, i1, i2⟩ := ih toks' e' hl hr (angled_cons ha).2
      obtain ⟨l, h1, h2, h3⟩ := withText_variant hw hv.1
      obtain ⟨f2, h4, h5⟩ := h3 (.leaf (.comment c) f1)
      obtain rfl : _ = g' := mark_variant hm hv.2
      refine ⟨f2, .comment hk i1 h4, ?_⟩
      rw [h2, h5, plain, plain, if_neg (by simp [isBlankText]), if_neg (by simp [isBlankText])]
      exact leaf l (.comment _) i2 h1
  | @cdata e text c toks f f' hk _ hw ih =>
    intro toks' e' hl hv ha
    have hm : kind (c%"<![CDATA[" ++ c ++ c%"]]>") = .mark := kind_mark ⟨c%"[CDATA[" ++ c ++ c%"]]>", by simp⟩
    cases hv with
    | expand _ h => rw [hm] at h; cases h
    | collapse _ h => rw [hm] at h; cases h
    | @cons _ t' _ toks' hv hr =>
      obtain ⟨t', g'⟩ := t'
      obtain ⟨f1, i1, i2⟩ := ih toks' e' hl hr (angled_cons ha).2
      obtain ⟨l, h1, h2, h3⟩ := withText_variant hw hv.1
      obtain ⟨f2, h4, h5⟩ := h3 (.leaf (.cdata c) f1)
      obtain rfl : _ = g' := mark_variant hm hv.2
      refine ⟨f2, .cdata hk i1 h4, ?_⟩
      rw [h2, h5, plain, plain, if_neg (by simp [isBlankText]), if_neg (by simp [isBlankText])]
      exact leaf l (.cdata _) i2 h1
  | @empty e c text tag toks f f' hO hs _ hw ih =>
    intro toks' e' hl hv ha
    have hk := kind_empty hO hs
    cases hv with
    | collapse _ h => rw [hk] at h; cases h
    | @expand _ text' _ tag' w g n _ toks' hx _ hk' hso hw' hg1 hg2 hg3 hr =>
      obtain ⟨f1, i1, i2⟩ := ih toks' e' hl hr (angled_cons ha).2
      obtain ⟨c', hO', hc⟩ := opens_rewritten hO hso (.inl hk') (angled_cons ha).1 (some e') (by rintro ⟨⟩)
      have hn := same_tagName hO hso (angled_cons ha).1
      rw [hc.tagName] at hn
      obtain ⟨l, h1, h2, h3⟩ := withText_variant hw hx
      obtain ⟨f2, h4, h5⟩ := h3 (.elem c' .nil f1)
      refine ⟨f2, .elem (toks1 := [(w, g)]) hO' (fun h => ?_) (.close (closes_of hg1 hg2 (hn ▸ hg3)) (.blank (allWs_iff.1 hw'))) i1 h4, ?_⟩
      · rw [(kind_prefix (.inl hk')).2.2.1 h] at hk'; cases hk'
      · have hb := bare_like hc (cs := []) (cs' := []) .nil
        rw [bare_self (opens_children hO)] at hb
        rw [h2, h5, plain, plain, if_neg (by simp [isBlankText])]
        exact leaf l hb i2 h1
    | @cons _ t' _ toks' hv hr =>
      obtain ⟨t', g'⟩ := t'
      obtain ⟨f1, i1, i2⟩ := ih toks' e' hl hr (angled_cons ha).2
      obtain ⟨hop, hk'⟩ := tagVariant_opening hv.2 (.inr hk)
      obtain ⟨c', hO', hc⟩ := opens_variant hO hv.2 (.inr hk) (angled_cons ha).1 (some e') (by rintro ⟨⟩)
      obtain ⟨l, h1, h2, h3⟩ := withText_variant hw hv.1
      obtain ⟨f2, h4, h5⟩ := h3 (.leaf (.element c') f1)
      refine ⟨f2, .empty hO' ((kind_prefix hop).2.2.2 (hk'.trans hk)) i1 h4, ?_⟩
      have hb := bare_like hc (cs := []) (cs' := []) .nil
      rw [bare_self (opens_children hO), bare_self (opens_children hO')] at hb
      rw [h2, h5, plain, plain, if_neg (by simp [isBlankText]), if_neg (by simp [isBlankText])]
      exact leaf l hb i2 h1
  | @elem e c text tag toks1 toks2 k f f' hO hs hB1 _ hw ih1 ih2 =>
    intro toks' e' hl hv ha
    have hk := kind_start hO hs
    have hend := body_ends hB1
    have ha1 := (angled_cons ha).1
    have a1 := (angled_cons ha).2
    generalize hz : (text, tag) :: (toks1 ++ toks2) = z at hv
    cases hv with
    | nil => cases hz
    | expand _ h => obtain ⟨hz, -⟩ := List.cons.inj hz; cases hz; rw [hk] at h; cases h
    | @collapse _ text' _ tag' w g n m toks' hx _ hk' hso hw' hg hr =>
      obtain ⟨hz, hz'⟩ := List.cons.inj hz
      cases hz
      cases toks1 with
      | nil => exact absurd rfl hend.2
      | cons t1 toks1 =>
        obtain ⟨rfl, hz'⟩ := List.cons.inj hz'
        obtain ⟨rfl, rfl⟩ := body_blank hB1 hw' hg
        obtain rfl : toks2 = m := (List.cons.inj hz').2
        obtain ⟨f1, i1, i2⟩ := ih2 toks' e' hl hr (fun t ht => a1 t (by simp [ht]))
        obtain ⟨c', hO', hc⟩ := opens_rewritten hO hso (.inr hk') ha1 (some e') (by rintro ⟨⟩)
        obtain ⟨l, h1, h2, h3⟩ := withText_variant hw hx
        obtain ⟨f2, h4, h5⟩ := h3 (.leaf (.element c') f1)
        refine ⟨f2, .empty hO' ((kind_prefix (.inr hk')).2.2.2 hk') i1 h4, ?_⟩
        have hb := bare_like hc (cs := []) (cs' := []) .nil
        rw [bare_self (opens_children hO')] at hb
        rw [h2, h5, plain, plain, if_neg (by simp [isBlankText])]
        exact leaf l hb i2 h1
    | @cons _ t' _ toks' hv hr =>
      obtain ⟨t', g'⟩ := t'
      obtain ⟨hz, rfl⟩ := List.cons.inj hz
      cases hz
      obtain ⟨m1, m2, r1, r2, rfl⟩ := rewritten_split hr rfl hend.1
      obtain ⟨f1, i1, i2⟩ := ih2 m2 e' hl r2 (fun t ht => a1 t (by simp [ht]))
      obtain ⟨hop, hk'⟩ := tagVariant_opening hv.2 (.inl hk)
      obtain ⟨c', hO', hc⟩ := opens_variant hO hv.2 (.inl hk) ha1 (some e') (by rintro ⟨⟩)
      obtain ⟨k1, j1, j2⟩ := ih1 m1 c' hc r1 (fun t ht => a1 t (by simp [ht]))
      obtain ⟨l, h1, h2, h3⟩ := withText_variant hw hv.1
      obtain ⟨f2, h4, h5⟩ := h3 (.elem c' k1 f1)
      refine ⟨f2, .elem hO' (fun h => ?_) j1 i1 h4, ?_⟩
      · rw [(kind_prefix hop).2.2.1 h, hk] at hk'; cases hk'
      · rw [h2, h5, plain, plain]
        exact leaf l (bare_like hc j2) i2 h1

theorem elemToks_variant {tx tag : Str} {body rest' : List (Str × Str)} {c : Element} (h : ElemToks none tag body c)
    (hv : Rewritten ((tx, tag) :: body) rest') (ha : Angled tag) (hb1 : ∀ t ∈ body, Angled t.2) :
    ∃ tx' tag' body' c', rest' = (tx', tag') :: body' ∧ TextVariant tx tx' ∧ ElemToks none tag' body' c' ∧
      SameNode (bare (.element c)) (bare (.element c')) := by
  have ho := opening_start h
  cases h with
  | empty hO hs =>
    have hk := kind_empty hO hs
    cases hv with
    | @cons _ t' _ _ hv hr =>
      cases hr
      obtain ⟨hop, hk'⟩ := tagVariant_opening hv.2 ho
      obtain ⟨c', hO', hc⟩ := opens_variant hO hv.2 ho ha none (fun _ => rfl)
      refine ⟨_, _, _, c', rfl, hv.1, .empty hO' ((kind_prefix hop).2.2.2 (hk'.trans hk)), ?_⟩
      have := bare_like hc (cs := []) (cs' := []) .nil
      rwa [bare_self (opens_children hO), bare_self (opens_children hO')] at this
    | @expand _ text' _ tag' w g n _ toks' hx _ hk' hso hw' hg1 hg2 hg3 hr =>
      cases hr
      obtain ⟨c', hO', hc⟩ := opens_rewritten hO hso (.inl hk') ha none (fun _ => rfl)
      have hn := same_tagName hO hso ha
      rw [hc.tagName] at hn
      refine ⟨_, _, _, _, rfl, hx, .start hO' (fun h => ?_) (.close (closes_of hg1 hg2 (hn ▸ hg3)) (.blank (allWs_iff.1 hw'))), ?_⟩
      · rw [(kind_prefix (.inl hk')).2.2.1 h] at hk'; cases hk'
      · have hb := bare_like hc (cs := []) (cs' := []) .nil
        rw [bare_self (opens_children hO)] at hb
        exact hb
  | @start c0 k _ hO hs hB =>
    have hk := kind_start hO hs
    cases hv with
    | expand _ h => rw [hk] at h; cases h
    | cons hv hr =>
      obtain ⟨hop, hk'⟩ := tagVariant_opening hv.2 ho
      obtain ⟨c', hO', hc⟩ := opens_variant hO hv.2 ho ha none (fun _ => rfl)
      obtain ⟨k', hB', hk2⟩ := body_variant hB _ c' hc hr hb1
      refine ⟨_, _, _, _, rfl, hv.1, .start hO' (fun h => ?_) hB', bare_like hc hk2⟩
      rw [(kind_prefix hop).2.2.1 h, hk] at hk'; cases hk'
    | @collapse _ text' _ tag' w g n m toks' hx _ hk' hso hw' hg hr =>
      obtain ⟨rfl, rfl⟩ := body_blank hB hw' hg
      cases hr
      obtain ⟨c', hO', hc⟩ := opens_rewritten hO hso (.inr hk') ha none (fun _ => rfl)
      refine ⟨_, _, _, c', rfl, hx, .empty hO' ((kind_prefix (.inr hk')).2.2.2 hk'), ?_⟩
      have hb := bare_like hc (cs := []) (cs' := []) .nil
      rw [bare_self (opens_children hO')] at hb
      exact hb

theorem elemToks_rules {tag : Str} {body : List (Str × Str)} {c : Element} (h : ElemToks none tag body c) :
    PrefixRule (fun _ => none) (.element c) ∧ DefaultRule none (.element c) := by
  obtain ⟨E, F, hR, rfl⟩ := root_of_elemToks h
  exact root_rules hR (elemToks_one h)

/-- the whole document -/
theorem parse_variant {x x' : Str} {d : Document} {pre rest rest' : List (Str × Str)} (h : parseStr x = .ok d) (hp : Parts x pre rest)
    (hp' : Parts x' pre rest') (h1 : OneRoot (tagsOf rest)) (hv : Rewritten rest rest') :
    ∃ d', parseStr x' = .ok d' ∧ d.eq d' = true := by
  obtain ⟨toks, D, DS, tg, rs, E, F, hL, hP, hR, rfl⟩ := parse_iff.1 h
  obtain ⟨q, tx, hq, hq1, hq2, htx, hsw⟩ := pro_swap hP
  obtain ⟨tail', hT⟩ := lex_lexes hL
  obtain ⟨tail, hl⟩ := hp.lexes
  have hparts : Parts x q ((tx, tg) :: rs) := ⟨⟨tail', hq ▸ hT⟩, hq1, by rintro t r ⟨⟩; exact hq2⟩
  obtain ⟨rfl, rfl⟩ := parts_unique hparts hp
  have htok := lexes_toks hl
  obtain ⟨tl, hl'⟩ := hp'.lexes
  have hE := elemToks_of_root hR h1
  obtain ⟨tx', tg', rs', c', rfl, htv, hE', hs⟩ := elemToks_variant hE hv (tokOk_angled (htok (tx, tg) (by simp)))
    (fun t ht => tokOk_angled (htok t (by simp [ht])))
  obtain ⟨E', F', hR', hc⟩ := root_of_elemToks hE'
  obtain ⟨c0, hO, -⟩ := elemToks_opens hE'
  have hw : tx'.all isWs = true := by
    cases htv with
    | same h => exact (show tx = tx' from h) ▸ htx
    | blank _ h => exact allWs_iff.1 h
    | text h _ _ _ => exact absurd (allWs_iff.2 htx) h
  have hpro := hsw tx' tg' rs' hw (fun h => hp'.root (tx', tg') rs' rfl (.inl h)) hO.not_decl hO.not_close hO.regex
  refine ⟨_, parse_iff.2 ⟨_, D, DS, tg', rs', E', F', lexes_lex hl' 0, hpro, hR', rfl⟩, ?_⟩
  have hs' := same_of_rules hs (elemToks_rules hE).1 (elemToks_rules hE').1 (elemToks_rules hE).2 (elemToks_rules hE').2
  rw [hc]
  simp only [Document.eq, Bool.and_eq_true, beq_iff_eq, element_eq_iff]
  refine ⟨⟨rfl, rfl⟩, ?_⟩
  cases hs' with
  | element h => exact h

/-! ## making variants -/

/-- what the library reads in a tag -/
theorem variant_of {tag tag' t t' n : Str} {cs cs' : List Str} {m m' : SMap} (ho : Opening tag) (hk : kind tag' = kind tag)
    (hr : Re.isMatch elemRe tag' = true) (ha : Angled tag) (ha' : Angled tag') (hs : stripTag tag = some t) (hs' : stripTag tag' = some t')
    (hq : quoteAwareSplit t = n :: cs) (hq' : quoteAwareSplit t' = n :: cs') (hm : parseAttrs [] 0 (joinLoop cs) SMap.empty = .ok m)
    (hm' : parseAttrs [] 0 (joinLoop cs') SMap.empty = .ok m') (hp : m.entries.Perm m'.entries) : TagVariant tag tag' :=
  .opening ho hk (fun h => by rw [badTag_iff.1 h] at hr; cases hr) (pieces_split (inner_iff.2 ⟨hs, ha⟩) hq)
    (pieces_split (inner_iff.2 ⟨hs', ha'⟩) hq') (goodPieces_ok hm')
    (fun k v => by rw [← gives_iff hm, ← gives_iff hm', SMap.perm_iff_get.1 hp k])

/-- if names are distinct, order does not matter -/
theorem gives_perm {ps ps' : List Str} (hp : ps.Perm ps')
    (hd : ps.Pairwise fun p p' => ∀ k raw raw', Quoted k raw p → ¬ Quoted k raw' p') (k v : Str) : Gives ps k v ↔ Gives ps' k v := by
  have key : ∀ l : List Str, (l.Pairwise fun p p' => ∀ k raw raw', Quoted k raw p → ¬ Quoted k raw' p') →
      (Gives l k v ↔ ∃ p ∈ l, ∃ raw, Quoted k raw p ∧ Unesc raw (some v)) := by
    intro l hl
    constructor
    · rintro ⟨a, p, b, raw, rfl, h2, -, h3⟩
      exact ⟨p, by simp, raw, h2, h3⟩
    · rintro ⟨p, hp, raw, h2, h3⟩
      obtain ⟨a, b, rfl⟩ := List.append_of_mem hp
      refine ⟨a, p, b, raw, rfl, h2, ?_, h3⟩
      intro p' hp' raw' hq
      exact (List.pairwise_cons.1 (List.pairwise_append.1 hl).2.1).1 p' hp' k raw raw' h2 hq
  rw [key ps hd, key ps' ((hp.pairwise_iff (by
    intro p p' h k raw raw' h1 h2
    exact h k raw' raw h2 h1)).1 hd)]
  simp only [hp.mem_iff]

end KissXml
