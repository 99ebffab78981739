import Verif.Proofs.Written
import Verif.Proofs.Misc
/-!
# Concrete documents are accepted
-/
namespace KissXml
open Spec

variable {P Q : Str → Prop} {L M : CTag → Prop} {D : Str → Str → Prop}

/-! ## kinds of texts, values and layout -/

/-- the tag is accepted by the check of tags, as a start tag and as an empty-element tag, and the API allows its names -/
structure Matched (t : CTag) : Prop where
  start : Re.isMatch elemRe t.start = true
  empty : Re.isMatch elemRe t.empty = true
  names : t.Allowed

/-- what the parser makes of a text is a way of decoding it -/
structure Way (P : Str → Prop) (D : Str → Str → Prop) : Prop where
  dec : ∀ s, P s → D s (dec s)
  unique : ∀ s t, P s → D s t → t = KissXml.dec s

theorem way_legible : Way Legible Decodes :=
  ⟨fun _ h => (unescape_dec h).2, fun _ _ h ht => decodes_unique ht (unescape_dec h).2⟩

theorem way_given : Way Given fun s t => Unesc s (some t) := by
  refine ⟨fun _ h => (unescape_given h).2, fun s t h ht => ?_⟩
  have h1 := (unescape_given h).1
  rw [unescape_ok_iff.2 ht] at h1
  cases h1; rfl

theorem Spec.CAttr.OkFor.mono {a : CAttr} (h : a.OkFor P) (hP : P a.raw → Q a.raw) : a.OkFor Q :=
  ⟨h.sp, h.name, h.sp1, h.sp2, h.quote, h.raw, hP h.value⟩

theorem Spec.CTag.OkFor.mono {t : CTag} (h : t.OkFor P L) (hP : ∀ s, P s → Q s) (hL : L t → M t) : t.OkFor Q M :=
  ⟨h.name, fun a ha => (h.attrs a ha).mono (hP _), hL h.layout, h.distinct, h.sp⟩

theorem Spec.Cst.OkFor.mono {c : Cst} (h : c.OkFor P L) (hP : ∀ s, P s → Q s) (hL : ∀ t : CTag, t.OkFor P L → M t) : c.OkFor Q M := by
  induction c with
  | done text => exact ⟨h.1, hP _ h.2⟩
  | comment text k rest ih => exact ⟨⟨h.1.1, hP _ h.1.2⟩, h.2.1, ih h.2.2⟩
  | cdata text k rest ih => exact ⟨⟨h.1.1, hP _ h.1.2⟩, h.2.1, ih h.2.2⟩
  | empty text t rest ih => exact ⟨⟨h.1.1, hP _ h.1.2⟩, h.2.1.mono hP fun _ => hL t h.2.1, ih h.2.2⟩
  | elem text t inner sp rest ih1 ih2 =>
    exact ⟨⟨h.1.1, hP _ h.1.2⟩, h.2.1.mono hP fun _ => hL t h.2.1, ih1 h.2.2.1, h.2.2.2.1, ih2 h.2.2.2.2⟩

theorem Spec.CDoc.WfFor.mono {d : CDoc} (h : d.WfFor P L) (hP : ∀ s, P s → Q s) (hL : ∀ t : CTag, t.OkFor P L → M t) : d.WfFor Q M :=
  ⟨h.decl, h.misc, h.sp, h.root.mono hP fun _ => hL _ h.root, fun c sp hb => ⟨(h.body c sp hb).1.mono hP hL, (h.body c sp hb).2⟩,
    h.tail⟩

theorem Spec.CDoc.OkFor.mono {d : CDoc} (h : d.OkFor P L) (hP : ∀ s, P s → Q s) (hL : ∀ t : CTag, t.OkFor P L → M t) : d.OkFor Q M :=
  ⟨h.toWfFor.mono hP hL, h.declared, h.shown⟩

theorem matched_layout {t : CTag} (h : t.OkFor P CTag.Laid) : Matched t := ⟨start_re h h.layout.1, empty_re h h.layout.1, h.layout.2⟩

/-- what the library decodes, it returns something for -/
theorem ok_given {d : CDoc} (h : d.Ok) : d.OkFor Given Matched := h.mono (fun _ => legible_given) fun _ => matched_layout

/-! ## elements -/

/-- the element the parser makes of a name and attributes -/
def mkElem (parent : Option Element) (n0 : Str) (attrs : SMap) : Element :=
  match splitOnce ':' n0 with
  | none => ElementF.setNamespaceContext ⟨n0, [], attrs, (none : Option Str).or (ownNs attrs none), none,
      ElementF.xmlnsContextFromAttributes attrs⟩ (parent.bind ElementF.defaultNamespace) (parent.map ElementF.ctx)
  | some (a, b) => ElementF.setNamespaceContext ⟨b, [], attrs,
      ((attrs.get (c%"xmlns:" ++ a)).or (parent.bind fun p => p.ctx.get (c%"xmlns:" ++ a))).or (ownNs attrs (some a)), some a,
      ElementF.xmlnsContextFromAttributes attrs⟩ (parent.bind ElementF.defaultNamespace) (parent.map ElementF.ctx)

theorem foldl_attrs_get {l : List CAttr} (h : (l.map CAttr.name).Nodup) (m : SMap) (k v : Str) :
    (l.foldl (fun m a => m.insert a.name (dec a.raw)) m).get k = some v ↔
      (∃ a ∈ l, a.name = k ∧ dec a.raw = v) ∨ (k ∉ l.map CAttr.name ∧ m.get k = some v) := by
  induction l generalizing m with
  | nil => simp
  | cons a l ih =>
    rw [List.map_cons, List.nodup_cons] at h
    rw [List.foldl_cons, ih h.2, SMap.get_insert]
    simp only [List.map_cons, List.mem_cons, not_or, exists_eq_or_imp]
    by_cases hk : a.name = k
    · subst hk
      simp only [if_true, Option.some.injEq, true_and, h.1, not_false_eq_true, not_true_eq_false, false_and, or_false]
      constructor
      · rintro (h' | h')
        · exact .inr h'
        · exact .inl h'
      · rintro (h' | h')
        · exact .inr h'
        · exact .inl h'
    · have hk' : ¬ k = a.name := fun h => hk h.symm
      simp only [hk, hk', if_false, false_and, false_or, not_false_eq_true, true_and]

theorem attrMap_get {l : List CAttr} (h : (l.map CAttr.name).Nodup) (k v : Str) :
    (attrMap l).get k = some v ↔ ∃ a ∈ l, a.name = k ∧ dec a.raw = v := by
  rw [attrMap, foldl_attrs_get h]
  simp [SMap.get, SMap.empty, LMap.get]

theorem attrMap_den {l : List CAttr} (h : (l.map CAttr.name).Nodup) (hl : ∀ a ∈ l, a.OkFor P) (hW : Way P D) (k v : Str) :
    (attrMap l).get k = some v ↔ ∃ a ∈ l, a.name = k ∧ D a.raw v := by
  rw [attrMap_get h]
  constructor
  · rintro ⟨a, ha, hk, rfl⟩
    exact ⟨a, ha, hk, hW.dec _ (hl a ha).value⟩
  · rintro ⟨a, ha, hk, hv⟩
    exact ⟨a, ha, hk, (hW.unique _ _ (hl a ha).value hv).symm⟩

theorem attrMap_valid {l : List CAttr} (hl : ∀ a ∈ l, ApiName a.name) (h : (l.map CAttr.name).Nodup) :
    ∀ k, ((attrMap l).get k).isSome → validName k = true := by
  intro k hk
  obtain ⟨v, hv⟩ := Option.isSome_iff_exists.1 hk
  obtain ⟨a, ha, rfl, -⟩ := (attrMap_get h k v).1 hv
  exact validName_iff.2 (hl a ha)

/-- the prefix of a root is declared -/
def Declared (parent : Option Element) (t : CTag) : Prop :=
  parent = none → ∀ p l, t.name = p ++ ':' :: l → ':' ∉ p → c%"xmlns:" ++ p ∈ t.attrs.map CAttr.name

theorem newElem_mk {t : CTag} (h : t.OkFor Given L) (hn : t.Allowed) {parent : Option Element} (hd : Declared parent t) :
    ∃ n x q, NewElem (t.name ++ t.attrs.flatMap CAttr.src) parent (attrMap t.attrs) t.name n x q
      (mkElem parent t.name (attrMap t.attrs)) := by
  have h1 : ∃ comps buffer pos, quoteAwareSplit (t.name ++ t.attrs.flatMap CAttr.src) = t.name :: comps ∧
      parseAttrs buffer pos (joinLoop comps) SMap.empty = .ok (attrMap t.attrs) := by
    refine ⟨_, [], 0, split_attrs h.name h.attrs, ?_⟩
    rw [join_attrs h.attrs]
    exact parse_attrs h.attrs _ _ _
  have h2 := attrMap_valid hn.attrs h.distinct
  rcases hn.name with ⟨hn, ha⟩ | ⟨p, l, hpl, hp, ha⟩
  · refine ⟨_, _, _, h1, .plain hn, validName_iff.2 ha, h2, ?_⟩
    rw [mkElem, splitOnce_eq_none.2 hn]
  · have hs := splitOnce_eq_some.2 ⟨hpl, hp⟩
    cases hg : (attrMap t.attrs).get (c%"xmlns:" ++ p) with
    | some v =>
      refine ⟨_, _, _, h1, .own hpl hp hg, validName_iff.2 ha, h2, ?_⟩
      rw [mkElem, hs]
      simp only [hg, Option.some_or]
    | none =>
      cases parent with
      | none =>
        obtain ⟨a, ha', hk⟩ := List.mem_map.1 (hd rfl p l hpl hp)
        have := (attrMap_get h.distinct (c%"xmlns:" ++ p) _).2 ⟨a, ha', hk, rfl⟩
        rw [hg] at this; cases this
      | some e =>
        refine ⟨_, _, _, h1, .inh hpl hp hg rfl, validName_iff.2 ha, h2, ?_⟩
        rw [mkElem, hs]
        simp only [hg, Option.none_or, Option.bind_some]

theorem name_not_mark {t : CTag} (h : t.OkFor P L) (s : Str) : ¬ c%"</" <+: c%"<" ++ t.body ++ s ∧ ¬ c%"<!" <+: c%"<" ++ t.body ++ s := by
  have hn := h.name
  constructor <;>
  · rintro ⟨u, hu⟩
    simp only [List.cons_append, List.nil_append, List.cons.injEq, true_and, CTag.body, List.append_assoc] at hu
    exact name_head hn _ (by decide) ⟨u, hu⟩

theorem name_not_xml {t : CTag} (h : t.OkFor P L) (s : Str) : ¬ c%"<?xml" <+: c%"<" ++ t.body ++ s := by
  rintro ⟨u, hu⟩
  simp only [List.cons_append, List.nil_append, List.cons.injEq, true_and, CTag.body, List.append_assoc] at hu
  exact name_head h.name _ (by decide) ⟨_, hu⟩

theorem opens_ctag_start {t : CTag} (h : t.OkFor Given Matched) {parent : Option Element} (hd : Declared parent t) :
    Opens parent t.start (mkElem parent t.name (attrMap t.attrs)) := by
  obtain ⟨n, x, q, hN⟩ := newElem_mk h h.layout.names hd
  exact ⟨(name_not_mark h _).1, (name_not_mark h _).2, h.layout.start, _, _, _, _, _, _, start_strip h, hN⟩

theorem opens_ctag_empty {t : CTag} (h : t.OkFor Given Matched) {parent : Option Element} (hd : Declared parent t) :
    Opens parent t.empty (mkElem parent t.name (attrMap t.attrs)) := by
  obtain ⟨n, x, q, hN⟩ := newElem_mk h h.layout.names hd
  exact ⟨(name_not_mark h _).1, (name_not_mark h _).2, h.layout.empty, _, _, _, _, _, _, empty_strip h, hN⟩

theorem start_not_empty {t : CTag} (h : t.OkFor P L) : ¬ c%"/>" <:+ t.start := by
  rintro ⟨u, hu⟩
  obtain ⟨h1, h2⟩ := inside_trimmed h.name h.attrs
  have : c%"/" <:+ c%"<" ++ t.body := by
    have hu' : (u ++ c%"/") ++ c%">" = (c%"<" ++ t.body) ++ c%">" := by simpa [CTag.start] using hu
    exact ⟨u, List.append_cancel_right hu'⟩
  refine not_slash (m := c%"<" ++ (t.name ++ t.attrs.flatMap CAttr.src)) ?_ h.sp (by simpa [CTag.body] using this)
  intro c hc
  refine h2 c ?_
  rwa [List.getLast?_append_of_ne_nil] at hc
  simp [xmlName_ne h.name]

theorem mkElem_fields (parent : Option Element) (n0 : Str) (attrs : SMap) :
    (mkElem parent n0 attrs).attrs = attrs ∧ (mkElem parent n0 attrs).children = [] ∧
    (':' ∉ n0 → (mkElem parent n0 attrs).name = n0 ∧ (mkElem parent n0 attrs).pfx = none) ∧
    (∀ p l, n0 = p ++ ':' :: l → ':' ∉ p → (mkElem parent n0 attrs).name = l ∧ (mkElem parent n0 attrs).pfx = some p) := by
  cases hs : splitOnce ':' n0 with
  | none =>
    have hn := splitOnce_eq_none.1 hs
    unfold mkElem
    simp only [hs]
    obtain ⟨h1, h2, h3, h4⟩ := setNamespaceContext_fields (⟨n0, [], attrs, (none : Option Str).or (ownNs attrs none), none,
      ElementF.xmlnsContextFromAttributes attrs⟩ : Element) (parent.bind ElementF.defaultNamespace) (parent.map ElementF.ctx)
    refine ⟨h3, h2, fun _ => ⟨h1, h4⟩, ?_⟩
    rintro p l rfl
    simp at hn
  | some ab =>
    obtain ⟨a, b⟩ := ab
    have hn := splitOnce_eq_some.1 hs
    unfold mkElem
    simp only [hs]
    obtain ⟨h1, h2, h3, h4⟩ := setNamespaceContext_fields (⟨b, [], attrs,
      ((attrs.get (c%"xmlns:" ++ a)).or (parent.bind fun p => p.ctx.get (c%"xmlns:" ++ a))).or (ownNs attrs (some a)), some a,
      ElementF.xmlnsContextFromAttributes attrs⟩ : Element) (parent.bind ElementF.defaultNamespace) (parent.map ElementF.ctx)
    refine ⟨h3, h2, fun h => absurd (by rw [hn.1]; simp) h, ?_⟩
    intro p l hpl hp
    have := splitOnce_eq_some.2 ⟨hpl, hp⟩
    rw [hs] at this
    cases this
    exact ⟨h1, h4⟩

theorem mkElem_den {t : CTag} (h : t.OkFor P L) (hW : Way P D) (parent : Option Element) : t.DenBy D (mkElem parent t.name (attrMap t.attrs)) := by
  obtain ⟨h1, -, h3, h4⟩ := mkElem_fields parent t.name (attrMap t.attrs)
  exact ⟨h3, h4, fun k v => by rw [h1]; exact attrMap_den h.distinct h.attrs hW k v⟩

theorem den_children {t : CTag} {e : Element} (h : t.DenBy D e) (cs : List Node) : t.DenBy D { e with children := cs } := ⟨h.1, h.2, h.3⟩

theorem mkElem_tagName (t : CTag) (parent : Option Element) :
    (mkElem parent t.name (attrMap t.attrs)).tagName = t.name := by
  obtain ⟨-, -, h3, h4⟩ := mkElem_fields parent t.name (attrMap t.attrs)
  rw [tagName_eq]
  cases hs : splitOnce ':' t.name with
  | none =>
    have hn := splitOnce_eq_none.1 hs
    exact .inl ⟨(h3 hn).2, (h3 hn).1⟩
  | some x =>
    obtain ⟨hpl, hp⟩ := splitOnce_eq_some.1 hs
    obtain ⟨g1, g2⟩ := h4 _ _ hpl hp
    right
    exact ⟨_, g2, by rw [g1, ← hpl]⟩

/-! ## tokens -/

/-- the pieces of text and tags of content, and of the closing tag after it -/
def toksOf (close : Str) : Cst → List (Str × Str)
  | .done text => [(text, close)]
  | .comment text c rest => (text, c%"<!--" ++ c ++ c%"-->") :: toksOf close rest
  | .cdata text c rest => (text, c%"<![CDATA[" ++ c ++ c%"]]>") :: toksOf close rest
  | .empty text t rest => (text, t.empty) :: toksOf close rest
  | .elem text t inner sp rest => (text, t.start) :: (toksOf (closing t.name sp) inner ++ toksOf close rest)

/-- tokens as characters -/
def flatToks (l : List (Str × Str)) : Str := l.flatMap fun t => t.1 ++ t.2

theorem flatToks_nil : flatToks [] = [] := rfl

theorem flatToks_cons (a b : Str) (l : List (Str × Str)) : flatToks ((a, b) :: l) = a ++ b ++ flatToks l := by
  simp [flatToks]

theorem flatToks_append (l m : List (Str × Str)) : flatToks (l ++ m) = flatToks l ++ flatToks m := by
  simp [flatToks]

theorem toksOf_src (close : Str) (c : Cst) : flatToks (toksOf close c) = c.src ++ close := by
  induction c generalizing close with
  | done text => simp [toksOf, flatToks, Cst.src]
  | comment text k rest ih => rw [toksOf, flatToks_cons, ih, Cst.src]; simp
  | cdata text k rest ih => rw [toksOf, flatToks_cons, ih, Cst.src]; simp
  | empty text t rest ih => rw [toksOf, flatToks_cons, ih, Cst.src]; simp
  | elem text t inner sp rest ih1 ih2 => rw [toksOf, flatToks_cons, flatToks_append, ih1, ih2, Cst.src]; simp

/-- tokens that are read back as they are -/
def TokOk (t : Str × Str) : Prop := '<' ∉ t.1 ∧ TagAt t.2 t.2

theorem lexes_flat {l : List (Str × Str)} (h : ∀ t ∈ l, TokOk t) {tail : Str} (ht : '<' ∉ tail) :
    Lexes (flatToks l ++ tail) l tail := by
  induction l with
  | nil => exact .done ht
  | cons t l ih =>
    obtain ⟨a, b⟩ := t
    obtain ⟨h1, h2⟩ := h _ (List.mem_cons_self ..)
    rw [flatToks_cons, List.append_assoc, List.append_assoc]
    exact .tag h1 (tagAt_append _ h2) rfl (ih fun t ht => h t (by simp [ht]))

theorem toksOf_ok {c : Cst} (h : c.OkFor P L) {close : Str} (hc : TagAt close close) : ∀ t ∈ toksOf close c, TokOk t := by
  induction c generalizing close with
  | done text =>
    intro t ht
    simp [toksOf] at ht
    subst ht
    exact ⟨h.1, hc⟩
  | comment text k rest ih =>
    intro t ht
    rw [toksOf, List.mem_cons] at ht
    rcases ht with rfl | ht
    · exact ⟨h.1.1, tagAt_comment h.2.1⟩
    · exact ih h.2.2 hc t ht
  | cdata text k rest ih =>
    intro t ht
    rw [toksOf, List.mem_cons] at ht
    rcases ht with rfl | ht
    · exact ⟨h.1.1, tagAt_cdata h.2.1⟩
    · exact ih h.2.2 hc t ht
  | empty text k rest ih =>
    intro t ht
    rw [toksOf, List.mem_cons] at ht
    rcases ht with rfl | ht
    · exact ⟨h.1.1, tagAt_empty h.2.1⟩
    · exact ih h.2.2 hc t ht
  | elem text k inner sp rest ih1 ih2 =>
    intro t ht
    rw [toksOf, List.mem_cons, List.mem_append] at ht
    rcases ht with rfl | ht | ht
    · exact ⟨h.1.1, tagAt_start h.2.1⟩
    · exact ih1 h.2.2.1 (tagAt_closing h.2.1.name h.2.2.2.1) t ht
    · exact ih2 h.2.2.2.2 hc t ht

/-! ## the tree -/

/-- the text node, if any, of a piece of text -/
def textLead (text : Str) (f : Forest) : Forest := if text.all isWs then f else .leaf (.text (dec text)) f

/-- the content the parser makes -/
def forestOf (e : Element) : Cst → Forest
  | .done text => textLead text .nil
  | .comment text c rest => textLead text (.leaf (.comment c) (forestOf e rest))
  | .cdata text c rest => textLead text (.leaf (.cdata c) (forestOf e rest))
  | .empty text t rest => textLead text (.leaf (.element (mkElem (some e) t.name (attrMap t.attrs))) (forestOf e rest))
  | .elem text t inner _ rest =>
    textLead text (.elem (mkElem (some e) t.name (attrMap t.attrs)) (forestOf (mkElem (some e) t.name (attrMap t.attrs)) inner)
      (forestOf e rest))

theorem textLead_with {text : Str} (h : TextOkFor Given text) (f : Forest) : WithText text f (textLead text f) := by
  unfold textLead
  cases hw : text.all isWs with
  | true => exact .blank hw
  | false => exact .text hw (unescape_given h.2).1

theorem declared_some (e : Element) (t : CTag) : Declared (some e) t := fun h => by cases h

theorem body_of {c : Cst} (h : c.OkFor Given Matched) (e : Element) {close : Str} (hc : Closes e close) : Body e (toksOf close c) (forestOf e c) := by
  induction c generalizing e close with
  | done text => exact .close hc (textLead_with h _)
  | comment text k rest ih => exact .comment h.2.1.1 (ih h.2.2 e hc) (textLead_with h.1 _)
  | cdata text k rest ih => exact .cdata h.2.1 (ih h.2.2 e hc) (textLead_with h.1 _)
  | empty text t rest ih =>
    refine .empty (opens_ctag_empty h.2.1 (declared_some e t)) ?_ (ih h.2.2 e hc) (textLead_with h.1 _)
    exact ⟨c%"<" ++ t.body, rfl⟩
  | elem text t inner sp rest ih1 ih2 =>
    have hn := h.2.1.name
    refine .elem (opens_ctag_start h.2.1 (declared_some e t)) (start_not_empty h.2.1) (ih1 h.2.2.1 _ ?_) (ih2 h.2.2.2.2 e hc)
      (textLead_with h.1 _)
    exact ⟨⟨t.name ++ sp ++ c%">", by simp [closing]⟩, closing_re hn h.2.2.2.1, by
      rw [closing_strip hn h.2.2.2.1, mkElem_tagName]⟩

theorem textLead_den {text : Str} (h : TextOkFor P text) (hW : Way P D) (f : Forest) :
    ∃ l, TextBit D text l ∧ plain (textLead text f) = l ++ plain f := by
  unfold textLead
  cases hw : text.all isWs with
  | true => exact ⟨[], .inl ⟨by simpa using hw, rfl⟩, rfl⟩
  | false =>
    refine ⟨if Blank (dec text) then [] else [.text (dec text)], .inr ⟨by simpa using hw, dec text, hW.dec _ h.2, rfl⟩, ?_⟩
    simp only [Bool.false_eq_true, if_false]
    rw [plain]
    by_cases hb : Blank (dec text) <;> simp [isBlankText, hb]

theorem forest_den {c : Cst} (h : c.OkFor P L) (hW : Way P D) (e : Element) : c.DenBy D (plain (forestOf e c)) := by
  induction c generalizing e with
  | done text =>
    obtain ⟨l, h1, h2⟩ := textLead_den h hW .nil
    rw [forestOf, h2, plain, List.append_nil]
    exact .done h1
  | comment text k rest ih =>
    obtain ⟨l, h1, h2⟩ := textLead_den h.1 hW (.leaf (.comment k) (forestOf e rest))
    rw [forestOf, h2]
    exact .comment h1 (ih h.2.2 e)
  | cdata text k rest ih =>
    obtain ⟨l, h1, h2⟩ := textLead_den h.1 hW (.leaf (.cdata k) (forestOf e rest))
    rw [forestOf, h2]
    exact .cdata h1 (ih h.2.2 e)
  | empty text t rest ih =>
    obtain ⟨l, h1, h2⟩ := textLead_den h.1 hW (.leaf (.element (mkElem (some e) t.name (attrMap t.attrs))) (forestOf e rest))
    rw [forestOf, h2]
    exact .empty h1 (mkElem_den h.2.1 hW _) (mkElem_fields _ _ _).2.1 (ih h.2.2 e)
  | elem text t inner sp rest ih1 ih2 =>
    obtain ⟨l, h1, h2⟩ := textLead_den h.1 hW (.elem (mkElem (some e) t.name (attrMap t.attrs))
      (forestOf (mkElem (some e) t.name (attrMap t.attrs)) inner) (forestOf e rest))
    rw [forestOf, h2]
    exact .elem h1 (den_children (mkElem_den h.2.1 hW _) _) (ih1 h.2.2.1 _) (ih2 h.2.2.2.2 e)

/-! ## the prolog -/

/-- tokens of the declaration -/
def declToks : Option (Str × Str) → List (Str × Str)
  | none => []
  | some (sp, m) => [(sp, c%"<?" ++ (c%"xml" ++ m) ++ c%"?>")]

/-- tokens of the prolog after the declaration -/
def miscToks (l : List (Str × CMisc)) : List (Str × Str) := l.map fun x => (x.1, x.2.src)

theorem allWs_lt {s : Str} (h : AllWs s) : '<' ∉ s := fun hm => by
  have := h _ hm
  revert this; decide

theorem allWs_all {s : Str} (h : AllWs s) : s.all isWs = true := by rw [List.all_eq_true]; exact h

theorem misc_tagAt {x : CMisc} (h : x.Ok) : TagAt x.src x.src := by
  cases x with
  | comment c => exact tagAt_comment h
  | doctype m =>
    have := TagAt.decl (s := c%"<!DOCTYPE" ++ m ++ c%">") (a := c%"DOCTYPE" ++ m) (u := c%"DOCTYPE" ++ m ++ c%">") (by simp)
      (by rintro ⟨u, hu⟩; simp at hu) (by rintro ⟨u, hu⟩; simp at hu) h
    simpa [CMisc.src] using this

theorem shown_tail {x : Str × CMisc} {l : List (Str × CMisc)} (h : Shown (x :: l)) (hx : ∀ c, x.2 ≠ .comment c) : Shown l := by
  intro pre sp c post hl hp
  refine h (x :: pre) sp c post (by rw [hl]; rfl) fun y hy => ?_
  rcases List.mem_cons.1 hy with rfl | hy
  · exact hx
  · exact hp y hy

theorem misc_pro {l : List (Str × CMisc)} (h : ∀ x ∈ l, AllWs x.1 ∧ x.2.Ok) {text tag : Str} {rest : List (Str × Str)}
    (ht : text.all isWs = true) (h1 : ¬ c%"<?xml" <+: tag) (h2 : ¬ c%"<!" <+: tag) (h3 : ¬ c%"</" <+: tag)
    (h4 : Re.isMatch elemRe tag = true) (pos prev : Nat) (w : Bool) (hw : w = false → Shown l)
    (d : Option Declaration) (ds : List DTD) :
    Pro pos prev w d ds (miscToks l ++ (text, tag) :: rest) d (ds ++ (l.filterMap fun x => x.2.dtd).map DTD.mk) tag rest := by
  induction l generalizing pos prev w ds with
  | nil => simpa [miscToks] using Pro.root ht h1 h2 h3 h4
  | cons x l ih =>
    obtain ⟨sp, x⟩ := x
    obtain ⟨g1, g2⟩ := h _ (List.mem_cons_self ..)
    have ih := ih fun x hx => h x (by simp [hx])
    cases x with
    | comment c =>
      refine Pro.comment (allWs_all g1) ⟨c ++ c%"-->", by simp [CMisc.src]⟩ (fun hf => ?_) (ih _ _ _ (by simp) _)
      rw [Option.isSome_iff_ne_none, Ne, abbreviate_none]
      exact hw hf [] sp c l rfl (by simp)
    | doctype m =>
      have := Pro.doctype (w := w) (prev := prev) (pos := pos) (m := m) (d := d) (ds := ds) (allWs_all g1)
        (ih _ _ _ (fun hf => shown_tail (hw hf) (by simp)) _)
      simpa [miscToks, CMisc.src, CMisc.dtd] using this

theorem pro_shown {l : List (Str × CMisc)} {tok : Str × Str} {toks : List (Str × Str)} {pos prev : Nat} {d D : Option Declaration} {ds DS : List DTD}
    {r : Str} {rest : List (Str × Str)} (h : Pro pos prev false d ds (miscToks l ++ tok :: toks) D DS r rest) : Shown l := by
  induction l generalizing pos prev d ds with
  | nil =>
    intro pre sp c post hl
    simp at hl
  | cons x l ih =>
    obtain ⟨sp, x⟩ := x
    cases x with
    | comment c =>
      have hc : ¬ NoCut (c%"<!--" ++ c ++ c%"-->") := by
        rw [← abbreviate_none, ← Ne, ← Option.isSome_iff_ne_none]
        generalize hq : (miscToks ((sp, CMisc.comment c) :: l) ++ tok :: toks) = q at h
        simp only [miscToks, List.map_cons, CMisc.src, List.cons_append] at hq
        cases h with
        | root _ _ h2 => cases hq; exact absurd ⟨c%"--" ++ c ++ c%"-->", by simp⟩ h2
        | decl _ _ _ => simp at hq
        | comment _ _ h2 _ => cases hq; exact h2 rfl
        | doctype _ _ => simp at hq
        | other _ _ h2 _ _ => cases hq; exact absurd ⟨c ++ c%"-->", by simp⟩ h2
      intro pre sp' c' post hl hp
      cases pre with
      | nil => cases hl; exact hc
      | cons y pre => cases hl; exact absurd rfl (hp _ (List.mem_cons_self ..) c)
    | doctype m =>
      have hS : Shown l := by
        generalize hq : (miscToks ((sp, CMisc.doctype m) :: l) ++ tok :: toks) = q at h
        simp only [miscToks, List.map_cons, CMisc.src, List.cons_append] at hq
        cases h with
        | root _ _ h2 => cases hq; exact absurd ⟨c%"DOCTYPE" ++ m ++ c%">", by simp⟩ h2
        | decl _ _ _ => simp at hq
        | comment _ h1 _ _ => cases hq; obtain ⟨u, hu⟩ := h1; simp at hu
        | doctype _ h2 =>
          have := (List.cons.inj hq).2
          subst this
          exact ih h2
        | other _ _ _ h2 _ => cases hq; exact absurd ⟨m ++ c%">", by simp⟩ h2
      intro pre sp' c' post hl hp
      cases pre with
      | nil => cases hl
      | cons y pre => cases hl; exact hS pre sp' c' post rfl fun x hx => hp x (by simp [hx])

/-- tokens from the root on -/
def rootToks (d : CDoc) : List (Str × Str) :=
  match d.body with
  | none => [(d.sp, d.root.empty)]
  | some (c, sp) => (d.sp, d.root.start) :: toksOf (closing d.root.name sp) c

/-- all tokens -/
def docToks (d : CDoc) : List (Str × Str) := declToks d.decl ++ (miscToks d.misc ++ rootToks d)

theorem docToks_src (d : CDoc) : flatToks (docToks d) ++ d.tail = d.src := by
  obtain ⟨decl, misc, sp, root, body, tail⟩ := d
  have h1 : flatToks (miscToks misc) = misc.flatMap fun x => x.1 ++ x.2.src := by
    simp [flatToks, miscToks, List.flatMap_map]
  cases decl <;> cases body <;>
    simp [docToks, declToks, rootToks, flatToks_append, flatToks_cons, h1, CDoc.src, toksOf_src, flatToks_nil]

theorem docToks_ok {d : CDoc} (h : d.WfFor P L) : ∀ t ∈ docToks d, TokOk t := by
  intro t ht
  simp only [docToks, List.mem_append] at ht
  rcases ht with ht | ht | ht
  · cases hd : d.decl with
    | none => rw [hd] at ht; cases ht
    | some x =>
      obtain ⟨sp, m⟩ := x
      rw [hd] at ht
      simp only [declToks, List.mem_singleton] at ht
      subst ht
      obtain ⟨g1, g2⟩ := h.decl sp m hd
      exact ⟨allWs_lt g1, .pi (by simp) g2⟩
  · obtain ⟨x, hx, rfl⟩ := List.mem_map.1 ht
    obtain ⟨g1, g2⟩ := h.misc x hx
    exact ⟨allWs_lt g1, misc_tagAt g2⟩
  · cases hb : d.body with
    | none =>
      simp only [rootToks, hb, List.mem_singleton] at ht
      subst ht
      exact ⟨allWs_lt h.sp, tagAt_empty h.root⟩
    | some x =>
      obtain ⟨c, sp⟩ := x
      simp only [rootToks, hb, List.mem_cons] at ht
      obtain ⟨g1, g2⟩ := h.body c sp hb
      rcases ht with rfl | ht
      · exact ⟨allWs_lt h.sp, tagAt_start h.root⟩
      · exact toksOf_ok g1 (tagAt_closing h.root.name g2) t ht

/-- the document the parser makes -/
def docOf (d : CDoc) : Document :=
  ⟨d.decl.map fun s => ⟨c%"xml" ++ s.2⟩, (d.misc.filterMap fun x => x.2.dtd).map DTD.mk,
    { mkElem none d.root.name (attrMap d.root.attrs) with
      children := match d.body with
        | none => []
        | some (c, _) => plain (forestOf (mkElem none d.root.name (attrMap d.root.attrs)) c) }⟩

theorem element_eta (e : Element) (h : e.children = []) : ({ e with children := [] } : Element) = e := by
  obtain ⟨n, cs, a, x, q, c⟩ := e
  simp at h
  subst h
  rfl

theorem doc_pro {d : CDoc} (h : d.WfFor P L) (hs : Shown d.misc) {tag : Str} {rest : List (Str × Str)} (hr : rootToks d = (d.sp, tag) :: rest)
    (hO : Opens none tag (mkElem none d.root.name (attrMap d.root.attrs))) (hx : ¬ c%"<?xml" <+: tag) :
    Pro 0 0 false none [] (docToks d) (d.decl.map fun s => ⟨c%"xml" ++ s.2⟩) ((d.misc.filterMap fun x => x.2.dtd).map DTD.mk)
      tag rest := by
  have key := fun pos prev d' => misc_pro h.misc (rest := rest) (allWs_all h.sp) hx hO.not_decl hO.not_close hO.regex pos prev
    false (fun _ => hs) d' []
  rw [docToks, hr]
  cases hd : d.decl with
  | none => exact key 0 0 none
  | some x =>
    obtain ⟨sp, m⟩ := x
    exact Pro.decl (allWs_all (h.decl sp m hd).1) (List.prefix_append _ _) (key _ _ _)

theorem parse_given {d : CDoc} (h : d.OkFor Given Matched) : parseStr d.src = .ok (docOf d) := by
  rw [parse_iff]
  have hlex := lexes_lex (lexes_flat (docToks_ok h.toWfFor) (allWs_lt h.tail)) 0
  rw [docToks_src] at hlex
  have hde : Declared none d.root := fun _ => h.declared
  cases hb : d.body with
  | none =>
    have hO := opens_ctag_empty h.root hde
    refine ⟨_, _, _, _, _, _, _, hlex, doc_pro h.toWfFor h.shown (by rw [rootToks, hb]) hO (name_not_xml h.root _), .empty hO ⟨c%"<" ++ d.root.body, rfl⟩ rfl, ?_⟩
    simp only [docOf, hb, addRev, Document.newWithDeclDtd, ElementF.reverseChildren, (mkElem_fields _ _ _).2.1, List.reverse_nil]
  | some x =>
    obtain ⟨c, sp⟩ := x
    obtain ⟨g1, g2⟩ := h.body c sp hb
    have hO := opens_ctag_start h.root hde
    have hn := h.root.name
    have hB := body_of (close := closing d.root.name sp) g1 (mkElem none d.root.name (attrMap d.root.attrs))
      ⟨⟨d.root.name ++ sp ++ c%">", by simp [closing]⟩, closing_re hn g2, by rw [closing_strip hn g2, mkElem_tagName]⟩
    refine ⟨_, _, _, _, _, _, _, hlex, doc_pro h.toWfFor h.shown (by rw [rootToks, hb]) hO (name_not_xml h.root _),
      .elem hO (start_not_empty h.root) (List.append_nil _).symm hB .nil, ?_⟩
    rw [body_dom hB (mkElem_fields _ _ _).2.1]
    simp only [docOf, hb, Document.newWithDeclDtd]

theorem parse_doc {d : CDoc} (h : d.Ok) : parseStr d.src = .ok (docOf d) := parse_given (ok_given h)

theorem docOf_den {d : CDoc} (h : d.WfFor P L) (hW : Way P D) : d.DenBy D (docOf d) := by
  refine ⟨?_, ?_, den_children (mkElem_den h.root hW _) _, ?_⟩
  · cases hd : d.decl <;> simp [docOf, hd]
  · simp [docOf, Function.comp_def]
  · cases hb : d.body with
    | none => simp [docOf, hb]
    | some x =>
      obtain ⟨c, sp⟩ := x
      simp only [docOf, hb]
      exact forest_den (h.body c sp hb).1 hW _

/-! ## variants of a document -/

/-- what the parser looks at in a tag -/
structure SameTag (f : CTag → CTag) : Prop where
  name : ∀ t, (f t).name = t.name
  attrs : ∀ t, (f t).attrs.map (fun a => (a.name, a.raw)) = t.attrs.map (fun a => (a.name, a.raw))

theorem attrMap_same {l l' : List CAttr} (h : l.map (fun a => (a.name, a.raw)) = l'.map (fun a => (a.name, a.raw))) :
    attrMap l = attrMap l' := by
  have key : ∀ l : List CAttr, attrMap l =
      (l.map fun a => (a.name, a.raw)).foldl (fun m x => m.insert x.1 (dec x.2)) SMap.empty := by
    intro l; rw [List.foldl_map]; rfl
  rw [key, key, h]

theorem mkElem_same {f : CTag → CTag} (h : SameTag f) (parent : Option Element) (t : CTag) :
    mkElem parent (f t).name (attrMap (f t).attrs) = mkElem parent t.name (attrMap t.attrs) := by
  rw [h.name, attrMap_same (h.attrs t)]

theorem forestOf_mapTag {f : CTag → CTag} (h : SameTag f) (e : Element) (c : Cst) : forestOf e (c.mapTag f) = forestOf e c := by
  induction c generalizing e with
  | done => rfl
  | comment _ _ _ ih => rw [Cst.mapTag, forestOf, forestOf, ih]
  | cdata _ _ _ ih => rw [Cst.mapTag, forestOf, forestOf, ih]
  | empty _ _ _ ih => rw [Cst.mapTag, forestOf, forestOf, ih, mkElem_same h]
  | elem _ _ _ _ _ ih1 ih2 => rw [Cst.mapTag, forestOf, forestOf, mkElem_same h, ih1, ih2]

theorem docOf_mapTag {f : CTag → CTag} (h : SameTag f) (d : CDoc) : docOf (d.mapTag f) = docOf d := by
  obtain ⟨decl, misc, sp, root, body, tail⟩ := d
  cases body <;> simp [docOf, CDoc.mapTag, mkElem_same h, forestOf_mapTag h]

theorem parse_mapTag {f : CTag → CTag} (h : SameTag f) {d d' : CDoc} (hd : d.Ok) (hd' : d'.Ok) (he : d.mapTag f = d'.mapTag f) :
    ∃ x, parseStr d.src = .ok x ∧ parseStr d'.src = .ok x :=
  ⟨docOf d, parse_doc hd, by rw [parse_doc hd', ← docOf_mapTag h d', ← he, docOf_mapTag h]⟩

theorem plain_textLead {text : Str} {f g : Forest} (h : plain f = plain g) : plain (textLead text f) = plain (textLead text g) := by
  unfold textLead
  split
  · exact h
  · rw [plain, plain, h]

theorem plain_leaf {n : Node} {f g : Forest} (h : plain f = plain g) : plain (.leaf n f) = plain (.leaf n g) := by
  rw [plain, plain, h]

theorem forestOf_expand (e : Element) (c : Cst) : plain (forestOf e c.expand) = plain (forestOf e c) := by
  induction c generalizing e with
  | done => rfl
  | comment _ _ _ ih => exact plain_textLead (plain_leaf (ih e))
  | cdata _ _ _ ih => exact plain_textLead (plain_leaf (ih e))
  | empty _ t _ ih =>
    refine plain_textLead ?_
    rw [plain, plain, ih]
    simp only [isBlankText, Bool.false_eq_true, if_false, List.cons.injEq, and_true, Node.element.injEq]
    exact element_eta _ (mkElem_fields _ _ _).2.1
  | elem _ _ _ _ _ ih1 ih2 =>
    refine plain_textLead ?_
    rw [plain, plain, ih1, ih2]

theorem docOf_expand (d : CDoc) : docOf d.expand = docOf d := by
  obtain ⟨decl, misc, sp, root, body, tail⟩ := d
  cases body with
  | none => simp [docOf, CDoc.expand, forestOf, textLead, plain]
  | some x => simp [docOf, CDoc.expand, forestOf_expand]

theorem parse_expand {d d' : CDoc} (hd : d.Ok) (hd' : d'.Ok) (he : d.expand = d'.expand) :
    ∃ x, parseStr d.src = .ok x ∧ parseStr d'.src = .ok x :=
  ⟨docOf d, parse_doc hd, by rw [parse_doc hd', ← docOf_expand d', ← he, docOf_expand]⟩

theorem cst_expand_ok {c : Cst} (hP : P []) : c.expand.OkFor P L ↔ c.OkFor P L := by
  have h0 : TextOkFor P [] := ⟨by simp, hP⟩
  have h1 : AllWs [] := by intro c hc; simp at hc
  induction c with
  | done => exact Iff.rfl
  | comment _ _ _ ih => simp only [Cst.expand, Cst.OkFor, ih]
  | cdata _ _ _ ih => simp only [Cst.expand, Cst.OkFor, ih]
  | empty _ _ _ ih => simp only [Cst.expand, Cst.OkFor, ih, h0, h1, true_and]
  | elem _ _ _ _ _ ih1 ih2 => simp only [Cst.expand, Cst.OkFor, ih1, ih2]

theorem expand_wf_iff {d : CDoc} (hP : P []) : d.expand.WfFor P L ↔ d.WfFor P L := by
  constructor
  · intro h
    refine ⟨h.decl, h.misc, h.sp, h.root, ?_, h.tail⟩
    intro c sp hb
    have := h.body c.expand sp (by simp [CDoc.expand, hb])
    exact ⟨(cst_expand_ok hP).1 this.1, this.2⟩
  · intro h
    refine ⟨h.decl, h.misc, h.sp, h.root, ?_, h.tail⟩
    intro c sp hb
    cases hd : d.body with
    | none =>
      simp [CDoc.expand, hd] at hb
      obtain ⟨rfl, rfl⟩ := hb
      exact ⟨⟨by simp, hP⟩, by intro c hc; simp at hc⟩
    | some x =>
      obtain ⟨c', sp'⟩ := x
      simp [CDoc.expand, hd] at hb
      obtain ⟨rfl, rfl⟩ := hb
      exact ⟨(cst_expand_ok hP).2 (h.body _ _ hd).1, (h.body _ _ hd).2⟩

theorem expand_ok_iff {d : CDoc} (hP : P []) : d.expand.OkFor P L ↔ d.OkFor P L :=
  ⟨fun h => ⟨(expand_wf_iff hP).1 h.toWfFor, h.declared, h.shown⟩, fun h => ⟨(expand_wf_iff hP).2 h.toWfFor, h.declared, h.shown⟩⟩

end KissXml
