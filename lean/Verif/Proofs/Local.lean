import Verif.Spec.Local
import Verif.Proofs.RootsParse
import Verif.Proofs.RoundTripExact
/-!
# Elements of a source, taken alone or replaced
-/
namespace KissXml
open Spec

/-! ## tags in other places -/

/-- the same but for namespaces -/
structure TagAlike (e e' : Element) : Prop where
  name : e.name = e'.name
  attrs : e.attrs = e'.attrs
  pfx : e.pfx = e'.pfx

theorem TagAlike.tagName {e e' : Element} (h : TagAlike e e') : e.tagName = e'.tagName := by
  obtain ⟨n, cs, a, x, q, c⟩ := e
  obtain ⟨n', cs', a', x', q', c'⟩ := e'
  obtain ⟨rfl, rfl, rfl⟩ := h
  rfl

theorem newElem_fields {t : Str} {parent : Option Element} {attrs : SMap} {n0 n : Str} {x q : Option Str} {e : Element}
    (h : NewElem t parent attrs n0 n x q e) : e.name = n ∧ e.attrs = attrs ∧ e.pfx = q := by
  have hf := setNamespaceContext_fields (⟨n, [], attrs, x.or (ownNs attrs q), q, ElementF.xmlnsContextFromAttributes attrs⟩ : Element)
    (parent.bind ElementF.defaultNamespace) (parent.map ElementF.ctx)
  rw [← h.eq] at hf
  exact ⟨hf.1, hf.2.2.1, hf.2.2.2⟩

/-- a tag can be read below any other element; at the top if its prefix is declared by itself -/
theorem opens_move {parent : Option Element} {tag : Str} {e : Element} (h : Opens parent tag e) (parent' : Option Element)
    (hp : parent' = none → ∀ p, e.pfx = some p → (e.attrs.get (c%"xmlns:" ++ p)).isSome) :
    ∃ e', Opens parent' tag e' ∧ TagAlike e e' := by
  obtain ⟨h1, h2, h3, t, attrs, n0, n, x, q, h4, hN⟩ := h
  obtain ⟨f1, f2, f3⟩ := newElem_fields hN
  have hs : ∃ x', NameSplit parent' attrs n0 n x' q := by
    cases hN.name with
    | plain hc => exact ⟨_, .plain hc⟩
    | own a b c => exact ⟨_, .own a b c⟩
    | @inh a b p h5 h6 h7 h8 =>
      cases parent' with
      | some p' => exact ⟨_, .inh h5 h6 h7 rfl⟩
      | none =>
        have := hp rfl a f3
        rw [f2, h7] at this
        cases this
  obtain ⟨x', hs⟩ := hs
  have hN' : NewElem t parent' attrs n0 n x' q _ := ⟨hN.attrs_ok, hs, hN.valid, hN.attrs_valid, rfl⟩
  obtain ⟨g1, g2, g3⟩ := newElem_fields hN'
  exact ⟨_, ⟨h1, h2, h3, t, attrs, n0, n, x', q, h4, hN'⟩, by rw [f1, g1], by rw [f2, g2], by rw [f3, g3]⟩

theorem nameSplit_same {p p' : Option Element} {attrs : SMap} {n0 n n' : Str} {x x' q q' : Option Str}
    (h : NameSplit p attrs n0 n x q) (h' : NameSplit p' attrs n0 n' x' q') : n = n' ∧ q = q' := by
  have key : ∀ {a b a' b' : Str}, a ++ ':' :: b = a' ++ ':' :: b' → ':' ∉ a → ':' ∉ a' → a = a' ∧ b = b' := by
    intro a b a' b' h ha ha'
    have h1 := splitOnce_eq_some.2 ⟨(rfl : a ++ ':' :: b = a ++ ':' :: b), ha⟩
    have h2 := splitOnce_eq_some.2 ⟨(rfl : a' ++ ':' :: b' = a' ++ ':' :: b'), ha'⟩
    rw [h, h2] at h1
    cases h1
    exact ⟨rfl, rfl⟩
  cases h with
  | plain hc =>
    cases h' with
    | plain _ => exact ⟨rfl, rfl⟩
    | own h1 _ _ => exact absurd (by rw [h1]; simp) hc
    | inh h1 _ _ _ => exact absurd (by rw [h1]; simp) hc
  | own h1 h2 _ =>
    subst h1
    cases h' with
    | plain hc => exact absurd (by simp) hc
    | own g1 g2 _ => obtain ⟨rfl, rfl⟩ := key g1 h2 g2; exact ⟨rfl, rfl⟩
    | inh g1 g2 _ _ => obtain ⟨rfl, rfl⟩ := key g1 h2 g2; exact ⟨rfl, rfl⟩
  | inh h1 h2 _ _ =>
    subst h1
    cases h' with
    | plain hc => exact absurd (by simp) hc
    | own g1 g2 _ => obtain ⟨rfl, rfl⟩ := key g1 h2 g2; exact ⟨rfl, rfl⟩
    | inh g1 g2 _ _ => obtain ⟨rfl, rfl⟩ := key g1 h2 g2; exact ⟨rfl, rfl⟩

theorem opens_same {p p' : Option Element} {tag : Str} {e e' : Element} (h : Opens p tag e) (h' : Opens p' tag e') : TagAlike e e' := by
  obtain ⟨-, -, -, t, attrs, n0, n, x, q, h4, hN⟩ := h
  obtain ⟨-, -, -, t', attrs', n0', n', x', q', h4', hN'⟩ := h'
  cases h4.symm.trans h4'
  obtain ⟨comps, b, pos, h5, h6⟩ := hN.attrs_ok
  obtain ⟨comps', b', pos', h5', h6'⟩ := hN'.attrs_ok
  cases h5.symm.trans h5'
  cases (parseAttrs_ok_indep (buffer' := b') (pos' := pos') h6).symm.trans h6'
  obtain ⟨rfl, rfl⟩ := nameSplit_same hN.name hN'.name
  obtain ⟨f1, f2, f3⟩ := newElem_fields hN
  obtain ⟨g1, g2, g3⟩ := newElem_fields hN'
  exact ⟨by rw [f1, g1], by rw [f2, g2], by rw [f3, g3]⟩

theorem closes_move {e e' : Element} {tag : Str} (h : Closes e tag) (hs : TagAlike e e') : Closes e' tag :=
  ⟨h.slash, h.regex, by rw [h.name, hs.tagName]⟩

theorem withText_move {text : Str} {f f' : Forest} (h : WithText text f f') :
    ∃ l, elementsL l = [] ∧ ∀ g, ∃ g', WithText text g g' ∧ plain g' = l ++ plain g := by
  cases h with
  | blank hw => exact ⟨[], rfl, fun g => ⟨g, .blank hw, rfl⟩⟩
  | @text t hw hu =>
    refine ⟨if Blank t then [] else [.text t], ?_, fun g => ⟨_, .text hw hu, ?_⟩⟩
    · split <;> rfl
    · rw [plain]
      by_cases hb : Blank t <;> simp [isBlankText, hb]

theorem withText_plain {text : Str} {f f' g g' : Forest} (h : WithText text f f') (h' : WithText text g g') :
    ∃ l, elementsL l = [] ∧ plain f' = l ++ plain f ∧ plain g' = l ++ plain g := by
  cases h with
  | blank hw =>
    cases h' with
    | blank _ => exact ⟨[], rfl, rfl, rfl⟩
    | text hw' _ => rw [hw] at hw'; cases hw'
  | @text t hw hu =>
    cases h' with
    | blank hw' => rw [hw] at hw'; cases hw'
    | @text t' _ hu' =>
      cases hu.symm.trans hu'
      refine ⟨if Blank t then [] else [.text t], ?_, ?_, ?_⟩
      · split <;> rfl
      · rw [plain]; by_cases hb : Blank t <;> simp [isBlankText, hb]
      · rw [plain]; by_cases hb : Blank t <;> simp [isBlankText, hb]

theorem bare_of_same {e e' : Element} (h : TagAlike e e') {cs cs' : List Node} (hc : bareL cs = bareL cs') :
    bare (.element { e with children := cs }) = bare (.element { e' with children := cs' }) := by
  obtain ⟨n, _, a, x, q, c⟩ := e
  obtain ⟨n', _, a', x', q', c'⟩ := e'
  obtain ⟨rfl, rfl, rfl⟩ := h
  simp only [bare, hc]

theorem bare_self {c : Element} (h : c.children = []) : ({ c with children := [] } : Element) = c := by
  obtain ⟨n, cs, a, x, q, k⟩ := c
  simp at h
  subst h
  rfl

/-- the content of an element can be read in any other element of the same name -/
theorem body_move {e : Element} {toks : List (Str × Str)} {f : Forest} (h : Body e toks f) :
    ∀ e', TagAlike e e' → ∃ f', Body e' toks f' ∧ bareL (plain f') = bareL (plain f) := by
  induction h with
  | close hc hw =>
    intro e' hs
    exact ⟨_, .close (closes_move hc hs) hw, rfl⟩
  | comment hk _ hw ih =>
    intro e' hs
    obtain ⟨f1, h1, h2⟩ := ih e' hs
    obtain ⟨l, -, hl⟩ := withText_move hw
    obtain ⟨g', h3, -⟩ := hl (.leaf (.comment _) f1)
    obtain ⟨l, -, h4, h5⟩ := withText_plain hw h3
    refine ⟨_, .comment hk h1 h3, ?_⟩
    rw [h4, h5, bareL_append, bareL_append, plain, plain, if_neg (by simp [isBlankText]), if_neg (by simp [isBlankText]), bareL,
      bareL, h2]
  | cdata hk _ hw ih =>
    intro e' hs
    obtain ⟨f1, h1, h2⟩ := ih e' hs
    obtain ⟨l, -, hl⟩ := withText_move hw
    obtain ⟨g', h3, -⟩ := hl (.leaf (.cdata _) f1)
    obtain ⟨l, -, h4, h5⟩ := withText_plain hw h3
    refine ⟨_, .cdata hk h1 h3, ?_⟩
    rw [h4, h5, bareL_append, bareL_append, plain, plain, if_neg (by simp [isBlankText]), if_neg (by simp [isBlankText]), bareL,
      bareL, h2]
  | @empty e c text tag toks f f' hO hs' _ hw ih =>
    intro e' hs
    obtain ⟨f1, h1, h2⟩ := ih e' hs
    obtain ⟨c', hO', hc⟩ := opens_move hO (some e') (by rintro ⟨⟩)
    obtain ⟨l, -, hl⟩ := withText_move hw
    obtain ⟨g', h3, -⟩ := hl (.leaf (.element c') f1)
    obtain ⟨l, -, h4, h5⟩ := withText_plain hw h3
    refine ⟨_, .empty hO' hs' h1 h3, ?_⟩
    have := bare_of_same hc (cs := []) rfl
    rw [bare_self (opens_children hO), bare_self (opens_children hO')] at this
    rw [h4, h5, bareL_append, bareL_append, plain, plain, if_neg (by simp [isBlankText]), if_neg (by simp [isBlankText]), bareL,
      bareL, h2, this]
  | @elem e c text tag toks1 toks2 k f f' hO hs' _ _ hw ih1 ih2 =>
    intro e' hs
    obtain ⟨f1, h1, h2⟩ := ih2 e' hs
    obtain ⟨c', hO', hc⟩ := opens_move hO (some e') (by rintro ⟨⟩)
    obtain ⟨k', h1', h2'⟩ := ih1 c' hc
    obtain ⟨l, -, hl⟩ := withText_move hw
    obtain ⟨g', h3, -⟩ := hl (.elem c' k' f1)
    obtain ⟨l, -, h4, h5⟩ := withText_plain hw h3
    refine ⟨_, .elem hO' hs' h1' h1 h3, ?_⟩
    rw [h4, h5, bareL_append, bareL_append, plain, plain, bareL, bareL, h2, bare_of_same hc h2'.symm]

/-! ## one element -/

/-- the tokens of an element: a tag, what follows it, and the element they write -/
inductive ElemToks (parent : Option Element) (tag : Str) : List (Str × Str) → Element → Prop
  | empty {c : Element} : Opens parent tag c → c%"/>" <:+ tag → ElemToks parent tag [] c
  | start {c : Element} {k : Forest} {body : List (Str × Str)} : Opens parent tag c → ¬ c%"/>" <:+ tag → Body c body k →
      ElemToks parent tag body { c with children := plain k }

theorem elemToks_opens {parent : Option Element} {tag : Str} {body : List (Str × Str)} {c : Element} (h : ElemToks parent tag body c) :
    ∃ c0, Opens parent tag c0 ∧ TagAlike c c0 := by
  cases h with
  | empty hO _ => exact ⟨_, hO, rfl, rfl, rfl⟩
  | start hO _ _ => exact ⟨_, hO, rfl, rfl, rfl⟩

theorem elemToks_move {parent : Option Element} {tag : Str} {body : List (Str × Str)} {c : Element} (h : ElemToks parent tag body c)
    (parent' : Option Element) (hp : parent' = none → ∀ p, c.pfx = some p → (c.attrs.get (c%"xmlns:" ++ p)).isSome) :
    ∃ c', ElemToks parent' tag body c' ∧ bare (.element c') = bare (.element c) := by
  cases h with
  | empty hO hs =>
    obtain ⟨c', hO', hc⟩ := opens_move hO parent' hp
    refine ⟨c', .empty hO' hs, ?_⟩
    have := bare_of_same hc (cs := []) rfl
    rw [bare_self (opens_children hO), bare_self (opens_children hO')] at this
    exact this.symm
  | @start c0 k _ hO hs hB =>
    obtain ⟨c', hO', hc⟩ := opens_move hO parent' hp
    obtain ⟨k', hB', hk⟩ := body_move hB c' hc
    exact ⟨_, .start hO' hs hB', bare_of_same ⟨hc.name.symm, hc.attrs.symm, hc.pfx.symm⟩ hk⟩

theorem opening_start {parent : Option Element} {tag : Str} {body : List (Str × Str)} {c : Element} (h : ElemToks parent tag body c) :
    Opening tag := by
  cases h with
  | empty hO hs => exact .inr (kind_empty hO hs)
  | start hO hs _ => exact .inl (kind_start hO hs)

theorem elemToks_depth {parent : Option Element} {tag : Str} {body : List (Str × Str)} {c : Element} (h : ElemToks parent tag body c) :
    depth (tag :: tagsOf body) = 0 := by
  cases h with
  | empty hO hs => simp [depth, delta, kind_empty hO hs]
  | start hO hs hB => rw [depth_cons, delta_start (kind_start hO hs), body_depth hB]; rfl

theorem elemToks_one {parent : Option Element} {tag : Str} {body : List (Str × Str)} {c : Element} (h : ElemToks parent tag body c) :
    OneRoot (tag :: tagsOf body) := by
  intro a b hab h1 h2
  cases a with
  | nil => exact absurd rfl h1
  | cons t a =>
    simp only [List.cons_append, List.cons.injEq] at hab
    obtain ⟨rfl, hab⟩ := hab
    cases h with
    | empty hO hs => simp at hab; exact absurd hab.2 h2
    | start hO hs hB =>
      obtain ⟨l1, l2, rfl, rfl, rfl⟩ := List.map_eq_append_iff.1 hab
      cases l2 with
      | nil => exact absurd rfl h2
      | cons t' l2 =>
        have : 0 ≤ depth (List.map Prod.snd l1) := body_prefix hB _ _ _ rfl
        rw [depth_cons, delta_start (kind_start hO hs)]
        omega

/-- two ways to end an element are the same -/
theorem body_eq_of_one {tag : Str} {body body' b b' : List (Str × Str)} (h : body ++ b = body' ++ b')
    (h1 : OneRoot (tag :: tagsOf body)) (h0 : depth (tag :: tagsOf body) = 0)
    (h1' : OneRoot (tag :: tagsOf body')) (h0' : depth (tag :: tagsOf body') = 0) : body = body' ∧ b = b' := by
  rcases List.append_eq_append_iff.1 h with ⟨c, rfl, rfl⟩ | ⟨c, rfl, rfl⟩
  · cases c with
    | nil => simp
    | cons t c =>
      have := h1' (tag :: tagsOf body) (tagsOf (t :: c)) (by simp [tagsOf]) (by simp) (by simp [tagsOf])
      omega
  · cases c with
    | nil => simp
    | cons t c =>
      have := h1 (tag :: tagsOf body') (tagsOf (t :: c)) (by simp [tagsOf]) (by simp) (by simp [tagsOf])
      omega

/-! ## holes -/

/-- nodes in front of a list with a hole -/
def Spec.Hole.shift (l : List Node) : Hole → Hole
  | .here b a => .here (l ++ b) a
  | .under b e h a => .under (l ++ b) e h a

theorem shift_plug (l : List Node) (h : Hole) (n : Node) : (h.shift l).plug n = l ++ h.plug n := by
  cases h <;> simp [Hole.shift, Hole.plug]

theorem countElements_eq (l : List Node) : countElements l = (elementsL l).length := rfl

theorem shift_count (l : List Node) (h : Hole) : (h.shift l).count = countElements l + h.count := by
  cases h <;> simp [Hole.shift, Hole.count, countElements_eq, elementsL_append] <;> omega

theorem elementsL_single (e : Element) : (docOrder (.element e)).filterMap element? = e :: elementsL e.children := elementsOf_eq e

theorem plug_get (h : Hole) (e : Element) : (elementsL (h.plug (.element e)))[h.count]? = some e := by
  induction h with
  | here l r =>
    simp only [Hole.plug, Hole.count, countElements_eq, elementsL_append, elementsL_cons, elementsL_single]
    rw [List.getElem?_append_right (Nat.le_refl _), Nat.sub_self]
    rfl
  | under l c h r ih =>
    simp only [Hole.plug, Hole.count, countElements_eq, elementsL_append, elementsL_cons, elementsL_single]
    rw [List.getElem?_append_right (by omega),
      show (elementsL l).length + 1 + h.count - (elementsL l).length = h.count + 1 by omega]
    rw [List.cons_append, List.getElem?_cons_succ, List.getElem?_append_left]
    · exact ih
    · exact (List.getElem?_eq_some_iff.1 ih).1

/-! ## the element in the tree -/

theorem tagsOf_cons (t g : Str) (l : List (Str × Str)) : tagsOf ((t, g) :: l) = g :: tagsOf l := rfl
theorem tagsOf_append (l m : List (Str × Str)) : tagsOf (l ++ m) = tagsOf l ++ tagsOf m := List.map_append

theorem forall₂_length {α β : Type} {R : α → β → Prop} {l : List α} {m : List β} (h : List.Forall₂ R l m) : l.length = m.length := by
  induction h with
  | nil => rfl
  | cons _ _ ih => simp [ih]

/-- the place of an element in the content of another one -/
def Placed (e : Element) (f : Forest) (a b : List (Str × Str)) (text tag : Str) (body : List (Str × Str)) : Prop :=
  ∃ (p c : Element) (H : Hole), ElemToks (some p) tag body c ∧ plain f = H.plug (.element c) ∧ H.count = (openTags (tagsOf a)).length ∧
    ∀ tag' body' c', ElemToks (some p) tag' body' c' → ∃ f', Body e (a ++ (text, tag') :: (body' ++ b)) f' ∧
      plain f' = H.plug (.element c')

theorem placed_leaf {e : Element} {f f' g : Forest} {a b : List (Str × Str)} {text tag t1 g1 : Str} {body : List (Str × Str)} {n : Node}
    (h : Placed e f a b text tag body) (hw : WithText t1 g f') (hg : plain g = n :: plain f) (mk : Forest → Forest)
    (hmk : ∀ f, plain (mk f) = n :: plain f) (ho : (if Opening g1 then 1 else 0) = countElements [n])
    (hB : ∀ {toks f f'}, Body e toks f → WithText t1 (mk f) f' → Body e ((t1, g1) :: toks) f') :
    Placed e f' ((t1, g1) :: a) b text tag body := by
  obtain ⟨p, c, H, h1, h2, h3, h4⟩ := h
  obtain ⟨l, hl0, hl⟩ := withText_move hw
  obtain ⟨g0, w0, e0⟩ := hl g
  obtain ⟨l', -, e1, e2⟩ := withText_plain hw w0
  have : l' = l := by
    rw [e0] at e2
    exact (List.append_cancel_right e2).symm
  subst this
  refine ⟨p, c, H.shift (l' ++ [n]), h1, ?_, ?_, ?_⟩
  · rw [shift_plug, e1, hg, h2]; simp
  · rw [shift_count, countElements_eq, elementsL_append, hl0, List.nil_append, ← countElements_eq, ← ho, h3]
    rw [tagsOf_cons, openTags_cons]
    by_cases h : Opening g1 <;> simp [h] <;> omega
  · intro tag' body' c' hE
    obtain ⟨f1, h5, h6⟩ := h4 tag' body' c' hE
    obtain ⟨g', h7, h8⟩ := hl (mk f1)
    exact ⟨g', hB h5 h7, by rw [h8, hmk, h6, shift_plug]; simp⟩

/-- one element put in front of some content -/
theorem elem_front {e c : Element} {text tag : Str} {body b : List (Str × Str)} {f : Forest} (h : ElemToks (some e) tag body c)
    (hB : Body e b f) {l : List Node} (hl : ∀ g, ∃ g', WithText text g g' ∧ plain g' = l ++ plain g) :
    ∃ f', Body e ((text, tag) :: (body ++ b)) f' ∧ plain f' = l ++ .element c :: plain f := by
  cases h with
  | empty hO hs =>
    obtain ⟨g', h1, h2⟩ := hl (.leaf (.element c) f)
    exact ⟨g', .empty hO hs hB h1, by rw [h2, plain, if_neg (by simp [isBlankText])]⟩
  | @start c0 k _ hO hs hk =>
    obtain ⟨g', h1, h2⟩ := hl (.elem c0 k f)
    exact ⟨g', .elem hO hs hk hB h1, by rw [h2, plain]⟩

theorem placed_front {e c : Element} {text tag : Str} {body b : List (Str × Str)} {f g f' : Forest} (h : ElemToks (some e) tag body c)
    (hB : Body e b f) (hw : WithText text g f') (hg : plain g = .element c :: plain f) : Placed e f' [] b text tag body := by
  obtain ⟨l, hl0, hl⟩ := withText_move hw
  obtain ⟨g0, w0, e0⟩ := hl g
  obtain ⟨l', -, e1, e2⟩ := withText_plain hw w0
  have : l' = l := by
    rw [e0] at e2
    exact (List.append_cancel_right e2).symm
  subst this
  refine ⟨e, c, .here l' (plain f), h, ?_, ?_, ?_⟩
  · rw [e1, hg]; rfl
  · rw [Hole.count, countElements_eq, hl0]; rfl
  · intro tag' body' c' hE
    exact elem_front hE hB hl

theorem body_at {e : Element} {toks : List (Str × Str)} {f : Forest} (h : Body e toks f) (ha : ∀ t ∈ toks, Angled t.2) :
    ∀ a text tag body b, ElementIn toks a text tag body b → Placed e f a b text tag body := by
  induction h with
  | close hc hw =>
    rintro a text tag body b ⟨hs, ho, -, -⟩
    cases a with
    | nil =>
      simp only [List.nil_append, List.cons.injEq, Prod.mk.injEq] at hs
      obtain ⟨⟨rfl, rfl⟩, -⟩ := hs
      rcases ho with ho | ho <;> rw [kind_close hc.slash] at ho <;> cases ho
    | cons t a => simp at hs
  | @comment e t1 c toks f f' hk hB hw ih =>
    rintro a text tag body b ⟨hs, ho, h1, h0⟩
    have hn : ¬ Opening (c%"<!--" ++ c ++ c%"-->") :=
      not_opening_mark (List.IsPrefix.trans (by decide : c%"<!" <+: c%"<!--") ⟨_, List.append_assoc _ _ _ |>.symm⟩)
    cases a with
    | nil =>
      simp only [List.nil_append, List.cons.injEq, Prod.mk.injEq] at hs
      exact absurd (hs.1.2 ▸ ho) hn
    | cons t a =>
      simp only [List.cons_append, List.cons.injEq] at hs
      obtain ⟨rfl, rfl⟩ := hs
      refine placed_leaf (n := .comment c) (ih (fun t ht => ha t (by simp [ht])) a text tag body b ⟨rfl, ho, h1, h0⟩) hw ?_
        (.leaf (.comment c)) ?_ ?_ (fun h w => .comment hk h w)
      · rw [plain, if_neg (by simp [isBlankText])]
      · intro f; rw [plain, if_neg (by simp [isBlankText])]
      · exact if_neg hn
  | @cdata e t1 c toks f f' hk hB hw ih =>
    rintro a text tag body b ⟨hs, ho, h1, h0⟩
    have hn : ¬ Opening (c%"<![CDATA[" ++ c ++ c%"]]>") :=
      not_opening_mark (List.IsPrefix.trans (by decide : c%"<!" <+: c%"<![CDATA[") ⟨_, List.append_assoc _ _ _ |>.symm⟩)
    cases a with
    | nil =>
      simp only [List.nil_append, List.cons.injEq, Prod.mk.injEq] at hs
      exact absurd (hs.1.2 ▸ ho) hn
    | cons t a =>
      simp only [List.cons_append, List.cons.injEq] at hs
      obtain ⟨rfl, rfl⟩ := hs
      refine placed_leaf (n := .cdata c) (ih (fun t ht => ha t (by simp [ht])) a text tag body b ⟨rfl, ho, h1, h0⟩) hw ?_
        (.leaf (.cdata c)) ?_ ?_ (fun h w => .cdata hk h w)
      · rw [plain, if_neg (by simp [isBlankText])]
      · intro f; rw [plain, if_neg (by simp [isBlankText])]
      · exact if_neg hn
  | @empty e c t1 g1 toks f f' hO hs' hB hw ih =>
    rintro a text tag body b ⟨hs, ho, h1, h0⟩
    have hE : ElemToks (some e) g1 [] c := .empty hO hs'
    have hp : plain (.leaf (.element c) f) = .element c :: plain f := by rw [plain, if_neg (by simp [isBlankText])]
    cases a with
    | nil =>
      simp only [List.nil_append, List.cons.injEq, Prod.mk.injEq] at hs
      obtain ⟨⟨rfl, rfl⟩, hs⟩ := hs
      obtain ⟨rfl, rfl⟩ := body_eq_of_one (body := []) (b := toks) hs (elemToks_one hE) (elemToks_depth hE) h1 h0
      exact placed_front hE hB hw hp
    | cons t a =>
      simp only [List.cons_append, List.cons.injEq] at hs
      obtain ⟨rfl, rfl⟩ := hs
      refine placed_leaf (n := .element c) (ih (fun t ht => ha t (by simp [ht])) a text tag body b ⟨rfl, ho, h1, h0⟩) hw hp
        (.leaf (.element c)) ?_ ?_ (fun h w => .empty hO hs' h w)
      · intro f; rw [plain, if_neg (by simp [isBlankText])]
      · rw [if_pos (opening_start hE), countElements_eq, elementsL_cons, elementsL_single, opens_children hO]; rfl
  | @elem e c t1 g1 toks1 toks2 k f f' hO hs' hB1 hB2 hw ih1 ih2 =>
    rintro a text tag body b ⟨hs, ho, h1, h0⟩
    have hE : ElemToks (some e) g1 toks1 { c with children := plain k } := .start hO hs' hB1
    have hp : plain (.elem c k f) = .element { c with children := plain k } :: plain f := by rw [plain]
    cases a with
    | nil =>
      simp only [List.nil_append, List.cons.injEq, Prod.mk.injEq] at hs
      obtain ⟨⟨rfl, rfl⟩, hs⟩ := hs
      obtain ⟨rfl, rfl⟩ := body_eq_of_one hs (elemToks_one hE) (elemToks_depth hE) h1 h0
      exact placed_front hE hB2 hw hp
    | cons t a =>
      simp only [List.cons_append, List.cons.injEq] at hs
      obtain ⟨rfl, hs⟩ := hs
      have hcount : (openTags (tagsOf toks1)).length = (elementsL (plain k)).length :=
        forall₂_length (body_writes hB1 (fun t ht => ha t (by simp [ht])))
      have late : ∀ a', a = toks1 ++ a' → toks2 = a' ++ (text, tag) :: (body ++ b) →
          Placed e f' ((t1, g1) :: a) b text tag body := by
        rintro a' rfl h2
        obtain ⟨p, c1, H, i1, i2, i3, i4⟩ := ih2 (fun t ht => ha t (by simp [ht])) a' text tag body b ⟨h2, ho, h1, h0⟩
        obtain ⟨l, hl0, hl⟩ := withText_move hw
        obtain ⟨g0, w0, e0⟩ := hl (.elem c k f)
        obtain ⟨l', -, e1, e2⟩ := withText_plain hw w0
        have : l' = l := by
          rw [e0] at e2
          exact (List.append_cancel_right e2).symm
        subst this
        refine ⟨p, c1, H.shift (l' ++ [.element { c with children := plain k }]), i1, ?_, ?_, ?_⟩
        · rw [shift_plug, e1, hp, i2]; simp
        · rw [shift_count, countElements_eq, elementsL_append, hl0, List.nil_append, elementsL_cons, elementsL_single, i3]
          rw [tagsOf_cons, openTags_cons, if_pos (opening_start hE), tagsOf_append, openTags_append]
          have : (elementsL ([] : List Node)) = [] := rfl
          simp only [this, List.append_nil, List.length_append, List.length_cons, List.length_nil]
          omega
        · intro tag' body' c' hE'
          obtain ⟨f1, i5, i6⟩ := i4 tag' body' c' hE'
          obtain ⟨f2, j1, j2⟩ := elem_front hE i5 hl
          refine ⟨f2, ?_, ?_⟩
          · simpa using j1
          · rw [j2, i6, shift_plug]; simp
      rcases List.append_eq_append_iff.1 hs with ⟨c', h2, h3⟩ | ⟨c', h2, h3⟩
      · exact late c' h2 h3
      · cases c' with
        | nil => exact late [] (by simpa using h2.symm) (by simpa using h3.symm)
        | cons t c' =>
          simp only [List.cons_append, List.cons.injEq] at h3
          obtain ⟨rfl, h3⟩ := h3
          have inside : ∀ c2, c' = body ++ c2 → b = c2 ++ toks2 → Placed e f' ((t1, g1) :: a) b text tag body := by
            rintro c2 rfl rfl
            obtain ⟨p, c1, H, i1, i2, i3, i4⟩ := ih1 (fun t ht => ha t (by simp [ht])) a text tag body c2 ⟨h2, ho, h1, h0⟩
            obtain ⟨l, hl0, hl⟩ := withText_move hw
            obtain ⟨g0, w0, e0⟩ := hl (.elem c k f)
            obtain ⟨l', -, e1, e2⟩ := withText_plain hw w0
            have : l' = l := by
              rw [e0] at e2
              exact (List.append_cancel_right e2).symm
            subst this
            refine ⟨p, c1, .under l' c H (plain f), i1, ?_, ?_, ?_⟩
            · rw [e1, hp, i2]; rfl
            · rw [Hole.count, countElements_eq, hl0, i3, tagsOf_cons, openTags_cons, if_pos (opening_start hE)]
              simp only [List.length_append, List.length_cons, List.length_nil]
            · intro tag' body' c' hE'
              obtain ⟨f1, i5, i6⟩ := i4 tag' body' c' hE'
              obtain ⟨f2, j1, j2⟩ := elem_front (.start hO hs' i5) hB2 hl
              refine ⟨f2, ?_, ?_⟩
              · simpa using j1
              · rw [j2, i6]; rfl
          rcases List.append_eq_append_iff.1 h3 with ⟨c2, h4, h5⟩ | ⟨c2, h4, h5⟩
          · exact inside c2 h4 h5
          · cases c2 with
            | nil => exact inside [] (by simpa using h4.symm) (by simpa using h5.symm)
            | cons u c2 =>
              exfalso
              subst h4
              have d1 := h1 (tag :: tagsOf c') (tagsOf (u :: c2)) (by simp [tagsOf]) (by simp) (by simp [tagsOf])
              have d2 := body_prefix hB1 _ _ _ h2
              have d3 := body_depth hB1
              rw [h2, tagsOf, List.map_append, List.map_cons, depth_append] at d3
              unfold tagsOf at d1 d2
              simp only at d3
              omega

/-! ## whole documents -/

theorem pro_swap {pos prev : Nat} {w : Bool} {d : Option Declaration} {ds : List DTD} {toks : List (Str × Str)}
    {D : Option Declaration} {DS : List DTD} {tag : Str} {rest : List (Str × Str)} (h : Pro pos prev w d ds toks D DS tag rest) :
    ∃ q text, toks = q ++ (text, tag) :: rest ∧ (∀ t ∈ q, IsProlog t.2) ∧ ¬ IsProlog tag ∧
      text.all isWs = true ∧ ∀ text' tag' rest', text'.all isWs = true → ¬ c%"<?xml" <+: tag' → ¬ c%"<!" <+: tag' → ¬ c%"</" <+: tag' →
        Re.isMatch elemRe tag' = true → Pro pos prev w d ds (q ++ (text', tag') :: rest') D DS tag' rest' := by
  have more : ∀ {q : List (Str × Str)} {t : Str × Str}, IsProlog t.2 → (∀ t ∈ q, IsProlog t.2) → ∀ u ∈ t :: q, IsProlog u.2 := by
    intro q t ht hq u hu
    rcases List.mem_cons.1 hu with rfl | hu
    · exact ht
    · exact hq u hu
  induction h with
  | @root _ _ _ _ _ text _ _ h1 h2 h3 h4 h5 =>
    exact ⟨[], text, rfl, by simp, fun h => h.elim h2 h3, h1, fun _ _ _ g1 g2 g3 g4 g5 => .root g1 g2 g3 g4 g5⟩
  | @decl pos w d ds text m _ _ _ _ _ h1 h2 _ ih =>
    obtain ⟨q, tx, rfl, i1, i2, i0, i3⟩ := ih
    refine ⟨(text, c%"<?" ++ m ++ c%"?>") :: q, tx, rfl, more (.inl ?_) i1, i2, i0, fun x t r w a b c d => .decl h1 h2 (i3 x t r w a b c d)⟩
    obtain ⟨u, rfl⟩ := h2
    exact ⟨u ++ c%"?>", by simp⟩
  | @comment _ _ _ _ _ text tag _ _ _ _ _ h1 h2 h3 _ ih =>
    obtain ⟨q, tx, rfl, i1, i2, i0, i3⟩ := ih
    exact ⟨(text, tag) :: q, tx, rfl, more (.inr (List.IsPrefix.trans (by decide : c%"<!" <+: c%"<!--") h2)) i1, i2, i0,
      fun x t r w a b c d => .comment h1 h2 h3 (i3 x t r w a b c d)⟩
  | @doctype _ _ _ _ _ text m _ _ _ _ _ h1 _ ih =>
    obtain ⟨q, tx, rfl, i1, i2, i0, i3⟩ := ih
    refine ⟨(text, c%"<!DOCTYPE" ++ m ++ c%">") :: q, tx, rfl, more (.inr ⟨c%"DOCTYPE" ++ m ++ c%">", by simp⟩) i1, i2, i0,
      fun x t r w a b c d => .doctype h1 (i3 x t r w a b c d)⟩
  | @other _ _ _ _ _ text tag _ _ _ _ _ h1 h2 h3 h4 _ ih =>
    obtain ⟨q, tx, rfl, i1, i2, i0, i3⟩ := ih
    exact ⟨(text, tag) :: q, tx, rfl, more (.inr h2) i1, i2, i0, fun x t r w a b c d => .other h1 h2 h3 h4 (i3 x t r w a b c d)⟩

theorem root_of_elemToks {tag : Str} {body : List (Str × Str)} {c : Element} (h : ElemToks none tag body c) :
    ∃ E F, RootPart tag body E F ∧ (addRev E F).reverseChildren = c := by
  cases h with
  | empty hO hs =>
    refine ⟨c, .nil, .empty hO hs rfl, ?_⟩
    have := bare_self (opens_children hO)
    obtain ⟨n, cs, a, x, q, k⟩ := c
    simp at this
    subst this
    rfl
  | @start c0 k _ hO hs hB => exact ⟨c0, k, .elem hO hs (by simp) hB .nil, body_dom hB (opens_children hO)⟩

theorem elemToks_of_root {tag : Str} {body : List (Str × Str)} {E : Element} {F : Forest} (h : RootPart tag body E F)
    (h1 : OneRoot (tag :: tagsOf body)) : ElemToks none tag body (addRev E F).reverseChildren := by
  obtain ⟨hO, ⟨hs, rfl, rfl⟩ | ⟨hs, hB⟩⟩ := root_one h h1
  · have : (addRev E .nil).reverseChildren = E := by
      have := opens_children hO
      obtain ⟨n, cs, a, x, q, c⟩ := E
      simp at this
      subst this
      rfl
    rw [this]
    exact .empty hO hs
  · rw [body_dom hB (opens_children hO)]
    exact .start hO hs hB

theorem lexes_tail_free {x tail : Str} {toks : List (Str × Str)} (h : Lexes x toks tail) : '<' ∉ tail := by
  induction h with
  | done h => exact h
  | tag _ _ _ _ ih => exact ih

/-- all that is said about an element in an accepted document -/
theorem root_at_parent {x : Str} {d : Document} {pre rest a body b : List (Str × Str)} {text tag tail : Str} (h : parseStr x = .ok d)
    (hp : Parts x pre rest) (hl : Lexes x (pre ++ rest) tail) (h1 : OneRoot (tagsOf rest)) (he : ElementIn rest a text tag body b) :
    ∃ (p : Option Element) (c : Element) (H : Hole), (p = none ↔ a = []) ∧ ElemToks p tag body c ∧ [.element d.root] = H.plug (.element c) ∧
      H.count = (openTags (tagsOf a)).length ∧
      ∀ tag' body' c', ElemToks p tag' body' c' → TagAt tag' tag' → (∀ t ∈ body', TokOk t) → ∃ d',
        parseStr (srcOf (pre ++ a ++ (text, tag') :: (body' ++ b)) ++ tail) = .ok d' ∧ [.element d'.root] = H.plug (.element c') ∧
        d'.declaration = d.declaration ∧ d'.dtds = d.dtds := by
  obtain ⟨toks, D, DS, tg, rs, E, F, hL, hP, hR, rfl⟩ := parse_iff.1 h
  obtain ⟨q, tx, hq, hq1, hq2, htx, hsw⟩ := pro_swap hP
  obtain ⟨tail', hT⟩ := lex_lexes hL
  have ht0 := lexes_unique hT hl
  have hparts : Parts x q ((tx, tg) :: rs) := ⟨⟨tail', hq ▸ hT⟩, hq1, by rintro t r ⟨⟩; exact hq2⟩
  obtain ⟨rfl, rfl⟩ := parts_unique hparts hp
  have htok := lexes_toks hl
  have htail : '<' ∉ tail := lexes_tail_free hl
  have hE := elemToks_of_root hR h1
  have build : ∀ tg' rs' c', ElemToks none tg' rs' c' → TagAt tg' tg' → (∀ t ∈ rs', TokOk t) → ∃ d',
      parseStr (srcOf (q ++ (tx, tg') :: rs') ++ tail) = .ok d' ∧ d'.root = c' ∧
        d'.declaration = D ∧ d'.dtds = DS := by
    intro tg' rs' c' hE' hTag hTok
    obtain ⟨E', F', hR', hc⟩ := root_of_elemToks hE'
    obtain ⟨c0, hO, -⟩ := elemToks_opens hE'
    have hlex := lexes_flat (l := q ++ (tx, tg') :: rs') (tail := tail) (by
      intro t ht
      rcases List.mem_append.1 ht with ht | ht
      · exact htok t (by simp [ht])
      · rcases List.mem_cons.1 ht with rfl | ht
        · exact ⟨(htok (tx, tg) (by simp)).1, hTag⟩
        · exact hTok t ht) htail
    have hpro := hsw tx tg' rs' htx (fun h => opens_not_pi hO hTag (List.IsPrefix.trans ⟨c%"xml", rfl⟩ h)) hO.not_decl hO.not_close hO.regex
    refine ⟨_, parse_iff.2 ⟨_, D, DS, tg', rs', E', F', lexes_lex hlex 0, hpro, hR', rfl⟩, hc, rfl, rfl⟩
  obtain ⟨hs, ho, ho1, ho0⟩ := he
  cases a with
  | nil =>
    simp only [List.nil_append, List.cons.injEq, Prod.mk.injEq] at hs
    obtain ⟨⟨rfl, rfl⟩, hs⟩ := hs
    obtain ⟨rfl, hb⟩ := body_eq_of_one (b := []) (by simpa using hs) (elemToks_one hE) (elemToks_depth hE) ho1 ho0
    subst hb
    refine ⟨none, _, .here [] [], by simp, hE, rfl, rfl, ?_⟩
    intro tag' body' c' hE' hTag hTok
    obtain ⟨d', h5, h6, h7⟩ := build tag' body' c' hE' hTag hTok
    exact ⟨d', by simpa using h5, by rw [h6]; rfl, h7⟩
  | cons t a =>
    simp only [List.cons_append, List.cons.injEq] at hs
    obtain ⟨rfl, hs⟩ := hs
    obtain ⟨hO, ⟨-, rfl, -⟩ | ⟨hns, hB⟩⟩ := root_one hR h1
    · simp at hs
    · have ha : ∀ t ∈ rs, Angled t.2 := fun t ht => tokOk_angled (htok t (by simp [ht]))
      obtain ⟨p, c, H, i1, i2, i3, i4⟩ := body_at hB ha a text tag body b ⟨hs, ho, ho1, ho0⟩
      have hroot : (addRev E F).reverseChildren = { E with children := plain F } := body_dom hB (opens_children hO)
      refine ⟨some p, c, .under [] E H [], by simp, i1, ?_, ?_, ?_⟩
      · show [Node.element (addRev E F).reverseChildren] = _
        rw [hroot, i2]; rfl
      · rw [Hole.count, i3, tagsOf_cons, openTags_cons, if_pos (.inl (kind_start hO hns))]
        simp [countElements, docOrderL]
        omega
      · intro tag' body' c' hE' hTag hTok
        obtain ⟨f', i5, i6⟩ := i4 tag' body' c' hE'
        obtain ⟨d', h5, h6, h7⟩ := build tg (a ++ (text, tag') :: (body' ++ b)) _ (.start hO hns i5) (htok (tx, tg) (by simp)).2 (by
          intro t ht
          rcases List.mem_append.1 ht with ht | ht
          · exact htok t (by simp [hs, ht])
          · rcases List.mem_cons.1 ht with rfl | ht
            · exact ⟨(htok (text, tag) (by simp [hs])).1, hTag⟩
            · rcases List.mem_append.1 ht with ht | ht
              · exact hTok t ht
              · exact htok t (by simp [hs, ht]))
        exact ⟨d', by simpa using h5, by rw [h6, i6]; rfl, h7⟩

theorem root_at {x : Str} {d : Document} {pre rest a body b : List (Str × Str)} {text tag tail : Str} (h : parseStr x = .ok d)
    (hp : Parts x pre rest) (hl : Lexes x (pre ++ rest) tail) (h1 : OneRoot (tagsOf rest)) (he : ElementIn rest a text tag body b) :
    ∃ (p : Option Element) (c : Element) (H : Hole), ElemToks p tag body c ∧ [.element d.root] = H.plug (.element c) ∧
      H.count = (openTags (tagsOf a)).length ∧
      ∀ tag' body' c', ElemToks p tag' body' c' → TagAt tag' tag' → (∀ t ∈ body', TokOk t) → ∃ d',
        parseStr (srcOf (pre ++ a ++ (text, tag') :: (body' ++ b)) ++ tail) = .ok d' ∧ [.element d'.root] = H.plug (.element c') ∧
        d'.declaration = d.declaration ∧ d'.dtds = d.dtds := by
  obtain ⟨p, c, H, -, i⟩ := root_at_parent h hp hl h1 he
  exact ⟨p, c, H, i⟩

theorem elements_hole {d : Document} {H : Hole} {c : Element} (h : [.element d.root] = H.plug (.element c)) :
    (elementsOf d.root)[H.count]? = some c := by
  have := plug_get H c
  rw [← h, elementsL_cons, show elementsL [] = [] from rfl, List.append_nil] at this
  exact this

/-- an element alone -/
theorem alone_parse {tag : Str} {body : List (Str × Str)} {c : Element} (h : ElemToks none tag body c) (ht : TagAt tag tag)
    (hb : ∀ t ∈ body, TokOk t) : parseStr (tag ++ srcOf body) = .ok (Document.newWithDeclDtd c none (some [])) := by
  obtain ⟨E, F, hR, hc⟩ := root_of_elemToks h
  obtain ⟨c0, hO, -⟩ := elemToks_opens h
  exact parse_iff.2 ⟨_, none, [], tag, body, E, F, alone_lex ht hb, alone_pro hO ht, hR, by rw [hc]⟩

/-- an element whose prefix is not declared by itself is not accepted alone -/
theorem alone_prefix {tag : Str} {body : List (Str × Str)} {p : Option Element} {c : Element} (h : ElemToks p tag body c)
    (ht : TagAt tag tag) (hb : ∀ t ∈ body, TokOk t) (hn : ¬ IsProlog tag) {d : Document} (hd : parseStr (tag ++ srcOf body) = .ok d) :
    ∀ q, c.pfx = some q → (c.attrs.get (c%"xmlns:" ++ q)).isSome := by
  have hp : Parts (tag ++ srcOf body) [] (([], tag) :: body) := ⟨⟨[], alone_lexes ht hb⟩, by simp, by rintro t r ⟨⟩; exact hn⟩
  obtain ⟨_, _, _, E, F, h1, -, hR, -, -⟩ := accepted_parts hd hp
  cases h1
  obtain ⟨c1, hO1, -⟩ := elemToks_opens (elemToks_of_root hR (elemToks_one h))
  obtain ⟨c0, hO, hc⟩ := elemToks_opens h
  have hs := opens_same hO hO1
  intro q hq
  have := ((opens_ns_root hO1).1 q (by rw [← hs.pfx, ← hc.pfx, hq]))
  rw [hc.attrs, hs.attrs, ← this.1]
  exact this.2

theorem element_alone {x : Str} {d : Document} {pre rest a body b : List (Str × Str)} {text tag : Str} (h : parseStr x = .ok d)
    (hp : Parts x pre rest) (h1 : OneRoot (tagsOf rest)) (he : ElementIn rest a text tag body b) :
    ∃ e, (elementsOf d.root)[(openTags (tagsOf a)).length]? = some e ∧
      ((∀ p, e.pfx = some p → (e.attrs.get (c%"xmlns:" ++ p)).isSome) → ∃ d', parseStr (tag ++ srcOf body) = .ok d' ∧
        bare (.element d'.root) = bare (.element e) ∧ d'.declaration = none ∧ d'.dtds = []) ∧
      (¬ IsProlog tag → ∀ d', parseStr (tag ++ srcOf body) = .ok d' → ∀ p, e.pfx = some p → (e.attrs.get (c%"xmlns:" ++ p)).isSome) := by
  obtain ⟨tail, hl⟩ := hp.lexes
  obtain ⟨p, c, H, i1, i2, i3, -⟩ := root_at h hp hl h1 he
  have htok := lexes_toks hl
  have htag : TagAt tag tag := (htok (text, tag) (by simp [he.split])).2
  have hbody : ∀ t ∈ body, TokOk t := fun t ht => htok t (by simp [he.split, ht])
  refine ⟨c, i3 ▸ elements_hole i2, ?_, ?_⟩
  · intro hpfx
    obtain ⟨c', h2, h3⟩ := elemToks_move i1 none (fun _ => hpfx)
    exact ⟨_, alone_parse h2 htag hbody, h3, rfl, rfl⟩
  · intro hn d' hd'
    exact alone_prefix i1 htag hbody hn hd'

theorem element_replaced {x y : Str} {d dy : Document} {pre rest a body b body' : List (Str × Str)} {text tag tag' text' tail : Str}
    (h : parseStr x = .ok d) (hp : Parts x pre rest) (hl : Lexes x (pre ++ rest) tail) (h1 : OneRoot (tagsOf rest))
    (he : ElementIn rest a text tag body b)
    (hy : parseStr y = .ok dy) (hpy : Parts y [] ((text', tag') :: body')) (h1y : OneRoot (tag' :: tagsOf body')) :
    ∃ (H : Hole) (e e' : Element) (d' : Document), [.element d.root] = H.plug (.element e) ∧ H.count = (openTags (tagsOf a)).length ∧
      parseStr (srcOf (pre ++ a ++ (text, tag') :: (body' ++ b)) ++ tail) = .ok d' ∧ [.element d'.root] = H.plug (.element e') ∧
      bare (.element e') = bare (.element dy.root) ∧ d'.declaration = d.declaration ∧ d'.dtds = d.dtds := by
  obtain ⟨p, c, H, i1, i2, i3, i4⟩ := root_at h hp hl h1 he
  obtain ⟨tl, hly⟩ := hpy.lexes
  have htok := lexes_toks hly
  obtain ⟨_, _, _, E, F, g1, -, hR, hd, -⟩ := accepted_parts hy hpy
  cases g1
  have hE := elemToks_of_root hR h1y
  rw [← hd] at hE
  obtain ⟨c0, hO, hc0⟩ := elemToks_opens hE
  obtain ⟨c', hE', hc'⟩ := elemToks_move hE p (by
    intro _ q hq
    have := ((opens_ns_root hO).1 q (by rw [← hc0.pfx, hq]))
    rw [hc0.attrs, ← this.1]
    exact this.2)
  obtain ⟨d', j1, j2, j3, j4⟩ := i4 tag' body' c' hE' (htok (text', tag') (by simp)).2 (fun t ht => htok t (by simp [ht]))
  exact ⟨H, c, c', d', i2, i3, j1, j2, hc', j3, j4⟩

end KissXml
