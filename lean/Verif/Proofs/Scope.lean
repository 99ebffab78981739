import Verif.Proofs.Nest
/-!
# Namespaces of parsed elements
-/
namespace KissXml
open Spec

mutual
/-- what the parser does with prefixes -/
def PrefixRule (look : Str → Option Str) : Node → Prop
  | .element ⟨_, cs, a, x, q, _⟩ =>
      (∀ p, q = some p → x = (a.get (c%"xmlns:" ++ p)).or ((look (c%"xmlns:" ++ p)).or (look p))) ∧
      PrefixRuleL (fun p => (a.get (c%"xmlns:" ++ p)).or (look p)) cs
  | .text _ => True
  | .comment _ => True
  | .cdata _ => True
/-- the same for a list of nodes -/
def PrefixRuleL (look : Str → Option Str) : List Node → Prop
  | [] => True
  | n :: l => PrefixRule look n ∧ PrefixRuleL look l
end

mutual
/-- what the parser does with the default namespace: prefixed elements hide it -/
def DefaultRule (d : Option Str) : Node → Prop
  | .element ⟨_, cs, a, x, q, _⟩ => (q = none → x = (a.get c%"xmlns").or d) ∧
      DefaultRuleL (if q = none then (a.get c%"xmlns").or d else none) cs
  | .text _ => True
  | .comment _ => True
  | .cdata _ => True
/-- the same for a list of nodes -/
def DefaultRuleL (d : Option Str) : List Node → Prop
  | [] => True
  | n :: l => DefaultRule d n ∧ DefaultRuleL d l
end

/-- what the element hands down -/
structure Hands (e : Element) (look : Str → Option Str) (d : Option Str) : Prop where
  ctx : ∀ p, e.ctx.get p = look p
  dflt : e.defaultNamespace = d

theorem opens_ns {p : Element} {tag : Str} {e : Element} {look : Str → Option Str} {d : Option Str} (h : Opens (some p) tag e)
    (hp : Hands p look d) :
    (∀ q, e.pfx = some q → e.xmlns = (e.attrs.get (c%"xmlns:" ++ q)).or ((look (c%"xmlns:" ++ q)).or (look q))) ∧
    (e.pfx = none → e.xmlns = (e.attrs.get c%"xmlns").or d) ∧
    Hands e (fun q => (e.attrs.get (c%"xmlns:" ++ q)).or (look q)) (if e.pfx = none then (e.attrs.get c%"xmlns").or d else none) := by
  obtain ⟨t, attrs, n0, n, x, q, -, hN⟩ := h.elem
  rw [hN.eq]
  simp only [Option.map_some, Option.bind_some, setNs_some, hp.dflt, ctxMerge_get, xmlnsContext_get, hp.ctx]
  have hctx : ∀ p', (ctxMerge (ElementF.xmlnsContextFromAttributes attrs) p.ctx).get p' =
      (attrs.get (c%"xmlns:" ++ p')).or (look p') := by
    intro p'; rw [ctxMerge_get, xmlnsContext_get, hp.ctx]
  cases hN.name with
  | plain _ =>
    refine ⟨by simp, by simp [ownNs], hctx, ?_⟩
    simp [ElementF.defaultNamespace, ownNs]
  | @own a b v _ _ hv =>
    refine ⟨?_, by simp, hctx, ?_⟩
    · rintro _ ⟨⟩; simp only [hv, Option.some_or]
    · simp [ElementF.defaultNamespace]
  | @inh a b p' _ _ hv hp' =>
    cases hp'
    refine ⟨?_, by simp, hctx, ?_⟩
    · rintro _ ⟨⟩
      simp only [hv, ownNs, Option.none_or, Option.or_none, hp.ctx]
    · simp [ElementF.defaultNamespace]

theorem opens_ns_root {tag : Str} {e : Element} (h : Opens none tag e) :
    (∀ q, e.pfx = some q → e.xmlns = e.attrs.get (c%"xmlns:" ++ q) ∧ e.xmlns.isSome) ∧
    (e.pfx = none → e.xmlns = e.attrs.get c%"xmlns") ∧
    Hands e (fun q => e.attrs.get (c%"xmlns:" ++ q)) (if e.pfx = none then e.attrs.get c%"xmlns" else none) := by
  obtain ⟨t, attrs, n0, n, x, q, -, hN⟩ := h.elem
  have hE : ∀ (m : Str) (cs : List Node) (a : SMap) (y r : Option Str) (c : SMap),
      ElementF.setNamespaceContext (⟨m, cs, a, y, r, c⟩ : Element) none none =
      ⟨m, cs, a, y.or (match r with | none => none | some p => c.get p), r, c⟩ := by
    intro m cs a y r c
    cases y <;> cases r <;> rfl
  rw [hN.eq]
  simp only [Option.map_none, Option.bind_none, hE]
  cases hN.name with
  | plain _ =>
    refine ⟨by simp, by simp [ownNs], fun p => xmlnsContext_get _ _, ?_⟩
    simp [ElementF.defaultNamespace, ownNs]
  | @own a b v _ _ hv =>
    refine ⟨?_, by simp, fun p => xmlnsContext_get _ _, ?_⟩
    · rintro _ ⟨⟩; simp only [hv, Option.some_or, Option.isSome_some, and_self]
    · simp [ElementF.defaultNamespace]
  | @inh a b p' _ _ hv hp' => cases hp'

theorem withText_rules {text : Str} {f f' : Forest} (h : WithText text f f') {look : Str → Option Str} {d : Option Str}
    (hf : PrefixRuleL look (plain f) ∧ DefaultRuleL d (plain f)) : PrefixRuleL look (plain f') ∧ DefaultRuleL d (plain f') := by
  cases h with
  | blank => exact hf
  | text =>
    rw [plain]
    split
    · exact hf
    · exact ⟨⟨trivial, hf.1⟩, ⟨trivial, hf.2⟩⟩

theorem body_rules {e : Element} {toks : List (Str × Str)} {f : Forest} (h : Body e toks f) :
    ∀ (look : Str → Option Str) (d : Option Str), Hands e look d → PrefixRuleL look (plain f) ∧ DefaultRuleL d (plain f) := by
  induction h with
  | close _ hw => intro look d _; exact withText_rules hw ⟨trivial, trivial⟩
  | comment _ _ hw ih =>
    intro look d he
    exact withText_rules hw ⟨⟨trivial, (ih look d he).1⟩, ⟨trivial, (ih look d he).2⟩⟩
  | cdata _ _ hw ih =>
    intro look d he
    exact withText_rules hw ⟨⟨trivial, (ih look d he).1⟩, ⟨trivial, (ih look d he).2⟩⟩
  | @empty e c text tag toks f f' hO _ _ hw ih =>
    intro look d he
    obtain ⟨h1, h2, h3⟩ := opens_ns hO he
    have hc := opens_children hO
    obtain ⟨n, cs, a, x, q, cc⟩ := c
    simp only at hc
    subst hc
    exact withText_rules hw ⟨⟨⟨h1, trivial⟩, (ih look d he).1⟩, ⟨⟨h2, trivial⟩, (ih look d he).2⟩⟩
  | @elem e c text tag toks1 toks2 k f f' hO _ _ _ hw ih1 ih2 =>
    intro look d he
    obtain ⟨h1, h2, h3⟩ := opens_ns hO he
    obtain ⟨n, cs, a, x, q, cc⟩ := c
    have := ih1 _ _ h3
    exact withText_rules hw ⟨⟨⟨h1, this.1⟩, (ih2 look d he).1⟩, ⟨⟨h2, this.2⟩, (ih2 look d he).2⟩⟩

/-- the root of a document with one root -/
theorem root_rules {tag : Str} {rest : List (Str × Str)} {E : Element} {F : Forest} (h : RootPart tag rest E F)
    (h1 : OneRoot (tag :: tagsOf rest)) :
    PrefixRule (fun _ => none) (.element (addRev E F).reverseChildren) ∧
    DefaultRule none (.element (addRev E F).reverseChildren) := by
  obtain ⟨hO, hB⟩ := root_one h h1
  obtain ⟨g1, g2, g3⟩ := opens_ns_root hO
  have hl : (fun q => E.attrs.get (c%"xmlns:" ++ q)) = (fun q => (E.attrs.get (c%"xmlns:" ++ q)).or none) := by
    funext q; simp
  have hd : (if E.pfx = none then E.attrs.get c%"xmlns" else none) = (if E.pfx = none then (E.attrs.get c%"xmlns").or none else none) := by
    simp
  rw [hl, hd] at g3
  have key : (∀ p, E.pfx = some p → E.xmlns = (E.attrs.get (c%"xmlns:" ++ p)).or ((none : Option Str).or none)) ∧
      (E.pfx = none → E.xmlns = (E.attrs.get c%"xmlns").or none) :=
    ⟨fun p hp => by simp [(g1 p hp).1], fun hp => by simp [g2 hp]⟩
  rcases hB with ⟨-, -, rfl⟩ | ⟨-, hB⟩
  · rw [addRev]
    have hc := opens_children hO
    obtain ⟨n, cs, a, x, q, cc⟩ := E
    simp only at hc
    subst hc
    exact ⟨⟨key.1, trivial⟩, ⟨key.2, trivial⟩⟩
  · rw [body_dom hB (opens_children hO)]
    have := body_rules hB _ _ g3
    obtain ⟨n, cs, a, x, q, cc⟩ := E
    exact ⟨⟨key.1, this.1⟩, ⟨key.2, this.2⟩⟩

/-! ## from the rules to the scopes -/

/-- no `xmlns:xmlns:…` attribute -/
def NoDouble (n : Node) : Prop := ∀ e, n = .element e → ∀ k, (e.attrs.get k).isSome → ¬ c%"xmlns:xmlns:" <+: k

mutual
theorem prefixScope_of (look : Str → Option Str) (hl : ∀ p, look (c%"xmlns:" ++ p) = none) : (n : Node) →
    (∀ m ∈ docOrder n, NoDouble m) → PrefixRule look n → PrefixScope look n
  | .element ⟨n, cs, a, x, q, c⟩ => by
    intro h1 h2
    rw [docOrder] at h1
    refine ⟨fun p hp => by rw [h2.1 p hp, hl]; simp, ?_⟩
    refine prefixScopeL_of _ ?_ cs (fun m hm => h1 m (by simp [hm])) h2.2
    intro p
    have := h1 _ (List.mem_cons_self ..) _ rfl
    simp only [hl, Option.or_none]
    cases hg : a.get (c%"xmlns:" ++ (c%"xmlns:" ++ p)) with
    | none => rfl
    | some v => exact absurd (⟨p, rfl⟩ : _ <+: c%"xmlns:" ++ (c%"xmlns:" ++ p)) (this _ (by simp only [hg, Option.isSome_some]))
  | .text _ => fun _ _ => trivial
  | .comment _ => fun _ _ => trivial
  | .cdata _ => fun _ _ => trivial
theorem prefixScopeL_of (look : Str → Option Str) (hl : ∀ p, look (c%"xmlns:" ++ p) = none) : (l : List Node) →
    (∀ m ∈ docOrderL l, NoDouble m) → PrefixRuleL look l → PrefixScopeL look l
  | [] => fun _ _ => trivial
  | n :: l => by
    intro h1 h2
    rw [docOrderL] at h1
    exact ⟨prefixScope_of look hl n (fun m hm => h1 m (by simp [hm])) h2.1,
      prefixScopeL_of look hl l (fun m hm => h1 m (by simp [hm])) h2.2⟩
end

/-- unprefixed children of prefixed elements declare a default namespace -/
def Redeclares (n : Node) : Prop := ∀ e, n = .element e → e.pfx ≠ none → ∀ c, Node.element c ∈ e.children → c.pfx = none →
  (c.attrs.get c%"xmlns").isSome

mutual
theorem defaultScope_of (d d' : Option Str) : (n : Node) →
    (∀ m ∈ docOrder n, Redeclares m) → DefaultRule d n → (d = d' ∨ ∀ e, n = .element e → e.pfx = none → (e.attrs.get c%"xmlns").isSome) →
    DefaultScope d' n
  | .element ⟨n, cs, a, x, q, c⟩ => by
    intro h1 h2 h3
    rw [docOrder] at h1
    refine ⟨fun hq => ?_, ?_⟩
    · rw [h2.1 hq]
      rcases h3 with rfl | h3
      · rfl
      · have := h3 _ rfl hq
        simp only at this
        cases hg : a.get c%"xmlns" <;> simp_all
    · refine defaultScopeL_of _ _ cs (fun m hm => h1 m (by simp [hm])) h2.2 ?_
      by_cases hq : q = none
      · left
        rw [if_pos hq]
        rcases h3 with rfl | h3
        · rfl
        · have := h3 _ rfl hq
          simp only at this
          cases hg : a.get c%"xmlns" <;> simp_all
      · right
        intro e he
        exact h1 _ (List.mem_cons_self ..) _ rfl hq e he
  | .text _ => fun _ _ _ => trivial
  | .comment _ => fun _ _ _ => trivial
  | .cdata _ => fun _ _ _ => trivial
theorem defaultScopeL_of (d d' : Option Str) : (l : List Node) →
    (∀ m ∈ docOrderL l, Redeclares m) → DefaultRuleL d l →
    (d = d' ∨ ∀ e, Node.element e ∈ l → e.pfx = none → (e.attrs.get c%"xmlns").isSome) → DefaultScopeL d' l
  | [] => fun _ _ _ => trivial
  | n :: l => by
    intro h1 h2 h3
    rw [docOrderL] at h1
    exact ⟨defaultScope_of d d' n (fun m hm => h1 m (by simp [hm])) h2.1
        (h3.imp id fun h e he => h e (by simp [he])),
      defaultScopeL_of d d' l (fun m hm => h1 m (by simp [hm])) h2.2 (h3.imp id fun h e he => h e (by simp [he]))⟩
end

end KissXml
