import Verif.Proofs.Scope
import Verif.Spec.Scope
/-!
# Namespaces of parsed elements, exactly
-/
namespace KissXml
open Spec

mutual
/-- the prefixes that an element knows: its own and those around it -/
def CtxRule (look : Str → Option Str) : Node → Prop
  | .element ⟨_, cs, a, _, _, ctx⟩ => (∀ p, ctx.get p = (a.get (c%"xmlns:" ++ p)).or (look p)) ∧
      CtxRuleL (fun p => (a.get (c%"xmlns:" ++ p)).or (look p)) cs
  | .text _ => True
  | .comment _ => True
  | .cdata _ => True
/-- the same for a list of nodes -/
def CtxRuleL (look : Str → Option Str) : List Node → Prop
  | [] => True
  | n :: l => CtxRule look n ∧ CtxRuleL look l
end

theorem withText_ctx {text : Str} {f f' : Forest} (h : WithText text f f') {look : Str → Option Str}
    (hf : CtxRuleL look (plain f)) : CtxRuleL look (plain f') := by
  cases h with
  | blank => exact hf
  | text =>
    rw [plain]
    split
    · exact hf
    · exact ⟨trivial, hf⟩

theorem body_ctx {e : Element} {toks : List (Str × Str)} {f : Forest} (h : Body e toks f) :
    ∀ (look : Str → Option Str) (d : Option Str), Hands e look d → CtxRuleL look (plain f) := by
  induction h with
  | close _ hw => intro look d _; exact withText_ctx hw trivial
  | comment _ _ hw ih => intro look d he; exact withText_ctx hw ⟨trivial, ih look d he⟩
  | cdata _ _ hw ih => intro look d he; exact withText_ctx hw ⟨trivial, ih look d he⟩
  | @empty e c text tag toks f f' hO _ _ hw ih =>
    intro look d he
    obtain ⟨h1, h2, h3⟩ := opens_ns hO he
    have hc := opens_children hO
    obtain ⟨n, cs, a, x, q, cc⟩ := c
    simp only at hc
    subst hc
    exact withText_ctx hw ⟨⟨h3.ctx, trivial⟩, ih look d he⟩
  | @elem e c text tag toks1 toks2 k f f' hO _ _ _ hw ih1 ih2 =>
    intro look d he
    obtain ⟨h1, h2, h3⟩ := opens_ns hO he
    obtain ⟨n, cs, a, x, q, cc⟩ := c
    exact withText_ctx hw ⟨⟨h3.ctx, ih1 _ _ h3⟩, ih2 look d he⟩

theorem root_ctx {tag : Str} {rest : List (Str × Str)} {E : Element} {F : Forest} (h : RootPart tag rest E F)
    (h1 : OneRoot (tag :: tagsOf rest)) : CtxRule (fun _ => none) (.element (addRev E F).reverseChildren) := by
  obtain ⟨hO, hB⟩ := root_one h h1
  obtain ⟨g1, g2, g3⟩ := opens_ns_root hO
  have hl : (fun q => E.attrs.get (c%"xmlns:" ++ q)) = (fun q => (E.attrs.get (c%"xmlns:" ++ q)).or none) := by
    funext q; simp
  rw [hl] at g3
  rcases hB with ⟨-, -, rfl⟩ | ⟨-, hB⟩
  · rw [addRev]
    have hc := opens_children hO
    obtain ⟨n, cs, a, x, q, cc⟩ := E
    simp only at hc
    subst hc
    exact ⟨g3.ctx, trivial⟩
  · rw [body_dom hB (opens_children hO)]
    have := body_ctx hB _ _ g3
    obtain ⟨n, cs, a, x, q, cc⟩ := E
    exact ⟨g3.ctx, this⟩

theorem prefixRuleL_mem {look : Str → Option Str} {l : List Node} (h : PrefixRuleL look l) : ∀ n ∈ l, PrefixRule look n := by
  induction l with
  | nil => simp
  | cons m l ih =>
    intro n hn
    rcases List.mem_cons.1 hn with rfl | hn
    · exact h.1
    · exact ih h.2 n hn

theorem defaultRuleL_mem {d : Option Str} {l : List Node} (h : DefaultRuleL d l) : ∀ n ∈ l, DefaultRule d n := by
  induction l with
  | nil => simp
  | cons m l ih =>
    intro n hn
    rcases List.mem_cons.1 hn with rfl | hn
    · exact h.1
    · exact ih h.2 n hn

theorem ctxRuleL_mem {look : Str → Option Str} {l : List Node} (h : CtxRuleL look l) : ∀ n ∈ l, CtxRule look n := by
  induction l with
  | nil => simp
  | cons m l ih =>
    intro n hn
    rcases List.mem_cons.1 hn with rfl | hn
    · exact h.1
    · exact ih h.2 n hn

theorem nearest_cons (k : Str) (e : Element) (l : List Element) : nearest k (e :: l) = (e.attrs.get k).or (nearest k l) := by
  unfold nearest
  rw [List.findSome?_cons]
  cases e.attrs.get k <;> rfl

theorem above_rules {r : Element} (h1 : PrefixRule (fun _ => none) (.element r)) (h2 : DefaultRule none (.element r))
    (h3 : CtxRule (fun _ => none) (.element r)) {up : List Element} {e : Element} (h : Above r up e) :
    PrefixRule (fun p => nearest (c%"xmlns:" ++ p) up) (.element e) ∧
    DefaultRule (nearest c%"xmlns" (up.takeWhile fun a => a.pfx.isNone)) (.element e) ∧
    CtxRule (fun p => nearest (c%"xmlns:" ++ p) up) (.element e) := by
  induction h with
  | here => exact ⟨h1, h2, h3⟩
  | @down up e c _ hm ih =>
    obtain ⟨g1, g2, g3⟩ := ih
    obtain ⟨n, cs, a, x, q, cc⟩ := e
    have hl : (fun p => nearest (c%"xmlns:" ++ p) ((⟨n, cs, a, x, q, cc⟩ : Element) :: up)) =
        fun p => (a.get (c%"xmlns:" ++ p)).or (nearest (c%"xmlns:" ++ p) up) := by
      funext p; rw [nearest_cons]
    rw [hl]
    refine ⟨prefixRuleL_mem g1.2 _ hm, ?_, ctxRuleL_mem g3.2 _ hm⟩
    have := defaultRuleL_mem g2.2 _ hm
    cases q with
    | none => simpa [List.takeWhile_cons, nearest_cons] using this
    | some q => simpa [List.takeWhile_cons, nearest] using this

end KissXml
