import Verif.Proofs.NewTag
import Verif.Props.Scope
/-!
# C121: other prefixes

A prefix is only a placeholder for a namespace: with other prefixes, an element has the same namespace.
-/
namespace KissXml.Props
open KissXml KissXml.Spec

/-- C121 (partial): if the tree of one parsed document is that of another one with the prefixes renamed (in the names of the elements and in the
declarations), then elements in the same places have the same name and the same namespace, as long as no element has an attribute
`xmlns:xmlns:p`. Missing: documents with such attributes, for which it is false (`C121_false`). -/
theorem C121_partial (x x' : Str) (d d' : Document) (pre pre' rest rest' : List (Str × Str)) (ρ : Str → Str)
    (h : parseStr x = .ok d) (hp : Parts x pre rest) (h1 : OneRoot (rest.map Prod.snd))
    (h' : parseStr x' = .ok d') (hp' : Parts x' pre' rest') (h1' : OneRoot (rest'.map Prod.snd))
    (hr : Pairs (OtherPrefix ρ) (.element d.root) (.element d'.root))
    (ht : ∀ up e, Above d.root up e → NoTwice e) (ht' : ∀ up e, Above d'.root up e → NoTwice e) :
    Pairs (fun e e' => e'.name = e.name ∧ e'.xmlns = e.xmlns) (.element d.root) (.element d'.root) := by
  refine pairs_above (r := d.root) (r' := d'.root) (fun up up' e e' he he' hu => ?_) hr [] [] .nil (fun e he => ?_) (fun e he => ?_)
  · cases hu with
    | cons hu hv =>
      refine ⟨hu.1, ?_⟩
      rw [C73_namespaces x d pre rest h hp h1 up e he, C73_namespaces x' d' pre' rest' h' hp' h1' up' e' he']
      exact resolved_other hu hv (fun a ha => above_all ht he a ha) (fun a ha => above_all ht' he' a ha)
  · cases he; exact .here
  · cases he; exact .here

/-- C121, in the source (partial): rename the prefixes in the tags of an accepted input with one top-level element, in the names and in the
declarations, so that every tag still has a part that fits the pattern of tags. Then the new input is accepted, with the same declaration and
document types; the tree is the old one with the other prefixes; and elements in the same places have the same namespaces. The attributes
that declare no namespaces are free. Missing: tags with attributes `xmlns:xmlns:p`. -/
theorem C121_source_partial (x x' : Str) (d : Document) (pre rest rest' : List (Str × Str)) (ρ : Str → Str)
    (h : parseStr x = .ok d) (hp : Parts x pre rest) (h1 : OneRoot (rest.map Prod.snd)) (hp' : Parts x' pre rest')
    (hv : List.Forall₂ (NewTok ρ) rest rest') :
    ∃ d', parseStr x' = .ok d' ∧ d'.declaration = d.declaration ∧ d'.dtds = d.dtds ∧
      Pairs (fun e e' => OtherPrefix ρ e e' ∧ e'.xmlns = e.xmlns) (.element d.root) (.element d'.root) := by
  obtain ⟨d', g1, g2, g3, g4, g5⟩ := parse_new h hp hp' h1 hv
  refine ⟨d', g1, g2, g3, ?_⟩
  have ht : ∀ up e, Above d.root up e → NoTwice e := fun up e he => by
    obtain ⟨e', k⟩ := pairs_left g5 he
    exact (pairs_holds k).once
  have ht' : ∀ up e, Above d'.root up e → NoTwice e := fun up e he => by
    obtain ⟨e', k⟩ := pairs_right g5 he
    exact (pairs_holds k).once'
  refine pairs_above (r := d.root) (r' := d'.root) (fun up up' e e' he he' hu => ?_) (pairs_imp (fun _ _ h => h.other) g5) [] [] .nil
    (fun e he => ?_) (fun e he => ?_)
  · cases hu with
    | cons hu hv =>
      refine ⟨hu, ?_⟩
      rw [C73_namespaces x d pre rest h hp h1 up e he, C73_namespaces x' d' pre rest' g1 hp' g4 up' e' he']
      exact resolved_other hu hv (fun a ha => above_all ht he a ha) (fun a ha => above_all ht' he' a ha)
  · cases he; exact .here
  · cases he; exact .here

/-- the names and the namespaces of the children of the root of an input -/
def childNs (x : Str) : List (Str × Option Str) :=
  match parseStr x with
  | .ok d => d.root.childElements.map fun e => (e.name, e.xmlns)
  | _ => []

/-- C121 is false in general: here `p` is renamed to `q`, and the element is in another namespace. -/
theorem C121_false : childNs c%"<r xmlns:p='u' xmlns:xmlns:p='v'><p:a/></r>" = [(c%"a", some c%"v")] ∧
    childNs c%"<r xmlns:q='u' xmlns:xmlns:p='v'><q:a/></r>" = [(c%"a", some c%"u")] := by decide +kernel

/-! ## an example -/

/-- `p` and `q`, swapped -/
def swapPQ (s : Str) : Str := if s = c%"p" then c%"q" else if s = c%"q" then c%"p" else s

/-- a document with `p` -/
def withP : Str := c%"<p:a xmlns:p='u'><p:b/><c/></p:a>"
/-- the same with `q` -/
def withQ : Str := c%"<q:a xmlns:q='u'><q:b/><c/></q:a>"
/-- the root of the first one -/
def rootP : Element := ⟨c%"a", [.element ⟨c%"b", [], .empty, some c%"u", some c%"p", ⟨[(c%"p", c%"u")], by decide⟩⟩,
  .element ⟨c%"c", [], .empty, none, none, ⟨[(c%"p", c%"u")], by decide⟩⟩], ⟨[(c%"xmlns:p", c%"u")], by decide⟩, some c%"u", some c%"p",
  ⟨[(c%"p", c%"u")], by decide⟩⟩
/-- the root of the second one -/
def rootQ : Element := ⟨c%"a", [.element ⟨c%"b", [], .empty, some c%"u", some c%"q", ⟨[(c%"q", c%"u")], by decide⟩⟩,
  .element ⟨c%"c", [], .empty, none, none, ⟨[(c%"q", c%"u")], by decide⟩⟩], ⟨[(c%"xmlns:q", c%"u")], by decide⟩, some c%"u", some c%"q",
  ⟨[(c%"q", c%"u")], by decide⟩⟩

-- they meet the hypotheses
set_option maxRecDepth 20000 in
example : parseStr withP = .ok ⟨none, [], rootP⟩ ∧ parseStr withQ = .ok ⟨none, [], rootQ⟩ := ⟨rfl, rfl⟩

example : Parts withP [] [([], c%"<p:a xmlns:p='u'>"), ([], c%"<p:b/>"), ([], c%"<c/>"), ([], c%"</p:a>")] ∧
    OneRoot [c%"<p:a xmlns:p='u'>", c%"<p:b/>", c%"<c/>", c%"</p:a>"] := ⟨partsB_sound [] (by decide) rfl, oneRootB_sound (by decide)⟩

example : Parts withQ [] [([], c%"<q:a xmlns:q='u'>"), ([], c%"<q:b/>"), ([], c%"<c/>"), ([], c%"</q:a>")] ∧
    OneRoot [c%"<q:a xmlns:q='u'>", c%"<q:b/>", c%"<c/>", c%"</q:a>"] := ⟨partsB_sound [] (by decide) rfl, oneRootB_sound (by decide)⟩

example : Pairs (OtherPrefix swapPQ) (.element rootP) (.element rootQ) := by
  have h0 : ∀ n y y' q c c', OtherPrefix swapPQ ⟨n, [], .empty, y, q, c⟩ ⟨n, [], .empty, y', q.map swapPQ, c'⟩ :=
    fun n y y' q c c' => ⟨rfl, rfl, rfl, fun p => rfl⟩
  refine .element ⟨rfl, rfl, rfl, fun p => ?_⟩ (.cons (.element (h0 ..) .nil) (.cons (.element (h0 ..) .nil) .nil))
  simp only [rootP, rootQ, SMap.get, LMap.get, swapPQ]
  by_cases h1 : p = c%"p"
  · subst h1; decide
  by_cases h2 : p = c%"q"
  · subst h2; decide
  simp [h1, h2, Ne.symm h1, Ne.symm h2]

example : (∀ up e, Above rootP up e → NoTwice e) ∧ ∀ up e, Above rootQ up e → NoTwice e := by
  constructor
  · have h0 : ∀ up e, Above rootP up e → e = rootP ∨ e.children = [] ∧ e.attrs = .empty := by
      intro up e h
      induction h with
      | here => exact .inl rfl
      | down _ hc ih =>
        rcases ih with rfl | ⟨ih, -⟩
        · simp [rootP] at hc; rcases hc with rfl | rfl <;> exact .inr ⟨rfl, rfl⟩
        · rw [ih] at hc; cases hc
    intro up e h p
    rcases h0 up e h with rfl | ⟨-, h⟩
    · simp [rootP, SMap.get, LMap.get]
    · rw [h]; rfl
  · have h0 : ∀ up e, Above rootQ up e → e = rootQ ∨ e.children = [] ∧ e.attrs = .empty := by
      intro up e h
      induction h with
      | here => exact .inl rfl
      | down _ hc ih =>
        rcases ih with rfl | ⟨ih, -⟩
        · simp [rootQ] at hc; rcases hc with rfl | rfl <;> exact .inr ⟨rfl, rfl⟩
        · rw [ih] at hc; cases hc
    intro up e h p
    rcases h0 up e h with rfl | ⟨-, h⟩
    · simp [rootQ, SMap.get, LMap.get]
    · rw [h]; rfl

/-- renaming in the source -/
theorem exNewTags : List.Forall₂ (NewTok swapPQ) [([], c%"<p:a xmlns:p='u'>"), ([], c%"<p:b/>"), ([], c%"<c/>"), ([], c%"</p:a>")]
    [([], c%"<q:a xmlns:q='u'>"), ([], c%"<q:b/>"), ([], c%"<c/>"), ([], c%"</q:a>")] := by
  refine .cons ⟨rfl, ?_⟩ (.cons ⟨rfl, ?_⟩ (.cons ⟨rfl, ?_⟩ (.cons ⟨rfl, ?_⟩ .nil)))
  · refine newTag_of (n := c%"p:a") (n' := c%"q:a") (m := ⟨[(c%"xmlns:p", c%"u")], by decide⟩) (m' := ⟨[(c%"xmlns:q", c%"u")], by decide⟩)
      (.inl rfl) rfl (by decide) ⟨c%"p:a xmlns:p='u'", rfl⟩ ⟨c%"q:a xmlns:q='u'", rfl⟩ rfl rfl rfl rfl rfl rfl
      (.prefixed (p := c%"p") (l := c%"a") (by decide) (by decide)) (by decide) (by decide) rfl fun p => ?_
    simp only [SMap.get, LMap.get, swapPQ]
    by_cases h1 : p = c%"p"
    · subst h1; decide
    by_cases h2 : p = c%"q"
    · subst h2; decide
    simp [h1, h2, Ne.symm h1, Ne.symm h2]
  · exact newTag_of (n := c%"p:b") (n' := c%"q:b") (m := .empty) (m' := .empty) (.inr rfl) rfl (by decide) ⟨c%"p:b/", rfl⟩ ⟨c%"q:b/", rfl⟩
      rfl rfl rfl rfl rfl rfl (.prefixed (p := c%"p") (l := c%"b") (by decide) (by decide)) (by decide) (by decide) rfl fun _ => rfl
  · exact newTag_of (n := c%"c") (n' := c%"c") (m := .empty) (m' := .empty) (.inr rfl) rfl (by decide) ⟨c%"c/", rfl⟩ ⟨c%"c/", rfl⟩
      rfl rfl rfl rfl rfl rfl (.plain (by decide)) (by decide) (by decide) rfl fun _ => rfl
  · exact .close (n := c%"p:a") (n' := c%"q:a") rfl rfl (fun h => by have := badTag_iff.1 h; revert this; decide)
      (inner_iff.2 ⟨rfl, c%"/p:a", rfl⟩) (inner_iff.2 ⟨rfl, c%"/q:a", rfl⟩) (.prefixed (p := c%"p") (l := c%"a") (by decide) (by decide))

end KissXml.Props
