import Verif.Proofs.Source
/-!
# Names and prefixes of parsed elements
-/
namespace KissXml
open KissXml.Spec

/-- the prefix has no colon; a name without prefix has none either -/
def SplitAtColon (e : Element) : Prop := (∀ p, e.pfx = some p → ':' ∉ p) ∧ (e.pfx = none → ':' ∉ e.name)

theorem opens_split {parent : Option Element} {tag : Str} {e : Element} (h : Opens parent tag e) (cs : List Node) :
    SplitAtColon { e with children := cs } := by
  obtain ⟨t, attrs, n0, n, x, q, -, hN⟩ := h.elem
  have hf := setNamespaceContext_fields ⟨n, [], attrs, x.or (ownNs attrs q), q, ElementF.xmlnsContextFromAttributes attrs⟩
    (parent.bind ElementF.defaultNamespace) (parent.map ElementF.ctx)
  rw [← hN.eq] at hf
  have hn : e.name = n := by simpa using hf.1
  have hq : e.pfx = q := by simpa using hf.2.2.2
  constructor
  · intro p hp
    have hp' : q = some p := by rw [← hq]; exact hp
    cases hN.name with
    | plain => cases hp'
    | own _ h => cases hp'; exact h
    | inh _ h => cases hp'; exact h
  · intro hp
    have hp' : q = none := by rw [← hq]; exact hp
    show ':' ∉ e.name
    rw [hn]
    cases hN.name with
    | plain h => exact h
    | own => cases hp'
    | inh => cases hp'

theorem body_split {e : Element} {toks : List (Str × Str)} {f : Forest} (h : Body e toks f) :
    ∀ c ∈ elementsL (plain f), SplitAtColon c := by
  induction h with
  | close hc hw =>
    rw [elementsL_withText hw]
    simp [plain, elementsL, docOrderL]
  | @comment e text c toks f f' _ _ hw ih =>
    rw [elementsL_withText hw]
    have : elementsL (plain (.leaf (.comment c) f)) = elementsL (plain f) := by
      rw [plain, if_neg (by simp [isBlankText]), elementsL_cons]; rfl
    rwa [this]
  | @cdata e text c toks f f' _ _ hw ih =>
    rw [elementsL_withText hw]
    have : elementsL (plain (.leaf (.cdata c) f)) = elementsL (plain f) := by
      rw [plain, if_neg (by simp [isBlankText]), elementsL_cons]; rfl
    rwa [this]
  | @empty e c text tag toks f f' hO hs _ hw ih =>
    rw [elementsL_withText hw]
    have : elementsL (plain (.leaf (.element c) f)) = c :: elementsL (plain f) := by
      rw [plain, if_neg (by simp [isBlankText]), elementsL_cons]
      have := elementsOf_eq c
      rw [opens_children hO] at this
      unfold elementsOf at this
      rw [this]; rfl
    rw [this]
    intro y hy
    rcases List.mem_cons.1 hy with rfl | hy
    · exact opens_split hO y.children
    · exact ih y hy
  | @elem e c text tag toks1 toks2 k f f' hO hs _ _ hw ih1 ih2 =>
    rw [elementsL_withText hw]
    have : elementsL (plain (.elem c k f)) = { c with children := plain k } :: (elementsL (plain k) ++ elementsL (plain f)) := by
      rw [plain, elementsL_cons]
      have := elementsOf_eq { c with children := plain k }
      unfold elementsOf at this
      rw [this]; rfl
    rw [this]
    intro y hy
    rcases List.mem_cons.1 hy with rfl | hy
    · exact opens_split hO (plain k)
    · rcases List.mem_append.1 hy with hy | hy
      · exact ih1 y hy
      · exact ih2 y hy

theorem root_split {x : Str} {d : Document} {pre rest : List (Str × Str)} (h : parseStr x = .ok d) (hp : Parts x pre rest)
    (h1 : OneRoot (tagsOf rest)) : ∀ e ∈ elementsOf d.root, SplitAtColon e := by
  obtain ⟨text, tag, rest', E, F, rfl, -, hR, hd, ha⟩ := accepted_parts h hp
  obtain ⟨hO, hB⟩ := root_one hR h1
  have hr : d.root = { E with children := plain F } := by
    rw [hd]
    rcases hB with ⟨-, -, rfl⟩ | ⟨-, hB⟩
    · have := opens_children hO
      obtain ⟨n, cs, a, x, q, c⟩ := E
      simp at this
      subst this
      rfl
    · exact body_dom hB (opens_children hO)
  rw [hr, elementsOf_eq]
  intro y hy
  rcases List.mem_cons.1 hy with rfl | hy
  · exact opens_split hO _
  · rcases hB with ⟨-, rfl, rfl⟩ | ⟨-, hB⟩
    · cases hy
    · exact body_split hB y hy

end KissXml
