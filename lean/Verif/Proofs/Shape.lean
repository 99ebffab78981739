import Verif.Proofs.Accept
/-!
# The tree of an accepted document
-/
namespace KissXml
open Spec

/-! ## namespaces are final after parsing the tag -/

theorem lmap_get_some_of_mem {l : List (Str × Str)} {k v : Str} (h : (k, v) ∈ l) : (LMap.get l k).isSome :=
  lmap_get_isSome.2 ⟨v, h⟩

theorem ctxFold_id (l : List (Str × Str)) (m : SMap) (h : ∀ kv ∈ l, m.containsKey kv.1 = true) :
    l.foldl (fun m kv => if m.containsKey kv.1 then m else m.insert kv.1 kv.2) m = m := by
  induction l with
  | nil => rfl
  | cons kv l ih =>
    rw [List.foldl_cons, if_pos (h kv (by simp))]
    exact ih (fun kv hkv => h kv (by simp [hkv]))

/-- the known prefixes after `set_namespace_context` -/
def ctxMerge (m ctx : SMap) : SMap :=
  ctx.entries.foldl (fun m kv => if m.containsKey kv.1 then m else m.insert kv.1 kv.2) m

theorem ctxMerge_get (m ctx : SMap) (k : Str) : (ctxMerge m ctx).get k = (m.get k).or (ctx.get k) :=
  ctxFold_get ctx.entries ctx.nodup m k

theorem ctxMerge_idem (m ctx : SMap) : ctxMerge (ctxMerge m ctx) ctx = ctxMerge m ctx := by
  apply ctxFold_id
  rintro ⟨k, v⟩ hkv
  show ((ctxMerge m ctx).get k).isSome = true
  rw [ctxMerge_get]
  have : (ctx.get k).isSome := lmap_get_some_of_mem hkv
  cases m.get k <;> simp_all

theorem setNs_some (n : Str) (cs : List Node) (a : SMap) (x q : Option Str) (c : SMap) (d : Option Str) (ctx : SMap) :
    ElementF.setNamespaceContext (⟨n, cs, a, x, q, c⟩ : Element) d (some ctx) =
      ⟨n, cs, a, x.or (match q with | none => d | some p => (ctxMerge c ctx).get p), q, ctxMerge c ctx⟩ := by
  cases x with
  | none => cases q with
    | none => cases d <;> rfl
    | some p => rfl
  | some x => cases q <;> rfl

theorem setNs_idem (e : Element) (d : Option Str) (ctx : SMap) (cs : List Node) :
    ElementF.setNamespaceContext { ElementF.setNamespaceContext e d (some ctx) with children := cs } d (some ctx) =
      { ElementF.setNamespaceContext e d (some ctx) with children := cs } := by
  obtain ⟨n, cs', a, x, q, c⟩ := e
  rw [setNs_some, setNs_some]
  simp only [ctxMerge_idem]
  cases x <;> cases q <;> simp

theorem opens_children {parent : Option Element} {tag : Str} {e : Element} (h : Opens parent tag e) : e.children = [] := by
  obtain ⟨t, attrs, n0, n, x, q, -, hN⟩ := h.elem
  rw [hN.eq, (setNamespaceContext_fields _ _ _).2.1]

theorem opens_stable {p : Element} {tag : Str} {e : Element} (h : Opens (some p) tag e) (cs : List Node) :
    applyXmlnsContext p.defaultNamespace p.ctx (.element { e with children := cs }) = .element { e with children := cs } := by
  obtain ⟨t, attrs, n0, n, x, q, -, hN⟩ := h.elem
  rw [hN.eq]
  simp only [applyXmlnsContext]
  congr 1
  exact setNs_idem _ _ _ _

/-! ## the forest of an element -/

theorem withText_ok {text : Str} {f f' : Forest} (h : WithText text f f') (hf : f.Ok) (ht : ¬ f.textFirst) : f'.Ok := by
  cases h with
  | blank => exact hf
  | text => exact ⟨ht, hf⟩

theorem body_ok {e : Element} {toks : List (Str × Str)} {f : Forest} (h : Body e toks f) : f.Ok := by
  induction h with
  | close _ hw => exact withText_ok hw trivial (fun h => h)
  | comment _ _ hw ih => exact withText_ok hw (by simpa [Forest.Ok] using ih) (fun h => h)
  | cdata _ _ hw ih => exact withText_ok hw (by simpa [Forest.Ok] using ih) (fun h => h)
  | empty hO _ _ hw ih => exact withText_ok hw ⟨opens_children hO, ih⟩ (fun h => h)
  | elem hO _ _ _ hw ih1 ih2 => exact withText_ok hw ⟨opens_children hO, ih1, ih2⟩ (fun h => h)

/-- the nodes of a forest -/
def plain : Forest → List Node
  | .nil => []
  | .leaf n r => if isBlankText n then plain r else n :: plain r
  | .elem c k r => .element { c with children := plain k } :: plain r

/-- every element of the forest already has the namespaces of its parent -/
def Settled (e : Element) : Forest → Prop
  | .nil => True
  | .leaf n r => applyXmlnsContext e.defaultNamespace e.ctx n = n ∧ Settled e r
  | .elem c k r => (∀ cs, applyXmlnsContext e.defaultNamespace e.ctx (.element { c with children := cs }) =
      .element { c with children := cs }) ∧ Settled c k ∧ Settled e r

theorem withText_settled {e : Element} {text : Str} {f f' : Forest} (h : WithText text f f') (hf : Settled e f) : Settled e f' := by
  cases h with
  | blank => exact hf
  | text => exact ⟨rfl, hf⟩

theorem body_settled {e : Element} {toks : List (Str × Str)} {f : Forest} (h : Body e toks f) : Settled e f := by
  induction h with
  | close _ hw => exact withText_settled hw trivial
  | comment _ _ hw ih => exact withText_settled hw ⟨rfl, ih⟩
  | cdata _ _ hw ih => exact withText_settled hw ⟨rfl, ih⟩
  | @empty e c text tag toks f f' hO _ _ hw ih =>
    refine withText_settled hw ⟨?_, ih⟩
    have h := opens_stable hO []
    have hc := opens_children hO
    obtain ⟨n, cs, a, x, q, cc⟩ := c
    simp at hc
    subst hc
    exact h
  | elem hO _ _ _ hw ih1 ih2 => exact withText_settled hw ⟨fun cs => opens_stable hO cs, ih1, ih2⟩

theorem build_plain {e : Element} {f : Forest} (h : Settled e f) : build e f = plain f := by
  induction f generalizing e with
  | nil => rfl
  | leaf n r ih => rw [build, plain, ih h.2, h.1]
  | elem c k r ih1 ih2 => rw [build, plain, ih1 h.2.1, ih2 h.2.2, h.1]

theorem body_dom {e : Element} {toks : List (Str × Str)} {f : Forest} (h : Body e toks f) (he : e.children = []) :
    (addRev e f).reverseChildren = { e with children := plain f } := by
  rw [addRev_eq (body_ok h) e he, build_plain (body_settled h)]
  simp [ElementF.reverseChildren]

theorem addRev_fields (e : Element) (f : Forest) : (addRev e f).name = e.name ∧ (addRev e f).attrs = e.attrs ∧
    (addRev e f).xmlns = e.xmlns ∧ (addRev e f).pfx = e.pfx ∧ (addRev e f).ctx = e.ctx := by
  induction f with
  | nil => simp [addRev]
  | leaf n r ih => simpa [addRev, addOne] using ih
  | elem c k r _ ih => simpa [addRev, addOne] using ih

end KissXml
