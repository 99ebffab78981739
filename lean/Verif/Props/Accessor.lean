import Verif.Proofs.Accessor
import Verif.Props.Build
import Verif.Props.Scope
import Verif.Props.Source
/-!
# C87: name(), namespace(), namespace_prefix(), default_namespace(), tag_name()
-/
namespace KissXml.Props
open KissXml KissXml.Spec

/-- C87 after construction: the name and the prefix are the ones given; the namespace is the one given, else the value of the
attribute that declares it. -/
theorem C87_new {name : Str} {text : Option Str} {attrs : Option SMap} {xmlns pfx : Option Str} {children : Option (List Node)} {e : Element}
    (h : ElementF.new name text attrs xmlns pfx children = .ok e) :
    e.name = name ∧ e.namespacePrefix = pfx ∧ e.namespace_ = xmlns.or ((attrs.getD .empty).get (nsAttr pfx)) ∧
      e.tagName = (pfx.elim [] fun p => p ++ c%":") ++ name ∧
      e.defaultNamespace = if pfx = none then xmlns.or ((attrs.getD .empty).get c%"xmlns") else none := by
  obtain ⟨h1, h2, h3⟩ := C63_new name text attrs xmlns pfx children
  by_cases hn : ApiName name
  · by_cases ha : ∀ k v, (attrs.getD .empty).get k = some v → ApiName k
    · obtain ⟨e', cs, k1, k2, k3, -, k4, -⟩ := h3 hn ha
      rw [h] at k1
      cases k1
      refine ⟨k2, k3, k4, ?_, ?_⟩
      · unfold ElementF.tagName
        rw [k3, k2]
        cases pfx <;> simp
      · unfold ElementF.defaultNamespace
        rw [k3, k4]
        cases pfx <;> simp [nsAttr]
    · simp only [not_forall] at ha
      obtain ⟨k, v, hk, hv⟩ := ha
      obtain ⟨k', v', -, -, he⟩ := h2 hn ⟨k, v, hk, hv⟩
      rw [h] at he
      cases he
  · rw [h1 hn] at h
    cases h

example : (match ElementF.new c%"a" none (some ⟨[(c%"xmlns:p", c%"u")], by decide⟩) none (some c%"p") none with
    | .ok e => (e.name, e.namespacePrefix, e.namespace_, e.tagName, e.defaultNamespace)
    | _ => ([], none, none, [], none)) = (c%"a", some c%"p", some c%"u", c%"p:a", none) := by decide

/-- C87, on every element: `tag_name()` and `default_namespace()` by the other three. -/
theorem C87_derived (e : Element) :
    (e.namespacePrefix = none → e.tagName = e.name ∧ e.defaultNamespace = e.namespace_) ∧
    (∀ p, e.namespacePrefix = some p → e.tagName = p ++ c%":" ++ e.name ∧ e.defaultNamespace = none) := by
  obtain ⟨n, cs, a, x, q, c⟩ := e
  constructor
  · intro h
    have h' : q = none := h
    subst h'
    exact ⟨rfl, rfl⟩
  · intro p h
    have h' : q = some p := h
    subst h'
    exact ⟨rfl, rfl⟩

/-- C87: the queries by namespace and by prefix look for what `namespace()` and `namespace_prefix()` return. -/
theorem C87_queries (e c : Element) (x p : Option Str) :
    (c ∈ e.elementsByNamespace x ↔ Node.element c ∈ e.children ∧ c.namespace_ = x) ∧
    (c ∈ e.elementsByNamespacePrefix p ↔ Node.element c ∈ e.children ∧ c.namespacePrefix = p) := by
  obtain ⟨-, -, h1, h2⟩ := C15_child_queries e
  have hm : c ∈ e.children.filterMap element? ↔ Node.element c ∈ e.children := by
    simp only [List.mem_filterMap]
    constructor
    · rintro ⟨n, hn, h⟩
      cases n <;> simp [element?] at h
      subst h
      exact hn
    · exact fun h => ⟨_, h, rfl⟩
  rw [h1, h2, List.mem_filter, List.mem_filter, hm]
  simp [ElementF.namespace_, ElementF.namespacePrefix]

/-- C87 after parsing a document with one top-level element: of the name in its tag (C61), `namespace_prefix()` is what is before the
first colon and `name()` what is after it; without a colon there is no prefix.  The namespace is that of C73. -/
theorem C87_parsed (x : Str) (d : Document) (pre rest : List (Str × Str)) (h : parseStr x = .ok d) (hp : Parts x pre rest)
    (h1 : OneRoot (rest.map Prod.snd)) :
    List.Forall₂ (fun tag e => ∃ n ps, Pieces tag n ps ∧
      (':' ∉ n ∧ e.namespacePrefix = none ∧ e.name = n ∨
        ∃ p l, n = p ++ ':' :: l ∧ ':' ∉ p ∧ e.namespacePrefix = some p ∧ e.name = l))
      (openTags (rest.map Prod.snd)) (elementsOf d.root) ∧
    ∀ up e, Above d.root up e → e.namespace_ = resolved e up := by
  refine ⟨?_, fun up e he => C73_namespaces x d pre rest h hp h1 up e he⟩
  have hs := root_split h hp h1
  have key : ∀ {ts : List Str} {es : List Element}, List.Forall₂ (TagWrites Unescapes) ts es → (∀ e ∈ es, SplitAtColon e) →
      List.Forall₂ (fun tag e => ∃ n ps, Pieces tag n ps ∧
        (':' ∉ n ∧ e.namespacePrefix = none ∧ e.name = n ∨
          ∃ p l, n = p ++ ':' :: l ∧ ':' ∉ p ∧ e.namespacePrefix = some p ∧ e.name = l)) ts es := by
    intro ts es hw
    induction hw with
    | nil => exact fun _ => .nil
    | @cons tag e _ _ hw _ ih =>
      intro hs
      refine .cons ?_ (ih fun e he => hs e (by simp [he]))
      obtain ⟨s1, s2⟩ := hs e (by simp)
      obtain ⟨ps, hps, -⟩ := hw
      obtain ⟨n, cs, a, x, q, c⟩ := e
      refine ⟨_, ps, hps, ?_⟩
      cases q with
      | none => exact .inl ⟨s2 rfl, rfl, rfl⟩
      | some p => exact .inr ⟨p, n, by simp [ElementF.tagName], s1 p rfl, rfl, rfl⟩
  exact key (root_writes h hp h1) hs

example : ∃ d, parseStr srcInput = .ok d ∧ (elementsOf d.root).map ElementF.namespacePrefix = [some c%"p", none, none] ∧
    (elementsOf d.root).map ElementF.namespace_ = [some c%"u", none, none] := by
  obtain ⟨d, h⟩ := srcOk
  refine ⟨d, h, ?_⟩
  have : (match parseStr srcInput with
    | .ok d => ((elementsOf d.root).map ElementF.namespacePrefix, (elementsOf d.root).map ElementF.namespace_)
    | _ => ([], [])) = ([some c%"p", none, none], [some c%"u", none, none]) := by decide +kernel
  rw [h] at this
  exact Prod.mk.inj this

/-- the hypotheses hold for this document -/
example : (∃ d, parseStr srcInput = .ok d) ∧ Parts srcInput [] srcRest ∧ OneRoot (srcRest.map Prod.snd) :=
  ⟨srcOk, srcParts, oneRootB_sound (by decide)⟩

end KissXml.Props
