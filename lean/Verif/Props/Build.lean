import Verif.Proofs.Build
import Verif.Props.Serialize
import Verif.Props.Dom
/-!
# C63, C64: constructors of elements and documents
-/
namespace KissXml.Props
open KissXml KissXml.Spec

/-! ## C63: elements -/

/-- the children that a text argument gives -/
def textArg : Option Str → List Node
  | none => []
  | some t => if Blank t then [] else [.text t]

/-- the attribute that declares the namespace of an element with this prefix -/
def nsAttr : Option Str → Str
  | none => c%"xmlns"
  | some p => c%"xmlns:" ++ p

theorem handedDown_map (e : Element) (ns : List Node) :
    List.Forall₂ (HandedDown (givenDefault e) e.ctx) ns (ns.map (applyXmlnsContext e.defaultNamespace e.ctx)) := by
  rw [givenDefault_eq]
  induction ns with
  | nil => exact .nil
  | cons n ns ih => exact .cons (handedDown_apply _ _ _) ih

theorem find_valid {m : SMap} (h : ∀ k v, m.get k = some v → ApiName k) : m.entries.find? (fun kv => !validName kv.1) = none := by
  rw [List.find?_eq_none]
  intro kv hkv
  simp [validName_iff.2 (h kv.1 kv.2 (SMap.get_eq_some.2 hkv))]

/-- C63: `Element::new` rejects bad names, first the element name and then the attribute names, naming a bad one; otherwise the
element has the name, prefix and attributes given, the namespace given or else declared by its own attributes, the text and after it
the children, in text-normal form, each with what the element hands down. -/
theorem C63_new (name : Str) (text : Option Str) (attrs : Option SMap) (xmlns pfx : Option Str) (children : Option (List Node)) :
    (¬ ApiName name → ElementF.new name text attrs xmlns pfx children = .err (.invalidElementName name)) ∧
    (ApiName name → (∃ k v, (attrs.getD .empty).get k = some v ∧ ¬ ApiName k) →
      ∃ k v, (attrs.getD .empty).get k = some v ∧ ¬ ApiName k ∧
        ElementF.new name text attrs xmlns pfx children = .err (.invalidAttributeName k)) ∧
    (ApiName name → (∀ k v, (attrs.getD .empty).get k = some v → ApiName k) →
      ∃ e cs, ElementF.new name text attrs xmlns pfx children = .ok e ∧
        e.name = name ∧ e.pfx = pfx ∧ e.attrs = attrs.getD .empty ∧
        e.xmlns = xmlns.or ((attrs.getD .empty).get (nsAttr pfx)) ∧
        (∀ p, e.ctx.get p = (attrs.getD .empty).get (c%"xmlns:" ++ p)) ∧
        List.Forall₂ (HandedDown (givenDefault e) e.ctx) (children.getD []) cs ∧
        e.children = normalText (textArg text ++ cs)) := by
  rw [new_eq]
  refine ⟨fun h => ?_, fun h hb => ?_, fun h hg => ?_⟩
  · have : validName name = false := by simpa using fun h' => h (validName_iff.1 h')
    simp [this]
  · simp only [validName_iff.2 h, Bool.not_true, Bool.false_eq_true, if_false]
    cases hf : (attrs.getD .empty).entries.find? (fun kv => !validName kv.1) with
    | none =>
      obtain ⟨k, v, h1, h2⟩ := hb
      have := List.find?_eq_none.1 hf (k, v) (SMap.get_eq_some.1 h1)
      exact absurd (validName_iff.1 (by simpa using this)) h2
    | some kv' =>
      exact ⟨kv'.1, kv'.2, SMap.get_eq_some.2 (List.mem_of_find?_eq_some hf), fun h' => by
        have := List.find?_some hf
        simp [validName_iff.2 h'] at this, rfl⟩
  · simp only [validName_iff.2 h, Bool.not_true, Bool.false_eq_true, if_false, find_valid hg]
    have hT : textKids text = textArg text := by cases text <;> rfl
    refine ⟨_, _, rfl, rfl, rfl, rfl, ?_, xmlnsContext_get _, handedDown_map _ _, by rw [hT]; rfl⟩
    cases pfx <;> rfl

/-- `<r xmlns:p="u">t<p:q/></r>` from its parts -/
example : (match ElementF.new c%"r" (some c%"t") (some ⟨[(c%"xmlns:p", c%"u")], by decide⟩) none none (some [.element pq, .text c%" "]) with
    | .ok e => e.toString
    | _ => []) = c%"<r xmlns:p=\"u\">t<p:q/></r>" := by decide
example : ApiName c%"r" ∧ ¬ ApiName c%"1" ∧ ¬ ApiName c%"a b" :=
  ⟨validName_iff.1 rfl, fun h => absurd (validName_iff.2 h) (by decide), fun h => absurd (validName_iff.2 h) (by decide)⟩

/-- C63 for the other constructors: their results when the names are right … -/
theorem C63_shortcuts (name : Str) (h : ApiName name) :
    ElementF.newFromName name = .ok ⟨name, [], .empty, none, none, .empty⟩ ∧
    (∀ t, ElementF.newWithText name t = .ok ⟨name, textArg (some t), .empty, none, none, .empty⟩) ∧
    (∀ cs, ∃ cs', List.Forall₂ (HandedDown none .empty) cs cs' ∧
      ElementF.newWithChildren name cs = .ok ⟨name, normalText cs', .empty, none, none, .empty⟩) ∧
    (∀ a : SMap, (∀ k v, a.get k = some v → ApiName k) → ∃ c, (∀ p, c.get p = a.get (c%"xmlns:" ++ p)) ∧
      ElementF.newWithAttributes name a = .ok ⟨name, [], a, a.get c%"xmlns", none, c⟩ ∧
      (∀ t, ElementF.newWithAttributesAndText name a t = .ok ⟨name, textArg (some t), a, a.get c%"xmlns", none, c⟩) ∧
      ∀ cs, ∃ cs', List.Forall₂ (HandedDown (a.get c%"xmlns") c) cs cs' ∧
        ElementF.newWithAttributesAndChildren name a cs = .ok ⟨name, normalText cs', a, a.get c%"xmlns", none, c⟩) := by
  have h' := validName_iff.2 h
  refine ⟨?_, fun t => ?_, fun cs => ⟨_, handedDown_map ⟨name, [], .empty, none, none, .empty⟩ cs, ?_⟩, fun a ha =>
    ⟨_, xmlnsContext_get a, ?_, fun t => ?_, fun cs => ⟨_, handedDown_map ⟨name, [], a, a.get c%"xmlns", none,
      ElementF.xmlnsContextFromAttributes a⟩ cs, ?_⟩⟩⟩
  · simp [ElementF.newFromName, checkElemName, h', ElementF.dflt]
  · rw [ElementF.newWithText, new_eq]
    simp only [h', Bool.not_true, Bool.false_eq_true, if_false, Option.getD_none, List.map_nil, List.append_nil,
      normalText_textKids]
    rfl
  · rw [ElementF.newWithChildren, new_eq]
    simp only [h', Bool.not_true, Bool.false_eq_true, if_false]
    rfl
  · rw [ElementF.newWithAttributes, new_eq]
    simp only [h', Bool.not_true, Bool.false_eq_true, if_false, Option.getD_some, find_valid ha]
    rfl
  · rw [ElementF.newWithAttributesAndText, new_eq]
    simp only [h', Bool.not_true, Bool.false_eq_true, if_false, Option.getD_some, find_valid ha, Option.getD_none, List.map_nil,
      List.append_nil, normalText_textKids]
    rfl
  · rw [ElementF.newWithAttributesAndChildren, new_eq]
    simp only [h', Bool.not_true, Bool.false_eq_true, if_false, Option.getD_some, find_valid ha]
    rfl

/-- … and when they are not -/
theorem C63_shortcuts_fail (name : Str) (h : ¬ ApiName name) (a : SMap) (t : Str) (cs : List Node) :
    ElementF.newFromName name = .err (.invalidElementName name) ∧
    ElementF.newWithText name t = .err (.invalidElementName name) ∧
    ElementF.newWithChildren name cs = .err (.invalidElementName name) ∧
    ElementF.newWithAttributes name a = .err (.invalidElementName name) ∧
    ElementF.newWithAttributesAndText name a t = .err (.invalidElementName name) ∧
    ElementF.newWithAttributesAndChildren name a cs = .err (.invalidElementName name) := by
  refine ⟨?_, (C63_new _ _ _ _ _ _).1 h, (C63_new _ _ _ _ _ _).1 h, (C63_new _ _ _ _ _ _).1 h, (C63_new _ _ _ _ _ _).1 h,
    (C63_new _ _ _ _ _ _).1 h⟩
  unfold ElementF.newFromName checkElemName
  rw [if_neg (fun h' => h (validName_iff.1 h'))]
  rfl

example : (match ElementF.newWithText c%"a" c%" \n" with | .ok e => e.toString | _ => []) = c%"<a/>" := by decide
example : (match ElementF.newWithAttributes c%"a" ⟨[(c%"b", c%"1"), (c%"2", c%"c")], by decide⟩ with
    | .err (.invalidAttributeName k) => k | _ => []) = c%"2" := by decide

/-! ## C64: documents -/

/-- the root laid out with two spaces per level -/
def Laid (e : Element) (s : Str) : Prop := ELayout c%"  " 0 false e s

/-- C64: what a new document is and how it is written -/
theorem C64_new (root : Element) (decl : Option Declaration) (dtds : Option (List DTD)) :
    (Document.new root).root = root ∧ (Document.new root).dtds = [] ∧
    (Document.newWithDeclDtd root decl dtds).root = root ∧ (Document.newWithDeclDtd root decl dtds).declaration = decl ∧
    (Document.newWithDeclDtd root decl dtds).dtds = dtds.getD [] ∧
    ∃ s, Laid root s ∧ (Document.new root).toString = c%"<?xml version=\"1.0\" encoding=\"UTF-8\"?>\n" ++ s ++ c%"\n" ∧
      (Document.newWithDeclDtd root decl dtds).toString = (decl.elim [] fun x => c%"<?" ++ x.declStr ++ c%"?>\n") ++
        ((dtds.getD []).flatMap fun x => x.dtdStr ++ c%"\n") ++ s ++ c%"\n" := by
  refine ⟨rfl, rfl, rfl, rfl, by cases dtds <;> rfl, ?_⟩
  obtain ⟨s, h1, h2⟩ := (C10_document (Document.newWithDeclDtd root decl dtds) c%"  ").1 (.inr ⟨2, rfl⟩)
  obtain ⟨s', h1', h2'⟩ := (C10_document (Document.new root) c%"  ").1 (.inr ⟨2, rfl⟩)
  obtain rfl := layout_functional h1 h1'
  refine ⟨s, h1, ?_, ?_⟩
  · exact h2'
  · rw [Document.toString, h2]
    cases dtds <;> rfl

/-- C64: the setters replace their part and nothing else; `None` removes it -/
theorem C64_set (d : Document) :
    (∀ x, (d.setDeclaration x).declaration = x ∧ (d.setDeclaration x).dtds = d.dtds ∧ (d.setDeclaration x).root = d.root) ∧
    (∀ l, (d.setDoctypeDefs (some l)).dtds = l) ∧ (d.setDoctypeDefs none).dtds = [] ∧
    (∀ x, (d.setDoctypeDefs x).declaration = d.declaration ∧ (d.setDoctypeDefs x).root = d.root) :=
  ⟨fun _ => ⟨rfl, rfl, rfl⟩, fun _ => rfl, rfl, fun _ => ⟨rfl, rfl⟩⟩

/-- C64: after the setters the text is the new declaration, the new document types and the root as before -/
theorem C64_set_text (d : Document) (x : Option Declaration) (l : Option (List DTD)) :
    ∃ s, Laid d.root s ∧ ((d.setDeclaration x).setDoctypeDefs l).toString =
      (x.elim [] fun x => c%"<?" ++ x.declStr ++ c%"?>\n") ++ ((l.getD []).flatMap fun x => x.dtdStr ++ c%"\n") ++ s ++ c%"\n" := by
  obtain ⟨s, h1, h2⟩ := (C10_document ((d.setDeclaration x).setDoctypeDefs l) c%"  ").1 (.inr ⟨2, rfl⟩)
  refine ⟨s, h1, ?_⟩
  rw [Document.toString, h2]
  cases l <;> rfl

example : (((Document.new kid).setDeclaration (some ⟨c%"xml"⟩)).setDoctypeDefs (some [⟨c%" a"⟩, ⟨c%" b"⟩])).toString =
    c%"<?xml?>\n a\n b\n<k/>\n" := by decide
example : ((Document.new kid).setDeclaration none).toString = c%"<k/>\n" := by decide

end KissXml.Props
