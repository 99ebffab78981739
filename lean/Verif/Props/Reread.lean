import Verif.Proofs.Single
import Verif.Props.RoundTrip
import Verif.Props.Serialize
/-!
# What exactly is read back: C50, C59
-/
namespace KissXml.Props
open KissXml KissXml.Spec

/-- C50, when: a new element, whose name has no `<` and whose attributes have XML names, is read back as it was exactly if its
name is an XML name without colon and the library decodes the escaped values correctly.
Missing: names with `<` (see the example below), attributes with other names. -/
theorem C50_exact_partial (n : Str) (a : SMap) (e : Element) (he : ElementF.newWithAttributes n a = .ok e) (hlt : '<' ∉ n)
    (ha : ∀ k v, a.get k = some v → XmlName k) (i : Str) :
    (∃ d', parseStr ((Document.new e).toStringWithIndent i) = .ok d' ∧ (Document.new e).eq d' = true) ↔
      NcName n ∧ ∀ k v, a.get k = some v → ValueFits v := by
  unfold ElementF.newWithAttributes ElementF.new checkElemName at he
  cases hv : validName n with
  | false => simp only [hv] at he; cases he
  | true =>
    simp only [hv] at he
    cases hf : a.entries.find? (fun kv => !validName kv.1) with
    | some kv => simp only [hf] at he; cases he
    | none =>
      simp only [hf] at he
      cases he
      have hk : ∀ k v, a.get k = some v → ApiName k := by
        intro k v hk
        have := List.find?_eq_none.1 hf (k, v) (SMap.get_eq_some.1 hk)
        simp at this
        exact validName_iff.1 this
      have hn := validName_iff.1 hv
      constructor
      · rintro ⟨d', h, he⟩
        have hN : NcName n := single_name hn hlt (fun k v hk => ⟨xmlName_not_mem (ha k v hk) '<' (by decide), fun hm => by
          have := xmlName_ws (ha k v hk) _ hm
          revert this; decide⟩) h he
        refine ⟨hN, ?_⟩
        have hs : DocShape (Document.new ⟨n, [], a, a.get c%"xmlns", none, ElementF.xmlnsContextFromAttributes a⟩) :=
          flat_shape ⟨hN, hn⟩ (fun k v h => ⟨ha k v h, hk k v h⟩) _ _
        have hd := fits_of_rewrite hs h (j := i) (k := i) ((C28_document he).1 i).symm
        intro k v hk
        exact ((hd.nodes _ (mem_docOrder_self _) : ElemFits _).attrs k v hk).2.2
      · rintro ⟨hN, hV⟩
        have hf : DocFits (Document.new ⟨n, [], a, a.get c%"xmlns", none, ElementF.xmlnsContextFromAttributes a⟩) :=
          flat_fits ⟨hN, hn⟩ (fun k v h => ⟨ha k v h, hk k v h, hV k v h⟩) (by simp) (by simp) (apartB_sound (l := []) rfl) _ _
        refine ⟨_, reparse hf i, ?_⟩
        simp only [Document.eq, Bool.and_eq_true, beq_iff_eq, element_eq_iff]
        refine ⟨⟨rfl, hf.dtds⟩, ?_⟩
        have := same_of_rules (re_bareE none _ hf.nodes) (flat_rules _ _ _ _ rfl).1 (re_rules (fits_shape hf) (fits_given hf)).1
          (flat_rules _ _ _ _ rfl).2 (re_rules (fits_shape hf) (fits_given hf)).2
        cases this with
        | element h => exact h

/-- `Element::new_from_name`: exactly the XML names without colon are read back, among the names without `<`. -/
theorem C50_name_exact_partial (n : Str) (e : Element) (he : ElementF.newFromName n = .ok e) (hlt : '<' ∉ n) (i : Str) :
    (∃ d', parseStr ((Document.new e).toStringWithIndent i) = .ok d' ∧ (Document.new e).eq d' = true) ↔ NcName n := by
  have he' : ElementF.newWithAttributes n .empty = .ok e := by
    unfold ElementF.newFromName checkElemName at he
    cases hv : validName n with
    | false => simp only [hv] at he; cases he
    | true =>
      simp only [hv] at he
      cases he
      simp [ElementF.newWithAttributes, ElementF.new, checkElemName, hv]
      rfl
  rw [C50_exact_partial n .empty e he' hlt (fun k v hk => (by cases hk)) i]
  exact and_iff_left fun k v hk => (by cases hk)

-- a prefix that is declared twice over, white space in a value, other letters
set_option maxRecDepth 4000 in
example : ∃ e, ElementF.newWithAttributes c%"a-1" ⟨[(c%"xmlns:xmlns:p", c%"u "), (c%"p:é", c%"<\"'&>")], by decide⟩ = .ok e ∧
    ∃ d', parseStr (Document.new e).toString = .ok d' ∧ (Document.new e).eq d' = true := ⟨_, rfl, _, rfl, rfl⟩
-- a value that is read back wrongly
example : ∃ e, ElementF.newWithAttributes c%"a" ⟨[(c%"k", c%"&&é")], by decide⟩ = .ok e ∧
    ∃ d', parseStr (Document.new e).toString = .ok d' ∧ (Document.new e).eq d' = false := ⟨_, rfl, _, rfl, rfl⟩
-- a name with `<` that is not an XML name and is read back
example : ∃ e, ElementF.newFromName c%"a<b" = .ok e ∧ ∃ d', parseStr (Document.new e).toString = .ok d' ∧
    (Document.new e).eq d' = true := ⟨_, rfl, _, rfl, rfl⟩

/-- C59, when: what was read from an input with one top-level element and without document types, in which names are XML names, is
written to a string that is read as an equal document exactly if the library decodes all escaped texts and values correctly.
Missing: see `C59_false`. -/
theorem C59_exact_partial (x : Str) (d : Document) (pre rest : List (Str × Str)) (h : parseStr x = .ok d) (hp : Parts x pre rest)
    (h1 : OneRoot (rest.map Prod.snd)) (hd : d.dtds = [])
    (hn : ∀ e, Node.element e ∈ docOrder (.element d.root) → NcName e.name ∧ (∀ p, e.pfx = some p → NcName p) ∧
      ∀ k v, e.attrs.get k = some v → XmlName k) (i : Str) :
    (∃ d', parseStr (d.toStringWithIndent i) = .ok d' ∧ d.eq d' = true) ↔
      (∀ t, Node.text t ∈ docOrder (.element d.root) → TextClear t) ∧
      ∀ e, Node.element e ∈ docOrder (.element d.root) → ∀ k v, e.attrs.get k = some v → ValueFits v := by
  constructor
  · rintro ⟨d', h', he⟩
    have hs : DocShape d := read_shape h hd hn
    have hf := fits_of_rewrite hs h' (j := i) (k := i) ((C28_document he).1 i).symm
    exact ⟨fun t ht => (hf.nodes _ ht).2, fun e he k v hk => ((hf.nodes _ he : ElemFits e).attrs k v hk).2.2⟩
  · rintro ⟨ht, hv⟩
    exact C59_partial x d pre rest h hp h1 hd
      (fun e he => ⟨(hn e he).1, (hn e he).2.1, fun k v hk => ⟨(hn e he).2.2 k v hk, hv e he k v hk⟩⟩) ht i

-- references before other letters are no harm if the text ends in ASCII
example : ∃ d pre rest, Parts c%"<r>&amp;&amp;é </r>" pre rest ∧ parseStr c%"<r>&amp;&amp;é </r>" = .ok d ∧
    OneRoot (rest.map Prod.snd) ∧ DocShape d ∧ d.root.children = [.text c%"&&é "] ∧
    ∃ d', parseStr d.toString = .ok d' ∧ d.eq d' = true :=
  ⟨_, [], [([], c%"<r>"), (c%"&amp;&amp;é ", c%"</r>")], partsB_sound [] (by decide) rfl, rfl, oneRootB_sound (by decide),
    shapeB_sound (by rfl), rfl, _, rfl, rfl⟩
-- otherwise they are: `a>b☼` is read, but not what is written for it
example : ∃ d, parseStr c%"<r>a>b☼</r>" = .ok d ∧ d.root.children = [.text c%"a>b☼"] ∧ ¬ TextClear c%"a>b☼" := by
  refine ⟨_, rfl, rfl, fun h => ?_⟩
  have : (unescape (textEscape c%"a>b☼") : Res Unit Str) = .ok c%"a>b☼" := (C01_partial c%"a>b" '☼').2 h
  revert this; decide

end KissXml.Props
