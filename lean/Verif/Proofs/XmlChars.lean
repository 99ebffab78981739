import Verif.Proofs.Xml
/-!
# The characters of a document are written
-/
namespace KissXml
open Spec

/-- characters that are written as they are -/
def Direct (c : Char) : Prop := c ∉ ['&', '<', '>', '\'', '"']

theorem direct_text {c : Char} {t : Str} (hd : Direct c) (h : c ∈ t) : c ∈ textEscape t := by
  rw [textEscape_eq, List.mem_flatMap]
  refine ⟨c, h, ?_⟩
  simp [Direct] at hd
  simp [escText, hd]

theorem direct_value {c : Char} {t : Str} (hd : Direct c) (h : c ∈ t) : c ∈ attributeEscape t := by
  have : attributeEscape t = t.flatMap escAttr := escape_eq t
  rw [this, List.mem_flatMap]
  refine ⟨c, h, ?_⟩
  simp [Direct] at hd
  simp [escAttr, hd]

theorem direct_attrs {c : Char} (hd : Direct c) {l : List (Str × Str)} {k v : Str} (h : (k, v) ∈ l) (hc : c ∈ k ∨ c ∈ v) :
    c ∈ attrsToString l := by
  induction l with
  | nil => cases h
  | cons kv l ih =>
    obtain ⟨k', v'⟩ := kv
    rw [attrsToString]
    rcases List.mem_cons.1 h with h | h
    · cases h
      rcases hc with hc | hc
      · simp [hc]
      · simp [direct_value hd hc]
    · simp [ih h]

mutual
theorem direct_element {c : Char} (hd : Direct c) (pre u : Str) (inl : Bool) : (e : Element) → (m : Node) → m ∈ docOrder (.element e) →
    (s : Str) → Carries m s → c ∈ s → c ∈ e.toStringPI pre u inl
  | ⟨name, cs, attrs, xmlns, pfx, ctx⟩, m, hm, s, hs, hc => by
    rw [docOrder] at hm
    rw [ElementF.toStringPI]
    rcases List.mem_cons.1 hm with rfl | hm
    · rcases hs with rfl | ⟨k, v, hk, hs⟩
      · rw [← tagName_qname] at hc
        simp [hc]
      · have : c ∈ attrsToString (sortAttrs attrs.entries) := by
          refine direct_attrs hd (k := k) (v := v) ((sortAttrs_perm _).mem_iff.2 (SMap.get_eq_some.1 hk)) ?_
          rcases hs with rfl | rfl
          · exact .inl hc
          · exact .inr hc
        simp [this]
    · refine List.mem_append_right _ ?_
      have h1 := direct_list hd [] [] true cs m hm s hs hc
      have h2 := fun b => direct_list hd (pre ++ u) u b cs m hm s hs hc
      split
      · rename_i h
        cases cs with
        | nil => rw [docOrderL] at hm; cases hm
        | cons _ _ => simp at h
      · split
        · simp [h1]
        · simp [h2]
theorem direct_list {c : Char} (hd : Direct c) (pre u : Str) (inl : Bool) : (cs : List Node) → (m : Node) → m ∈ docOrderL cs →
    (s : Str) → Carries m s → c ∈ s → c ∈ childrenToString pre u inl cs
  | [], m, hm, _, _, _ => by rw [docOrderL] at hm; cases hm
  | n :: cs, m, hm, s, hs, hc => by
    rw [docOrderL] at hm
    rw [childrenToString]
    rcases List.mem_append.1 hm with hm | hm
    · simp [direct_node hd pre u inl n m hm s hs hc]
    · simp [direct_list hd pre u inl cs m hm s hs hc]
theorem direct_node {c : Char} (hd : Direct c) (pre u : Str) (inl : Bool) : (n : Node) → (m : Node) → m ∈ docOrder n →
    (s : Str) → Carries m s → c ∈ s → c ∈ n.toStringPI pre u inl
  | .text t, m, hm, s, hs, hc => by
    rw [docOrder] at hm
    cases List.mem_singleton.1 hm
    obtain rfl : s = t := hs
    exact direct_text hd hc
  | .element e, m, hm, s, hs, hc => by
    rw [Node.toStringPI]
    exact direct_element hd pre u inl e m hm s hs hc
  | .comment t, m, hm, s, hs, hc => by
    rw [docOrder] at hm
    cases List.mem_singleton.1 hm
    obtain rfl : s = t := hs
    simp [Node.toStringPI, commentToString, hc]
  | .cdata t, m, hm, s, hs, hc => by
    rw [docOrder] at hm
    cases List.mem_singleton.1 hm
    obtain rfl : s = t := hs
    simp [Node.toStringPI, cdataToString, hc]
end

theorem xcomment_of {s : Str} (h : ∀ c ∈ s, XChar c) (h1 : ¬ c%"--" <:+: s) (h2 : ¬ c%"-" <:+ s) : XComment s := by
  induction s using List.twoStepInduction with
  | nil => exact .nil
  | singleton c => exact .char (h c (by simp)) (fun he => h2 ⟨[], by simp [he]⟩) .nil
  | cons_cons a b s ih1 ih2 =>
    have tl : ∀ {t : Str}, ¬ c%"--" <:+: a :: t → ¬ c%"--" <:+: t := fun h hx => h (hx.trans ⟨[a], [], by simp⟩)
    by_cases ha : a = '-'
    · subst ha
      have hb : b ≠ '-' := by rintro rfl; exact h1 ⟨[], s, rfl⟩
      exact .dash (h b (by simp)) hb (ih1 (fun c hc => h c (by simp [hc]))
        (fun hx => h1 (hx.trans ⟨['-', b], [], by simp⟩)) (fun hx => h2 (hx.trans ⟨['-', b], by simp⟩)))
    · exact .char (h a (by simp)) ha (ih2 b (fun c hc => h c (by simp at hc ⊢; tauto)) (tl h1) (fun hx => h2 (hx.trans ⟨[a], rfl⟩)))

theorem xmlNode_of {n : Node} (h : XmlShape n) (hc : ∀ s, Carries n s → ∀ c ∈ s, XChar c) : XmlNode n := by
  cases n with
  | text t => exact ⟨h.1, fun c hm => ⟨hc t rfl c hm, fun he => h.2 (he ▸ hm)⟩⟩
  | comment t => exact ⟨xcomment_of (hc t rfl) h.1 h.2.1, h.2.2⟩
  | cdata t => exact ⟨⟨hc t rfl, h.1⟩, h.2⟩
  | element e =>
    exact ⟨h.1, fun k v hk => ⟨(h.2.1 k v hk).1, fun c hm => ⟨hc v (.inr ⟨k, v, hk, .inr rfl⟩) c hm, fun he => (h.2.1 k v hk).2 (he ▸ hm)⟩⟩, h.2.2⟩

/-- a character of the document that XML does not allow is in the output -/
theorem doc_chars {d : Document} {i : Str} (h : XmlWellFormed (d.toStringWithIndent i)) {n : Node} (hn : n ∈ docOrder (.element d.root)) {s : Str}
    (hs : Carries n s) {c : Char} (hc : c ∈ s) : XChar c := by
  by_cases hd : Direct c
  · obtain ⟨_, _, _, _, _, _, h⟩ := h
    refine allX_document h c ?_
    rw [Document.toStringWithIndent]
    have := direct_element hd [] (if validateIndent (if validateIndent i then i else c%"  ") then (if validateIndent i then i else c%"  ") else c%"  ") false
      d.root n hn s hs hc
    simp only [List.mem_append]
    refine .inl (.inr ?_)
    rw [ElementF.toStringWithIndent]
    split <;> rename_i hv
    · simpa [hv] using this
    · simpa [hv] using this
  · simp [Direct] at hd
    by_cases h1 : c = '&'
    · subst h1; decide
    by_cases h2 : c = '<'
    · subst h2; decide
    by_cases h3 : c = '>'
    · subst h3; decide
    by_cases h4 : c = '\''
    · subst h4; decide
    by_cases h5 : c = '"'
    · subst h5; decide
    exact absurd (hd h1 h2 h3 h4) h5

end KissXml
