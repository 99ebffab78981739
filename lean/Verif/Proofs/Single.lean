import Verif.Props.Source
import Verif.Props.Escape
import Verif.Proofs.RoundTripExact
import Verif.Proofs.Reread
import Verif.Proofs.Local
/-!
# Elements written alone
-/
namespace KissXml
open Spec

/-- the declaration of `Document::new`, and what comes after it -/
theorem dflt_parts {y : Str} {d : Document} (hy : '<' ∉ y) (h : parseStr (Declaration.dflt.display ++ (c%"\n" ++ '<' :: y)) = .ok d) :
    ∃ pre tag, Parts (Declaration.dflt.display ++ (c%"\n" ++ '<' :: y)) pre [(c%"\n", tag)] ∧ tag <+: '<' :: y := by
  obtain ⟨pre, text, tag, rest, E, F, hP, -, -, -, -⟩ := accepted h
  obtain ⟨tail, hL⟩ := hP.lexes
  have hT : TagAt (Declaration.dflt.display ++ (c%"\n" ++ '<' :: y)) Declaration.dflt.display := by
    obtain ⟨m, hm, hF⟩ := dflt_decl ⟨[], [], .empty, none, none, .empty⟩ _ rfl
    have : TagAt (c%"<?" ++ (c%"xml" ++ m ++ c%"?>")) (c%"<?" ++ (c%"xml" ++ m) ++ c%"?>") := .pi rfl hF
    have e : Declaration.dflt.display = c%"<?" ++ (c%"xml" ++ m) ++ c%"?>" := by rw [Declaration.display, ← hm]
    rw [e]
    have e2 : c%"<?" ++ (c%"xml" ++ m) ++ c%"?>" = c%"<?" ++ (c%"xml" ++ m ++ c%"?>") := by simp
    rw [e2] at this ⊢
    exact tagAt_append _ this
  have hLD : ∃ toks, pre ++ (text, tag) :: rest = ([], Declaration.dflt.display) :: toks ∧ Lexes (c%"\n" ++ '<' :: y) toks tail := by
    generalize hx : Declaration.dflt.display ++ (c%"\n" ++ '<' :: y) = x at hL hT
    generalize ht : pre ++ (text, tag) :: rest = toks at hL
    cases hL with
    | done hl => exact absurd (by rw [← hx]; simp [Declaration.display]) hl
    | @tag text' tag' rest' s _ toks' h1 h2 h3 h4 =>
      have h0 : text' = [] := by
        cases text' with
        | nil => rfl
        | cons c text' =>
          exfalso
          simp [Declaration.display] at hx
          exact h1 (by simp [← hx.1])
      subst h0
      simp only [List.nil_append] at hx hT
      have := tagAt_unique (tagAt_lt h2) h2 hT
      subst this
      refine ⟨toks', rfl, ?_⟩
      rw [h3] at hx
      rw [List.append_cancel_left hx]
      exact h4
  obtain ⟨toks, ht, hL2⟩ := hLD
  have hpre : pre ≠ [] := by
    rintro rfl
    simp only [List.nil_append, List.cons.injEq] at ht
    have := hP.root _ _ rfl
    rw [ht.1] at this
    exact this (.inl (by decide))
  obtain ⟨t0, pre', rfl⟩ := List.exists_cons_of_ne_nil hpre
  have htoks : toks = pre' ++ (text, tag) :: rest := by
    simp only [List.cons_append, List.cons.injEq] at ht
    exact ht.2.symm
  have hone : ∃ tag', toks = [(c%"\n", tag')] ∧ tag' <+: '<' :: y := by
    have hne : toks ≠ [] := by rw [htoks]; simp
    clear ht htoks
    generalize hx : c%"\n" ++ '<' :: y = x at hL2
    cases hL2 with
    | done => exact absurd rfl hne
    | @tag text' tag' rest' s _ toks' h1 h2 h3 h4 =>
      have hs : text' = c%"\n" ∧ s = '<' :: y := by
        obtain ⟨u, hu⟩ := tagAt_lt h2
        have hu : s = '<' :: u := hu.symm
        subst hu
        have e1 := splitOnce_eq_some.2 ⟨hx, h1⟩
        rw [splitOnce_eq_some.2 ⟨rfl, (by decide : '<' ∉ c%"\n")⟩] at e1
        simp only [Option.some.injEq, Prod.mk.injEq] at e1
        exact ⟨e1.1.symm, by rw [e1.2]⟩
      obtain ⟨rfl, rfl⟩ := hs
      refine ⟨tag', ?_, ⟨rest', h3.symm⟩⟩
      cases h4 with
      | done => rfl
      | @tag t2 g2 r2 s2 _ tk2 k1 k2 k3 k4 =>
        exfalso
        obtain ⟨u, hu⟩ := tagAt_lt k2
        obtain ⟨z, w, hz⟩ : ∃ z w, tag' = z :: w := by
          cases tag' with
          | nil => have := tagAt_pos h2; simp at this
          | cons z w => exact ⟨z, w, rfl⟩
        subst hz
        simp at h3
        apply hy
        rw [h3.2, ← hu]
        simp
  obtain ⟨tag', h1, h2⟩ := hone
  have : pre' = [] ∧ (text, tag) = (c%"\n", tag') ∧ rest = [] := by
    rw [h1] at htoks
    cases pre' with
    | nil => simp at htoks; simp [htoks]
    | cons => simp at htoks
  obtain ⟨rfl, h3, rfl⟩ := this
  rw [h3] at hP
  exact ⟨_, tag', hP, h2⟩

theorem oneRoot_single (t : Str) : OneRoot [t] := by
  intro a b hab ha hb
  have h1 := congrArg List.length hab
  have h2 := List.length_pos_of_ne_nil ha
  have h3 := List.length_pos_of_ne_nil hb
  simp at h1
  omega

/-- a root without prefix has no colon in its name -/
theorem read_no_colon {x : Str} {d : Document} (h : parseStr x = .ok d) {pre : List (Str × Str)} {t : Str × Str} (hp : Parts x pre [t])
    (hq : d.root.pfx = none) : ':' ∉ d.root.name := by
  obtain ⟨text, tag, rest', E, F, h0, -, h3, h4, -⟩ := accepted_parts h hp
  cases h0
  obtain ⟨hO, -⟩ := root_one h3 (oneRoot_single _)
  obtain ⟨t, attrs, n0, n, x, q, -, hN⟩ := hO.elem
  obtain ⟨g1, -, -, g4, -⟩ := addRev_fields E F
  have hn : d.root.name = E.name := by rw [h4]; exact g1
  have hp : d.root.pfx = E.pfx := by rw [h4]; exact g4
  rw [hn]
  rw [hp] at hq
  have he := hN.eq
  have f1 : E.name = n := by rw [he]; exact (setNamespaceContext_fields _ _ _).1
  have f2 : E.pfx = q := by rw [he]; exact (setNamespaceContext_fields _ _ _).2.2.2
  rw [f1]
  rw [f2] at hq
  subst hq
  cases hN.name with
  | plain h => exact h

/-- what is written for a new element without children -/
theorem single_written (n : Str) (a c : SMap) (x : Option Str) (i : Str) :
    (Document.new ⟨n, [], a, x, none, c⟩).toStringWithIndent i =
      Declaration.dflt.display ++ (c%"\n" ++ '<' :: (n ++ attrsToString (sortAttrs a.entries) ++ c%"/>" ++ c%"\n")) := by
  have e : Document.new ⟨n, [], a, x, none, c⟩ = ⟨some Declaration.dflt, [], ⟨n, [], a, x, none, c⟩⟩ := rfl
  rw [e]
  simp [Document.toStringWithIndent, ElementF.toStringWithIndent, ElementF.toStringPI, dtdsToString, ElementF.tagName]

theorem attrsToString_no_lt : {l : List (Str × Str)} → (∀ kv ∈ l, '<' ∉ kv.1) → '<' ∉ attrsToString l
  | [], _ => by simp [attrsToString]
  | (k, v) :: l, h => by
    have h1 := h (k, v) (by simp)
    have h2 := attrsToString_no_lt fun kv hkv => h kv (List.mem_cons_of_mem _ hkv)
    have h3 := (Props.C04_attribute_escape v).1
    simp only [attrsToString, List.mem_append]
    rintro (((((h | h) | h) | h) | h) | h)
    · revert h; decide
    · exact h1 h
    · revert h; decide
    · exact h3 h
    · revert h; decide
    · exact h2 h

theorem beforeQuotes_attrs {p : Str} (hp : '\u1680' ∉ p) {l : List (Str × Str)} (h : ∀ kv ∈ l, '\u1680' ∉ kv.1) (r : Str)
    (hr : '\u1680' ∉ r) : '\u1680' ∉ beforeQuotes (p ++ attrsToString l ++ r) := by
  have sub : ∀ {s : Str}, '\u1680' ∉ s → '\u1680' ∉ beforeQuotes s := fun hs hm => hs ((List.takeWhile_prefix _).mem hm)
  cases l with
  | nil => exact sub (by simp [attrsToString, hp, hr])
  | cons kv l =>
    obtain ⟨k, v⟩ := kv
    have h1 := h (k, v) (by simp)
    have e : p ++ attrsToString ((k, v) :: l) ++ r = (p ++ c%" " ++ k ++ c%"=") ++ ('"' :: (attributeEscape v ++ c%"\"" ++ attrsToString l ++ r)) := by
      simp [attrsToString]
    rw [e]
    intro hm
    have hq : '\u1680' ∈ p ++ c%" " ++ k ++ c%"=" := by
      rw [beforeQuotes, List.takeWhile_append] at hm
      split at hm
      · simpa using hm
      · exact (List.takeWhile_prefix _).mem hm
    simp only [List.mem_append] at hq
    rcases hq with ((h | h) | h) | h
    · exact hp h
    · revert h; decide
    · exact h1 h
    · revert h; decide

/-- the names of new elements that are read back -/
theorem single_name {n : Str} {a c : SMap} {x : Option Str} (hn : ApiName n) (hlt : '<' ∉ n)
    (ha : ∀ k v, a.get k = some v → '<' ∉ k ∧ '\u1680' ∉ k) {i : Str} {d' : Document}
    (h : parseStr ((Document.new ⟨n, [], a, x, none, c⟩).toStringWithIndent i) = .ok d')
    (he : (Document.new ⟨n, [], a, x, none, c⟩).eq d' = true) : NcName n := by
  rw [single_written] at h
  have hk : ∀ kv ∈ sortAttrs a.entries, '<' ∉ kv.1 ∧ '\u1680' ∉ kv.1 := fun kv hkv =>
    ha kv.1 kv.2 (SMap.get_eq_some.2 ((sortAttrs_perm _).mem_iff.1 hkv))
  have hy : '<' ∉ n ++ attrsToString (sortAttrs a.entries) ++ c%"/>" ++ c%"\n" := by
    have := attrsToString_no_lt fun kv hkv => (hk kv hkv).1
    simp only [List.mem_append]
    rintro (((h | h) | h) | h)
    · exact hlt h
    · exact this h
    · revert h; decide
    · revert h; decide
  obtain ⟨pre, tag, hP, ht⟩ := dflt_parts hy h
  have hu : '\u1680' ∉ '<' :: n := by
    obtain ⟨c, t, rfl, hc, ht⟩ := hn
    simp only [List.mem_cons]
    rintro (h | rfl | h)
    · revert h; decide
    · revert hc; decide
    · have := ht _ h
      revert this; decide
  have hpl : PlainTag tag := by
    constructor
    · cases tag with
      | nil => simp
      | cons z w =>
        obtain ⟨r, hr⟩ := ht
        simp only [List.cons_append, List.cons.injEq] at hr
        intro hm
        exact hy (by rw [← hr.2]; exact List.mem_append_left _ hm)
    · intro hm
      refine beforeQuotes_attrs hu (fun kv hkv => (hk kv hkv).2) (c%"/>" ++ c%"\n") (by decide) (beforeQuotes_prefix ?_ hm)
      simpa using ht
  have hs : SameElement ⟨n, [], a, x, none, c⟩ d'.root := by
    simp only [Document.eq, Bool.and_eq_true, element_eq_iff] at he
    exact he.2
  have hnm : d'.root.name = n ∧ d'.root.pfx = none := by
    generalize d'.root = r at hs
    cases hs; exact ⟨rfl, rfl⟩
  refine ⟨?_, by rw [← hnm.1]; exact read_no_colon h hP hnm.2⟩
  have := Props.C60_elements_partial _ d' pre _ h hP (oneRoot_single _) (by
    intro t ht
    have : t = tag := by simpa [openTags] using (List.mem_filter.1 ht).1
    exact this ▸ hpl) d'.root (by
      rw [elementsOf]
      exact List.mem_filterMap.2 ⟨.element d'.root, mem_docOrder_self _, rfl⟩)
  rw [ElementF.tagName, hnm.1, hnm.2] at this
  exact this

/-! ## shapes -/

theorem flat_shape {n : Str} (hn : NcName n ∧ ApiName n) {a : SMap} (ha : ∀ k v, a.get k = some v → XmlName k ∧ ApiName k)
    (x : Option Str) (c : SMap) : DocShape (Document.new ⟨n, [], a, x, none, c⟩) := by
  refine ⟨dflt_decl _, rfl, ?_, by intro p hp; cases hp⟩
  intro k hk
  have hk : k ∈ docOrder (.element ⟨n, [], a, x, none, c⟩) := hk
  rw [docOrder, docOrderL, List.mem_singleton] at hk
  subst hk
  exact ⟨hn, (by intro p hp; cases hp), fun k v h => ⟨(ha k v h).1, (ha k v h).2, trivial⟩, by simp⟩

theorem flat_rules (n : Str) (a c : SMap) (x : Option Str) (hx : x = a.get c%"xmlns") :
    PrefixRule (fun _ => none) (.element (⟨n, [], a, x, none, c⟩ : Element)) ∧
    DefaultRule none (.element (⟨n, [], a, x, none, c⟩ : Element)) := by
  subst hx
  exact ⟨⟨fun p hp => (by cases hp), trivial⟩, ⟨fun _ => by simp, trivial⟩⟩

theorem read_shape {x : Str} {d : Document} (h : parseStr x = .ok d) (hd : d.dtds = [])
    (hn : ∀ e, Node.element e ∈ docOrder (.element d.root) → NcName e.name ∧ (∀ p, e.pfx = some p → NcName p) ∧
      ∀ k v, e.attrs.get k = some v → XmlName k) : DocShape d := by
  refine ⟨fun D hD => read_decl_ok h hD, hd, ?_, ?_⟩
  · intro n hn'
    have hv := api_valid (.parsed h) n hn'
    have hN := parse_normal h n hn'
    cases n with
    | text t =>
      rcases docOrder_parent _ hn' with h0 | ⟨e, h1, h2⟩
      · cases h0
      · have : TextNormal e.children := parse_normal h _ h1
        exact ⟨this.solid t h2, trivial⟩
    | comment c =>
      rw [docOrder_root, List.mem_cons] at hn'
      rcases hn' with hn' | hn'
      · cases hn'
      · exact read_comment_ok h hn'
    | cdata c => exact hv
    | element e =>
      obtain ⟨h1, h2, h3⟩ := hn e hn'
      exact ⟨⟨h1, hv.1⟩, h2, fun k v hk => ⟨h3 k v hk, hv.2 k v hk, trivial⟩, hN.apart⟩
  · intro p hp
    obtain ⟨v, hv, -⟩ := Props.C51_partial x d h p hp
    rw [hv]; rfl

end KissXml
