import Verif.Proofs.ConformCheck
import Verif.Props.Document
import Verif.Props.Parse
/-!
# Documents that were read are written and read again
-/
namespace KissXml
open Spec

theorem lexes_tagAt {x tail : Str} {toks : List (Str × Str)} (h : Lexes x toks tail) :
    ∀ t ∈ toks, ∃ r, TagAt (t.2 ++ r) t.2 := by
  induction h with
  | done => intro t ht; cases ht
  | tag _ h hs _ ih =>
    intro t ht
    rcases List.mem_cons.1 ht with rfl | ht
    · subst hs; exact ⟨_, h⟩
    · exact ih t ht

/-- a comment tag is a comment whose content does not end it early -/
theorem tagAt_commentOk {c r : Str} (h : TagAt (c%"<!--" ++ c ++ c%"-->" ++ r) (c%"<!--" ++ c ++ c%"-->")) : CommentOk c := by
  have hc : FirstAt c%"-->" (c%"<!--" ++ c) (c%"<!--" ++ c ++ c%"-->" ++ r) := by
    generalize hs : c%"<!--" ++ c ++ c%"-->" ++ r = s at h
    generalize ht : c%"<!--" ++ c ++ c%"-->" = t at h
    cases h with
    | comment h1 h2 => rwa [List.append_cancel_right ht]
    | pi h1 h2 => subst h1; simp at hs
    | cdata h1 h2 =>
      obtain ⟨u, hu⟩ := h1
      rw [← hs] at hu; simp at hu
    | decl h1 h2 => exact absurd ⟨c ++ c%"-->" ++ r, by simpa using hs⟩ h2
    | elem h1 h2 => subst h1; simp at hs; exact absurd ⟨_, hs⟩ h2
  refine ⟨?_, ?_, ?_⟩
  · rintro ⟨u, v, rfl⟩
    have := hc.first (c%"<!--" ++ u) ⟨v ++ c%"-->" ++ r, by simp⟩
    simp at this
    omega
  · rintro ⟨u, rfl⟩
    have := hc.first c%"<!" ⟨u ++ c%"-->" ++ r, by simp⟩
    simp at this
  · rintro ⟨u, rfl⟩
    have := hc.first c%"<!-" ⟨u ++ c%"-->" ++ r, by simp⟩
    simp at this

/-- comments that were read can be written -/
theorem read_comment_ok {x : Str} {d : Document} (h : parseStr x = .ok d) {c : Str} (hc : Node.comment c ∈ descendants d.root) :
    CommentOk c := by
  obtain ⟨pre, rest, hp, -, -⟩ := Props.C36_well_nested x d h
  have hv := Props.C43_verbatim x d pre rest h hp
  have hm : c%"<!--" ++ c ++ c%"-->" ∈ (descendants d.root).filterMap markSource := List.mem_filterMap.2 ⟨_, hc, rfl⟩
  rw [hv, List.mem_filter, List.mem_map] at hm
  obtain ⟨⟨t, ht, he⟩, -⟩ := hm
  obtain ⟨tail, hl⟩ := hp.lexes
  obtain ⟨r, hr⟩ := lexes_tagAt hl t (by simp [ht])
  rw [he] at hr
  exact tagAt_commentOk hr

/-- declarations that were read can be written -/
theorem read_decl_ok {x : Str} {d : Document} (h : parseStr x = .ok d) {D : Declaration} (hD : d.declaration = some D) :
    ∃ m, D.declStr = c%"xml" ++ m ∧ FirstUnquoted none c%"?>" (c%"xml" ++ m) (c%"xml" ++ m ++ c%"?>") := by
  obtain ⟨pre, rest, hp, -, -⟩ := Props.C36_well_nested x d h
  have hd := (Props.C52_partial x d pre rest h hp).2.1
  rw [hD] at hd
  have hm := List.mem_of_mem_getLast? hd.symm
  rw [List.mem_filter, List.mem_map, List.isPrefixOf_iff_prefix] at hm
  obtain ⟨⟨t, ht, he⟩, hx⟩ := hm
  obtain ⟨tail, hl⟩ := hp.lexes
  obtain ⟨r, hr⟩ := lexes_tagAt hl t (by simp [ht])
  rw [he] at hr
  obtain ⟨u, hu⟩ := hx
  have hdis : D.display = c%"<?" ++ D.declStr ++ c%"?>" := rfl
  generalize hs : D.display ++ r = s at hr
  generalize htt : D.display = t' at hr
  have hf : FirstUnquoted none c%"?>" D.declStr (D.declStr ++ c%"?>" ++ r) := by
    rw [hdis] at hs htt
    cases hr with
    | comment h1 h2 => obtain ⟨w, rfl⟩ := h1; simp at hs
    | @pi a w h1 h2 =>
      have ha : D.declStr = a := by simpa using htt
      have hw : D.declStr ++ c%"?>" ++ r = w := by
        rw [h1] at hs
        simpa using hs
      rw [hw, ha]
      exact h2
    | cdata h1 h2 => obtain ⟨w, rfl⟩ := h1; simp at hs
    | decl h1 h2 => subst h1; simp at hs
    | elem h1 h2 h3 => subst h1; simp at hs; exact absurd ⟨_, hs⟩ h3
  have hx : ∃ m, D.declStr = c%"xml" ++ m := by
    rw [hdis] at hu
    generalize D.declStr = l at hu
    match l, hu with
    | [], hu => simp at hu
    | [_], hu => simp at hu
    | [_, _], hu => simp at hu
    | a :: b :: c :: m, hu =>
      simp at hu
      obtain ⟨rfl, rfl, rfl, -⟩ := hu
      exact ⟨m, rfl⟩
  obtain ⟨m, hm⟩ := hx
  rw [hm] at hf
  refine ⟨m, hm, List.prefix_rfl, hf.outside, fun a' ha' hq => hf.first a' (ha'.trans (List.prefix_append ..)) hq⟩

theorem docOrder_root (e : Element) : docOrder (.element e) = .element e :: descendants e := by
  obtain ⟨n, cs, a, x, p, c⟩ := e
  rw [docOrder]; rfl

mutual
theorem docOrder_parent {m : Node} : (n : Node) → m ∈ docOrder n → m = n ∨ ∃ e, Node.element e ∈ docOrder n ∧ m ∈ e.children
  | .text t, h => by rw [docOrder] at h; exact .inl (by simpa using h)
  | .comment t, h => by rw [docOrder] at h; exact .inl (by simpa using h)
  | .cdata t, h => by rw [docOrder] at h; exact .inl (by simpa using h)
  | .element ⟨n, cs, a, x, p, c⟩, h => by
    rw [docOrder, List.mem_cons] at h
    rcases h with rfl | h
    · exact .inl rfl
    · right
      rcases docOrderL_parent cs h with h | ⟨e, h1, h2⟩
      · exact ⟨⟨n, cs, a, x, p, c⟩, by rw [docOrder]; simp, h⟩
      · exact ⟨e, by rw [docOrder]; simp [h1], h2⟩
theorem docOrderL_parent {m : Node} : (l : List Node) → m ∈ docOrderL l → m ∈ l ∨ ∃ e, Node.element e ∈ docOrderL l ∧ m ∈ e.children
  | [], h => by cases h
  | n :: l, h => by
    rw [docOrderL, List.mem_append] at h
    rw [docOrderL]
    rcases h with h | h
    · rcases docOrder_parent n h with rfl | ⟨e, h1, h2⟩
      · exact .inl (by simp)
      · exact .inr ⟨e, by simp [h1], h2⟩
    · rcases docOrderL_parent l h with h | ⟨e, h1, h2⟩
      · exact .inl (by simp [h])
      · exact .inr ⟨e, by simp [h1], h2⟩
end

/-- a document that was read can be written if its names are XML names and its texts and values can be decoded -/
theorem read_fits {x : Str} {d : Document} (h : parseStr x = .ok d) (hd : d.dtds = [])
    (hn : ∀ e, Node.element e ∈ docOrder (.element d.root) → NcName e.name ∧ (∀ p, e.pfx = some p → NcName p) ∧
      ∀ k v, e.attrs.get k = some v → XmlName k ∧ ValueFits v)
    (ht : ∀ t, Node.text t ∈ docOrder (.element d.root) → ClearAfter ['&', '<', '>'] (lastExtra t) t) : DocFits d := by
  refine ⟨fun D hD => read_decl_ok h hD, hd, ?_, ?_⟩
  · intro n hn'
    have hv := api_valid (.parsed h) n hn'
    have hN := parse_normal h n hn'
    cases n with
    | text t =>
      rcases docOrder_parent _ hn' with h0 | ⟨e, h1, h2⟩
      · cases h0
      · have : TextNormal e.children := parse_normal h _ h1
        exact ⟨this.solid t h2, ht t hn'⟩
    | comment c =>
      rw [docOrder_root, List.mem_cons] at hn'
      rcases hn' with hn' | hn'
      · cases hn'
      · exact read_comment_ok h hn'
    | cdata c => exact hv
    | element e =>
      obtain ⟨h1, h2, h3⟩ := hn e hn'
      exact ⟨⟨h1, hv.1⟩, h2, fun k v hk => ⟨(h3 k v hk).1, hv.2 k v hk, (h3 k v hk).2⟩, hN.apart⟩
  · intro p hp
    obtain ⟨v, hv, -⟩ := Props.C51_partial x d h p hp
    rw [hv]; rfl

/-- a document with one root that was read has the namespaces it gets again -/
theorem read_same {x : Str} {d : Document} (h : parseStr x = .ok d) {pre rest : List (Str × Str)} (hp : Parts x pre rest)
    (h1 : OneRoot (rest.map Prod.snd)) (hf : DocFits d) : d.eq (reDoc d) = true := by
  obtain ⟨text, tag, rest', E, F, rfl, -, h3, h4, h5⟩ := accepted_parts h hp
  obtain ⟨g1, g2⟩ := root_rules h3 h1
  rw [← h4] at g1 g2
  simp only [Document.eq, Bool.and_eq_true, beq_iff_eq, element_eq_iff]
  refine ⟨⟨rfl, hf.dtds⟩, ?_⟩
  have := same_of_rules (re_bareE none d.root hf.nodes) g1 (re_rules (fits_shape hf) (fits_given hf)).1 g2 (re_rules (fits_shape hf) (fits_given hf)).2
  cases this with
  | element h => exact h

/-- check `NoDoubles` -/
def noDoublesB (d : Document) : Bool := (docOrder (.element d.root)).all fun n =>
  match n with
  | .element e => e.attrs.entries.all fun kv => !c%"xmlns:xmlns:".isPrefixOf kv.1
  | _ => true

theorem noDoublesB_sound {d : Document} (h : noDoublesB d = true) : NoDoubles d := by
  intro e he k hk hp
  obtain ⟨v, hv⟩ := Option.isSome_iff_exists.1 hk
  have := List.all_eq_true.1 h _ he
  have := List.all_eq_true.1 this _ (SMap.get_eq_some.1 hv)
  simp only [Bool.not_eq_true', ← Bool.not_eq_true, List.isPrefixOf_iff_prefix] at this
  exact this hp

mutual
theorem defaultScope_child {d : Option Str} {e : Element} : (n : Node) → DefaultScope d n → Node.element e ∈ docOrder n →
    ∃ d', (e.pfx = none → e.xmlns = (e.attrs.get c%"xmlns").or d') ∧ DefaultScopeL ((e.attrs.get c%"xmlns").or d') e.children
  | .text t, _, h => by simp [docOrder] at h
  | .comment t, _, h => by simp [docOrder] at h
  | .cdata t, _, h => by simp [docOrder] at h
  | .element ⟨n, cs, a, x, q, c⟩, hs, h => by
    rw [docOrder, List.mem_cons] at h
    rcases h with h | h
    · cases h
      exact ⟨d, hs.1, hs.2⟩
    · exact defaultScopeL_child cs hs.2 h
theorem defaultScopeL_child {d : Option Str} {e : Element} : (l : List Node) → DefaultScopeL d l → Node.element e ∈ docOrderL l →
    ∃ d', (e.pfx = none → e.xmlns = (e.attrs.get c%"xmlns").or d') ∧ DefaultScopeL ((e.attrs.get c%"xmlns").or d') e.children
  | [], _, h => by cases h
  | n :: l, hs, h => by
    rw [docOrderL, List.mem_append] at h
    rcases h with h | h
    · exact defaultScope_child n hs.1 h
    · exact defaultScopeL_child l hs.2 h
end

theorem defaultScopeL_mem {d : Option Str} {e : Element} : {l : List Node} → DefaultScopeL d l → Node.element e ∈ l →
    e.pfx = none → e.xmlns = (e.attrs.get c%"xmlns").or d
  | n :: l, hs, h => by
    rcases List.mem_cons.1 h with rfl | h
    · obtain ⟨n, cs, a, x, q, c⟩ := e
      exact hs.1.1
    · exact defaultScopeL_mem hs.2 h

/-- where no unprefixed element inherits through a prefixed one, the library's rule is that of XML -/
theorem nsFits_of_scopes {d : Document} (hp : PrefixScope (fun _ => none) (.element d.root))
    (hs : DefaultScope none (.element d.root))
    (hr : ∀ e, Node.element e ∈ docOrder (.element d.root) → e.pfx ≠ none → ∀ c, Node.element c ∈ e.children → c.pfx = none →
      (c.attrs.get c%"xmlns").isSome) : NsFits d := by
  refine ⟨hp, ?_, ?_⟩
  · intro h
    have := defaultScopeL_mem (l := [.element d.root]) ⟨hs, trivial⟩ (by simp) h
    rw [this, Option.or_none]
  · intro e he c hc hq
    obtain ⟨d', h1, h2⟩ := defaultScope_child _ hs he
    rw [defaultScopeL_mem h2 hc hq]
    by_cases hp : e.pfx = none
    · rw [if_pos hp, h1 hp]
    · rw [if_neg hp]
      have := hr e he hp c hc hq
      cases hg : c.attrs.get c%"xmlns" <;> simp_all

mutual
theorem prefixScope_plain (look : Str → Option Str) : (n : Node) → (∀ e, Node.element e ∈ docOrder n → e.pfx = none) →
    PrefixScope look n
  | .text t, _ => trivial
  | .comment t, _ => trivial
  | .cdata t, _ => trivial
  | .element ⟨n, cs, a, x, q, c⟩, h => by
    rw [docOrder] at h
    have hq : q = none := h _ (List.mem_cons_self ..)
    exact ⟨fun p hp => (by rw [hq] at hp; cases hp), prefixScopeL_plain _ cs fun e he => h e (List.mem_cons_of_mem _ he)⟩
theorem prefixScopeL_plain (look : Str → Option Str) : (l : List Node) → (∀ e, Node.element e ∈ docOrderL l → e.pfx = none) →
    PrefixScopeL look l
  | [], _ => trivial
  | n :: l, h => by
    rw [docOrderL] at h
    exact ⟨prefixScope_plain look n fun e he => h e (by simp [he]), prefixScopeL_plain look l fun e he => h e (by simp [he])⟩
end

mutual
theorem mem_docOrder_children {e : Element} {m : Node} : (n : Node) → Node.element e ∈ docOrder n → m ∈ e.children → m ∈ docOrder n
  | .text t, h, _ => by simp [docOrder] at h
  | .comment t, h, _ => by simp [docOrder] at h
  | .cdata t, h, _ => by simp [docOrder] at h
  | .element ⟨n, cs, a, x, q, c⟩, h, hm => by
    rw [docOrder, List.mem_cons] at h ⊢
    right
    rcases h with h | h
    · cases h
      exact mem_docOrderL.2 ⟨m, hm, mem_docOrder_self m⟩
    · exact mem_docOrderL_children cs h hm
theorem mem_docOrderL_children {e : Element} {m : Node} : (l : List Node) → Node.element e ∈ docOrderL l → m ∈ e.children →
    m ∈ docOrderL l
  | [], h, _ => by cases h
  | n :: l, h, hm => by
    rw [docOrderL, List.mem_append] at h ⊢
    exact h.imp (fun h => mem_docOrder_children n h hm) (fun h => mem_docOrderL_children l h hm)
end

end KissXml
