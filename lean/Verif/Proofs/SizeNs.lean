import Verif.Proofs.Size
import Verif.Proofs.Equal
import Mathlib.Data.List.Perm.Subperm
/-!
# The size of namespaces
-/
namespace KissXml
open KissXml.Spec

/-- namespaces and prefixes are attributes in `D` -/
def From (D : List (Str × Str)) (x : Option Str) (c : SMap) : Prop :=
  (∀ v, x = some v → ∃ k, (k, v) ∈ D) ∧ ∀ kv ∈ c.entries, (c%"xmlns:" ++ kv.1, kv.2) ∈ D

theorem everyNs_elem {p : Option Str → SMap → Prop} (e : Element) : EveryNs p (.element e) ↔ p e.xmlns e.ctx ∧ EveryNsL p e.children := by
  obtain ⟨n, cs, as, x, q, c⟩ := e
  rw [EveryNs]

theorem everyNsL_iff {p : Option Str → SMap → Prop} {l : List Node} : EveryNsL p l ↔ ∀ n ∈ l, EveryNs p n := by
  induction l with
  | nil => simp [EveryNsL]
  | cons n l ih => simp [EveryNsL, ih]

mutual
theorem everyNs_mono {p q : Option Str → SMap → Prop} (h : ∀ x c, p x c → q x c) : ∀ n : Node, EveryNs p n → EveryNs q n
  | .element ⟨_, cs, _, x, _, c⟩, hn => by
    rw [EveryNs] at hn ⊢
    exact ⟨h x c hn.1, everyNsL_mono h cs hn.2⟩
  | .text _, _ => trivial
  | .comment _, _ => trivial
  | .cdata _, _ => trivial
theorem everyNsL_mono {p q : Option Str → SMap → Prop} (h : ∀ x c, p x c → q x c) : ∀ l : List Node, EveryNsL p l → EveryNsL q l
  | [], _ => trivial
  | n :: l, hl => by
    rw [EveryNsL] at hl ⊢
    exact ⟨everyNs_mono h n hl.1, everyNsL_mono h l hl.2⟩
end

theorem everyNs_join {p : Option Str → SMap → Prop} (n : Node) (l : List Node) (hn : EveryNs p n) (hl : EveryNsL p l) : EveryNsL p (consJoin n l) := by
  unfold consJoin
  split
  · simp only [EveryNsL, EveryNs] at hl ⊢; exact ⟨trivial, hl.2⟩
  · exact ⟨hn, hl⟩

theorem everyNs_joinRuns {p : Option Str → SMap → Prop} (l : List Node) (h : EveryNsL p l) : EveryNsL p (joinRuns l) := by
  induction l with
  | nil => exact h
  | cons n l ih => rw [joinRuns]; exact everyNs_join _ _ h.1 (ih h.2)

theorem everyNs_normal {p : Option Str → SMap → Prop} {l : List Node} (h : EveryNsL p l) : EveryNsL p (normalText l) :=
  everyNsL_iff.2 fun n hn => everyNsL_iff.1 (everyNs_joinRuns l h) n (List.mem_filter.1 hn).1

theorem everyNs_flip {p : Option Str → SMap → Prop} {n : Node} (h : EveryNs p n) : EveryNs p (ParseTree.flipElement n) := by
  cases n with
  | element e =>
    rw [ParseTree.flipElement]
    obtain ⟨h1, h2⟩ := (everyNs_elem e).1 h
    exact (everyNs_elem _).2 ⟨h1, everyNsL_iff.2 fun n hn => everyNsL_iff.1 h2 n (List.mem_reverse.1 hn)⟩
  | _ => exact h

variable {D : List (Str × Str)}

theorem mem_insert {l : List (Str × Str)} {k v : Str} : ∀ kv ∈ LMap.insert l k v, kv ∈ l ∨ kv = (k, v) := by
  induction l with
  | nil => intro kv h; simp [LMap.insert] at h; exact .inr h
  | cons a l ih =>
    intro kv h
    unfold LMap.insert at h
    split at h
    · rcases List.mem_cons.1 h with h | h
      · exact .inr (by simpa using h)
      · exact .inl (List.mem_cons_of_mem _ h)
    · rcases List.mem_cons.1 h with h | h
      · exact .inl (by rw [h]; exact List.mem_cons_self ..)
      · rcases ih kv h with h | h
        · exact .inl (List.mem_cons_of_mem _ h)
        · exact .inr h

theorem merged_mem (l : List (Str × Str)) : ∀ m : SMap, ∀ kv ∈ (l.foldl (fun m kv => if m.containsKey kv.1 then m else m.insert kv.1 kv.2) m).entries,
    kv ∈ m.entries ∨ kv ∈ l := by
  induction l with
  | nil => intro m kv h; exact .inl h
  | cons a l ih =>
    intro m kv h
    rw [List.foldl_cons] at h
    rcases ih _ kv h with h | h
    · split at h
      · exact .inl h
      · rcases mem_insert kv h with h | h
        · exact .inl h
        · exact .inr (by rw [h]; exact List.mem_cons_self ..)
    · exact .inr (List.mem_cons_of_mem _ h)

theorem fromAttrs_mem (l : List (Str × Str)) : ∀ m : SMap,
    ∀ kv ∈ (l.foldl (fun m kv => if startsWith kv.1 c%"xmlns:" then m.insert (kv.1.drop 6) kv.2 else m) m).entries,
    kv ∈ m.entries ∨ (c%"xmlns:" ++ kv.1, kv.2) ∈ l := by
  induction l with
  | nil => intro m kv h; exact .inl h
  | cons a l ih =>
    intro m kv h
    rw [List.foldl_cons] at h
    rcases ih _ kv h with h | h
    · split at h
      · rename_i hs
        rcases mem_insert kv h with h | h
        · exact .inl h
        · obtain ⟨u, hu⟩ := startsWith_iff.1 hs
          obtain ⟨k, v⟩ := a
          simp only at hu h
          subst hu h
          exact .inr (List.mem_cons_self ..)
      · exact .inl h
    · exact .inr (List.mem_cons_of_mem _ h)

theorem from_context {e : Element} {d : Option Str} {ps : Option SMap} (he : From D e.xmlns e.ctx) (hd : ∀ v, d = some v → ∃ k, (k, v) ∈ D)
    (hp : ∀ c, ps = some c → ∀ kv ∈ c.entries, (c%"xmlns:" ++ kv.1, kv.2) ∈ D) :
    From D (ElementF.setNamespaceContext e d ps).xmlns (ElementF.setNamespaceContext e d ps).ctx := by
  have step1 : ∀ e1 : Element, From D e1.xmlns e1.ctx → From D
      (match (generalizing := false) ps with
        | none => e1
        | some ps => { e1 with ctx := ps.entries.foldl (fun m kv => if m.containsKey kv.1 then m else m.insert kv.1 kv.2) e1.ctx } : Element).xmlns
      (match (generalizing := false) ps with
        | none => e1
        | some ps => { e1 with ctx := ps.entries.foldl (fun m kv => if m.containsKey kv.1 then m else m.insert kv.1 kv.2) e1.ctx } : Element).ctx := by
    intro e1 h1
    cases ps with
    | none => exact h1
    | some c =>
      refine ⟨h1.1, fun kv h => ?_⟩
      rcases merged_mem _ _ kv h with h | h
      · exact h1.2 kv h
      · exact hp c rfl kv h
  have step2 : ∀ e2 : Element, From D e2.xmlns e2.ctx → From D
      (if e2.xmlns.isNone then match e2.pfx with | none => e2 | some p => { e2 with xmlns := e2.ctx.get p } else e2 : Element).xmlns
      (if e2.xmlns.isNone then match e2.pfx with | none => e2 | some p => { e2 with xmlns := e2.ctx.get p } else e2 : Element).ctx := by
    intro e2 h2
    split
    · cases e2.pfx with
      | none => exact h2
      | some p => exact ⟨fun v hv => ⟨_, h2.2 _ (SMap.get_eq_some.1 hv)⟩, h2.2⟩
    · exact h2
  unfold ElementF.setNamespaceContext
  refine step2 _ (step1 _ ?_)
  cases e.pfx with
  | some _ => exact he
  | none =>
    cases e.defaultNamespace with
    | some _ => exact he
    | none => exact ⟨hd, he.2⟩

theorem from_default {e : Element} (he : From D e.xmlns e.ctx) : ∀ v, e.defaultNamespace = some v → ∃ k, (k, v) ∈ D := by
  intro v hv
  unfold ElementF.defaultNamespace at hv
  split at hv
  · exact he.1 v hv
  · cases hv

theorem from_apply {e : Element} {n : Node} (he : From D e.xmlns e.ctx) (hn : EveryNs (From D) n) :
    EveryNs (From D) (applyXmlnsContext e.defaultNamespace e.ctx n) := by
  cases n with
  | element c =>
    obtain ⟨h1, h2⟩ := (everyNs_elem c).1 hn
    rw [applyXmlnsContext]
    refine (everyNs_elem _).2 ⟨from_context h1 (from_default he) ?_, ?_⟩
    · rintro c ⟨⟩; exact he.2
    · rw [(setNamespaceContext_fields _ _ _).2.1]; exact h2
  | _ => exact hn

theorem from_addOne {e : Element} {n : Node} (he : EveryNs (From D) (.element e)) (hn : EveryNs (From D) n) :
    EveryNs (From D) (.element (addOne e n)) := by
  obtain ⟨h1, h2⟩ := (everyNs_elem e).1 he
  refine (everyNs_elem _).2 ⟨h1, everyNs_normal (everyNsL_iff.2 fun m hm => ?_)⟩
  rcases List.mem_append.1 hm with hm | hm
  · exact everyNsL_iff.1 h2 m hm
  · rw [List.mem_singleton.1 hm]; exact from_apply h1 hn

/-- the same for forests -/
def FFrom (D : List (Str × Str)) : Forest → Prop
  | .nil => True
  | .leaf n r => EveryNs (From D) n ∧ FFrom D r
  | .elem e k r => EveryNs (From D) (.element e) ∧ FFrom D k ∧ FFrom D r

theorem ffrom_fappend {f g : Forest} (hf : FFrom D f) (hg : FFrom D g) : FFrom D (fappend f g) := by
  induction f with
  | nil => exact hg
  | leaf n r ih => exact ⟨hf.1, ih hf.2⟩
  | elem e k r _ ih => exact ⟨hf.1, hf.2.1, ih hf.2.2⟩

theorem from_addRev (f : Forest) : ∀ e : Element, EveryNs (From D) (.element e) → FFrom D f → EveryNs (From D) (.element (addRev e f)) := by
  induction f with
  | nil => intro e he _; exact he
  | leaf n r ih => intro e he hf; exact from_addOne (ih e he hf.2) (everyNs_flip hf.1)
  | elem c k r ih1 ih2 => intro e he hf; exact from_addOne (ih2 e he hf.2.2) (everyNs_flip (ih1 c hf.1 hf.2.1))

theorem opens_from {p : Option Element} {tag : Str} {e : Element} (h : Opens p tag e) :
    entryBytes e.attrs.entries ≤ blen tag ∧ ((∀ p', p = some p' → From D p'.xmlns p'.ctx) → e.attrs.entries ⊆ D → EveryNs (From D) (.element e)) := by
  constructor
  · have := opens_bytes h
    simp only [storing] at this
    change _ + entryBytes e.attrs.entries ≤ _ at this
    omega
  · intro hp hD
    rw [everyNs_elem, opens_children h]
    refine ⟨?_, trivial⟩
    obtain ⟨t, attrs, n0, n, x, q, h1, h⟩ := h.elem
    have ha : e.attrs = attrs := by rw [h.eq]; exact (setNamespaceContext_fields _ _ _).2.2.1
    rw [ha] at hD
    have get : ∀ {k v : Str}, attrs.get k = some v → ∃ k, (k, v) ∈ D := fun hg => ⟨_, hD (SMap.get_eq_some.1 hg)⟩
    have hx : ∀ v, x = some v → ∃ k, (k, v) ∈ D := by
      intro v hv
      cases h.name with
      | plain => cases hv
      | own _ _ hg => cases hv; exact get hg
      | inh _ _ _ hpar => exact ⟨_, (hp _ hpar).2 _ (SMap.get_eq_some.1 hv)⟩
    rw [h.eq]
    refine from_context ⟨?_, ?_⟩ ?_ ?_
    · intro v hv
      cases x with
      | some x => exact hx v (by simpa using hv)
      | none => cases q with
        | none => exact get (by simpa [ownNs] using hv)
        | some q => exact get (by simpa [ownNs] using hv)
    · intro kv hkv
      rcases fromAttrs_mem _ _ kv hkv with h | h
      · cases h
      · exact hD h
    · intro v hv
      cases p with
      | none => cases hv
      | some p => exact from_default (hp p rfl) v hv
    · intro c hc
      cases p with
      | none => cases hc
      | some p => cases hc; exact (hp p rfl).2

theorem withText_from {text : Str} {f f' : Forest} (h : WithText text f f') (hf : FFrom D f) : FFrom D f' := by
  cases h with
  | blank _ => exact hf
  | text _ h => exact ⟨trivial, hf⟩

theorem entryBytes_append (a b : List (Str × Str)) : entryBytes (a ++ b) = entryBytes a + entryBytes b := by
  simp [entryBytes]

theorem costs_cons (t : Str × Str) (l : List (Str × Str)) : costs blen blen (t :: l) = blen t.1 + blen t.2 + costs blen blen l := by
  simp [costs]

theorem costs_append (a b : List (Str × Str)) : costs blen blen (a ++ b) = costs blen blen a + costs blen blen b := by
  simp [costs]

theorem body_from {e : Element} {toks : List (Str × Str)} {f : Forest} (h : Body e toks f) :
    ∃ A, entryBytes A ≤ costs blen blen toks ∧ ∀ D, From D e.xmlns e.ctx → A ⊆ D → FFrom D f := by
  induction h with
  | close _ ht => exact ⟨[], Nat.zero_le _, fun D _ _ => withText_from ht trivial⟩
  | comment _ _ ht ih =>
    obtain ⟨A, h1, h2⟩ := ih
    exact ⟨A, by rw [costs_cons]; omega, fun D hD hA => withText_from ht ⟨trivial, h2 D hD hA⟩⟩
  | cdata _ _ ht ih =>
    obtain ⟨A, h1, h2⟩ := ih
    exact ⟨A, by rw [costs_cons]; omega, fun D hD hA => withText_from ht ⟨trivial, h2 D hD hA⟩⟩
  | @empty _ c _ _ _ _ _ ho _ _ ht ih =>
    obtain ⟨A, h1, h2⟩ := ih
    refine ⟨c.attrs.entries ++ A, ?_, fun D hD hA => withText_from ht ⟨?_, h2 D hD fun _ h => hA (List.mem_append_right _ h)⟩⟩
    · have := (opens_from (D := []) ho).1
      rw [costs_cons, entryBytes_append]
      simp only
      omega
    · exact (opens_from ho).2 (by rintro p ⟨⟩; exact hD) fun _ h => hA (List.mem_append_left _ h)
  | @elem _ c _ _ _ _ _ _ _ ho _ _ _ ht ih1 ih2 =>
    obtain ⟨A, h1, h2⟩ := ih1
    obtain ⟨B, h3, h4⟩ := ih2
    refine ⟨c.attrs.entries ++ (A ++ B), ?_, fun D hD hA => ?_⟩
    · have := (opens_from (D := []) ho).1
      rw [costs_cons, costs_append, entryBytes_append, entryBytes_append]
      simp only
      omega
    · have hc : EveryNs (From D) (.element c) := (opens_from ho).2 (by rintro p ⟨⟩; exact hD) fun _ h => hA (List.mem_append_left _ h)
      exact withText_from ht ⟨hc, h2 D ((everyNs_elem _).1 hc).1 fun _ h => hA (by simp [h]), h4 D hD fun _ h => hA (by simp [h])⟩

theorem tops_from {toks : List (Str × Str)} {e E : Element} {f F : Forest} (h : Tops toks e f E F) :
    ∃ A, entryBytes A ≤ costs blen blen toks ∧ ∀ D, A ⊆ D → EveryNs (From D) (.element e) → FFrom D f → EveryNs (From D) (.element E) ∧ FFrom D F := by
  induction h with
  | nil => exact ⟨[], Nat.zero_le _, fun D _ he hf => ⟨he, hf⟩⟩
  | @more _ _ _ _ _ c _ _ _ _ _ ho _ hB _ ih =>
    obtain ⟨A, h1, h2⟩ := body_from hB
    obtain ⟨B, h3, h4⟩ := ih
    refine ⟨c.attrs.entries ++ (A ++ B), ?_, fun D hA _ hf => ?_⟩
    · have := (opens_from (D := []) ho).1
      rw [costs_cons, costs_append, entryBytes_append, entryBytes_append]
      simp only
      omega
    · have hc : EveryNs (From D) (.element c) := (opens_from ho).2 (by rintro p ⟨⟩) fun _ h => hA (List.mem_append_left _ h)
      exact h4 D (fun _ h => hA (by simp [h])) hc (ffrom_fappend hf (h2 D ((everyNs_elem _).1 hc).1 fun _ h => hA (by simp [h])))

theorem rootPart_from {tag : Str} {rest : List (Str × Str)} {E : Element} {F : Forest} (h : RootPart tag rest E F) :
    ∃ A, entryBytes A ≤ blen tag + costs blen blen rest ∧ EveryNs (From A) (.element (addRev E F).reverseChildren) := by
  cases h with
  | empty ho _ hr =>
    refine ⟨E.attrs.entries, ?_, everyNs_flip (n := .element (addRev E .nil)) ?_⟩
    · have := (opens_from (D := []) ho).1
      omega
    · exact (opens_from ho).2 (by rintro p ⟨⟩) fun _ h => h
  | @elem e _ _ _ _ _ ho _ hr hB hT =>
    obtain ⟨A, h1, h2⟩ := body_from hB
    obtain ⟨B, h3, h4⟩ := tops_from hT
    subst hr
    refine ⟨e.attrs.entries ++ (A ++ B), ?_, everyNs_flip (n := .element (addRev E F)) ?_⟩
    · have := (opens_from (D := []) ho).1
      rw [costs_append, entryBytes_append, entryBytes_append]
      omega
    · have hc : EveryNs (From (e.attrs.entries ++ (A ++ B))) (.element e) := (opens_from ho).2 (by rintro p ⟨⟩) fun _ h => List.mem_append_left _ h
      obtain ⟨h5, h6⟩ := h4 _ (fun _ h => by simp [h]) hc (h2 _ ((everyNs_elem _).1 hc).1 fun _ h => by simp [h])
      exact from_addRev F E h5 h6

/-! ## sums -/

theorem entryBytes_perm {a b : List (Str × Str)} (h : a.Perm b) : entryBytes a = entryBytes b := (h.map _).sum_nat

theorem entryBytes_sublist {a b : List (Str × Str)} (h : a.Sublist b) : entryBytes a ≤ entryBytes b := by
  induction h with
  | slnil => exact Nat.le_refl _
  | cons a _ ih => simp only [entryBytes, List.map_cons, List.sum_cons] at ih ⊢; omega
  | cons_cons a _ ih => simp only [entryBytes, List.map_cons, List.sum_cons] at ih ⊢; omega

theorem entryBytes_subset {a b : List (Str × Str)} (hn : a.Nodup) (h : a ⊆ b) : entryBytes a ≤ entryBytes b := by
  obtain ⟨l, h1, h2⟩ := List.subperm_of_subset hn h
  rw [← entryBytes_perm h1]
  exact entryBytes_sublist h2

theorem from_bytes {A : List (Str × Str)} {x : Option Str} {c : SMap} (h : From A x c) :
    optBytes x ≤ entryBytes A ∧ entryBytes c.entries + 6 * c.entries.length ≤ entryBytes A := by
  constructor
  · cases x with
    | none => exact Nat.zero_le _
    | some v =>
      obtain ⟨k, hk⟩ := h.1 v rfl
      have := entryBytes_subset (a := [(k, v)]) (List.nodup_singleton _) (by simpa using hk)
      simp only [entryBytes, attrBytes, List.map_cons, List.map_nil, List.sum_cons, List.sum_nil] at this ⊢
      simp only [optBytes]
      omega
  · have h1 : entryBytes (c.entries.map fun kv => (c%"xmlns:" ++ kv.1, kv.2)) = entryBytes c.entries + 6 * c.entries.length := by
      have h6 : blen c%"xmlns:" = 6 := rfl
      generalize c.entries = l
      induction l with
      | nil => rfl
      | cons a l ih =>
        simp only [entryBytes, attrBytes, List.map_cons, List.sum_cons, blen_append, List.length_cons, h6] at ih ⊢
        omega
    rw [← h1]
    refine entryBytes_subset ?_ fun kv hkv => ?_
    · refine (List.Nodup.of_map _ c.nodup).map ?_
      rintro ⟨k, v⟩ ⟨k', v'⟩ he
      simpa using he
    · obtain ⟨kv', hm, rfl⟩ := List.mem_map.1 hkv
      exact h.2 kv' hm

theorem parse_namespaces {x : Str} {d : Document} (h : parseStr x = .ok d) :
    EveryNs (fun ns c => optBytes ns ≤ blen x ∧ (c.entries.map attrBytes).sum + 6 * c.entries.length ≤ blen x) (.element d.root) := by
  obtain ⟨toks, D, DS, tag, rest, E, F, hL, hP, hR, rfl⟩ := (parse_iff.1 h).ex
  obtain ⟨tail, hl⟩ := lex_lexes hL
  have h1 := lexes_bytes hl
  have h2 := (pro_tokens hP).2
  have h4 : headBytes none [] = 0 := rfl
  obtain ⟨A, h5, h6⟩ := rootPart_from hR
  refine everyNs_mono (fun ns c hc => ?_) _ h6
  obtain ⟨h7, h8⟩ := from_bytes hc
  exact ⟨by omega, by change entryBytes c.entries + _ ≤ _; omega⟩

end KissXml
