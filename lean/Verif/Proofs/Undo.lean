import Verif.Spec.Undo
import Verif.Proofs.Edit
/-!
# Lemmas for C99: putting in and taking out again
-/
namespace KissXml
open Spec

/-- no adjacent texts, no blank ones -/
def NormalL (l : List Node) : Prop := NoAdjText l ∧ ∀ t, Node.text t ∈ l → ¬ Blank t

theorem noAdjText_append {A B : List Node} : NoAdjText (A ++ B) ↔
    NoAdjText A ∧ NoAdjText B ∧ ∀ x y, A.getLast? = some (.text x) → B.head? ≠ some (.text y) := by
  induction A with
  | nil => simp [noAdjText_nil]
  | cons a A ih =>
    rw [List.cons_append, noAdjText_cons, noAdjText_cons, ih]
    cases A with
    | nil =>
      simp only [List.nil_append, noAdjText_nil, true_and, List.getLast?_nil, List.getLast?_singleton]
      constructor
      · rintro ⟨h1, h2, -⟩
        refine ⟨by simp, h2, ?_⟩
        rintro x y hx hy
        cases B with
        | nil => simp at hy
        | cons b B => exact h1 x y B (by simpa using hx) (by simp at hy; simp [hy])
      · rintro ⟨-, h2, h3⟩
        refine ⟨?_, h2, by simp⟩
        rintro x y r rfl rfl
        exact h3 x y rfl rfl
    | cons a' A =>
      simp only [List.cons_append, List.getLast?_cons_cons]
      constructor
      · rintro ⟨h1, h2, h3, h4⟩
        refine ⟨⟨fun x y r hx hr => h1 x y (r ++ B) hx (by simp only [List.cons.injEq] at hr; simp [hr]), h2⟩, h3, h4⟩
      · rintro ⟨⟨h1, h2⟩, h3, h4⟩
        refine ⟨fun x y r hx hr => ?_, h2, h3, h4⟩
        simp only [List.cons.injEq] at hr
        exact h1 x y A hx (by simp [hr.1])

theorem normalL_append {A B : List Node} : NormalL (A ++ B) ↔
    NormalL A ∧ NormalL B ∧ ∀ x y, A.getLast? = some (.text x) → B.head? ≠ some (.text y) := by
  unfold NormalL
  rw [noAdjText_append]
  simp only [List.mem_append]
  constructor
  · rintro ⟨⟨h1, h2, h3⟩, h4⟩
    exact ⟨⟨h1, fun t ht => h4 t (.inl ht)⟩, ⟨h2, fun t ht => h4 t (.inr ht)⟩, h3⟩
  · rintro ⟨⟨h1, h4⟩, ⟨h2, h5⟩, h3⟩
    exact ⟨⟨h1, h2, h3⟩, fun t ht => ht.elim (h4 t) (h5 t)⟩

theorem normalL_single {n : Node} : NormalL [n] ↔ ∀ t, n = .text t → ¬ Blank t := by
  constructor
  · rintro ⟨-, h⟩ t rfl; exact h t (by simp)
  · intro h
    refine ⟨?_, fun t ht => h t (List.mem_singleton.1 ht).symm⟩
    rw [noAdjText_cons]
    exact ⟨by simp, noAdjText_nil⟩

/-- a list in normal form, with another node in it, is in normal form if the node fits -/
theorem normalL_insert {A B : List Node} {n : Node} (h : NormalL (A ++ B)) :
    NormalL (A ++ n :: B) ↔ Fits (A ++ B) A.length n := by
  rw [normalL_append] at h
  rw [show A ++ n :: B = A ++ ([n] ++ B) by simp, normalL_append, normalL_append, normalL_single]
  obtain ⟨hA, hB, hAB⟩ := h
  have e1 : ∀ s, (A ++ B)[A.length]? = some (Node.text s) ↔ B.head? = some (.text s) := by
    intro s; rw [List.getElem?_append_right (Nat.le_refl _), Nat.sub_self, List.head?_eq_getElem?]
  have e2 : ∀ j s, j + 1 = A.length → ((A ++ B)[j]? = some (Node.text s) ↔ A.getLast? = some (.text s)) := by
    intro j s hj
    rw [List.getElem?_append_left (by omega), List.getLast?_eq_getElem?, show A.length - 1 = j by omega]
  constructor
  · rintro ⟨-, ⟨h1, -, h2⟩, h3⟩ t rfl
    refine ⟨h1 t rfl, ?_⟩
    rintro j s (rfl | hj) hs
    · exact h2 t s (by simp) ((e1 s).1 hs)
    · exact h3 s t ((e2 j s hj).1 hs) (by simp)
  · intro h
    refine ⟨hA, ⟨fun t ht => (h t ht).1, hB, ?_⟩, ?_⟩
    · intro x y hx hy
      exact (h x (by simpa using hx)).2 _ y (.inl rfl) ((e1 y).2 hy)
    · intro x y hx hy
      have hne : A.length ≠ 0 := fun h0 => by simp [List.length_eq_zero_iff.1 h0] at hx
      exact (h y (by simpa using hy)).2 (A.length - 1) x (.inr (by omega)) ((e2 _ x (by omega)).2 hx)

theorem consJoin_length_le (n : Node) (j : List Node) : (consJoin n j).length ≤ j.length + 1 := by
  unfold consJoin; split <;> simp

theorem joinRuns_length_le (l : List Node) : (joinRuns l).length ≤ l.length := by
  induction l with
  | nil => simp [joinRuns]
  | cons n l ih =>
    rw [joinRuns]
    generalize joinRuns l = j at ih
    have := consJoin_length_le n j
    simp; omega

theorem noAdjText_of_length {l : List Node} (h : (joinRuns l).length = l.length) : NoAdjText l := by
  induction l with
  | nil => exact noAdjText_nil
  | cons n l ih =>
    have hle := joinRuns_length_le l
    rw [joinRuns] at h
    have h1 := consJoin_length_le n (joinRuns l)
    simp only [List.length_cons] at h
    have hl := ih (by omega)
    rw [joinRuns_id hl] at h
    rw [noAdjText_cons]
    refine ⟨?_, hl⟩
    rintro x y r rfl rfl
    simp [consJoin] at h

theorem normalL_of_length {l : List Node} (h : (normalText l).length = l.length) : NormalL l := by
  have h1 := joinRuns_length_le l
  have h2 : (normalText l).length ≤ (joinRuns l).length := List.length_filter_le _ _
  have h3 : NoAdjText l := noAdjText_of_length (by omega)
  refine ⟨h3, fun t ht hb => ?_⟩
  have h4 : normalText l = joinRuns l := by
    refine List.Sublist.eq_of_length List.filter_sublist ?_
    show (normalText l).length = _
    omega
  have h5 : Node.text t ∈ normalText l := by rw [h4, joinRuns_id h3]; exact ht
  exact normalText_not_blank h5 hb

/-- the node of a handed-down node is a text exactly if it is that text -/
theorem apply_text {d : Option Str} {c : SMap} {n : Node} {t : Str} : applyXmlnsContext d c n = .text t ↔ n = .text t := by
  cases n <;> simp [applyXmlnsContext]

theorem normalL_apply_last {d : Option Str} {c : SMap} {A : List Node} {n : Node} :
    NormalL (A ++ [applyXmlnsContext d c n]) ↔ NormalL (A ++ [n]) := by
  simp only [normalL_append, normalL_single, List.head?_cons, apply_text]
  simp [apply_text]

theorem normalL_mapLast {d : Option Str} {c : SMap} {l : List Node} :
    NormalL (mapLast (applyXmlnsContext d c) l) ↔ NormalL l := by
  rcases List.eq_nil_or_concat l with rfl | ⟨A, x, rfl⟩
  · simp [mapLast]
  · rw [List.concat_eq_append, mapLast_append]; exact normalL_apply_last

theorem normalText_normalL {l : List Node} (h : NormalL l) : normalText l = l := normalText_id h.1 h.2

theorem length_mapLast {α : Type} (f : α → α) (l : List α) : (mapLast f l).length = l.length := by
  rcases List.eq_nil_or_concat l with rfl | ⟨A, x, rfl⟩
  · rfl
  · rw [List.concat_eq_append, mapLast_append]; simp

theorem normalText_length_le (l : List Node) : (normalText l).length ≤ l.length :=
  (List.length_filter_le _ _).trans (joinRuns_length_le l)

theorem mapLast_cons_ne {α : Type} (f : α → α) (A : List α) {B : List α} (n : α) (h : B ≠ []) :
    mapLast f (A ++ n :: B) = A ++ n :: mapLast f B := by
  rcases List.eq_nil_or_concat B with rfl | ⟨C, x, rfl⟩
  · exact absurd rfl h
  · rw [List.concat_eq_append, mapLast_append, show A ++ n :: (C ++ [x]) = (A ++ n :: C) ++ [x] by simp, mapLast_append]
    simp

theorem mapLast_append_ne {α : Type} (f : α → α) (A : List α) {B : List α} (h : B ≠ []) :
    mapLast f (A ++ B) = A ++ mapLast f B := by
  rcases List.eq_nil_or_concat B with rfl | ⟨C, x, rfl⟩
  · exact absurd rfl h
  · rw [List.concat_eq_append, mapLast_append, ← List.append_assoc, mapLast_append, List.append_assoc]

/-- handing down namespaces that have been handed down does nothing -/
theorem apply_of_handedDown {d : Option Str} {ctx : SMap} {n : Node} (h : HandedDown d ctx n n) : applyXmlnsContext d ctx n = n := by
  cases n with
  | element e =>
    obtain ⟨n, cs, a, x, q, c⟩ := e
    obtain ⟨-, -, -, -, h5, h6⟩ := h
    have hfold : ∀ l : List (Str × Str), (∀ k ∈ l.map Prod.fst, (c.get k).isSome) →
        l.foldl (fun m kv => if m.containsKey kv.1 then m else m.insert kv.1 kv.2) c = c := by
      intro l
      induction l with
      | nil => intro _; rfl
      | cons kv l ih =>
        intro hl
        rw [List.foldl_cons, if_pos (by simpa [SMap.containsKey] using hl kv.1 (by simp))]
        exact ih fun k hk => hl k (by simp at hk ⊢; exact .inr hk)
    have hf := hfold ctx.entries (by
      intro k hk
      have := h5 k
      cases hc : c.get k with
      | some v => rfl
      | none =>
        have hg : ctx.get k ≠ none := fun h0 => by
          have := LMap.get_eq_none.1 (show LMap.get ctx.entries k = none from h0)
          exact this hk
        simp only [hc, Option.none_or] at this
        exact absurd this.symm hg)
    simp only at h6
    cases q with
    | none =>
      cases x with
      | none =>
        simp only [Option.none_or] at h6
        subst h6
        simp [applyXmlnsContext, ElementF.setNamespaceContext, ElementF.defaultNamespace, hf]
      | some x => simp [applyXmlnsContext, ElementF.setNamespaceContext, ElementF.defaultNamespace, hf]
    | some p =>
      cases x with
      | none =>
        simp only [Option.none_or] at h6
        have : c.get p = none := by cases hc : c.get p <;> simp [hc] at h6 ⊢
        simp [applyXmlnsContext, ElementF.setNamespaceContext, hf, this]
      | some x => simp [applyXmlnsContext, ElementF.setNamespaceContext, hf]
  | _ => rfl

end KissXml
