import Verif.Spec.Dom
import Verif.Proofs.Equal
import Verif.Proofs.Regex
/-!
# DOM queries and edits
-/
namespace KissXml
open Spec

/-! ## recursive iteration -/

mutual
theorem childrenRecursive_perm : ∀ e : Element, e.childrenRecursive.Perm (docOrderL e.children)
  | ⟨n, cs, a, x, p, c⟩ => by
    rw [ElementF.childrenRecursive]; exact childrenRecursiveOf_perm cs
theorem childrenRecursiveOf_perm : ∀ l : List Node, (l ++ childrenRecursiveOf l).Perm (docOrderL l)
  | [] => by simp [childrenRecursiveOf, docOrderL]
  | c :: cs => by
    rw [childrenRecursiveOf, docOrderL]
    have h1 := childrenRecursive_node c
    have h2 := childrenRecursiveOf_perm cs
    have e1 : (c :: cs ++ (c.childrenRecursive ++ childrenRecursiveOf cs)).Perm
        ((c :: c.childrenRecursive) ++ (cs ++ childrenRecursiveOf cs)) := by
      rw [List.cons_append, List.cons_append]
      apply List.Perm.cons
      rw [← List.append_assoc, ← List.append_assoc]
      exact List.Perm.append_right _ List.perm_append_comm
    exact e1.trans (h1.append h2)
theorem childrenRecursive_node : ∀ n : Node, (n :: n.childrenRecursive).Perm (docOrder n)
  | .element ⟨n, cs, a, x, p, c⟩ => by
    rw [Node.childrenRecursive, docOrder, ElementF.childrenRecursive]
    exact (childrenRecursiveOf_perm cs).cons _
  | .text _ => by rw [Node.childrenRecursive, docOrder]
  | .comment _ => by rw [Node.childrenRecursive, docOrder]
  | .cdata _ => by rw [Node.childrenRecursive, docOrder]
end

mutual
theorem textOf_elem : ∀ e : Element, e.textOf = ((docOrderL e.children).filterMap text?).flatten
  | ⟨n, cs, a, x, p, c⟩ => by rw [ElementF.textOf, textOf_list]
theorem textOf_list : ∀ l : List Node, textOfChildren l = ((docOrderL l).filterMap text?).flatten
  | [] => by simp [textOfChildren, docOrderL]
  | .element e :: cs => by
    rw [textOfChildren, docOrderL, textOf_list cs, List.filterMap_append, List.flatten_append]
    congr 1
    obtain ⟨n, cs', a, x, p, c⟩ := e
    simp only [Node.isText, Node.isElement, Bool.or_true, if_true]
    rw [Node.textOf, docOrder, textOf_elem]
    rfl
  | .text t :: cs => by
    rw [textOfChildren, docOrderL, textOf_list cs, List.filterMap_append, List.flatten_append]
    simp [Node.isText, Node.textOf, docOrder, text?]
  | .comment t :: cs => by
    rw [textOfChildren, docOrderL, textOf_list cs, List.filterMap_append, List.flatten_append]
    simp [Node.isText, Node.isElement, docOrder, text?]
  | .cdata t :: cs => by
    rw [textOfChildren, docOrderL, textOf_list cs, List.filterMap_append, List.flatten_append]
    simp [Node.isText, Node.isElement, docOrder, text?]
end

theorem filterMap_element (l : List Node) :
    l.filterMap (fun n => match n with | .element c => some c | _ => none) = l.filterMap element? := by
  congr 1

theorem filterMap_filter_sub {α β : Type} (f : α → Option β) (p : α → Bool) (h : ∀ a, (f a).isSome → p a = true)
    (l : List α) : (l.filter p).filterMap f = l.filterMap f := by
  induction l with
  | nil => rfl
  | cons a l ih =>
    cases hp : p a with
    | true => simp [hp, List.filterMap_cons, ih]
    | false =>
      have : f a = none := by
        cases hf : f a with
        | none => rfl
        | some b => have := h a (by simp [hf]); simp [hp] at this
      simp [hp, this, ih]

/-! ## text normal form -/

theorem joinRuns_eq (l : List Node) : joinRuns l = l.foldr consJoin [] := by
  induction l with
  | nil => rfl
  | cons n l ih => rw [joinRuns, List.foldr_cons, ih]

theorem consJoin_ne_nil (n : Node) (l : List Node) : consJoin n l ≠ [] := by
  unfold consJoin; split <;> simp

theorem vecRemove_append {α : Type} (A : List α) (x : α) (B : List α) :
    vecRemove (A ++ x :: B) A.length = some (x, A ++ B) := by
  unfold vecRemove
  simp [List.eraseIdx_append_of_length_le]

theorem vecInsert_append {α : Type} (A : List α) (x : α) (B : List α) :
    vecInsert (A ++ B) A.length x = some (A ++ x :: B) := by
  unfold vecInsert
  rw [if_pos (by simp)]
  congr 1
  induction A with
  | nil => rfl
  | cons a A ih => simp [ih]

theorem mergeTextLoop_eq (A : List Node) (s : Node) (S : List Node) :
    mergeTextLoop A.length (A ++ s :: S) = .ok (A.foldr consJoin (s :: S)) := by
  induction hn : A.length generalizing A s S with
  | zero =>
    have := List.length_eq_zero_iff.1 hn
    subst this
    rfl
  | succ k ih =>
    rcases List.eq_nil_or_concat A with rfl | ⟨A, f, rfl⟩
    · simp at hn
    rw [List.concat_eq_append] at *
    have hk : A.length = k := by simpa using hn
    have e1 : (A ++ [f] ++ s :: S)[k + 1]? = some s := by
      rw [← hk, show A.length + 1 = (A ++ [f]).length by simp]
      simp
    have e2 : (A ++ [f] ++ s :: S)[k]? = some f := by
      rw [← hk]; simp
    unfold mergeTextLoop
    simp only [e1, e2, Res.unwrap_some, Res.bind_ok]
    have hv1 : vecRemove (A ++ [f] ++ s :: S) (k + 1) = some (s, A ++ [f] ++ S) := by
      have := vecRemove_append (A ++ [f]) s S
      rwa [show (A ++ [f]).length = k + 1 by simp [hk]] at this
    have hv2 : vecRemove (A ++ [f] ++ S) k = some (f, A ++ S) := by
      have := vecRemove_append A f S
      rw [hk] at this
      simpa using this
    split
    · rename_i h
      simp only [Bool.and_eq_true] at h
      obtain ⟨hs, hf⟩ := h
      cases s with
      | text bt =>
        cases f with
        | text ft =>
          have hv3 : vecInsert (A ++ S) k (.text (textConcat ft bt)) = some (A ++ .text (ft ++ bt) :: S) := by
            have := vecInsert_append A (.text (textConcat ft bt)) S
            rwa [hk] at this
          simp only [hv1, hv2, Res.unwrap_some, Res.bind_ok, Node.asText, expect, hv3]
          rw [ih A _ S hk]
          simp [consJoin]
        | element _ => simp [Node.isText] at hf
        | comment _ => simp [Node.isText] at hf
        | cdata _ => simp [Node.isText] at hf
      | element _ => simp [Node.isText] at hs
      | comment _ => simp [Node.isText] at hs
      | cdata _ => simp [Node.isText] at hs
    · rename_i h
      have e3 : A ++ [f] ++ s :: S = A ++ f :: (s :: S) := by simp
      rw [e3, ih A f (s :: S) hk, List.foldr_append]
      congr 2
      cases s <;> cases f <;> simp_all [consJoin, Node.isText]

theorem mergeTextLoop_all (l : List Node) (h : l ≠ []) : mergeTextLoop (l.length - 1) l = .ok (joinRuns l) := by
  rcases List.eq_nil_or_concat l with rfl | ⟨A, s, rfl⟩
  · exact absurd rfl h
  · rw [List.concat_eq_append]
    have := mergeTextLoop_eq A s []
    rw [show (A ++ [s]).length - 1 = A.length by simp, this, joinRuns_eq, List.foldr_append]
    congr 2
    cases s <;> rfl

theorem blank_iff {t : Str} : textIsWhitespace t = true ↔ Blank t := by
  unfold textIsWhitespace Blank
  simp [List.isEmpty_eq_false_iff]

theorem dropWsLoop_eq (A : List Node) (x : Node) (S : List Node) :
    dropWsLoop A.length (A ++ x :: S) = .ok ((A ++ [x]).filter (fun n => !isBlankText n) ++ S) := by
  induction hn : A.length generalizing A x S with
  | zero =>
    have := List.length_eq_zero_iff.1 hn
    subst this
    unfold dropWsLoop
    cases x with
    | text t =>
      by_cases hb : Blank t
      · have := blank_iff.2 hb
        simp [Node.isText, Node.asText, expect, this, isBlankText, hb, vecRemove]
      · have : textIsWhitespace t = false := by
          cases h : textIsWhitespace t with
          | false => rfl
          | true => exact absurd (blank_iff.1 h) hb
        simp [Node.isText, Node.asText, expect, this, isBlankText, hb]
    | element _ => simp [Node.isText, isBlankText]
    | comment _ => simp [Node.isText, isBlankText]
    | cdata _ => simp [Node.isText, isBlankText]
  | succ k ih =>
    rcases List.eq_nil_or_concat A with rfl | ⟨A, f, rfl⟩
    · simp at hn
    rw [List.concat_eq_append] at *
    have hk : A.length = k := by simpa using hn
    have e1 : (A ++ [f] ++ x :: S)[k + 1]? = some x := by
      rw [← hk, show A.length + 1 = (A ++ [f]).length by simp]
      simp
    have hv1 : vecRemove (A ++ [f] ++ x :: S) (k + 1) = some (x, A ++ [f] ++ S) := by
      have := vecRemove_append (A ++ [f]) x S
      rwa [show (A ++ [f]).length = k + 1 by simp [hk]] at this
    unfold dropWsLoop
    simp only [e1, Res.unwrap_some, Res.bind_ok]
    have hkeep : isBlankText x = false →
        dropWsLoop k (A ++ [f] ++ x :: S) = .ok ((A ++ [f] ++ [x]).filter (fun n => !isBlankText n) ++ S) := by
      intro hx
      rw [show A ++ [f] ++ x :: S = A ++ f :: (x :: S) by simp, ih A f (x :: S) hk]
      simp only [List.filter_append, List.filter_cons, hx, List.filter_nil, Bool.not_false, if_true]
      simp
    have hdrop : isBlankText x = true →
        dropWsLoop k (A ++ [f] ++ S) = .ok ((A ++ [f] ++ [x]).filter (fun n => !isBlankText n) ++ S) := by
      intro hx
      rw [show A ++ [f] ++ S = A ++ f :: S by simp, ih A f S hk]
      simp [List.filter_append, List.filter_cons, hx]
    cases x with
    | text t =>
      by_cases hb : Blank t
      · have := blank_iff.2 hb
        simp only [Node.isText, if_true, Node.asText, expect, Res.bind_ok, this, hv1, Res.unwrap_some, Res.pure_eq]
        exact hdrop (by simp [isBlankText, hb])
      · have : textIsWhitespace t = false := by
          cases h : textIsWhitespace t with
          | false => rfl
          | true => exact absurd (blank_iff.1 h) hb
        simp only [Node.isText, if_true, Node.asText, expect, Res.bind_ok, this, Res.pure_eq]
        exact hkeep (by simp [isBlankText, hb])
    | element _ => simpa [Node.isText] using hkeep rfl
    | comment _ => simpa [Node.isText] using hkeep rfl
    | cdata _ => simpa [Node.isText] using hkeep rfl

theorem joinRuns_ne_nil {l : List Node} (h : l ≠ []) : joinRuns l ≠ [] := by
  rw [joinRuns_eq]
  cases l with
  | nil => exact absurd rfl h
  | cons n l => rw [List.foldr_cons]; exact consJoin_ne_nil _ _

/-- `cleanup_text_nodes` never panics and computes the text normal form -/
theorem cleanupTextNodes_eq (l : List Node) : cleanupTextNodes l = .ok (normalText l) := by
  unfold cleanupTextNodes
  split
  · rename_i h
    have := List.length_eq_zero_iff.1 h
    subst this; rfl
  · rename_i h
    have hne : l ≠ [] := fun h' => h (by simp [h'])
    rw [mergeTextLoop_all l hne]
    have hj := joinRuns_ne_nil hne
    simp only [Res.bind_ok]
    rw [if_pos (List.length_pos_of_ne_nil hj)]
    unfold normalText
    generalize joinRuns l = j at hj ⊢
    rcases List.eq_nil_or_concat j with rfl | ⟨A, x, rfl⟩
    · exact absurd rfl hj
    · rw [List.concat_eq_append]
      have := dropWsLoop_eq A x []
      rw [show (A ++ [x]).length - 1 = A.length by simp, this]
      simp

/-- no two adjacent text nodes -/
def NoAdjText (l : List Node) : Prop := ∀ a b x y, l ≠ a ++ .text x :: .text y :: b

theorem noAdjText_cons {n : Node} {l : List Node} :
    NoAdjText (n :: l) ↔ (∀ x y r, n = .text x → l ≠ .text y :: r) ∧ NoAdjText l := by
  constructor
  · intro h
    refine ⟨?_, ?_⟩
    · rintro x y r rfl rfl; exact h [] r x y rfl
    · intro a b x y hl; exact h (n :: a) b x y (by simp [hl])
  · rintro ⟨h1, h2⟩ a b x y hl
    cases a with
    | nil => simp at hl; exact h1 x y b hl.1 hl.2
    | cons m a => simp at hl; exact h2 a b x y hl.2

theorem noAdjText_nil : NoAdjText [] := by intro a b x y h; simp at h

theorem noAdjText_consJoin {n : Node} {l : List Node} (h : NoAdjText l) : NoAdjText (consJoin n l) := by
  unfold consJoin
  split
  · rw [noAdjText_cons] at h ⊢
    refine ⟨?_, h.2⟩
    rintro x y r hx hr
    exact h.1 _ y r rfl hr
  · rename_i hn
    rw [noAdjText_cons]
    refine ⟨?_, h⟩
    rintro x y r rfl rfl
    exact hn x y r rfl rfl

theorem noAdjText_joinRuns (l : List Node) : NoAdjText (joinRuns l) := by
  rw [joinRuns_eq]
  induction l with
  | nil => exact noAdjText_nil
  | cons n l ih => exact noAdjText_consJoin ih

theorem noAdjText_filter {p : Node → Bool} (hp : ∀ n, n.isText = false → p n = true) {l : List Node}
    (h : NoAdjText l) : NoAdjText (l.filter p) := by
  induction l with
  | nil => exact noAdjText_nil
  | cons n l ih =>
    rw [noAdjText_cons] at h
    cases hn : p n with
    | false => simpa [hn] using ih h.2
    | true =>
      simp only [List.filter_cons, hn, if_true]
      rw [noAdjText_cons]
      refine ⟨?_, ih h.2⟩
      rintro x y r rfl hl
      cases l with
      | nil => simp at hl
      | cons m l =>
        have hm : m.isText = false := by
          cases m with
          | text z => exact absurd rfl (h.1 x z l rfl)
          | element _ => rfl
          | comment _ => rfl
          | cdata _ => rfl
        simp [hp m hm] at hl
        rw [hl.1] at hm
        simp [Node.isText] at hm

theorem noAdjText_normalText (l : List Node) : NoAdjText (normalText l) := by
  apply noAdjText_filter _ (noAdjText_joinRuns l)
  intro n hn
  cases n <;> simp_all [Node.isText, isBlankText]

theorem normalText_not_blank {l : List Node} {t : Str} (h : Node.text t ∈ normalText l) : ¬ Blank t := by
  unfold normalText at h
  have := (List.mem_filter.1 h).2
  simpa [isBlankText] using this

/-- normal lists are fixed points -/
theorem joinRuns_id {l : List Node} (h : NoAdjText l) : joinRuns l = l := by
  rw [joinRuns_eq]
  induction l with
  | nil => rfl
  | cons n l ih =>
    rw [noAdjText_cons] at h
    rw [List.foldr_cons, ih h.2]
    unfold consJoin
    split
    · rename_i x y r
      exact absurd rfl (h.1 x y r rfl)
    · rfl

theorem normalText_id {l : List Node} (h : NoAdjText l) (hb : ∀ t, Node.text t ∈ l → ¬ Blank t) : normalText l = l := by
  unfold normalText
  rw [joinRuns_id h]
  apply List.filter_eq_self.2
  intro n hn
  cases n with
  | text t => simp [isBlankText, hb t hn]
  | element _ => rfl
  | comment _ => rfl
  | cdata _ => rfl

end KissXml
