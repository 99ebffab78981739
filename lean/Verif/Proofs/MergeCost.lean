import Verif.Model.MergeCost
import Verif.Spec.MergeCost
import Verif.Proofs.CostUpper
import Verif.Proofs.Edit
/-!
# Lemmas about the bytes copied when texts are merged
-/
namespace KissXml
open Spec Run

theorem out_concat (a b : Str) : (textConcatRun a b).out = .ok (textConcat a b) := rfl
theorem count_concat (a b : Str) : (textConcatRun a b).count = blen a + blen b := rfl

@[simp] theorem out_mergeCopy (i : Nat) (l : List Node) : (mergeCopyRun i l).out = mergeTextLoop i l := by
  induction i generalizing l with
  | zero => rfl
  | succ i ih =>
    unfold mergeCopyRun mergeTextLoop
    simp only [out_bind, out_free]
    refine bind_congr_r fun a => bind_congr_r fun b => ?_
    split
    · simp only [out_bind, out_free, out_concat, Res.bind_ok, ih]
    · exact ih _

@[simp] theorem out_cleanupCopy (l : List Node) : (cleanupCopyRun l).out = cleanupTextNodes l := by
  unfold cleanupCopyRun cleanupTextNodes
  split
  · rfl
  · simp only [out_bind, out_mergeCopy]
    refine bind_congr_r fun l => ?_
    split <;> rfl

@[simp] theorem out_appendCopy (e : Element) (n : Node) : (appendCopyRun e n).out = e.append n := by
  unfold appendCopyRun ElementF.append
  simp only [out_bind, out_cleanupCopy]
  rfl

theorem out_appendAllCopy (e : Element) (cs : List Node) : (appendAllCopyRun e cs).out = e.appendAll cs := by
  unfold appendAllCopyRun ElementF.appendAll
  simp only [out_bind, out_cleanupCopy, out_free]
  rfl

/-- what is copied when a node comes before others that are merged -/
def joinOne (n : Node) (S : List Node) : Nat :=
  match n, S with
  | .text t, .text u :: _ => blen t + blen u
  | _, _ => 0

/-- what is copied when nodes come before others, from the last to the first -/
def joinCost : List Node → List Node → Nat
  | [], _ => 0
  | a :: B, S => joinOne a (B.foldr consJoin S) + joinCost B S

theorem joinCost_snoc (A : List Node) (a : Node) (S : List Node) : joinCost (A ++ [a]) S = joinOne a S + joinCost A (consJoin a S) := by
  induction A with
  | nil => simp [joinCost]
  | cons b A ih =>
    rw [List.cons_append, joinCost, joinCost, ih, List.foldr_append]
    simp only [List.foldr_cons, List.foldr_nil]
    omega

theorem mergeCopy_count (A : List Node) (s : Node) (S : List Node) :
    (mergeCopyRun A.length (A ++ s :: S)).count = joinCost A (s :: S) := by
  induction hn : A.length generalizing A s S with
  | zero =>
    have := List.length_eq_zero_iff.1 hn
    subst this
    rfl
  | succ k ih =>
    rcases List.eq_nil_or_concat A with rfl | ⟨A, f, rfl⟩
    · simp at hn
    rw [List.concat_eq_append] at *
    have hk : A.length = k := by simpa using hn
    have e1 : (A ++ [f] ++ s :: S)[k + 1]? = some s := by
      rw [← hk, show A.length + 1 = (A ++ [f]).length by simp]
      simp
    have e2 : (A ++ [f] ++ s :: S)[k]? = some f := by
      rw [← hk]; simp
    unfold mergeCopyRun
    have hv1 : vecRemove (A ++ [f] ++ s :: S) (k + 1) = some (s, A ++ [f] ++ S) := by
      have := vecRemove_append (A ++ [f]) s S
      rwa [show (A ++ [f]).length = k + 1 by simp [hk]] at this
    have hv2 : vecRemove (A ++ [f] ++ S) k = some (f, A ++ S) := by
      have := vecRemove_append A f S
      rw [hk] at this
      simpa using this
    have o1 : (free (Res.unwrap (A ++ [f] ++ s :: S)[k + 1]?)).out = (.ok s : R Node) := by rw [e1]; rfl
    have o2 : (free (Res.unwrap (A ++ [f] ++ s :: S)[k]?)).out = (.ok f : R Node) := by rw [e2]; rfl
    rw [count_bind_ok o1, count_bind_ok o2, joinCost_snoc]
    simp only [count_free, Nat.zero_add]
    have e3 : A ++ [f] ++ s :: S = A ++ f :: (s :: S) := by simp
    split
    · rename_i h
      simp only [Bool.and_eq_true] at h
      obtain ⟨hs, hf⟩ := h
      cases s with
      | text bt =>
        cases f with
        | text ft =>
          have hv3 : vecInsert (A ++ S) k (.text (textConcat ft bt)) = some (A ++ .text (ft ++ bt) :: S) := by
            have := vecInsert_append A (.text (textConcat ft bt)) S
            rwa [hk] at this
          have p1 : (free (Res.unwrap (vecRemove (A ++ [.text ft] ++ .text bt :: S) (k + 1)))).out = (.ok (.text bt, A ++ [.text ft] ++ S) : R _) := by
            rw [hv1]; rfl
          have p2 : (free (Res.unwrap (vecRemove (A ++ [.text ft] ++ S) k))).out = (.ok (.text ft, A ++ S) : R _) := by
            rw [hv2]; rfl
          have p3 : (free (Res.unwrap (vecInsert (A ++ S) k (.text (textConcat ft bt))))).out = (.ok (A ++ .text (ft ++ bt) :: S) : R _) := by
            rw [hv3]; rfl
          rw [count_bind_ok p1, count_bind_ok p2]
          simp only [Node.asText, expect]
          rw [count_bind_ok (a := ft) rfl, count_bind_ok (a := bt) rfl, count_bind_ok (out_concat ft bt), count_bind_ok p3, ih A _ S hk]
          simp [joinOne, consJoin, count_concat]
        | element _ => simp [Node.isText] at hf
        | comment _ => simp [Node.isText] at hf
        | cdata _ => simp [Node.isText] at hf
      | element _ => simp [Node.isText] at hs
      | comment _ => simp [Node.isText] at hs
      | cdata _ => simp [Node.isText] at hs
    · rename_i h
      rw [e3, ih A f (s :: S) hk]
      cases s <;> cases f <;> simp_all [consJoin, joinOne, Node.isText]

theorem leading_text (t : Str) (l : List Node) : leading (.text t :: l) = blen t + leading l := by
  unfold leading
  rw [List.takeWhile_cons_of_pos rfl]
  simp [textBytes]

/-- the head of what is merged -/
theorem foldr_head (B : List Node) (s : Node) :
    ∃ h r, B.foldr consJoin [s] = h :: r ∧ ((B ++ [s]).head (by simp)).isText = h.isText ∧ textBytes h = leading (B ++ [s]) := by
  induction B with
  | nil =>
    refine ⟨s, [], rfl, rfl, ?_⟩
    cases s with
    | text t => rw [List.nil_append, leading_text]; rfl
    | _ => rfl
  | cons b B ih =>
    obtain ⟨h, r, h1, h2, h3⟩ := ih
    rw [List.foldr_cons, h1]
    cases b with
    | text t =>
      have hl : leading (.text t :: B ++ [s]) = blen t + leading (B ++ [s]) := leading_text _ _
      rw [hl, ← h3]
      cases h with
      | text u => exact ⟨.text (t ++ u), r, rfl, rfl, by simp [textBytes, blen_append]⟩
      | _ => exact ⟨.text t, _, rfl, rfl, by simp [textBytes]⟩
    | _ => exact ⟨_, _, rfl, rfl, rfl⟩

theorem copied_cons (a b : Node) (l : List Node) :
    copied (a :: b :: l) = (if a.isText && b.isText then leading (a :: b :: l) else 0) + copied (b :: l) := by
  cases a <;> cases b <;> simp [copied, Node.isText]

theorem joinCost_copied (B : List Node) (s : Node) : joinCost B [s] = copied (B ++ [s]) := by
  induction B with
  | nil => cases s <;> rfl
  | cons a B ih =>
    obtain ⟨h, r, h1, h2, h3⟩ := foldr_head B s
    rw [joinCost, ih, h1]
    obtain ⟨b, m, hm⟩ : ∃ b m, B ++ [s] = b :: m := by
      cases B with
      | nil => exact ⟨s, [], rfl⟩
      | cons b B => exact ⟨b, B ++ [s], rfl⟩
    rw [List.cons_append]
    simp only [hm] at h2 h3 ⊢
    rw [copied_cons]
    simp only [List.head_cons] at h2
    congr 1
    cases a with
    | text t =>
      have hl : leading (.text t :: b :: m) = blen t + leading (b :: m) := leading_text _ _
      rw [hl, ← h3, h2]
      cases h <;> simp [joinOne, Node.isText, textBytes]
    | _ => simp [joinOne, Node.isText]

theorem cleanupCopy_count (l : List Node) : (cleanupCopyRun l).count = copied l := by
  rcases List.eq_nil_or_concat l with rfl | ⟨A, s, rfl⟩
  · rfl
  · rw [List.concat_eq_append]
    unfold cleanupCopyRun
    rw [if_neg (by simp), show (A ++ [s]).length - 1 = A.length by simp]
    have o : (mergeCopyRun A.length (A ++ [s])).out = .ok (A.foldr consJoin [s]) := by
      rw [out_mergeCopy, mergeTextLoop_eq]
    rw [count_bind_ok o, mergeCopy_count, joinCost_copied]
    split <;> simp

theorem apply_isText (d : Option Str) (c : SMap) (n : Node) : (applyXmlnsContext d c n).isText = n.isText := by cases n <;> rfl

theorem apply_bytes (d : Option Str) (c : SMap) (n : Node) : textBytes (applyXmlnsContext d c n) = textBytes n := by cases n <;> rfl

theorem leading_map (f : Node → Node) (h1 : ∀ n, (f n).isText = n.isText) (h2 : ∀ n, textBytes (f n) = textBytes n) (A l : List Node) :
    leading (A ++ l.map f) = leading (A ++ l) := by
  have hl : leading (l.map f) = leading l := by
    unfold leading
    induction l with
    | nil => rfl
    | cons a l ih =>
      rw [List.map_cons, List.takeWhile_cons, List.takeWhile_cons, h1]
      split
      · simp only [List.map_cons, List.sum_cons, ih, h2]
      · rfl
  induction A with
  | nil => exact hl
  | cons a A ih =>
    cases a with
    | text t => rw [List.cons_append, List.cons_append, leading_text, leading_text, ih]
    | _ => rfl

theorem copied_map (f : Node → Node) (h1 : ∀ n, (f n).isText = n.isText) (h2 : ∀ n, textBytes (f n) = textBytes n) (A l : List Node) :
    copied (A ++ l.map f) = copied (A ++ l) := by
  have hl : copied (l.map f) = copied l := by
    induction l with
    | nil => rfl
    | cons a l ih =>
      cases l with
      | nil => cases ha : f a <;> cases a <;> simp [copied, ha]
      | cons b l =>
        have := leading_map f h1 h2 [] (a :: b :: l)
        simp only [List.map_cons, List.nil_append] at this ih ⊢
        rw [copied_cons, copied_cons, ih, h1, h1, this]
  induction A with
  | nil => exact hl
  | cons a A ih =>
    cases A with
    | nil =>
      cases l with
      | nil => rfl
      | cons b l =>
        have := leading_map f h1 h2 [a] (b :: l)
        simp only [List.map_cons, List.nil_append, List.cons_append] at this ih ⊢
        rw [copied_cons, copied_cons, ih, h1, this]
    | cons b A =>
      have := leading_map f h1 h2 (a :: b :: A) l
      simp only [List.cons_append] at this ih ⊢
      rw [copied_cons, copied_cons, ih, this]

theorem appendCopy_count (e : Element) (n : Node) : (appendCopyRun e n).count = copied (e.children ++ [n]) := by
  unfold appendCopyRun
  have o := (out_cleanupCopy (e.children ++ [applyXmlnsContext e.defaultNamespace e.ctx n])).trans (cleanupTextNodes_eq _)
  rw [count_bind_ok o, cleanupCopy_count]
  exact copied_map (applyXmlnsContext e.defaultNamespace e.ctx) (apply_isText _ _) (apply_bytes _ _) e.children [n]

theorem appendAllCopy_count (e : Element) (cs : List Node) : (appendAllCopyRun e cs).count = copied (e.children ++ cs) := by
  unfold appendAllCopyRun
  have o1 : (free (ElementF.applyAt e.defaultNamespace e.ctx (ElementF.elemIndices e.children.length cs) (e.children ++ cs))).out = .ok _ :=
    applyAt_eq _ _ _ _
  rw [count_bind_ok o1]
  have o := (out_cleanupCopy (e.children ++ cs.map (applyXmlnsContext e.defaultNamespace e.ctx))).trans (cleanupTextNodes_eq _)
  rw [count_bind_ok o, cleanupCopy_count]
  simp only [count_free, count_pure, Nat.zero_add, Nat.add_zero]
  exact copied_map (applyXmlnsContext e.defaultNamespace e.ctx) (apply_isText _ _) (apply_bytes _ _) e.children cs

theorem leading_le (l : List Node) : leading l ≤ (l.map textBytes).sum := by
  unfold leading
  induction l with
  | nil => exact Nat.le_refl _
  | cons a l ih =>
    rw [List.takeWhile_cons]
    split
    · simp only [List.map_cons, List.sum_cons]; omega
    · exact Nat.zero_le _

theorem copied_le (l : List Node) : copied l ≤ l.countP Node.isText * (l.map textBytes).sum := by
  induction l with
  | nil => exact Nat.le_refl _
  | cons a l ih =>
    have hs : (l.map textBytes).sum ≤ ((a :: l).map textBytes).sum := by simp
    have h1 : copied l ≤ l.countP Node.isText * ((a :: l).map textBytes).sum := ih.trans (Nat.mul_le_mul_left _ hs)
    cases l with
    | nil => cases a <;> exact Nat.zero_le _
    | cons b l =>
      rw [copied_cons]
      split
      · rename_i h
        simp only [Bool.and_eq_true] at h
        have h2 := leading_le (a :: b :: l)
        rw [List.countP_cons_of_pos h.1, Nat.add_mul]
        omega
      · rw [Nat.zero_add]
        refine h1.trans (Nat.mul_le_mul_right _ ?_)
        rw [List.countP_cons (a := a)]
        exact Nat.le_add_right _ _

theorem copied_many (t : Str) (m : Nat) : 2 * copied (List.replicate (m + 1) (.text t)) + 2 * blen t = blen t * ((m + 1) * (m + 2)) := by
  have hl : ∀ m, leading (List.replicate m (.text t)) = m * blen t := by
    intro m
    induction m with
    | zero => simp [leading]
    | succ m ih => rw [List.replicate_succ, leading_text, ih, Nat.add_mul]; omega
  induction m with
  | zero => simp [copied]; omega
  | succ m ih =>
    rw [List.replicate_succ, List.replicate_succ, copied_cons, ← List.replicate_succ, ← List.replicate_succ, hl]
    simp only [Node.isText, Bool.and_self, if_true]
    have : blen t * ((m + 1 + 1) * (m + 1 + 2)) = blen t * ((m + 1) * (m + 2)) + 2 * ((m + 1 + 1) * blen t) := by
      have : (m + 1 + 1) * (m + 1 + 2) = (m + 1) * (m + 2) + 2 * (m + 2) := by
        rw [Nat.mul_add, Nat.mul_comm (m + 1 + 1) (m + 1), Nat.mul_comm 2 (m + 2)]
      rw [this, Nat.mul_add, Nat.mul_comm (blen t) (2 * (m + 2)), Nat.mul_assoc]
    omega

theorem not_blank_append {s t : Str} (ht : ¬ Blank t) (hs : t = [] → s = []) : ¬ Blank (s ++ t) := by
  rintro ⟨h1, h2⟩
  by_cases h : t = []
  · rw [h, hs h] at h1; exact h1 rfl
  · exact ht ⟨h, fun c hc => h2 c (List.mem_append.2 (.inr hc))⟩

theorem appendEachCopy_more {t : Str} (ht : ¬ Blank t) (m i : Nat) (e : Element) (s : Str) (hs : t = [] → s = []) (hb : blen s = i * blen t)
    (he : e.children = [.text s]) :
    2 * (appendEachCopyRun (List.replicate m (.text t)) e).count + blen t * (i * (i + 1)) = blen t * ((i + m) * (i + m + 1)) := by
  induction m generalizing i e s with
  | zero => simp [appendEachCopyRun]
  | succ m ih =>
    rw [List.replicate_succ]
    unfold appendEachCopyRun
    have h1 : e.append (.text t) = .ok { e with children := [.text (s ++ t)] } := by
      rw [append_eq, he]
      simp [applyXmlnsContext, normalText, joinRuns, consJoin, isBlankText, not_blank_append ht hs]
    rw [count_bind_ok ((out_appendCopy e _).trans h1), appendCopy_count, he]
    have hc : copied ([.text s] ++ [.text t]) = (i + 1) * blen t := by
      simp only [List.cons_append, List.nil_append, copied, leading_text]
      simp [leading, hb, Nat.add_mul]
    have := ih (i + 1) { e with children := [.text (s ++ t)] } (s ++ t) (fun h => by rw [h, hs h]; rfl)
      (by rw [blen_append, hb, Nat.add_mul]; omega) rfl
    rw [hc]
    have h2 : blen t * ((i + 1) * (i + 1 + 1)) = blen t * (i * (i + 1)) + 2 * ((i + 1) * blen t) := by
      have : (i + 1) * (i + 1 + 1) = i * (i + 1) + 2 * (i + 1) := by
        rw [Nat.add_assoc i 1 1, Nat.mul_add, Nat.mul_comm (i + 1) i, Nat.mul_comm 2 (i + 1)]
      rw [this, Nat.mul_add, Nat.mul_comm (blen t) (2 * (i + 1)), Nat.mul_assoc]
    rw [show i + (m + 1) = i + 1 + m by omega]
    omega

theorem appendEachCopy_many {t : Str} (ht : ¬ Blank t) (m : Nat) (e : Element) (he : e.children = []) :
    2 * (appendEachCopyRun (List.replicate (m + 1) (.text t)) e).count + 2 * blen t = blen t * ((m + 1) * (m + 2)) := by
  rw [List.replicate_succ]
  unfold appendEachCopyRun
  have h1 : e.append (.text t) = .ok { e with children := [.text t] } := by
    rw [append_eq, he]
    simp [applyXmlnsContext, normalText, joinRuns, consJoin, isBlankText, ht]
  rw [count_bind_ok ((out_appendCopy e _).trans h1), appendCopy_count, he]
  have hc : copied ([] ++ [.text t]) = 0 := rfl
  have := appendEachCopy_more ht m 1 { e with children := [.text t] } t (fun h => h) (by omega) rfl
  rw [hc, Nat.zero_add]
  rw [show m + 1 = 1 + m by omega, show m + 2 = 1 + m + 1 by omega]
  omega

/-- what one call of `append` copies if no two texts are next to each other before -/
theorem copied_snoc {A : List Node} (s n : Node) (h : ∀ B a b C, A ++ [s] = B ++ a :: b :: C → ¬ (a.isText = true ∧ b.isText = true)) :
    copied (A ++ [s, n]) = if s.isText && n.isText then textBytes s + textBytes n else 0 := by
  induction A with
  | nil =>
    rw [List.nil_append, copied_cons]
    cases s <;> cases n <;> simp [copied, Node.isText, leading_text, textBytes] <;> simp [leading]
  | cons a A ih =>
    have hb := ih (fun B x y C e => h (a :: B) x y C (by rw [List.cons_append, e, List.cons_append]))
    obtain ⟨b, m, hm⟩ : ∃ b m, A ++ [s] = b :: m := by
      cases A with
      | nil => exact ⟨s, [], rfl⟩
      | cons b B => exact ⟨b, B ++ [s], rfl⟩
    have hn : A ++ [s, n] = b :: (m ++ [n]) := by rw [← List.cons_append, ← hm]; simp
    have h1 : (a.isText && b.isText) = false := by
      have := h [] a b m (by rw [List.cons_append, hm]; rfl)
      cases ha : a.isText <;> cases hb : b.isText <;> simp_all
    rw [List.cons_append, hn, copied_cons, h1, ← hn, hb]
    simp

end KissXml
