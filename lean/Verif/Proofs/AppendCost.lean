import Verif.Model.AppendCost
import Verif.Proofs.CostLower
import Mathlib.Tactic.Ring
/-!
# Rounds for appending several nodes
-/
namespace KissXml
open KissXml.Spec Run

/-- the number of elements of a list -/
def elementCount (l : List Node) : Nat := (l.filter Node.isElement).length

theorem out_applyAt (d : Option Str) (c : SMap) (is : List Nat) (l : List Node) :
    (applyAtRun d c is l).out = ElementF.applyAt d c is l := by
  induction is generalizing l with
  | nil => rfl
  | cons i is ih =>
    unfold applyAtRun ElementF.applyAt
    simp only [out_bind, out_rounds, out_free, out_apply, Res.bind_ok, ih]

theorem out_appendAll (e : Element) (cs : List Node) : (appendAllRun e cs).out = e.appendAll cs := by
  unfold appendAllRun ElementF.appendAll
  simp only [out_bind, out_rounds, out_applyAt, out_cleanup, Res.bind_ok]
  rfl

theorem applyAtRun_count (d : Option Str) (c : SMap) (A cs : List Node) :
    (applyAtRun d c (ElementF.elemIndices A.length cs) (A ++ cs)).count = elementCount cs * (1 + c.len) := by
  induction cs generalizing A with
  | nil => simp [ElementF.elemIndices, applyAtRun, elementCount]
  | cons x cs ih =>
    have h1 : ∀ y : Node, A ++ y :: cs = (A ++ [y]) ++ cs := by intro y; simp
    have h2 : ∀ y : Node, A.length + 1 = (A ++ [y]).length := by intro y; simp
    unfold ElementF.elemIndices
    by_cases hx : x.isElement = true
    · rw [if_pos hx]
      unfold applyAtRun
      have hg : (free (Res.unwrap (A ++ x :: cs)[A.length]?)).out = .ok x := by simp [free]
      have hc : (applyXmlnsContextRun d c x).count = c.len := by cases x <;> first | rfl | cases hx
      rw [count_rounds_bind, count_bind_ok hg, count_free, count_bind_ok (out_apply _ _ _), hc,
        show (A ++ x :: cs).set A.length (applyXmlnsContext d c x) = A ++ applyXmlnsContext d c x :: cs by simp,
        h1, h2 (applyXmlnsContext d c x), ih]
      simp only [elementCount, List.filter_cons, hx, if_true, List.length_cons]
      ring
    · rw [if_neg hx, h1, h2 x, ih]
      simp [elementCount, hx]

theorem appendAllRun_count (e : Element) (cs : List Node) (h : e.children ++ cs ≠ []) : (appendAllRun e cs).count =
    cs.length + elementCount cs * (1 + e.ctx.len) + (e.children.length + cs.length - 1 +
      (joinRuns (e.children ++ cs.map (applyXmlnsContext e.defaultNamespace e.ctx))).length) := by
  unfold appendAllRun
  have h1 : (applyAtRun e.defaultNamespace e.ctx (ElementF.elemIndices e.children.length cs) (e.children ++ cs)).out =
      .ok (e.children ++ cs.map (applyXmlnsContext e.defaultNamespace e.ctx)) := by rw [out_applyAt, applyAt_eq]
  have h2 := cleanupTextNodes_eq (e.children ++ cs.map (applyXmlnsContext e.defaultNamespace e.ctx))
  rw [count_rounds_bind, count_bind_ok h1, applyAtRun_count, count_bind_ok (by rw [out_cleanup]; exact h2),
    cleanupRun_count _ (by simpa using h)]
  simp only [count_pure, List.length_append, List.length_map]
  omega

/-- no node is a text -/
def NoText (l : List Node) : Prop := ∀ n ∈ l, n.isText = false

theorem apply_isText (d : Option Str) (c : SMap) (n : Node) : (applyXmlnsContext d c n).isText = n.isText := by cases n <;> rfl

theorem joinRuns_noText {l : List Node} (h : NoText l) : joinRuns l = l := by
  induction l with
  | nil => rfl
  | cons n l ih =>
    rw [joinRuns, ih fun m hm => h m (by simp [hm])]
    have := h n (by simp)
    cases n with
    | text t => cases this
    | _ => rfl

theorem normalText_noText {l : List Node} (h : NoText l) : normalText l = l := by
  unfold normalText
  rw [joinRuns_noText h]
  apply List.filter_eq_self.2
  intro n hn
  have := h n hn
  cases n with
  | text t => cases this
  | _ => rfl

theorem noText_append {l m : List Node} (hl : NoText l) (hm : NoText m) : NoText (l ++ m) := by
  intro n hn
  rcases List.mem_append.1 hn with h | h
  · exact hl n h
  · exact hm n h

theorem noText_map {d : Option Str} {c : SMap} {l : List Node} (h : NoText l) : NoText (l.map (applyXmlnsContext d c)) := by
  intro n hn
  obtain ⟨m, hm, rfl⟩ := List.mem_map.1 hn
  rw [apply_isText]
  exact h m hm

theorem prefixRounds_sum (c : SMap) (n : Node) (l : List Node) :
    prefixRounds c n + elementCount l * c.len = elementCount (n :: l) * c.len := by
  cases n with
  | element e =>
    have : (Node.element e).isElement = true := rfl
    simp only [prefixRounds, elementCount, List.filter_cons, this, if_true, List.length_cons]
    ring
  | _ => simp [prefixRounds, elementCount, Node.isElement]

theorem appendEach_noText (cs : List Node) : ∀ e : Element, NoText e.children → NoText cs →
    (appendEachRun e cs).out = .ok { e with children := e.children ++ cs.map (applyXmlnsContext e.defaultNamespace e.ctx) } ∧
    (appendEachRun e cs).count = cs.length * cs.length + 2 * e.children.length * cs.length + elementCount cs * e.ctx.len := by
  induction cs with
  | nil => intro e _ _; simp [appendEachRun, elementCount]
  | cons n cs ih =>
    intro e he hc
    have hn : NoText [applyXmlnsContext e.defaultNamespace e.ctx n] := by
      intro m hm
      rw [List.mem_singleton.1 hm, apply_isText]
      exact hc n (by simp)
    have hl := noText_append he hn
    have ho : (appendRun e n).out = .ok { e with children := e.children ++ [applyXmlnsContext e.defaultNamespace e.ctx n] } := by
      rw [out_append, append_eq, normalText_noText hl]
    obtain ⟨i1, i2⟩ := ih { e with children := e.children ++ [applyXmlnsContext e.defaultNamespace e.ctx n] } hl
      fun m hm => hc m (by simp [hm])
    unfold appendEachRun
    refine ⟨?_, ?_⟩
    · rw [out_bind, ho, Res.bind_ok, i1]
      simp [ElementF.defaultNamespace]
    · rw [count_bind_ok ho, i2, appendRun_count, joinRuns_noText hl, ← prefixRounds_sum]
      simp only [List.length_append, List.length_cons, List.length_nil]
      ring

theorem appendEach_le (cs : List Node) : ∀ e : Element,
    (appendEachRun e cs).count ≤ cs.length * cs.length + 2 * e.children.length * cs.length + elementCount cs * e.ctx.len := by
  induction cs with
  | nil => intro e; simp [appendEachRun]
  | cons n cs ih =>
    intro e
    unfold appendEachRun
    have ho := append_eq e n
    rw [← out_append] at ho
    have hj := joinRuns_length (e.children ++ [applyXmlnsContext e.defaultNamespace e.ctx n])
    have hk : (normalText (e.children ++ [applyXmlnsContext e.defaultNamespace e.ctx n])).length ≤
      (joinRuns (e.children ++ [applyXmlnsContext e.defaultNamespace e.ctx n])).length := List.length_filter_le _ _
    have hi := ih { e with children := normalText (e.children ++ [applyXmlnsContext e.defaultNamespace e.ctx n]) }
    rw [count_bind_ok ho, appendRun_count, ← prefixRounds_sum]
    simp only [List.length_append, List.length_cons, List.length_nil] at hj hk hi ⊢
    have hm : 2 * (normalText (e.children ++ [applyXmlnsContext e.defaultNamespace e.ctx n])).length * cs.length ≤
        2 * (e.children.length + 1) * cs.length := Nat.mul_le_mul_right _ (by omega)
    have e1 : 2 * (e.children.length + 1) * cs.length = 2 * e.children.length * cs.length + 2 * cs.length := by ring
    have e2 : (cs.length + 1) * (cs.length + 1) = cs.length * cs.length + 2 * cs.length + 1 := by ring
    have e3 : 2 * e.children.length * (cs.length + 1) = 2 * e.children.length * cs.length + 2 * e.children.length := by ring
    simp only [Nat.zero_add] at *
    omega

end KissXml
