import Verif.Proofs.AppendCost
/-!
# C97: appending nodes one by one or all at once

The rounds as counted in `Model/Cost.lean` and `Model/AppendCost.lean`.
-/
namespace KissXml.Props
open KissXml KissXml.Spec

/-- **C97** (same results). `append_all` with a counter gives the result of `append_all`. -/
theorem C97_same (e : Element) (cs : List Node) : (appendAllRun e cs).out = e.appendAll cs := out_appendAll e cs

/-- **C97** (all at once). `append_all` needs a number of rounds that is linear in the number of old and new children, for any nodes. -/
theorem C97_all (e : Element) (cs : List Node) :
    (appendAllRun e cs).count ≤ cs.length + (cs.filter Node.isElement).length * (1 + e.ctx.len) + 2 * (e.children.length + cs.length) := by
  by_cases h : e.children ++ cs = []
  · obtain ⟨h1, rfl⟩ := List.append_eq_nil_iff.1 h
    have : (appendAllRun e []).count = 0 := by
      unfold appendAllRun
      rw [h1]
      rfl
    rw [this]
    omega
  · have hj := joinRuns_length (e.children ++ cs.map (applyXmlnsContext e.defaultNamespace e.ctx))
    rw [appendAllRun_count e cs h]
    simp only [elementCount, List.length_append, List.length_map] at *
    omega

/-- **C97** (one by one, at most). Calling `append` for each of `m` nodes needs at most `m² + 2mc` rounds for `c` old children, and one
for each prefix in scope and new element. -/
theorem C97_each (e : Element) (cs : List Node) : (appendEachRun e cs).count ≤
    cs.length * cs.length + 2 * e.children.length * cs.length + (cs.filter Node.isElement).length * e.ctx.len := appendEach_le cs e

/-- **C97** (one by one, exactly). Without texts it is exactly that many rounds; the result is that of `append_all`. -/
theorem C97_exact (e : Element) (cs : List Node) (he : ∀ n ∈ e.children, n.isText = false) (hc : ∀ n ∈ cs, n.isText = false) :
    (appendEachRun e cs).count =
      cs.length * cs.length + 2 * e.children.length * cs.length + (cs.filter Node.isElement).length * e.ctx.len ∧
    (appendEachRun e cs).out = e.appendAll cs := by
  obtain ⟨h1, h2⟩ := appendEach_noText cs e he hc
  refine ⟨h2, ?_⟩
  rw [h1, appendAll_eq, normalText_noText (noText_append he (noText_map hc))]

/-- an element with a prefix in scope and one child -/
def parent : Element := ⟨c%"r", [.comment c%"k"], .empty, none, none, SMap.empty.insert c%"p" c%"u"⟩
/-- nodes to append -/
def fresh3 : List Node := [.element ⟨c%"a", [], .empty, none, none, .empty⟩, .cdata c%"d", .element ⟨c%"b", [], .empty, none, none, .empty⟩]

example : (∀ n ∈ parent.children, n.isText = false) ∧ (∀ n ∈ fresh3, n.isText = false) := by decide
example : (appendEachRun parent fresh3).count = 17 ∧ (appendAllRun parent fresh3).count = 14 := by decide +kernel
/-- sixty comments -/
example : (appendEachRun parent (List.replicate 60 (.comment c%"x"))).count = 3720 ∧
    (appendAllRun parent (List.replicate 60 (.comment c%"x"))).count = 181 := by decide +kernel
/-- with texts fewer rounds are needed: they are joined -/
example : (appendEachRun parent [.text c%"x", .text c%"y", .text c%"z"]).count = 11 ∧ 11 < 3 * 3 + 2 * 1 * 3 := by decide +kernel

end KissXml.Props
