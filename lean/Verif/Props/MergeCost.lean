import Verif.Proofs.MergeCost
/-!
# C123: what the merging of texts costs
-/
namespace KissXml.Props
open KissXml KissXml.Spec

/-- **C123** (same results). `append` and `append_all` with a counter give the results of `append` and `append_all`. -/
theorem C123_same (e : Element) (n : Node) (cs : List Node) :
    (appendCopyRun e n).out = e.append n ∧ (appendAllCopyRun e cs).out = e.appendAll cs := ⟨out_appendCopy e n, out_appendAllCopy e cs⟩

/-- **C123** (exactly). Every text that a text follows is copied, together with all the texts up to the next other node. -/
theorem C123_exact (e : Element) (n : Node) (cs : List Node) :
    (appendCopyRun e n).count = copied (e.children ++ [n]) ∧ (appendAllCopyRun e cs).count = copied (e.children ++ cs) :=
  ⟨appendCopy_count e n, appendAllCopy_count e cs⟩

/-- **C123** (at most). These are no more bytes than the number of texts times their bytes. -/
theorem C123_bound (l : List Node) : copied l ≤ l.countP Node.isText * (l.map textBytes).sum := copied_le l

/-- **C123** (one text). If no two texts are next to each other before, `append` copies the last child and the new one if both are texts, however
long the last one is, and nothing otherwise. -/
theorem C123_append (e : Element) (A : List Node) (s n : Node) (he : e.children = A ++ [s])
    (h : ∀ a b x y, e.children ≠ a ++ .text x :: .text y :: b) :
    (appendCopyRun e n).count = if s.isText && n.isText then textBytes s + textBytes n else 0 := by
  rw [appendCopy_count, he, List.append_assoc]
  refine copied_snoc s n fun B a b C hB hab => ?_
  rw [he] at h
  cases a <;> cases b <;> simp [Node.isText] at hab
  exact h _ _ _ _ hB

/-- **C123** (many texts). For `m + 1` equal texts in a new element both ways copy `m (m + 3) / 2` times the bytes of one, which is quadratic
in the number of texts. -/
theorem C123_many (t : Str) (m : Nat) (e : Element) (he : e.children = []) :
    2 * (appendAllCopyRun e (List.replicate (m + 1) (.text t))).count = m * (m + 3) * blen t ∧
    (¬ Blank t → 2 * (appendEachCopyRun (List.replicate (m + 1) (.text t)) e).count = m * (m + 3) * blen t) := by
  have h : blen t * ((m + 1) * (m + 2)) = m * (m + 3) * blen t + 2 * blen t := by
    have : (m + 1) * (m + 2) = m * (m + 3) + 2 := by
      rw [Nat.add_mul, Nat.mul_add, Nat.mul_add m m 3]; omega
    rw [this, Nat.mul_add, Nat.mul_comm (blen t) 2, Nat.mul_comm (blen t)]
  constructor
  · have := copied_many t m
    rw [appendAllCopy_count, he, List.nil_append]
    omega
  · intro ht
    have := appendEachCopy_many ht m e he
    omega

/-- an element with a text -/
private def withText : Element := ⟨c%"a", [.comment c%"c", .text c%"xy"], .empty, none, none, .empty⟩

/-- `xy` and the new `zu` (three bytes) are put together: five bytes; after a comment nothing is copied -/
example : (appendCopyRun withText (.text c%"zü")).count = 5 ∧ (appendAllCopyRun withText [.comment c%"d", .text c%"z"]).count = 0 := by decide

/-- `b` and `c`, then `xy` and `bc`: two and four bytes -/
example : (appendAllCopyRun withText [.text c%"b", .text c%"c", .cdata c%"d", .text c%"e"]).count = 6 := by decide

/-- one by one it is `xy` and `b`, then `xyb` and `c` -/
example : (appendEachCopyRun [.text c%"b", .text c%"c", .cdata c%"d", .text c%"e"] withText).count = 7 := by decide

/-- the bound for these is four texts times five bytes -/
example : copied [.comment c%"c", .text c%"xy", .text c%"b", .text c%"c", .cdata c%"d", .text c%"e"] = 6 := by decide

end KissXml.Props
