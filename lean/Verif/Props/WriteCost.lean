import Verif.Proofs.WriteCost
/-!
# C96: how much is copied while writing

The bytes pushed to the buffers of all calls together, as counted in `Model/WriteCost.lean`.
-/
namespace KissXml.Props
open KissXml KissXml.Spec

/-- **C96** (same results). The functions with a counter give the results of those without. -/
theorem C96_same (e : Element) (pre indent : Str) (inline : Bool) :
    (e.writeC pre indent inline).1 = e.toStringPI pre indent inline ∧ e.textC.1 = e.textOf :=
  ⟨(writeC_within pre indent inline e).out, (textC_within e).out⟩

/-- **C96** (writing). Every byte that is written is copied at least once, and on the average not more often than elements are nested. -/
theorem C96_write (e : Element) (pre indent : Str) (inline : Bool) :
    blen (e.toStringPI pre indent inline) ≤ (e.writeC pre indent inline).2 ∧
    (e.writeC pre indent inline).2 ≤ nesting (.element e) * blen (e.toStringPI pre indent inline) := by
  have h := writeC_within pre indent inline e
  exact ⟨by simpa using h.least, by simpa using h.most⟩

/-- **C96** (texts). The same for `text`. -/
theorem C96_text (e : Element) : blen e.textOf ≤ e.textC.2 ∧ e.textC.2 ≤ nesting (.element e) * blen e.textOf := by
  have h := textC_within e
  exact ⟨by simpa using h.least, by simpa using h.most⟩

/-- **C96** (texts, worst case). The bound for `text` is reached at every depth and for every text. -/
theorem C96_text_reached (t : Str) (n : Nat) : ∃ e : Element, nesting (.element e) = n + 1 ∧ e.textOf = t ∧
    e.textC.2 = nesting (.element e) * blen e.textOf :=
  ⟨textTower t n, textTower_nesting t n, textTower_text t n, by rw [textTower_textC, textTower_nesting, textTower_text]⟩

/-- **C96** (cubic). For every `n` there is a source of `9n+5` bytes for whose document the default indent makes writing copy
`(4n(n+1)(2n+1) + 27n(n+1) + 24(n+1)) / 6` bytes. -/
theorem C96_cubic (n : Nat) : ∃ x d, parseStr x = .ok d ∧ blen x = 9 * n + 5 ∧
    6 * (d.root.writeC [] c%"  " false).2 = 4 * n * (n + 1) * (2 * n + 1) + 27 * n * (n + 1) + 24 * (n + 1) := by
  obtain ⟨x, h, hx⟩ := tower_source n
  refine ⟨x, _, h, hx, ?_⟩
  have l0 : blen ([] : Str) = 0 := rfl
  have l2 : blen c%"  " = 2 := rfl
  show 6 * ((tower n).writeC [] c%"  " false).2 = _
  rw [tower_writeC, l0, l2]
  ring

/-- `<a><b>xy</b><c/></a>` -/
def small : Element := ⟨c%"a", [.element ⟨c%"b", [.text c%"xy"], .empty, none, none, .empty⟩,
  .element ⟨c%"c", [], .empty, none, none, .empty⟩], .empty, none, none, .empty⟩

/-- 27 bytes, 17 of them copied a second time -/
example : small.toStringPI [] c%"  " false = c%"<a>\n  <b>xy</b>\n  <c/>\n</a>" ∧ blen (small.toStringPI [] c%"  " false) = 27 ∧
    (small.writeC [] c%"  " false).2 = 44 ∧ nesting (.element small) = 2 := by decide +kernel
example : small.textOf = c%"xy" ∧ small.textC = (c%"xy", 4) := by decide +kernel
/-- three nested elements -/
example : ((tower 2).writeC [] c%"  " false).2 = 59 ∧ 6 * 59 = 4 * 2 * 3 * 5 + 27 * 2 * 3 + 24 * 3 := by decide +kernel

end KissXml.Props
