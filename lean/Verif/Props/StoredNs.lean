import Verif.Props.Size
import Verif.Proofs.StoredNs
/-!
# C122: what is stored for namespaces
-/
namespace KissXml.Props
open KissXml.Spec

/-- **C122** (bound). The namespaces and the maps of prefixes of all elements of a parsed document need no more bytes than twice the source times
the greatest possible number of nodes. -/
theorem C122_bound {x : Str} {d : Document} (h : parseStr x = .ok d) :
    nsStored (.element d.root) ≤ 2 * blen x * max 1 (2 * x.count '<' - 2) :=
  (nsStored_le _ (C91_namespaces h)).trans (Nat.mul_le_mul_left _ (C91_nodes h))

/-- **C122** (growth). A source of `m + 5 * k + 30` bytes may need `(k + 3) * (m + 10)` bytes for them. -/
theorem C122_growth (m k : Nat) :
    ∃ x d, parseStr x = .ok d ∧ blen x = m + 5 * k + 30 ∧ nsStored (.element d.root) = (k + 3) * (m + 10) := fan_source m k

/-- **C122** (no linear bound). No number of bytes per byte of source is enough. -/
theorem C122_more (c : Nat) : ∃ x d, parseStr x = .ok d ∧ c * blen x < nsStored (.element d.root) := by
  obtain ⟨x, d, h, h1, h2⟩ := C122_growth (6 * c + 20) (6 * c)
  refine ⟨x, d, h, ?_⟩
  rw [h1, h2]
  calc c * (6 * c + 20 + 5 * (6 * c) + 30) ≤ c * (6 * (6 * c + 20 + 10)) := Nat.mul_le_mul_left _ (by omega)
    _ = 6 * c * (6 * c + 20 + 10) := by rw [← Nat.mul_assoc, Nat.mul_comm c 6]
    _ < (6 * c + 3) * (6 * c + 20 + 10) := Nat.mul_lt_mul_of_pos_right (by omega) (by omega)

/-- what is stored, if it is parsed -/
private def stored (x : Str) : Option Nat :=
  match parseStr x with
  | .ok d => some (nsStored (.element d.root))
  | _ => none

/-- two elements, each with the declaration of `p`, of `1 + 1 + 10` bytes with the six that are counted for `xmlns:` -/
example : stored c%"<a xmlns:p=\"v\"><b/></a>" = some 22 := by decide +kernel

/-- the default namespace is stored for each element, but not in the maps -/
example : stored c%"<a xmlns=\"v\"><b/></a>" = some 2 := by decide +kernel

/-- the family of `C122_growth` is reached: `m = 1`, `k = 0` -/
example : blen c%"<a xmlns:p=\"v\">\n<b/>\n<b/>\n</a>" + 1 = 1 + 5 * 0 + 30 ∧
    stored c%"<a xmlns:p=\"v\">\n<b/>\n<b/>\n</a>" = some ((0 + 3) * (1 + 10)) := by decide +kernel

end KissXml.Props
