import Verif.Model.Hash
import Verif.Proofs.Misc
/-!
# Hashing: lemmas
-/
namespace KissXml

theorem hashStr_inj {a b : Str} (h : hashStr a = hashStr b) : a = b := by
  unfold hashStr at h
  injection h with h1 _
  injection h1 with h2
  have h3 := readToString_encode a
  rw [h2, readToString_encode b] at h3
  injection h3 with h4
  exact h4.symm

theorem hashStr_iff {a b : Str} : hashStr a = hashStr b ↔ a = b := ⟨hashStr_inj, fun h => h ▸ rfl⟩

end KissXml
