import Verif.Model.Map
/-!
# Specification: a map of strings made from a map of other types
-/
namespace KissXml.Spec

/-- `A` has for each string that some key becomes the value of one of the entries with such a key, and nothing else. -/
def OneOfEach {α β : Type} (key : α → Str) (value : β → Str) (m : List (α × β)) (A : SMap) : Prop :=
  (∀ k, (∃ kv ∈ m, key kv.1 = k) → (A.get k).isSome = true) ∧
  ∀ k v, A.get k = some v → ∃ kv ∈ m, key kv.1 = k ∧ value kv.2 = v

end KissXml.Spec
