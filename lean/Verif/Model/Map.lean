import Verif.Model.Str
/-!
# `HashMap`

A `HashMap<K, V>` is an association list; the list order stands for the (unspecified) iteration order.
`SMap` is `HashMap<String, String>` with the invariant that keys are distinct.
-/
namespace KissXml

/-! operations on association lists -/
namespace LMap
variable {κ ν : Type} [DecidableEq κ]

/-- `HashMap::get` -/
def get : List (κ × ν) → κ → Option ν
  | [], _ => none
  | (k', v) :: t, k => if k' = k then some v else get t k

/-- `HashMap::insert` (overwrites the value of an existing key) -/
def insert : List (κ × ν) → κ → ν → List (κ × ν)
  | [], k, v => [(k, v)]
  | (k', v') :: t, k, v => if k' = k then (k, v) :: t else (k', v') :: insert t k v

/-- `HashMap::remove` (the map afterwards) -/
def remove : List (κ × ν) → κ → List (κ × ν)
  | [], _ => []
  | (k', v') :: t, k => if k' = k then t else (k', v') :: remove t k

theorem mem_keys_insert {l : List (κ × ν)} {k : κ} {v : ν} {x : κ} :
    x ∈ (insert l k v).map Prod.fst ↔ x = k ∨ x ∈ l.map Prod.fst := by
  induction l with
  | nil => simp [insert]
  | cons p t ih =>
    obtain ⟨k', v'⟩ := p
    unfold insert
    split
    · rename_i h; subst h; simp
    · simp only [List.map_cons, List.mem_cons, ih]
      constructor
      · rintro (h | h | h) <;> simp [h]
      · rintro (h | h | h) <;> simp [h]

theorem nodup_insert {l : List (κ × ν)} {k : κ} {v : ν} (h : (l.map Prod.fst).Nodup) :
    ((insert l k v).map Prod.fst).Nodup := by
  induction l with
  | nil => simp [insert]
  | cons p t ih =>
    obtain ⟨k', v'⟩ := p
    simp only [List.map_cons, List.nodup_cons] at h
    unfold insert
    split
    · rename_i hk; subst hk; simpa using h
    · rename_i hk
      simp only [List.map_cons, List.nodup_cons]
      refine ⟨?_, ih h.2⟩
      rw [mem_keys_insert]
      rintro (hh | hh)
      · exact hk hh
      · exact h.1 hh

theorem keys_remove_sublist (l : List (κ × ν)) (k : κ) :
    ((remove l k).map Prod.fst).Sublist (l.map Prod.fst) := by
  induction l with
  | nil => simp [remove]
  | cons p t ih =>
    obtain ⟨k', v'⟩ := p
    unfold remove
    split
    · simp
    · simpa using ih

end LMap

/-- `HashMap<String, String>` -/
structure SMap where
  entries : List (Str × Str)
  nodup : (entries.map Prod.fst).Nodup

namespace SMap

/-- `HashMap::new` -/
def empty : SMap := ⟨[], by simp⟩
/-- `HashMap::get` -/
def get (m : SMap) (k : Str) : Option Str := LMap.get m.entries k
/-- `HashMap::contains_key` -/
def containsKey (m : SMap) (k : Str) : Bool := (m.get k).isSome
/-- `HashMap::insert` -/
def insert (m : SMap) (k v : Str) : SMap := ⟨LMap.insert m.entries k v, LMap.nodup_insert m.nodup⟩
/-- `HashMap::remove` (the map afterwards; the returned value is `get`) -/
def remove (m : SMap) (k : Str) : SMap :=
  ⟨LMap.remove m.entries k, (LMap.keys_remove_sublist _ _).nodup m.nodup⟩
/-- `HashMap::len` -/
def len (m : SMap) : Nat := m.entries.length
/-- `HashMap::is_empty` -/
def isEmpty (m : SMap) : Bool := m.entries.isEmpty
/-- `HashMap == HashMap` (std): same length and every entry of the first is in the second -/
def eq (m n : SMap) : Bool :=
  m.entries.length == n.entries.length && m.entries.all (fun kv => n.get kv.1 == some kv.2)

end SMap
end KissXml
