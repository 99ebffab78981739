import Verif.Model.Keys
import Verif.Spec.Keys
import Verif.Proofs.AnyOrderCalls
namespace KissXml
open KissXml.Spec
open Runs (of)

/-- the loop without the check -/
def copyAll : List (Str × Str) → SMap → SMap
  | [], m => m
  | kv :: l, m => copyAll l (m.insert kv.1 kv.2)

theorem checkAndCopy_copyAll {l : List (Str × Str)} (h : ∀ kv ∈ l, validName kv.1 = true) (m : SMap) : checkAndCopy l m = .ok (copyAll l m) := by
  induction l generalizing m with
  | nil => rfl
  | cons kv l ih =>
    obtain ⟨k, v⟩ := kv
    rw [checkAndCopy, checkAttrName, if_pos (h (k, v) (by simp))]
    exact ih (fun kv hkv => h kv (by simp [hkv])) _

theorem copyAll_get (l : List (Str × Str)) (m : SMap) (k : Str) :
    ((∃ kv ∈ l, kv.1 = k) ∨ (m.get k).isSome = true → ((copyAll l m).get k).isSome = true) ∧
    ∀ v, (copyAll l m).get k = some v → (k, v) ∈ l ∨ m.get k = some v := by
  induction l generalizing m with
  | nil => simp [copyAll]
  | cons kv l ih =>
    obtain ⟨a, b⟩ := kv
    rw [copyAll]
    obtain ⟨h1, h2⟩ := ih (m.insert a b)
    refine ⟨fun h => h1 ?_, fun v hv => ?_⟩
    · by_cases hk : a = k
      · subst hk; exact .inr (by rw [SMap.get_insert]; simp)
      · rcases h with ⟨kv, h3, h4⟩ | h
        · rcases List.mem_cons.1 h3 with rfl | h3
          · exact absurd h4 hk
          · exact .inl ⟨kv, h3, h4⟩
        · refine .inr ?_
          rw [SMap.get_insert]
          split
          · rfl
          · exact h
    · rcases h2 v hv with h | h
      · exact .inl (by simp [h])
      · rw [SMap.get_insert] at h
        split at h
        · rename_i hk
          simp only [Option.some.injEq] at h
          exact .inl (by simp [hk, h])
        · exact .inr h

theorem copyAll_oneOfEach {α β : Type} (key : α → Str) (value : β → Str) (m l : List (α × β)) (h : l.Perm m) :
    OneOfEach key value m (copyAll (l.map fun kv => (key kv.1, value kv.2)) .empty) := by
  refine ⟨fun k ⟨kv, h1, h2⟩ => (copyAll_get _ _ k).1 (.inl ⟨_, List.mem_map.2 ⟨kv, h.mem_iff.2 h1, rfl⟩, h2⟩), fun k v hv => ?_⟩
  rcases (copyAll_get _ _ k).2 v hv with h1 | h1
  · obtain ⟨kv, h2, h3⟩ := List.mem_map.1 h1
    simp only [Prod.mk.injEq] at h3
    exact ⟨kv, h.mem_iff.1 h2, h3.1, h3.2⟩
  · simp [SMap.get, SMap.empty, LMap.get] at h1

/-! ## entries that are replaced at once -/

theorem insert_twice (m : SMap) (k v w : Str) : (m.insert k v).insert k w = m.insert k w := by
  have : ∀ l : List (Str × Str), LMap.insert (LMap.insert l k v) k w = LMap.insert l k w := by
    intro l
    induction l with
    | nil => simp [LMap.insert]
    | cons x l ih =>
      obtain ⟨a, b⟩ := x
      by_cases h : a = k <;> simp [LMap.insert, h, ih]
  unfold SMap.insert
  simp only [this]

theorem checkAndCopy_replaced {X : List (Str × Str)} {k : Str} (hX : ∀ kv ∈ X, kv.1 = k) (v : Str) (rest : List (Str × Str)) (m : SMap) :
    checkAndCopy (X ++ (k, v) :: rest) m = checkAndCopy ((k, v) :: rest) m := by
  induction X generalizing m with
  | nil => rfl
  | cons x X ih =>
    obtain ⟨a, b⟩ := x
    have : a = k := hX (a, b) (by simp)
    subst this
    rw [List.cons_append, checkAndCopy, checkAttrName]
    split
    · rw [show (∀ m : SMap, (do let _ ← (Res.ok () : R Unit); checkAndCopy (X ++ (a, v) :: rest) m) = checkAndCopy (X ++ (a, v) :: rest) m) from fun _ => rfl]
      rw [ih (fun kv h => hX kv (by simp [h])), checkAndCopy, checkAttrName, checkAndCopy, checkAttrName, insert_twice]
    · rename_i h
      rw [checkAndCopy, checkAttrName, if_neg h]
      rfl

/-! ## grouping -/

theorem group_perm {α : Type} (f : α → Str) (m : List α) (ks : List Str) (hn : ks.Nodup) :
    (ks.flatMap fun k => m.filter fun a => f a = k).Perm (m.filter fun a => f a ∈ ks) := by
  induction ks with
  | nil => simp
  | cons k ks ih =>
    have hk : k ∉ ks := by simp at hn; exact hn.1
    rw [List.flatMap_cons]
    have h1 := List.filter_append_perm (fun a => decide (f a = k)) (m.filter fun a => f a ∈ k :: ks)
    rw [List.filter_filter, List.filter_filter] at h1
    refine List.Perm.trans ?_ h1
    refine List.Perm.append ?_ ?_
    · refine (List.Perm.of_eq ?_)
      apply List.filter_congr
      intro a _
      by_cases h : f a = k <;> simp [h]
    · refine (ih (by simp at hn; exact hn.2)).trans (List.Perm.of_eq ?_)
      apply List.filter_congr
      intro a _
      by_cases h : f a = k
      · simp [h, hk]
      · simp [h]

/-- An order of the entries that gives the same as an order of the entries of one map with one entry for each string. -/
theorem group_order {α β : Type} (key : α → Str) (value : β → Str) (m : List (α × β)) (l : List (Str × Str))
    (h : ∀ p ∈ l, ∃ kv ∈ m, key kv.1 = p.1 ∧ value kv.2 = p.2) :
    ∃ L : List (α × β), L.Perm ((l.map Prod.fst).flatMap fun k => m.filter fun a => key a.1 = k) ∧
      ∀ M, checkAndCopy (L.map fun kv => (key kv.1, value kv.2)) M = checkAndCopy l M := by
  induction l with
  | nil => exact ⟨[], by simp, fun _ => rfl⟩
  | cons p l ih =>
    obtain ⟨L, h1, h2⟩ := ih fun p hp => h p (by simp [hp])
    obtain ⟨k, v⟩ := p
    obtain ⟨w, hw, hk, hv⟩ := h (k, v) (by simp)
    simp only at hk hv
    obtain ⟨P, Q, hPQ⟩ := List.append_of_mem (show w ∈ m.filter (fun a => key a.1 = k) by simp [hw, hk])
    have hX : ∀ x ∈ P ++ Q, key x.1 = k := by
      intro x hx
      have : x ∈ m.filter (fun a => key a.1 = k) := by
        rw [hPQ]
        rcases List.mem_append.1 hx with hx | hx <;> simp [hx]
      simpa using (List.mem_filter.1 this).2
    refine ⟨(P ++ Q) ++ w :: L, ?_, fun M => ?_⟩
    · rw [List.map_cons, List.flatMap_cons, hPQ]
      have : ((P ++ Q) ++ w :: L).Perm ((P ++ w :: Q) ++ L) := by
        have e1 : (P ++ Q) ++ w :: L = (P ++ Q) ++ [w] ++ L := by simp
        rw [e1]
        refine List.Perm.append_right _ ?_
        rw [List.append_assoc]
        refine List.Perm.append_left _ ?_
        exact List.perm_append_comm
      exact this.trans (List.Perm.append_left _ h1)
    · rw [List.map_append, List.map_cons, hk, hv, checkAndCopy_replaced, checkAndCopy, checkAndCopy]
      · simp only [h2]
      · intro x hx
        obtain ⟨y, hy, rfl⟩ := List.mem_map.1 hx
        exact hX y hy

theorem oneOfEach_order {α β : Type} {key : α → Str} {value : β → Str} {m : List (α × β)} {A : SMap} (hA : OneOfEach key value m A)
    {l : List (Str × Str)} (hl : l.Perm A.entries) :
    ∃ L : List (α × β), L.Perm m ∧ ∀ M, checkAndCopy (L.map fun kv => (key kv.1, value kv.2)) M = checkAndCopy l M := by
  obtain ⟨L, h1, h2⟩ := group_order key value m l fun p hp => hA.2 p.1 p.2 (SMap.get_eq_some.2 (hl.mem_iff.1 hp))
  refine ⟨L, h1.trans ((group_perm (fun a : α × β => key a.1) m (l.map Prod.fst) (nodup_keys hl)).trans (List.Perm.of_eq ?_)), h2⟩
  rw [List.filter_eq_self]
  intro a ha
  obtain ⟨v, hv⟩ := Option.isSome_iff_exists.1 (hA.1 _ ⟨a, ha, rfl⟩)
  simp only [decide_eq_true_eq]
  exact List.mem_map.2 ⟨(key a.1, v), hl.mem_iff.2 (SMap.get_eq_some.1 hv), rfl⟩

theorem copied_iff {α β : Type} (key : α → Str) (value : β → Str) (m : List (α × β)) (r : R SMap) :
    (∃ l : List (α × β), l.Perm m ∧ r = checkAndCopy (l.map fun kv => (key kv.1, value kv.2)) .empty) ↔
    ∃ A, OneOfEach key value m A ∧ ∃ l, l.Perm A.entries ∧ r = checkAndCopy l .empty := by
  constructor
  · rintro ⟨l, hl, rfl⟩
    refine ⟨_, copyAll_oneOfEach key value m l hl, ?_⟩
    generalize hA : copyAll (l.map fun kv => (key kv.1, value kv.2)) .empty = A
    by_cases hb : ∃ kv ∈ l.map (fun kv => (key kv.1, value kv.2)), validName kv.1 = false
    · obtain ⟨kv, h4, h5, h6⟩ := checkAndCopy_bad hb SMap.empty
      obtain ⟨v, hv⟩ := Option.isSome_iff_exists.1 ((copyAll_get (l.map fun kv => (key kv.1, value kv.2)) .empty kv.1).1 (.inl ⟨kv, h4, rfl⟩))
      rw [hA] at hv
      refine ⟨(kv.1, v) :: A.entries.erase (kv.1, v), (List.perm_cons_erase (SMap.get_eq_some.1 hv)).symm, ?_⟩
      rw [h6, checkAndCopy, checkAttrName, h5]
      rfl
    · have hg : ∀ kv ∈ l.map (fun kv => (key kv.1, value kv.2)), validName kv.1 = true := fun kv hkv => by
        cases hv : validName kv.1 with
        | true => rfl
        | false => exact absurd ⟨kv, hkv, hv⟩ hb
      refine ⟨A.entries, .refl _, ?_⟩
      rw [checkAndCopy_copyAll hg, hA, checkAndCopy_self, checkedCopy]
      have : A.entries.find? (fun kv => !validName kv.1) = none := by
        rw [List.find?_eq_none]
        intro kv hkv
        have h1 : A.get kv.1 = some kv.2 := SMap.get_eq_some.2 hkv
        rw [← hA] at h1
        rcases (copyAll_get _ _ _).2 _ h1 with h2 | h2
        · simp [hg _ h2]
        · simp [SMap.get, SMap.empty, LMap.get] at h2
      rw [this]
  · rintro ⟨A, hA, l, hl, rfl⟩
    obtain ⟨L, h1, h2⟩ := oneOfEach_order hA hl
    exact ⟨L, h1, (h2 _).symm⟩

/-- what follows the loop over the attributes -/
def newWith (name : Str) (text : Option Str) (xmlns pfx : Option Str) (children : Option (List Node)) (attrs : SMap) : Runs Element := do
  let xmlns := match xmlns with
    | some x => some x
    | none => match pfx with
      | none => attrs.get c%"xmlns"
      | some p => attrs.get (c%"xmlns:" ++ p)
  let ctx ← ElementF.contextFromAttributesAny attrs
  let elem : Element := ⟨name, [], attrs, xmlns, pfx, ctx⟩
  let elem ← (match text with
    | none => pure elem
    | some t => elem.appendAny (.text t) : Runs Element)
  match children with
  | none => pure elem
  | some cs => elem.appendAllAny cs

theorem has_bind_ok {α β : Type} {x : R α} {f : α → Runs β} {r : R β} : (of x >>= f).has r ↔
    (∃ a, x = .ok a ∧ (f a).has r) ∨ (∃ e, x = .err e ∧ r = .err e) ∨ (x = .panic ∧ r = .panic) ∨ (x = .diverge ∧ r = .diverge) := by
  show ((∃ a, Res.ok a = x ∧ _) ∨ (∃ e, Res.err e = x ∧ _) ∨ (Res.panic = x ∧ _) ∨ (Res.diverge = x ∧ _)) ↔ _
  simp only [eq_comm (b := x)]

theorem has_order {α β : Type} {m : List α} {f : List α → Runs β} {r : R β} : (anyOrderOf m >>= f).has r ↔ ∃ l, l.Perm m ∧ (f l).has r := by
  constructor
  · rintro (⟨l, ⟨l', h1, h2⟩, h⟩ | ⟨e, ⟨l', h1, h2⟩, h⟩ | ⟨⟨l', h1, h2⟩, h⟩ | ⟨⟨l', h1, h2⟩, h⟩) <;> cases h2
    exact ⟨_, h1, h⟩
  · rintro ⟨l, h1, h2⟩
    exact .inl ⟨l, ⟨l, h1, rfl⟩, h2⟩

theorem bind_assoc_has {α β γ : Type} {m : Runs α} {x : α → R β} {f : β → Runs γ} {r : R γ} (hm : ∀ r, m.has r → ∃ a, r = .ok a) :
    ((m >>= fun a => of (x a)) >>= f).has r ↔ ∃ a, m.has (.ok a) ∧ (of (x a) >>= f).has r := by
  have h1 : ∀ s : R β, (m >>= fun a => of (x a)).has s ↔ ∃ a, m.has (.ok a) ∧ s = x a := by
    intro s
    constructor
    · rintro (⟨a, h1, h2⟩ | ⟨e, h1, -⟩ | ⟨h1, -⟩ | ⟨h1, -⟩)
      · exact ⟨a, h1, h2⟩
      all_goals
        obtain ⟨a, h2⟩ := hm _ h1
        cases h2
    · rintro ⟨a, h1, h2⟩
      exact .inl ⟨a, h1, h2⟩
  show ((∃ a, (m >>= fun a => of (x a)).has (.ok a) ∧ _) ∨ (∃ e, (m >>= fun a => of (x a)).has (.err e) ∧ _) ∨
    ((m >>= fun a => of (x a)).has .panic ∧ _) ∨ ((m >>= fun a => of (x a)).has .diverge ∧ _)) ↔ _
  simp only [h1, has_bind_ok]
  constructor
  · rintro (⟨b, ⟨a, h2, h3⟩, h4⟩ | ⟨e, ⟨a, h2, h3⟩, h4⟩ | ⟨⟨a, h2, h3⟩, h4⟩ | ⟨⟨a, h2, h3⟩, h4⟩)
    · exact ⟨a, h2, .inl ⟨b, h3.symm, h4⟩⟩
    · exact ⟨a, h2, .inr (.inl ⟨e, h3.symm, h4⟩)⟩
    · exact ⟨a, h2, .inr (.inr (.inl ⟨h3.symm, h4⟩))⟩
    · exact ⟨a, h2, .inr (.inr (.inr ⟨h3.symm, h4⟩))⟩
  · rintro ⟨a, h2, (⟨b, h3, h4⟩ | ⟨e, h3, h4⟩ | ⟨h3, h4⟩ | ⟨h3, h4⟩)⟩
    · exact .inl ⟨b, ⟨a, h2, h3.symm⟩, h4⟩
    · exact .inr (.inl ⟨e, ⟨a, h2, h3.symm⟩, h4⟩)
    · exact .inr (.inr (.inl ⟨⟨a, h2, h3.symm⟩, h4⟩))
    · exact .inr (.inr (.inr ⟨⟨a, h2, h3.symm⟩, h4⟩))

theorem has_newAny (name : Str) (text : Option Str) (A : SMap) (xmlns pfx : Option Str) (cs : Option (List Node)) (r : R Element) :
    (ElementF.newAny name text (some A) xmlns pfx cs).has r ↔ (of (checkElemName name) >>= fun _ =>
      ⟨fun r => ∃ l, l.Perm A.entries ∧ (of (checkAndCopy l .empty) >>= newWith name text xmlns pfx cs).has r⟩).has r := by
  show (of (checkElemName name) >>= fun _ => ((anyOrder A >>= fun l => of (checkAndCopy l SMap.empty)) >>= newWith name text xmlns pfx cs)).has r ↔ _
  rw [has_bind_ok, has_bind_ok]
  have : ∀ r, ((anyOrder A >>= fun l => of (checkAndCopy l SMap.empty)) >>= newWith name text xmlns pfx cs).has r ↔
      ∃ l, l.Perm A.entries ∧ (of (checkAndCopy l .empty) >>= newWith name text xmlns pfx cs).has r := by
    intro r
    rw [bind_assoc_has (m := anyOrder A) fun r ⟨l, _, h⟩ => ⟨l, h⟩]
    constructor
    · rintro ⟨l, ⟨l', h1, h2⟩, h3⟩
      cases h2
      exact ⟨l, h1, h3⟩
    · rintro ⟨l, h1, h3⟩
      exact ⟨l, ⟨l, h1, rfl⟩, h3⟩
  simp only [this]

theorem newKeys_iff {α β : Type} (key : α → Str) (value : β → Str) (name : Str) (text : Option Str) (m : List (α × β)) (xmlns pfx : Option Str)
    (cs : Option (List Node)) (r : R Element) :
    (ElementF.newKeysAny key value name text m xmlns pfx cs).has r ↔
      ∃ A, OneOfEach key value m A ∧ (ElementF.newAny name text (some A) xmlns pfx cs).has r := by
  simp only [has_newAny]
  show (of (checkElemName name) >>= fun _ => (anyOrderOf m >>= fun l => (of (checkAndCopy (l.map fun kv => (key kv.1, value kv.2)) SMap.empty) >>=
    newWith name text xmlns pfx cs))).has r ↔ _
  simp only [has_bind_ok (x := checkElemName name), has_order]
  have hcp : ∀ r, (∃ l : List (α × β), l.Perm m ∧ (of (checkAndCopy (l.map fun kv => (key kv.1, value kv.2)) SMap.empty) >>= newWith name text xmlns pfx cs).has r) ↔
      ∃ A, OneOfEach key value m A ∧ ∃ l, l.Perm A.entries ∧ (of (checkAndCopy l SMap.empty) >>= newWith name text xmlns pfx cs).has r := by
    intro r
    constructor
    · rintro ⟨l, h1, h2⟩
      obtain ⟨A, h3, l', h4, h5⟩ := (copied_iff key value m _).1 ⟨l, h1, rfl⟩
      exact ⟨A, h3, l', h4, h5 ▸ h2⟩
    · rintro ⟨A, h3, l', h4, h5⟩
      obtain ⟨l, h1, h2⟩ := (copied_iff key value m _).2 ⟨A, h3, l', h4, rfl⟩
      exact ⟨l, h1, h2 ▸ h5⟩
  have hex : ∃ A, OneOfEach key value m A := ⟨_, copyAll_oneOfEach key value m m (.refl _)⟩
  constructor
  · rintro (⟨a, h1, h2⟩ | ⟨e, h1, h2⟩ | ⟨h1, h2⟩ | ⟨h1, h2⟩)
    · obtain ⟨A, h3, h4⟩ := (hcp r).1 h2
      exact ⟨A, h3, .inl ⟨a, h1, h4⟩⟩
    · exact hex.imp fun A h => ⟨h, .inr (.inl ⟨e, h1, h2⟩)⟩
    · exact hex.imp fun A h => ⟨h, .inr (.inr (.inl ⟨h1, h2⟩))⟩
    · exact hex.imp fun A h => ⟨h, .inr (.inr (.inr ⟨h1, h2⟩))⟩
  · rintro ⟨A, h3, (⟨a, h1, h2⟩ | ⟨e, h1, h2⟩ | ⟨h1, h2⟩ | ⟨h1, h2⟩)⟩
    · exact .inl ⟨a, h1, (hcp r).2 ⟨A, h3, h2⟩⟩
    · exact .inr (.inl ⟨e, h1, h2⟩)
    · exact .inr (.inr (.inl ⟨h1, h2⟩))
    · exact .inr (.inr (.inr ⟨h1, h2⟩))

end KissXml
