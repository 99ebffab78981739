import Verif.Proofs.Keys
import Verif.Props.Build
/-!
# C103: attribute maps with keys of other types
-/
namespace KissXml.Props
open KissXml KissXml.Spec

variable {α β : Type} (key : α → Str) (value : β → Str)

/-- C103: what `Element::new` may do with a map of any type is exactly what it may do with the maps of strings that have, for each
string that is given as a key, one of the values given for it. -/
theorem C103_exact (name : Str) (text : Option Str) (m : List (α × β)) (xmlns pfx : Option Str) (cs : Option (List Node)) (r : R Element) :
    (ElementF.newKeysAny key value name text m xmlns pfx cs).has r ↔
      ∃ A, OneOfEach key value m A ∧ (ElementF.newAny name text (some A) xmlns pfx cs).has r := newKeys_iff key value name text m xmlns pfx cs r

theorem new_attrs {name : Str} {text : Option Str} {A : SMap} {xmlns pfx : Option Str} {cs : Option (List Node)} {e : Element}
    (h : (ElementF.newAny name text (some A) xmlns pfx cs).has (.ok e)) :
    ApiName name ∧ (∀ k v, A.get k = some v → ApiName k) ∧ ∀ k, e.attrs.get k = A.get k := by
  have h1 : Agree SameComplaint TwinElement (ElementF.new name text (some A) xmlns pfx cs) (.ok e) := by
    cases cs with
    | none => exact allowed_new name text (A := some A) (A' := some A) (.refl _) xmlns pfx (cs := none) (cs' := none) trivial _ h
    | some l => exact allowed_new name text (A := some A) (A' := some A) (.refl _) xmlns pfx (cs := some l) (cs' := some l) (twinList_refl l) _ h
  obtain ⟨h2, h3, h4⟩ := C63_new name text (some A) xmlns pfx cs
  by_cases hn : ApiName name
  · by_cases hk : ∀ k v, A.get k = some v → ApiName k
    · obtain ⟨e0, _, h5, -, -, h6, -⟩ := h4 hn hk
      rw [h5] at h1
      cases h1 with
      | ok ht => exact ⟨hn, hk, fun k => by rw [← SMap.perm_iff_get.1 (twin_parts ht).2.2.2.1 k, h6]; rfl⟩
    · have : ∃ k v, A.get k = some v ∧ ¬ ApiName k := by
        by_contra hc
        exact hk fun k v hkv => by
          by_contra hx
          exact hc ⟨k, v, hkv, hx⟩
      obtain ⟨k, v, -, -, h5⟩ := h3 hn this
      rw [h5] at h1
      cases h1
  · rw [h2 hn] at h1
    cases h1

/-- C103: the result has for each string that some key becomes one attribute, with the value of an entry with such a key, and no
other attributes. -/
theorem C103_attributes (name : Str) (text : Option Str) (m : List (α × β)) (xmlns pfx : Option Str) (cs : Option (List Node)) (e : Element)
    (h : (ElementF.newKeysAny key value name text m xmlns pfx cs).has (.ok e)) : OneOfEach key value m e.attrs := by
  obtain ⟨A, hA, h⟩ := (newKeys_iff ..).1 h
  have h1 := (new_attrs h).2.2
  exact ⟨fun k hk => by rw [h1]; exact hA.1 k hk, fun k v hv => hA.2 k v (by rw [← h1]; exact hv)⟩

/-- C103: if no two keys become the same string, then every attribute is the one given, and runs differ at most in the bad name that
they report and in the order of maps. -/
theorem C103_distinct (name : Str) (text : Option Str) (m : List (α × β)) (xmlns pfx : Option Str) (cs : Option (List Node))
    (hm : ∀ x ∈ m, ∀ y ∈ m, key x.1 = key y.1 → value x.2 = value y.2) (r r' : R Element)
    (h : (ElementF.newKeysAny key value name text m xmlns pfx cs).has r) (h' : (ElementF.newKeysAny key value name text m xmlns pfx cs).has r') :
    Agree SameComplaint TwinElement r r' ∧ ∀ e, r = .ok e → ∀ x ∈ m, e.attrs.get (key x.1) = some (value x.2) := by
  constructor
  · obtain ⟨A, hA, h⟩ := (newKeys_iff ..).1 h
    obtain ⟨A', hA', h'⟩ := (newKeys_iff ..).1 h'
    have hp : A.entries.Perm A'.entries := SMap.perm_iff_get.2 fun k => by
      have key2 : ∀ {A A' : SMap}, OneOfEach key value m A → OneOfEach key value m A' → ∀ v, A.get k = some v → A'.get k = some v := by
        intro A A' hA hA' v hv
        obtain ⟨x, h1, h2, h3⟩ := hA.2 k v hv
        obtain ⟨v', hv'⟩ := Option.isSome_iff_exists.1 (hA'.1 k ⟨x, h1, h2⟩)
        obtain ⟨y, h4, h5, h6⟩ := hA'.2 k v' hv'
        rw [hv', ← h3, ← h6, hm x h1 y h4 (h2.trans h5.symm)]
      cases hk : A.get k with
      | some v => exact (key2 hA hA' v hk).symm
      | none =>
        cases hk' : A'.get k with
        | none => rfl
        | some v => rw [key2 hA' hA v hk'] at hk; cases hk
    have ha : ∀ {B : SMap} (hB : A.entries.Perm B.entries) {r}, (ElementF.newAny name text (some B) xmlns pfx cs).has r →
        Agree SameComplaint TwinElement (ElementF.new name text (some A) xmlns pfx cs) r := by
      intro B hB r h
      cases cs with
      | none => exact allowed_new name text (A := some A) (A' := some B) hB xmlns pfx (cs := none) (cs' := none) trivial _ h
      | some l => exact allowed_new name text (A := some A) (A' := some B) hB xmlns pfx (cs := some l) (cs' := some l) (twinList_refl l) _ h
    exact agree_trans (q := SameComplaint) (r := TwinElement) (fun _ _ _ => SameComplaint.trans) (fun _ _ _ h h' => twinElement_trans h h')
      (agree_symm (q := SameComplaint) (fun _ _ => SameComplaint.symm) (fun _ _ h => twinElement_symm h) (ha (.refl _) h)) (ha hp h')
  · rintro e rfl x hx
    obtain ⟨h1, h2⟩ := C103_attributes key value name text m xmlns pfx cs e h
    obtain ⟨v, hv⟩ := Option.isSome_iff_exists.1 (h1 _ ⟨x, hx, rfl⟩)
    obtain ⟨y, hy, h3, h4⟩ := h2 _ v hv
    rw [hv, ← h4, hm y hy x hx h3]

/-- C103: otherwise each of the values given for a string may be the one that the attribute gets. -/
theorem C103_any_wins (name : Str) (text : Option Str) (m : List (α × β)) (xmlns pfx : Option Str) (cs : Option (List Node))
    (hn : ApiName name) (hk : ∀ x ∈ m, ApiName (key x.1)) (x : α × β) (hx : x ∈ m) :
    ∃ e, (ElementF.newKeysAny key value name text m xmlns pfx cs).has (.ok e) ∧ e.attrs.get (key x.1) = some (value x.2) := by
  have hA := copyAll_oneOfEach key value m m (.refl _)
  generalize copyAll _ _ = A at hA
  have hB : OneOfEach key value m (A.insert (key x.1) (value x.2)) := by
    refine ⟨fun k hk => ?_, fun k v hv => ?_⟩
    · rw [SMap.get_insert]
      split
      · rfl
      · exact hA.1 k hk
    · rw [SMap.get_insert] at hv
      split at hv
      · rename_i h
        simp only [Option.some.injEq] at hv
        exact ⟨x, hx, h, hv⟩
      · exact hA.2 k v hv
  obtain ⟨e, _, h1, -, -, h2, -⟩ := (C63_new name text (some (A.insert (key x.1) (value x.2))) xmlns pfx cs).2.2 hn fun k v hv => by
    obtain ⟨y, hy, h, -⟩ := hB.2 k v hv
    exact h ▸ hk y hy
  refine ⟨e, (newKeys_iff ..).2 ⟨_, hB, h1 ▸ has_new name text (some (A.insert (key x.1) (value x.2))) xmlns pfx cs⟩, ?_⟩
  rw [h2]
  show (A.insert (key x.1) (value x.2)).get _ = _
  rw [SMap.get_insert]
  simp

/-- C103: hence the result may depend on the order in which the map is iterated. -/
theorem C103_order_shows : ∃ (m : List (Bool × Str)) (e e' : Element), (m.map Prod.fst).Nodup ∧
    (ElementF.newKeysAny (fun _ => c%"k") id c%"a" none m none none none).has (.ok e) ∧
    (ElementF.newKeysAny (fun _ => c%"k") id c%"a" none m none none none).has (.ok e') ∧ e.eq e' = false := by
  have hk : ∀ x ∈ [(true, c%"1"), (false, c%"2")], ApiName c%"k" := fun _ _ => validName_iff.1 (by decide)
  obtain ⟨e, h1, h2⟩ := C103_any_wins (fun _ => c%"k") id c%"a" none [(true, c%"1"), (false, c%"2")] none none none
    (validName_iff.1 (by decide)) hk (true, c%"1") (by simp)
  obtain ⟨e', h3, h4⟩ := C103_any_wins (fun _ => c%"k") id c%"a" none [(true, c%"1"), (false, c%"2")] none none none
    (validName_iff.1 (by decide)) hk (false, c%"2") (by simp)
  refine ⟨_, e, e', by decide, h1, h3, ?_⟩
  cases hq : e.eq e' with
  | false => rfl
  | true =>
    have hs := element_eq_iff.1 hq
    cases e; cases e'
    cases hs with
    | mk ha _ =>
      have := SMap.perm_iff_get.1 ha c%"k"
      simp only at h2 h4
      rw [h2, h4] at this
      exact absurd this (by decide)

/-- keys of two kinds, numbers and marks, that become different names -/
example : ∀ x ∈ [((0 : Fin 3), c%"x"), (1, c%"y"), (2, c%"x")], ∀ y ∈ [((0 : Fin 3), c%"x"), (1, c%"y"), (2, c%"x")],
    (fun n : Fin 3 => 'k' :: List.replicate n.val 'i') x.1 = (fun n : Fin 3 => 'k' :: List.replicate n.val 'i') y.1 → id x.2 = id y.2 := by decide

end KissXml.Props
