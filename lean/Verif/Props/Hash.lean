import Verif.Proofs.Hash
import Verif.Props.Serialize
/-!
# Property C80: hashing, and the order of declarations and document types
-/
namespace KissXml.Props
open Spec

/-- Texts, comments, CDATA sections, declarations and document types feed the hasher with the same data if and only if they are equal. -/
theorem C80_hash (a b : Str) (d d' : Declaration) (t t' : DTD) :
    (textHash a = textHash b ↔ textEq a b = true) ∧ (commentHash a = commentHash b ↔ commentEq a b = true) ∧
    (cdataHash a = cdataHash b ↔ cdataEq a b = true) ∧ (d.hash = d'.hash ↔ d = d') ∧ (t.hash = t'.hash ↔ t = t') := by
  refine ⟨?_, ?_, ?_, ?_, ?_⟩
  · simp [textHash, textEq, hashStr_iff]
  · simp [commentHash, commentEq, hashStr_iff]
  · simp [cdataHash, cdataEq, hashStr_iff]
  · cases d; cases d'; simp [Declaration.hash, hashStr_iff]
  · cases t; cases t'; simp [DTD.hash, hashStr_iff]

/-- Equal elements feed the hasher with the same data; elements do so if and only if they have the same name and the same namespace. -/
theorem C80_element (a b : Element) :
    (a.eq b = true → a.hash = b.hash) ∧ (a.hash = b.hash ↔ a.name = b.name ∧ a.namespace_ = b.namespace_) := by
  have key : a.hash = b.hash ↔ a.name = b.name ∧ a.namespace_ = b.namespace_ := by
    unfold ElementF.hash ElementF.namespace_
    constructor
    · intro h
      obtain ⟨h1, h2⟩ := List.append_inj h (by simp [hashStr])
      refine ⟨hashStr_inj h1, ?_⟩
      cases hx : a.xmlns with
      | none =>
        cases hy : b.xmlns with
        | none => rfl
        | some v => rw [hx, hy] at h2; simp [hashOptStr] at h2
      | some u =>
        cases hy : b.xmlns with
        | none => rw [hx, hy] at h2; simp [hashOptStr] at h2
        | some v =>
          rw [hx, hy] at h2
          simp only [hashOptStr, List.cons.injEq, true_and] at h2
          rw [hashStr_inj h2]
    · rintro ⟨h1, h2⟩
      rw [h1, h2]
  refine ⟨fun h => key.2 ?_, key⟩
  have := (C28_element h).2.2.2
  simp only [ElementF.hashKey, Prod.mk.injEq] at this
  exact this

/-- The orders of texts, comments, CDATA sections, declarations, document types and names of elements are the byte order of their
contents; a declaration or document type compares as equal exactly if it is equal. -/
theorem C80_order (a b : Str) (x y : Element) (d d' : Declaration) (t t' : DTD) :
    (textCmp a b = .lt ↔ BytesLt (bytes a) (bytes b)) ∧ (commentCmp a b = .lt ↔ BytesLt (bytes a) (bytes b)) ∧
    (cdataCmp a b = .lt ↔ BytesLt (bytes a) (bytes b)) ∧ (x.cmp y = .lt ↔ BytesLt (bytes x.name) (bytes y.name)) ∧
    (d.cmp d' = .lt ↔ BytesLt (bytes d.declStr) (bytes d'.declStr)) ∧ (t.cmp t' = .lt ↔ BytesLt (bytes t.dtdStr) (bytes t'.dtdStr)) ∧
    (d.cmp d' = .eq ↔ d = d') ∧ (t.cmp t' = .eq ↔ t = t') :=
  ⟨strCmp_lt_iff, strCmp_lt_iff, strCmp_lt_iff, strCmp_lt_iff, strCmp_lt_iff, strCmp_lt_iff,
    by cases d; cases d'; simp [Declaration.cmp, strCmp_eq], by cases t; cases t'; simp [DTD.cmp, strCmp_eq]⟩

/-- They are total: exactly the opposite comes out when the arguments are exchanged; and transitive. -/
theorem C80_total (a b c : Str) (x y z : Element) (d d' d'' : Declaration) (t t' t'' : DTD) :
    ((textCmp b a = (textCmp a b).swap) ∧ (commentCmp b a = (commentCmp a b).swap) ∧ (cdataCmp b a = (cdataCmp a b).swap) ∧
      (y.cmp x = (x.cmp y).swap) ∧ (d'.cmp d = (d.cmp d').swap) ∧ (t'.cmp t = (t.cmp t').swap)) ∧
    ((textCmp a b = .lt → textCmp b c = .lt → textCmp a c = .lt) ∧ (commentCmp a b = .lt → commentCmp b c = .lt → commentCmp a c = .lt) ∧
      (cdataCmp a b = .lt → cdataCmp b c = .lt → cdataCmp a c = .lt) ∧ (x.cmp y = .lt → y.cmp z = .lt → x.cmp z = .lt) ∧
      (d.cmp d' = .lt → d'.cmp d'' = .lt → d.cmp d'' = .lt) ∧ (t.cmp t' = .lt → t'.cmp t'' = .lt → t.cmp t'' = .lt)) := by
  have hs : ∀ a b : Str, strCmp b a = (strCmp a b).swap := by
    intro a b
    cases h : strCmp a b with
    | eq => rw [strCmp_eq] at h; subst h; exact strCmp_eq.2 rfl
    | lt => exact strCmp_gt.2 h
    | gt => exact strCmp_gt.1 h
  exact ⟨⟨hs _ _, hs _ _, hs _ _, hs _ _, hs _ _, hs _ _⟩, strCmp_lt_trans, strCmp_lt_trans, strCmp_lt_trans, strCmp_lt_trans, strCmp_lt_trans,
    strCmp_lt_trans⟩

/-! Different elements with the same hash; a smaller and a larger document type. -/
example : ∃ a b : Element, a.eq b = false ∧ a.hash = b.hash :=
  ⟨⟨c%"a", [], .empty, none, none, .empty⟩, ⟨c%"a", [.text c%"t"], .empty, none, none, .empty⟩, by decide, rfl⟩

example : (DTD.mk c%" a").cmp ⟨c%" b"⟩ = .lt ∧ (Declaration.mk c%"xml").cmp ⟨c%"x"⟩ = .gt := by decide

end KissXml.Props
