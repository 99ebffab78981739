import Verif.Proofs.Safe
/-!
# `Element::new` in one equation
-/
namespace KissXml
open Spec

/-- the children that a text argument gives -/
def textKids : Option Str → List Node
  | none => []
  | some t => if Blank t then [] else [.text t]

theorem normalText_textKids (text : Option Str) : normalText (textKids text) = textKids text := by
  cases text with
  | none => rfl
  | some t => by_cases hb : Blank t <;> simp [textKids, normalText, joinRuns, consJoin, isBlankText, hb]

theorem append_textKids (e : Element) (h : e.children = []) (t : Str) :
    e.append (.text t) = .ok { e with children := textKids (some t) } := by
  rw [append_eq, h]
  by_cases hb : Blank t <;> simp [applyXmlnsContext, normalText, joinRuns, consJoin, isBlankText, textKids, hb]

theorem new_eq (name : Str) (text : Option Str) (attrs : Option SMap) (xmlns pfx : Option Str) (children : Option (List Node)) :
    ElementF.new name text attrs xmlns pfx children =
      if !validName name then .err (.invalidElementName name)
      else match (attrs.getD .empty).entries.find? (fun kv => !validName kv.1) with
        | some kv => .err (.invalidAttributeName kv.1)
        | none =>
          let e0 : Element := ⟨name, [], attrs.getD .empty, xmlns.or (ownNs (attrs.getD .empty) pfx), pfx,
            ElementF.xmlnsContextFromAttributes (attrs.getD .empty)⟩
          .ok { e0 with children := normalText (textKids text ++
            (children.getD []).map (applyXmlnsContext e0.defaultNamespace e0.ctx)) } := by
  have hA : ∀ m, attrs.getD .empty = m → ElementF.new name text attrs xmlns pfx children =
      ElementF.new name text (some m) xmlns pfx children := by
    rintro m rfl
    cases attrs <;> rfl
  rw [hA _ rfl]
  generalize attrs.getD .empty = A
  unfold ElementF.new checkElemName
  cases validName name with
  | false => rfl
  | true =>
    simp only [if_true, Res.bind_ok, Bool.not_true, Bool.false_eq_true, if_false]
    cases A.entries.find? (fun kv => !validName kv.1) with
    | some kv => rfl
    | none =>
      have ht : ∀ (x : Option Str) (c : SMap) (t : Str), ElementF.append ⟨name, [], A, x, pfx, c⟩ (.text t) =
          .ok ⟨name, textKids (some t), A, x, pfx, c⟩ := fun x c t => append_textKids _ rfl t
      cases text <;> cases children <;> cases xmlns <;> cases pfx <;>
        simp [ht, appendAll_eq, ownNs, ElementF.defaultNamespace, normalText_textKids] <;> rfl

end KissXml
