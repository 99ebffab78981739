import Verif.Spec.Splice
import Verif.Proofs.Layout
namespace KissXml
open Spec

theorem childrenToString_append (pre u : Str) (inl : Bool) (l m : List Node) :
    childrenToString pre u inl (l ++ m) = childrenToString pre u inl l ++ childrenToString pre u inl m := by
  induction l with
  | nil => simp [childrenToString]
  | cons n l ih => simp [childrenToString, ih]

theorem childrenToString_ends (pre u : Str) (l : List Node) (h : l ≠ []) : ∃ s, childrenToString pre u false l = s ++ ['\n'] := by
  rcases List.eq_nil_or_concat l with rfl | ⟨l, n, rfl⟩
  · exact absurd rfl h
  · rw [List.concat_eq_append, childrenToString_append]
    exact ⟨childrenToString pre u false l ++ n.toStringPI pre u false, by simp [childrenToString]⟩

theorem several_print {cs : List Node} (h : Several cs) (n : Str) (a : SMap) (x p : Option Str) (c : SMap) (pre u : Str) (inl : Bool) :
    ElementF.toStringPI pre u inl ⟨n, cs, a, x, p, c⟩ =
      (if inl then [] else pre) ++ c%"<" ++ qname ⟨n, cs, a, x, p, c⟩ ++ attrsToString (sortAttrs a.entries) ++
        (c%">" ++ (if inl || cs.any Node.isText then [] else c%"\n") ++ childrenToString (pre ++ u) u (inl || cs.any Node.isText) cs ++
          (if inl || cs.any Node.isText then [] else pre) ++ c%"</" ++ qname ⟨n, cs, a, x, p, c⟩ ++ c%">") := by
  rw [ElementF.toStringPI, tagName_qname]
  have h0 : (cs.length == 0) = false := by rcases h with ⟨y, z, w, rfl⟩ | ⟨e, rfl⟩ <;> simp
  have h1 : (cs.length == 1 && !(cs.any Node.isElement)) = false := by rcases h with ⟨y, z, w, rfl⟩ | ⟨e, rfl⟩ <;> simp [Node.isElement]
  rw [h0, h1]
  rfl

theorem only_print {m : Node} (h : m.isElement = false) (n : Str) (a : SMap) (x p : Option Str) (c : SMap) (pre u : Str) (inl : Bool) (q : Str) :
    ElementF.toStringPI pre u inl ⟨n, [m], a, x, p, c⟩ =
      (if inl then [] else pre) ++ c%"<" ++ qname ⟨n, [m], a, x, p, c⟩ ++ attrsToString (sortAttrs a.entries) ++
        (c%">" ++ childrenToString q u true [m] ++ c%"</" ++ qname ⟨n, [m], a, x, p, c⟩ ++ c%">") := by
  rw [ElementF.toStringPI, tagName_qname]
  cases m with
  | element e => simp [Node.isElement] at h
  | _ => simp [Node.isElement, childrenToString, Node.toStringPI]

theorem pad_succ' (u : Str) (k : Nat) : pad u (k + 1) = u ++ pad u k := by
  simp [pad, List.replicate_succ]

theorem hasText_any {cs : List Node} : HasText cs ↔ cs.any Node.isText = true := any_isText.symm

open Classical in
theorem spliced_print {M M' : List Node} {d : Nat} {mixed : Prop} {e e' : Element} (h : Spliced M M' d mixed e e') (u pre : Str) (inl : Bool) :
    ∃ A B, e.toStringPI pre u inl = A ++ childrenToString (pre ++ pad u d) u (inl || decide mixed) M ++ B ∧
      e'.toStringPI pre u inl = A ++ childrenToString (pre ++ pad u d) u (inl || decide mixed) M' ++ B ∧
      ((inl || decide mixed) = false → ∃ A0, A = A0 ++ ['\n']) := by
  induction h generalizing pre inl with
  | @here n a x p c X Y h1 h2 h3 =>
    have hb : ∀ cs, decide (HasText cs) = cs.any Node.isText := fun cs => by
      rw [Bool.eq_iff_iff, decide_eq_true_iff, hasText_any]
    have h4 : (X ++ M' ++ Y).any Node.isText = (X ++ M ++ Y).any Node.isText := by
      rw [Bool.eq_iff_iff, ← hasText_any, ← hasText_any, h3]
    rw [several_print h1, several_print h2, h4, hb]
    generalize (inl || (X ++ M ++ Y).any Node.isText) = b
    have hp : pad u 1 = u := by simp [pad]
    rw [hp, childrenToString_append, childrenToString_append, childrenToString_append, childrenToString_append]
    refine ⟨(if inl then [] else pre) ++ c%"<" ++ qname ⟨n, X ++ M ++ Y, a, x, p, c⟩ ++ attrsToString (sortAttrs a.entries) ++
        c%">" ++ (if b then [] else c%"\n") ++ childrenToString (pre ++ u) u b X, childrenToString (pre ++ u) u b Y ++ (if b then [] else pre) ++
        c%"</" ++ qname ⟨n, X ++ M ++ Y, a, x, p, c⟩ ++ c%">", by simp only [List.append_assoc], by simp only [List.append_assoc]; rfl, ?_⟩
    rintro rfl
    cases X with
    | nil => exact ⟨_, by simp only [childrenToString, List.append_nil]; rfl⟩
    | cons y X =>
      obtain ⟨s, hs⟩ := childrenToString_ends (pre ++ u) u (y :: X) (by simp)
      rw [hs]
      exact ⟨_, (List.append_assoc _ _ _).symm⟩
  | @only n a x p c m m' h1 h2 h3 h4 =>
    subst h1 h2
    rw [only_print h3 n a x p c pre u inl (pre ++ pad u 1), only_print h4 n a x p c pre u inl (pre ++ pad u 1)]
    simp only [decide_true, Bool.or_true]
    exact ⟨(if inl then [] else pre) ++ c%"<" ++ qname ⟨n, [m], a, x, p, c⟩ ++ attrsToString (sortAttrs a.entries) ++ c%">",
      c%"</" ++ qname ⟨n, [m], a, x, p, c⟩ ++ c%">", by simp only [List.append_assoc], by simp only [List.append_assoc]; rfl, by simp⟩
  | @inside n a x p c X Y k k' d mixed h ih =>
    have hs : ∀ k, Several (X ++ .element k :: Y) := by
      intro k
      cases X with
      | nil =>
        cases Y with
        | nil => exact .inr ⟨k, rfl⟩
        | cons y Y => exact .inl ⟨_, _, _, rfl⟩
      | cons x X =>
        cases X with
        | nil => exact .inl ⟨_, _, _, rfl⟩
        | cons z X => exact .inl ⟨_, _, _, rfl⟩
    have h4 : (X ++ .element k' :: Y).any Node.isText = (X ++ .element k :: Y).any Node.isText := by
      simp [Node.isText]
    rw [several_print (hs k), several_print (hs k'), h4]
    have hm : ∀ i : Decidable (HasText (X ++ .element k :: Y) ∨ mixed), @decide _ i = ((X ++ .element k :: Y).any Node.isText || decide mixed) := by
      intro i
      rw [Bool.eq_iff_iff, decide_eq_true_iff, hasText_any, Bool.or_eq_true, decide_eq_true_iff]
    rw [hm, ← Bool.or_assoc]
    generalize (inl || (X ++ .element k :: Y).any Node.isText) = b
    obtain ⟨A, B, h5, h6, h7⟩ := ih (pre ++ u) b
    rw [pad_succ', ← List.append_assoc, childrenToString_append, childrenToString_append, childrenToString, childrenToString, Node.toStringPI, Node.toStringPI, h5, h6]
    refine ⟨(if inl then [] else pre) ++ c%"<" ++ qname ⟨n, X ++ .element k :: Y, a, x, p, c⟩ ++ attrsToString (sortAttrs a.entries) ++
        c%">" ++ (if b then [] else c%"\n") ++ childrenToString (pre ++ u) u b X ++ A, B ++ (if b then [] else c%"\n") ++ childrenToString (pre ++ u) u b Y ++ (if b then [] else pre) ++
        c%"</" ++ qname ⟨n, X ++ .element k :: Y, a, x, p, c⟩ ++ c%">", by simp only [List.append_assoc], by simp only [List.append_assoc]; rfl, ?_⟩
    intro hb
    obtain ⟨A0, rfl⟩ := h7 hb
    exact ⟨_, (List.append_assoc _ _ _).symm⟩

theorem attrs_place (u : Str) (x : Element) (pre : Str) (inl : Bool) : ∃ A B, ∀ a' : SMap,
    ({ x with attrs := a' } : Element).toStringPI pre u inl = A ++ (sortAttrs a'.entries).flatMap attrStr ++ B := by
  obtain ⟨n, cs, a, y, p, c⟩ := x
  have ht : ∀ a', ElementF.tagName (⟨n, cs, a', y, p, c⟩ : Element) = ElementF.tagName (⟨n, cs, a, y, p, c⟩ : Element) := fun _ => rfl
  generalize hT : ElementF.tagName (⟨n, cs, a, y, p, c⟩ : Element) = T at ht
  refine ⟨(if inl then [] else pre) ++ c%"<" ++ T, (if cs.length == 0 then c%"/>"
     else if cs.length == 1 && !(cs.any Node.isElement) then c%">" ++ childrenToString [] [] true cs ++ c%"</" ++ T ++ c%">"
     else c%">" ++ (if inl || cs.any Node.isText then [] else c%"\n") ++ childrenToString (pre ++ u) u (inl || cs.any Node.isText) cs ++
       (if inl || cs.any Node.isText then [] else pre) ++ c%"</" ++ T ++ c%">"), fun a' => ?_⟩
  rw [ElementF.toStringPI, attrsToString_spec, ht]

end KissXml
