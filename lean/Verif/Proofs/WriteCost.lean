import Verif.Model.WriteCost
import Verif.Proofs.Depth
import Mathlib.Tactic.Ring
/-!
# Bytes copied while writing
-/
namespace KissXml
open KissXml.Spec

/-- from `o` to `r` the string `s` was appended, and its bytes were pushed at least once and at most `k` times -/
structure Within (k : Nat) (o : Pushed) (s : Str) (r : Pushed) : Prop where
  out : r.1 = o.1 ++ s
  least : o.2 + blen s ≤ r.2
  most : r.2 ≤ o.2 + k * blen s

namespace Within
variable {k m : Nat} {o r q : Pushed} {s t : Str}

theorem nil : Within k o [] o := ⟨by simp, by simp [blen], by simp [blen]⟩

theorem trans (h : Within k o s r) (h' : Within k r t q) : Within k o (s ++ t) q := by
  refine ⟨by rw [h'.out, h.out, List.append_assoc], ?_, ?_⟩
  · have := h.least; have := h'.least; rw [blen_append]; omega
  · have := h.most; have := h'.most; rw [blen_append, Nat.mul_add]; omega

theorem mono (h : Within k o s r) (hk : k ≤ m) : Within m o s r :=
  ⟨h.out, h.least, Nat.le_trans h.most (Nat.add_le_add_left (Nat.mul_le_mul_right _ hk) _)⟩

theorem push (o : Pushed) (s : Str) : Within (k + 1) o s (o.push s) := by
  refine ⟨rfl, Nat.le_refl _, ?_⟩
  show o.2 + blen s ≤ _
  rw [Nat.add_mul]; omega

theorem andPush (h : Within (k + 1) o s r) (t : Str) : Within (k + 1) o (s ++ t) (r.push t) := h.trans (push r t)

theorem andMaybe (h : Within (k + 1) o s r) (b : Bool) (t : Str) :
    Within (k + 1) o (s ++ if b then [] else t) (if b then r else r.push t) := by
  cases b
  · exact h.andPush t
  · simpa using h

theorem call (o : Pushed) (h : Within k ([], 0) s r) : Within (k + 1) o s (o.call r) := by
  have h1 : r.1 = s := by rw [h.out]; rfl
  refine ⟨?_, ?_, ?_⟩
  · show o.1 ++ r.1 = _
    rw [h1]
  · show _ ≤ o.2 + blen r.1 + r.2
    rw [h1]; omega
  · show o.2 + blen r.1 + r.2 ≤ _
    have := h.most
    rw [h1, Nat.add_mul]; simp only at this; omega

end Within

theorem pushAttrs_within {k : Nat} {o r : Pushed} {s : Str} (h : Within (k + 1) o s r) (l : List (Str × Str)) :
    Within (k + 1) o (s ++ attrsToString l) (pushAttrs r l) := by
  induction l generalizing s r with
  | nil => rw [attrsToString, List.append_nil]; exact h
  | cons kv l ih =>
    obtain ⟨a, v⟩ := kv
    have := ih (((((h.andPush c%" ").andPush a).andPush c%"=\"").andPush (attributeEscape v)).andPush c%"\"")
    rw [pushAttrs, attrsToString]
    simpa only [List.append_assoc] using this

mutual
theorem writeC_within (pre indent : Str) (inline : Bool) : ∀ e : Element,
    Within (nesting (.element e)) ([], 0) (e.toStringPI pre indent inline) (e.writeC pre indent inline)
  | ⟨name, cs, attrs, xmlns, pfx, ctx⟩ => by
    rw [ElementF.writeC, ElementF.toStringPI, nesting, Nat.add_comm 1]
    have h0 : Within (nestings cs + 1) (([], 0) : Pushed) [] ([], 0) := .nil
    have h1 := pushAttrs_within (((h0.andMaybe inline pre).andPush c%"<").andPush (ElementF.tagName ⟨name, cs, attrs, xmlns, pfx, ctx⟩))
      (sortAttrs attrs.entries)
    rw [List.nil_append] at h1
    simp only
    by_cases c0 : (cs.length == 0) = true
    · rw [if_pos c0, if_pos c0]
      exact h1.andPush _
    · rw [if_neg c0, if_neg c0]
      by_cases c1 : (cs.length == 1 && !(cs.any Node.isElement)) = true
      · rw [if_pos c1, if_pos c1]
        have h2 := ((((h1.andPush c%">").trans (childrenWriteC_within [] [] true cs _)).andPush c%"</").andPush
          (ElementF.tagName ⟨name, cs, attrs, xmlns, pfx, ctx⟩)).andPush c%">"
        simpa only [List.append_assoc] using h2
      · rw [if_neg c1, if_neg c1]
        have h2 := (((((h1.andPush c%">").andMaybe (inline || cs.any Node.isText) c%"\n").trans
          (childrenWriteC_within (pre ++ indent) indent (inline || cs.any Node.isText) cs _)).andMaybe
          (inline || cs.any Node.isText) pre).andPush c%"</").andPush (ElementF.tagName ⟨name, cs, attrs, xmlns, pfx, ctx⟩) |>.andPush c%">"
        simpa only [List.append_assoc] using h2
theorem childrenWriteC_within (pre indent : Str) (inline : Bool) : ∀ (l : List Node) (o : Pushed),
    Within (nestings l + 1) o (childrenToString pre indent inline l) (childrenWriteC pre indent inline o l)
  | [], o => by rw [childrenToString, childrenWriteC]; exact .nil
  | c :: cs, o => by
    rw [childrenToString, childrenWriteC, nestings]
    refine (((nodeWriteC_within pre indent inline c o).mono ?_).andMaybe inline c%"\n").trans
      ((childrenWriteC_within pre indent inline cs _).mono ?_) <;> omega
theorem nodeWriteC_within (pre indent : Str) (inline : Bool) : ∀ (n : Node) (o : Pushed),
    Within (nesting n + 1) o (n.toStringPI pre indent inline) (n.writeC pre indent inline o)
  | .text t, o => by rw [Node.toStringPI, Node.writeC]; exact .push _ _
  | .element e, o => by rw [Node.toStringPI, Node.writeC]; exact (writeC_within pre indent inline e).call o
  | .comment c, o => by
    rw [Node.toStringPI, Node.writeC]
    have h := ((Within.nil (k := nesting (.comment c) + 1) (o := o)).andMaybe inline pre).andPush (commentToString c)
    rwa [List.nil_append] at h
  | .cdata c, o => by
    rw [Node.toStringPI, Node.writeC]
    have h := ((Within.nil (k := nesting (.cdata c) + 1) (o := o)).andMaybe inline pre).andPush (cdataToString c)
    rwa [List.nil_append] at h
end

mutual
theorem textC_within : ∀ e : Element, Within (nesting (.element e)) ([], 0) e.textOf e.textC
  | ⟨_, cs, _, _, _, _⟩ => by
    rw [ElementF.textC, ElementF.textOf, nesting, Nat.add_comm 1]
    exact childrenTextC_within cs _
theorem childrenTextC_within : ∀ (l : List Node) (o : Pushed), Within (nestings l + 1) o (textOfChildren l) (childrenTextC o l)
  | [], o => by rw [textOfChildren, childrenTextC]; exact .nil
  | .text t :: cs, o => by
    rw [textOfChildren, childrenTextC, nestings]
    exact Within.trans (s := t) (.push o t) ((childrenTextC_within cs _).mono (by omega))
  | .element e :: cs, o => by
    rw [textOfChildren, childrenTextC, nestings]
    exact Within.trans (s := e.textOf) (((textC_within e).call o).mono (by omega)) ((childrenTextC_within cs _).mono (by omega))
  | .comment t :: cs, o => by
    rw [textOfChildren, childrenTextC, nestings]
    exact (childrenTextC_within cs o).mono (by omega)
  | .cdata t :: cs, o => by
    rw [textOfChildren, childrenTextC, nestings]
    exact (childrenTextC_within cs o).mono (by omega)
end

theorem tower_step (n : Nat) (pre u : Str) : ((tower (n + 1)).writeC pre u false).2 =
    blen ((tower (n + 1)).toStringPI pre u false) + ((tower n).writeC (pre ++ u) u false).2 := by
  have hs := (writeC_within (pre ++ u) u false (tower n)).out
  have h1 := tower_size (n + 1) pre u
  have h2 := tower_size n (pre ++ u) u
  rw [List.nil_append] at hs
  have hw : ((tower (n + 1)).writeC pre u false).2 =
      blen pre + 1 + 1 + 1 + 1 + blen ((tower n).toStringPI (pre ++ u) u false) + ((tower n).writeC (pre ++ u) u false).2 + 1 +
        blen pre + 2 + 1 + 1 := by
    have l1 : blen c%"<" = 1 := rfl
    have l2 : blen c%"a" = 1 := rfl
    have l3 : blen c%">" = 1 := rfl
    have l4 : blen c%"\n" = 1 := rfl
    have l5 : blen c%"</" = 2 := rfl
    have l6 : sortAttrs SMap.empty.entries = [] := rfl
    rw [tower, ElementF.writeC]
    simp [Node.isElement, Node.isText, childrenWriteC, Node.writeC, Pushed.call, Pushed.push, l6, pushAttrs, ElementF.tagName, hs,
      l1, l2, l3, l4, l5]
  have h3 : (tower (n + 1)).toStringPI pre u false = pre ++ c%"<a>\n" ++ (tower n).toStringPI (pre ++ u) u false ++ c%"\n" ++ pre ++ c%"</a>" := by
    have l6 : sortAttrs SMap.empty.entries = [] := rfl
    rw [tower, ElementF.toStringPI]
    simp [Node.isElement, Node.isText, childrenToString, Node.toStringPI, l6, attrsToString, ElementF.tagName]
  have h4 := congrArg blen h3
  simp only [blen_append] at h4
  have m1 : blen c%"<a>\n" = 4 := rfl
  have m2 : blen c%"\n" = 1 := rfl
  have m3 : blen c%"</a>" = 4 := rfl
  omega

theorem tower_zero (pre u : Str) : ((tower 0).writeC pre u false).2 = blen pre + 4 := by
  have l1 : blen c%"<" = 1 := rfl
  have l2 : blen c%"a" = 1 := rfl
  have l3 : blen c%"/>" = 2 := rfl
  have l6 : sortAttrs SMap.empty.entries = [] := rfl
  rw [tower, ElementF.writeC]
  simp [Pushed.push, l6, pushAttrs, ElementF.tagName, l1, l2, l3]

theorem tower_writeC (n : Nat) (u : Str) : ∀ pre : Str, 6 * ((tower n).writeC pre u false).2 =
    6 * (n + 1) * (n + 1) * blen pre + 2 * n * (n + 1) * (2 * n + 1) * blen u + 27 * n * (n + 1) + 24 * (n + 1) := by
  induction n with
  | zero => intro pre; rw [tower_zero]; omega
  | succ n ih =>
    intro pre
    rw [tower_step, Nat.mul_add, ih, tower_size, blen_append]
    ring

/-! ## a source for nested elements -/

theorem re_tower (n : Nat) : ∀ p, p = none ∨ p = some (tower 0) → reElem p (tower n) = tower n := by
  have hm : ∀ p, p = none ∨ p = some (tower 0) → ∀ e : Element, ctagOf e = ctagOf (tower 0) →
      mkElem p (ctagOf e).name (attrMap (ctagOf e).attrs) = tower 0 := by
    rintro p (rfl | rfl) e he <;> rw [he] <;> rfl
  induction n with
  | zero => intro p hp; rw [reElem_eq, hm p hp _ rfl]; rfl
  | succ n ih =>
    intro p hp
    rw [reElem_eq, hm p hp _ (by rfl)]
    show { tower 0 with children := reList (tower 0) [.element (tower n)] } = _
    rw [reList, reList, reNode, ih _ (.inr rfl)]
    rfl

theorem tower_source (n : Nat) : ∃ x, parseStr x = .ok ⟨none, [], tower n⟩ ∧ blen x = 9 * n + 5 := by
  refine ⟨_, ?_, tower_bytes n⟩
  have h := reparse (tower_fits n) []
  rw [h]
  show Res.ok (⟨none, [], reElem none (tower n)⟩ : Document) = _
  rw [re_tower n none (.inl rfl)]

/-- `n+1` nested elements around a text -/
def textTower (t : Str) : Nat → Element
  | 0 => ⟨c%"a", [.text t], .empty, none, none, .empty⟩
  | n + 1 => ⟨c%"a", [.element (textTower t n)], .empty, none, none, .empty⟩

theorem textTower_text (t : Str) (n : Nat) : (textTower t n).textOf = t := by
  induction n with
  | zero => simp [textTower, ElementF.textOf, textOfChildren, Node.isText, Node.textOf]
  | succ n ih => simp [textTower, ElementF.textOf, textOfChildren, Node.isText, Node.isElement, Node.textOf, ih]

theorem textTower_nesting (t : Str) (n : Nat) : nesting (.element (textTower t n)) = n + 1 := by
  induction n with
  | zero => simp [textTower, nesting, nestings]
  | succ n ih => rw [textTower, nesting, nestings, nestings, ih]; omega

theorem textTower_textC (t : Str) (n : Nat) : (textTower t n).textC = (t, (n + 1) * blen t) := by
  induction n with
  | zero => simp [textTower, ElementF.textC, childrenTextC, Pushed.push]
  | succ n ih =>
    simp only [textTower, ElementF.textC, childrenTextC, ih, Pushed.call, Pushed.push, List.nil_append, Nat.zero_add]
    rw [Nat.add_mul (n + 1) 1, Nat.one_mul, Nat.add_comm]

end KissXml
