import Verif.Spec.Equal
import Verif.Proofs.Order
import Mathlib.Data.List.Perm.Subperm
/-!
# Maps and equality
-/
namespace KissXml
open Spec

namespace LMap
variable {κ ν : Type} [DecidableEq κ]

theorem get_mem {l : List (κ × ν)} {k : κ} {v : ν} (h : get l k = some v) : (k, v) ∈ l := by
  induction l with
  | nil => simp [get] at h
  | cons p t ih =>
    obtain ⟨k', v'⟩ := p
    unfold get at h
    split at h
    · rename_i hk; subst hk; simp at h; simp [h]
    · simp [ih h]

theorem get_eq_some {l : List (κ × ν)} (hn : (l.map Prod.fst).Nodup) {k : κ} {v : ν} :
    get l k = some v ↔ (k, v) ∈ l := by
  refine ⟨get_mem, ?_⟩
  intro h
  induction l with
  | nil => simp at h
  | cons p t ih =>
    obtain ⟨k', v'⟩ := p
    simp only [List.map_cons, List.nodup_cons] at hn
    unfold get
    rcases List.mem_cons.1 h with h | h
    · simp only [Prod.mk.injEq] at h; simp [h]
    · split
      · rename_i hk; subst hk
        exact absurd (List.mem_map.2 ⟨_, h, rfl⟩) hn.1
      · exact ih hn.2 h

theorem get_eq_none {l : List (κ × ν)} {k : κ} : get l k = none ↔ k ∉ l.map Prod.fst := by
  induction l with
  | nil => simp [get]
  | cons p t ih =>
    obtain ⟨k', v'⟩ := p
    unfold get
    split
    · rename_i hk; subst hk; simp
    · rename_i hk
      rw [ih]; simp only [List.map_cons, List.mem_cons, not_or]
      exact ⟨fun h => ⟨fun h' => hk h'.symm, h⟩, fun h => h.2⟩

theorem get_insert (l : List (κ × ν)) (k : κ) (v : ν) (x : κ) :
    get (insert l k v) x = if k = x then some v else get l x := by
  induction l with
  | nil => simp [insert, get]
  | cons p t ih =>
    obtain ⟨k', v'⟩ := p
    unfold insert
    split
    · rename_i hk; subst hk
      simp only [get]; split <;> rfl
    · rename_i hk
      simp only [get, ih]
      split
      · rename_i h; subst h; rw [if_neg (fun h => hk h.symm)]
      · rfl

theorem get_remove {l : List (κ × ν)} (hn : (l.map Prod.fst).Nodup) (k x : κ) :
    get (remove l k) x = if k = x then none else get l x := by
  induction l with
  | nil => simp [remove, get]
  | cons p t ih =>
    obtain ⟨k', v'⟩ := p
    simp only [List.map_cons, List.nodup_cons] at hn
    unfold remove
    split
    · rename_i hk; subst hk
      simp only [get]
      split
      · rename_i h; subst h; exact get_eq_none.2 hn.1
      · rfl
    · rename_i hk
      simp only [get, ih hn.2]
      split
      · rename_i h; subst h; rw [if_neg (fun h => hk h.symm)]
      · rfl

end LMap

namespace SMap

theorem entries_nodup (m : SMap) : m.entries.Nodup := m.nodup.of_map

theorem get_eq_some {m : SMap} {k v : Str} : m.get k = some v ↔ (k, v) ∈ m.entries := LMap.get_eq_some m.nodup

theorem get_eq_none {m : SMap} {k : Str} : m.get k = none ↔ k ∉ m.entries.map Prod.fst := LMap.get_eq_none

theorem get_insert (m : SMap) (k v x : Str) : (m.insert k v).get x = if k = x then some v else m.get x :=
  LMap.get_insert _ _ _ _

theorem get_remove (m : SMap) (k x : Str) : (m.remove k).get x = if k = x then none else m.get x :=
  LMap.get_remove m.nodup _ _

@[simp] theorem get_empty (k : Str) : empty.get k = none := rfl

theorem perm_iff_get {m n : SMap} : m.entries.Perm n.entries ↔ ∀ k, m.get k = n.get k := by
  constructor
  · intro h k
    apply Option.ext
    intro v
    rw [get_eq_some, get_eq_some, h.mem_iff]
  · intro h
    rw [List.perm_ext_iff_of_nodup m.entries_nodup n.entries_nodup]
    rintro ⟨k, v⟩
    rw [← get_eq_some, ← get_eq_some, h]

theorem eq_iff {m n : SMap} : m.eq n = true ↔ m.entries.Perm n.entries := by
  unfold eq
  simp only [Bool.and_eq_true, beq_iff_eq, List.all_eq_true, get_eq_some]
  constructor
  · rintro ⟨h1, h2⟩
    exact (List.subperm_of_subset m.entries_nodup (fun kv h => h2 kv h)).perm_of_length_le (by omega)
  · intro h
    exact ⟨h.length_eq, fun kv hkv => h.mem_iff.1 hkv⟩

theorem eq_refl (m : SMap) : m.eq m = true := eq_iff.2 (.refl _)

end SMap

mutual
theorem sameNode_refl : ∀ n : Node, SameNode n n
  | .text t => .text t
  | .comment t => .comment t
  | .cdata t => .cdata t
  | .element e => .element (sameElement_refl e)
theorem sameElement_refl : ∀ e : Element, SameElement e e
  | ⟨_, cs, _, _, _, _⟩ => .mk (.refl _) (sameList_refl cs)
theorem sameList_refl : ∀ l : List Node, SameList l l
  | [] => .nil
  | c :: cs => .cons (sameNode_refl c) (sameList_refl cs)
end

mutual
theorem sameNode_symm : ∀ {n n' : Node}, SameNode n n' → SameNode n' n
  | .text _, _, .text t => .text t
  | .comment _, _, .comment t => .comment t
  | .cdata _, _, .cdata t => .cdata t
  | .element _, _, .element h => .element (sameElement_symm h)
theorem sameElement_symm : ∀ {e e' : Element}, SameElement e e' → SameElement e' e
  | ⟨_, _, _, _, _, _⟩, _, .mk h1 h2 => .mk h1.symm (sameList_symm h2)
theorem sameList_symm : ∀ {l l' : List Node}, SameList l l' → SameList l' l
  | [], _, .nil => .nil
  | _ :: _, _, .cons h1 h2 => .cons (sameNode_symm h1) (sameList_symm h2)
end

mutual
theorem sameNode_trans : ∀ {a b c : Node}, SameNode a b → SameNode b c → SameNode a c
  | .text _, _, _, .text _, h => h
  | .comment _, _, _, .comment _, h => h
  | .cdata _, _, _, .cdata _, h => h
  | .element _, _, _, .element h, .element h' => .element (sameElement_trans h h')
theorem sameElement_trans : ∀ {a b c : Element}, SameElement a b → SameElement b c → SameElement a c
  | ⟨_, _, _, _, _, _⟩, _, _, .mk h1 h2, .mk h1' h2' => .mk (h1.trans h1') (sameList_trans h2 h2')
theorem sameList_trans : ∀ {a b c : List Node}, SameList a b → SameList b c → SameList a c
  | [], _, _, .nil, h => h
  | _ :: _, _, _, .cons h1 h2, .cons h1' h2' => .cons (sameNode_trans h1 h1') (sameList_trans h2 h2')
end

mutual
theorem node_eq_iff : ∀ {a b : Node}, a.eq b = true ↔ SameNode a b
  | .element a, .element b => by
    rw [Node.eq, element_eq_iff]
    exact ⟨.element, fun h => by cases h; assumption⟩
  | .text a, .text b => by
    rw [Node.eq]; simp only [beq_iff_eq]
    exact ⟨fun h => h ▸ .text a, fun h => by cases h; rfl⟩
  | .comment a, .comment b => by
    rw [Node.eq]; simp only [beq_iff_eq]
    exact ⟨fun h => h ▸ .comment a, fun h => by cases h; rfl⟩
  | .cdata a, .cdata b => by
    rw [Node.eq]; simp only [beq_iff_eq]
    exact ⟨fun h => h ▸ .cdata a, fun h => by cases h; rfl⟩
  | .element _, .text _ => by rw [Node.eq]; simp; intro h; cases h
  | .element _, .comment _ => by rw [Node.eq]; simp; intro h; cases h
  | .element _, .cdata _ => by rw [Node.eq]; simp; intro h; cases h
  | .text _, .element _ => by rw [Node.eq]; simp; intro h; cases h
  | .text _, .comment _ => by rw [Node.eq]; simp; intro h; cases h
  | .text _, .cdata _ => by rw [Node.eq]; simp; intro h; cases h
  | .comment _, .element _ => by rw [Node.eq]; simp; intro h; cases h
  | .comment _, .text _ => by rw [Node.eq]; simp; intro h; cases h
  | .comment _, .cdata _ => by rw [Node.eq]; simp; intro h; cases h
  | .cdata _, .element _ => by rw [Node.eq]; simp; intro h; cases h
  | .cdata _, .text _ => by rw [Node.eq]; simp; intro h; cases h
  | .cdata _, .comment _ => by rw [Node.eq]; simp; intro h; cases h
theorem element_eq_iff : ∀ {a b : Element}, a.eq b = true ↔ SameElement a b
  | ⟨n, cs, a, x, p, c⟩, ⟨n', cs', a', x', p', c'⟩ => by
    rw [ElementF.eq]
    simp only [Bool.and_eq_true, beq_iff_eq, SMap.eq_iff, and_assoc]
    constructor
    · rintro ⟨rfl, rfl, rfl, h1, h2, h3⟩
      exact .mk h1 ((childrenEq_iff h2).1 h3)
    · intro h
      cases h with
      | mk h1 h2 =>
        have hl := sameList_length h2
        exact ⟨rfl, rfl, rfl, h1, hl, (childrenEq_iff hl).2 h2⟩
theorem sameList_length : ∀ {a b : List Node}, SameList a b → a.length = b.length
  | [], _, .nil => rfl
  | _ :: _, _, .cons _ h => by simp [sameList_length h]
theorem childrenEq_iff : ∀ {a b : List Node}, a.length = b.length → (childrenEq a b = true ↔ SameList a b)
  | [], [], _ => by rw [childrenEq]; exact ⟨fun _ => .nil, fun _ => rfl⟩
  | [], _ :: _, h => by simp at h
  | _ :: _, [], h => by simp at h
  | c :: cs, d :: ds, h => by
    rw [childrenEq]
    simp only [Bool.and_eq_true]
    rw [node_eq_iff, childrenEq_iff (by simpa using h)]
    exact ⟨fun h => .cons h.1 h.2, fun h => by cases h with | cons h1 h2 => exact ⟨h1, h2⟩⟩
end

/-! ## same content, same string, same text -/

theorem same_isElement {a b : Node} (h : SameNode a b) : a.isElement = b.isElement := by cases h <;> rfl
theorem same_isText {a b : Node} (h : SameNode a b) : a.isText = b.isText := by cases h <;> rfl

theorem sameList_any {p : Node → Bool} (hp : ∀ a b, SameNode a b → p a = p b) :
    ∀ {l l' : List Node}, SameList l l' → l.any p = l'.any p
  | [], _, .nil => rfl
  | _ :: _, _, .cons h1 h2 => by simp only [List.any_cons, hp _ _ h1, sameList_any hp h2]

mutual
theorem same_toStringPI (pre indent : Str) (inline : Bool) :
    ∀ {a b : Element}, SameElement a b → a.toStringPI pre indent inline = b.toStringPI pre indent inline
  | ⟨n, cs, a, x, p, c⟩, _, .mk (cs' := cs') h1 h2 => by
    rw [ElementF.toStringPI, ElementF.toStringPI]
    have hs := sortAttrs_congr h1 a.nodup
    have hl := sameList_length h2
    have he := sameList_any (fun _ _ => same_isElement) h2
    have ht := sameList_any (fun _ _ => same_isText) h2
    have e1 := same_childrenToString [] [] true h2
    have e2 := same_childrenToString (pre ++ indent) indent (inline || cs.any Node.isText) h2
    simp only [ElementF.tagName, hs, hl, he, e1]
    simp only [← ht, e2]
theorem same_childrenToString (pre indent : Str) (inline : Bool) :
    ∀ {a b : List Node}, SameList a b → childrenToString pre indent inline a = childrenToString pre indent inline b
  | [], _, .nil => rfl
  | _ :: _, _, .cons h1 h2 => by
    rw [childrenToString, childrenToString, same_nodeToStringPI pre indent inline h1,
      same_childrenToString pre indent inline h2]
theorem same_nodeToStringPI (pre indent : Str) (inline : Bool) :
    ∀ {a b : Node}, SameNode a b → a.toStringPI pre indent inline = b.toStringPI pre indent inline
  | .text _, _, .text _ => rfl
  | .comment _, _, .comment _ => rfl
  | .cdata _, _, .cdata _ => rfl
  | .element _, _, .element h => by rw [Node.toStringPI, Node.toStringPI, same_toStringPI pre indent inline h]
end

mutual
theorem same_textOfE : ∀ {a b : Element}, SameElement a b → a.textOf = b.textOf
  | ⟨_, _, _, _, _, _⟩, _, .mk _ h => by rw [ElementF.textOf, ElementF.textOf, same_textOfL h]
theorem same_textOfL : ∀ {a b : List Node}, SameList a b → textOfChildren a = textOfChildren b
  | [], _, .nil => rfl
  | _ :: _, _, .cons h1 h2 => by
    rw [textOfChildren, textOfChildren, same_textOf h1, same_textOfL h2, same_isText h1, same_isElement h1]
theorem same_textOf : ∀ {a b : Node}, SameNode a b → a.textOf = b.textOf
  | .text _, _, .text _ => rfl
  | .comment _, _, .comment _ => rfl
  | .cdata _, _, .cdata _ => rfl
  | .element _, _, .element h => by rw [Node.textOf, Node.textOf, same_textOfE h]
end

mutual
theorem clone_node : ∀ n : Node, n.clone = n
  | .text _ => rfl
  | .comment _ => rfl
  | .cdata _ => rfl
  | .element e => by rw [Node.clone, clone_element]
theorem clone_element : ∀ e : Element, e.clone = e
  | ⟨_, cs, _, _, _, _⟩ => by rw [ElementF.clone, clone_list]
theorem clone_list : ∀ l : List Node, cloneChildren l = l
  | [] => rfl
  | c :: cs => by rw [cloneChildren, clone_node, clone_list]
end

end KissXml
