import Verif.Spec.Layout
import Verif.Proofs.Order
import Verif.Proofs.Escape
/-!
# The serialiser follows the layout specification
-/
namespace KissXml
open Spec

theorem validateIndent_iff {i : Str} : validateIndent i = true ↔ ValidIndent i := by
  unfold validateIndent ValidIndent
  split
  · rename_i h; simp [h]
  · rename_i h
    simp only [List.all_eq_true, beq_iff_eq, h, false_or]
    constructor
    · intro h; exact ⟨i.length, List.eq_replicate_iff.2 ⟨rfl, h⟩⟩
    · rintro ⟨n, rfl⟩ c hc; exact List.eq_of_mem_replicate hc

theorem attrsToString_spec (l : List (Str × Str)) : attrsToString l = l.flatMap attrStr := by
  rw [attrsToString_eq]
  congr 1
  funext kv
  simp [attrStr, attributeEscape, escape_eq]

theorem tagName_qname (e : Element) : e.tagName = qname e := by
  unfold ElementF.tagName qname
  cases e.pfx <;> simp

theorem pad_succ (u : Str) (k : Nat) : pad u (k + 1) = pad u k ++ u := by
  unfold pad
  rw [List.replicate_succ', List.flatten_append]; simp

theorem any_isText {cs : List Node} : cs.any Node.isText = true ↔ ∃ t, Node.text t ∈ cs := by
  rw [List.any_eq_true]
  constructor
  · rintro ⟨n, h1, h2⟩
    cases n with
    | text t => exact ⟨t, h1⟩
    | element _ => simp [Node.isText] at h2
    | comment _ => simp [Node.isText] at h2
    | cdata _ => simp [Node.isText] at h2
  · rintro ⟨t, h⟩; exact ⟨_, h, rfl⟩

mutual
theorem elayout (u : Str) : ∀ (k : Nat) (inl : Bool) (pre : Str) (e : Element), (inl = false → pre = pad u k) →
    ELayout u k inl e (e.toStringPI pre u inl)
  | k, inl, pre, ⟨n, cs, a, x, p, c⟩, hpre => by
    have hsort : SortedAttrs a (sortAttrs a.entries) := ⟨sortAttrs_perm a.entries, sortAttrs_pairwise a.nodup⟩
    have hpad : (if inl then [] else pre) = (if inl then [] else pad u k) := by
      cases inl
      · simp [hpre rfl]
      · rfl
    have htag := tagName_qname ⟨n, cs, a, x, p, c⟩
    rw [ElementF.toStringPI]
    simp only [attrsToString_spec, htag, hpad]
    match cs with
    | [] => simpa using ELayout.empty (u := u) (k := k) (inl := inl) hsort
    | [.text t] =>
      have := nlayout u k true [] (.text t) (by simp)
      simpa [Node.isElement, childrenToString, Node.toStringPI] using ELayout.leaf (k := k) (inl := inl) hsort rfl this
    | [.comment t] =>
      have := nlayout u k true [] (.comment t) (by simp)
      simpa [Node.isElement, childrenToString, Node.toStringPI] using ELayout.leaf (k := k) (inl := inl) hsort rfl this
    | [.cdata t] =>
      have := nlayout u k true [] (.cdata t) (by simp)
      simpa [Node.isElement, childrenToString, Node.toStringPI] using ELayout.leaf (k := k) (inl := inl) hsort rfl this
    | [.element e] =>
      cases inl with
      | true =>
        have := llayout u k true (pre ++ u) [.element e] (by simp)
        simpa [Node.isElement] using ELayout.inline (k := k) hsort (.inr ⟨e, rfl⟩) (.inl rfl) this
      | false =>
        have := llayout u (k + 1) false (pre ++ u) [.element e] (by simp [pad_succ, hpre rfl])
        have := ELayout.block (k := k) hsort (.inr ⟨e, rfl⟩) (by simp) this (n := n) (x := x) (p := p) (c := c)
        simpa [Node.isElement, Node.isText, hpre rfl] using this
    | y :: z :: w =>
      have hform : (∃ y' z' w', y :: z :: w = y' :: z' :: w') ∨ (∃ e, y :: z :: w = [Node.element e]) :=
        .inl ⟨y, z, w, rfl⟩
      cases inl with
      | true =>
        have := llayout u k true (pre ++ u) (y :: z :: w) (by simp)
        simpa using ELayout.inline (k := k) hsort hform (.inl rfl) this
      | false =>
        cases ht : (y :: z :: w).any Node.isText with
        | true =>
          have := llayout u k true (pre ++ u) (y :: z :: w) (by simp)
          have := ELayout.inline (k := k) (inl := false) hsort hform (.inr (any_isText.1 ht)) this
            (n := n) (x := x) (p := p) (c := c)
          simpa [ht, -List.any_cons, -List.any_eq_true, -List.any_eq_false] using this
        | false =>
          have hnt : ¬ ∃ t, Node.text t ∈ y :: z :: w := by
            intro h; rw [any_isText.2 h] at ht; simp at ht
          have := llayout u (k + 1) false (pre ++ u) (y :: z :: w) (by simp [pad_succ, hpre rfl])
          have := ELayout.block (k := k) hsort hform hnt this (n := n) (x := x) (p := p) (c := c)
          simpa [ht, hpre rfl, -List.any_cons, -List.any_eq_true, -List.any_eq_false] using this
theorem llayout (u : Str) : ∀ (k : Nat) (inl : Bool) (pre : Str) (l : List Node), (inl = false → pre = pad u k) →
    LLayout u k inl l (childrenToString pre u inl l)
  | _, _, _, [], _ => by rw [childrenToString]; exact .nil
  | k, inl, pre, m :: ms, h => by
    rw [childrenToString]
    exact .cons (nlayout u k inl pre m h) (llayout u k inl pre ms h)
theorem nlayout (u : Str) : ∀ (k : Nat) (inl : Bool) (pre : Str) (m : Node), (inl = false → pre = pad u k) →
    NLayout u k inl m (m.toStringPI pre u inl)
  | _, _, _, .text t, _ => by rw [Node.toStringPI, textEscape_eq]; exact .text
  | k, inl, pre, .comment t, h => by
    rw [Node.toStringPI, commentToString]
    have hpad : (if inl then [] else pre) = (if inl then [] else pad u k) := by
      cases inl
      · simp [h rfl]
      · rfl
    rw [hpad]
    simpa using NLayout.comment (u := u) (k := k) (inl := inl) (t := t)
  | k, inl, pre, .cdata t, h => by
    rw [Node.toStringPI, cdataToString]
    have hpad : (if inl then [] else pre) = (if inl then [] else pad u k) := by
      cases inl
      · simp [h rfl]
      · rfl
    rw [hpad]
    simpa using NLayout.cdata (u := u) (k := k) (inl := inl) (t := t)
  | k, inl, pre, .element e, h => by rw [Node.toStringPI]; exact .element (elayout u k inl pre e h)
end

theorem sortedAttrs_unique {a : SMap} {l l' : List (Str × Str)} (h : SortedAttrs a l) (h' : SortedAttrs a l') : l = l' :=
  sorted_unique (h.1.trans h'.1.symm) h.2 h'.2

mutual
theorem elayout_unique {u : Str} : ∀ {k : Nat} {inl : Bool} {e : Element} {s s' : Str},
    ELayout u k inl e s → ELayout u k inl e s' → s = s'
  | _, _, _, _, _, .empty h, h' => by
    cases h' with
    | empty h' => rw [sortedAttrs_unique h h']
    | inline _ hf => simp at hf
    | block _ hf => simp at hf
  | _, _, _, _, _, .leaf h hm hn, h' => by
    cases h' with
    | leaf h' hm' hn' => rw [sortedAttrs_unique h h', nlayout_unique hn hn']
    | inline _ hf =>
      rcases hf with ⟨y, z, w, hf⟩ | ⟨e, hf⟩
      · simp at hf
      · simp at hf; subst hf; simp [Node.isElement] at hm
    | block _ hf =>
      rcases hf with ⟨y, z, w, hf⟩ | ⟨e, hf⟩
      · simp at hf
      · simp at hf; subst hf; simp [Node.isElement] at hm
  | _, _, _, _, _, .inline h hf hi hl, h' => by
    cases h' with
    | empty h' => simp at hf
    | leaf _ hm =>
      rcases hf with ⟨y, z, w, hf⟩ | ⟨e, hf⟩
      · simp at hf
      · simp at hf; subst hf; simp [Node.isElement] at hm
    | inline h' _ _ hl' => rw [sortedAttrs_unique h h', llayout_unique hl hl']
    | block _ _ hnt =>
      rcases hi with hi | hi
      · simp at hi
      · exact absurd hi hnt
  | _, _, _, _, _, .block h hf hnt hl, h' => by
    cases h' with
    | empty h' => simp at hf
    | leaf _ hm =>
      rcases hf with ⟨y, z, w, hf⟩ | ⟨e, hf⟩
      · simp at hf
      · simp at hf; subst hf; simp [Node.isElement] at hm
    | inline _ _ hi _ =>
      rcases hi with hi | hi
      · simp at hi
      · exact absurd hi hnt
    | block h' _ _ hl' => rw [sortedAttrs_unique h h', llayout_unique hl hl']
theorem llayout_unique {u : Str} : ∀ {k : Nat} {inl : Bool} {l : List Node} {s s' : Str},
    LLayout u k inl l s → LLayout u k inl l s' → s = s'
  | _, _, _, _, _, .nil, h' => by cases h'; rfl
  | _, _, _, _, _, .cons h1 h2, h' => by
    cases h' with
    | cons h1' h2' => rw [nlayout_unique h1 h1', llayout_unique h2 h2']
theorem nlayout_unique {u : Str} : ∀ {k : Nat} {inl : Bool} {m : Node} {s s' : Str},
    NLayout u k inl m s → NLayout u k inl m s' → s = s'
  | _, _, _, _, _, .text, h' => by cases h'; rfl
  | _, _, _, _, _, .comment, h' => by cases h'; rfl
  | _, _, _, _, _, .cdata, h' => by cases h'; rfl
  | _, _, _, _, _, .element h, h' => by cases h' with | element h' => exact elayout_unique h h'
end

end KissXml
