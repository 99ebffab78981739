import Verif.Model.Depth
import Verif.Proofs.SizeOut
import Verif.Proofs.Edit
/-!
# Recursion is as deep as elements are nested
-/
namespace KissXml
open KissXml.Spec

theorem nestings_le_iff {l : List Node} {k : Nat} : nestings l ≤ k ↔ ∀ n ∈ l, nesting n ≤ k := by
  induction l with
  | nil => simp [nestings]
  | cons n l ih => rw [nestings, Nat.max_le, ih]; simp

theorem collect_eq {β : Type} {f : Node → Option β} {g : Node → β} {k : Nat} (l : List Node)
    (h : ∀ n ∈ l, f n = if nesting n ≤ k then some (g n) else none) :
    collect f l = if nestings l ≤ k then some (l.map g) else none := by
  induction l with
  | nil => simp [collect, nestings]
  | cons n l ih =>
    rw [collect, h n (by simp), ih fun m hm => h m (by simp [hm]), nestings]
    by_cases h1 : nesting n ≤ k <;> by_cases h2 : nestings l ≤ k <;> simp [h1, h2, Nat.max_le]

theorem nesting_succ (e : Element) (k : Nat) : nesting (.element e) ≤ k + 1 ↔ nestings e.children ≤ k := by
  rw [nesting_elem]; omega

theorem nesting_zero (e : Element) : ¬ nesting (.element e) ≤ 0 := by rw [nesting_elem]; omega

theorem nesting_ne (e : Element) : ¬ nesting (.element e) = 0 := by rw [nesting_elem]; omega

theorem textOfChildren_map (l : List Node) :
    textOfChildren l = (l.map fun c => if c.isText || c.isElement then c.textOf else []).flatten := by
  induction l with
  | nil => rfl
  | cons c l ih => rw [textOfChildren, ih]; rfl

theorem textD_eq (k : Nat) (n : Node) : textD k n = if nesting n ≤ k then some n.textOf else none := by
  induction k generalizing n with
  | zero =>
    cases n with
    | element e => simp [textD, nesting_ne]
    | _ => simp [textD, nesting, Node.textOf]
  | succ k ih =>
    cases n with
    | element e =>
      rw [textD, collect_eq (k := k) (g := fun c => if c.isText || c.isElement then c.textOf else [])]
      · simp only [nesting_succ]
        split
        · rw [Option.map_some, ← textOfChildren_map]
          obtain ⟨n, cs, a, x, p, c⟩ := e
          rw [Node.textOf, ElementF.textOf]
        · rfl
      · intro m _
        cases m with
        | element e => simp [Node.isElement, ih]
        | _ => simp [Node.isText, Node.isElement, nesting, ih]
    | _ => simp [textD, nesting, Node.textOf]

theorem childrenToString_map (pre indent : Str) (inline : Bool) (l : List Node) :
    childrenToString pre indent inline l = ((l.map (Node.toStringPI pre indent inline)).map (· ++ if inline then [] else c%"\n")).flatten := by
  induction l with
  | nil => rw [childrenToString]; rfl
  | cons c l ih => rw [childrenToString, ih]; rfl

theorem collect_some {α β : Type} (g : α → β) (l : List α) : collect (fun a => some (g a)) l = some (l.map g) := by
  induction l with
  | nil => rfl
  | cons a l ih => simp [collect, ih]

theorem toStringPI_elem (pre indent : Str) (inline : Bool) (e : Element) : e.toStringPI pre indent inline =
    (if inline then [] else pre) ++ c%"<" ++ e.tagName ++ attrsToString (sortAttrs e.attrs.entries) ++
    (if e.children.length == 0 then c%"/>"
     else if e.children.length == 1 && !(e.children.any Node.isElement) then
       c%">" ++ childrenToString [] [] true e.children ++ c%"</" ++ e.tagName ++ c%">"
     else
       c%">" ++ (if inline || e.children.any Node.isText then [] else c%"\n") ++
       childrenToString (pre ++ indent) indent (inline || e.children.any Node.isText) e.children ++
       (if inline || e.children.any Node.isText then [] else pre) ++ c%"</" ++ e.tagName ++ c%">") := by
  obtain ⟨n, cs, a, x, p, c⟩ := e
  rw [ElementF.toStringPI]

theorem toStringD_eq (indent : Str) (k : Nat) (pre : Str) (inline : Bool) (n : Node) :
    toStringD indent k pre inline n = if nesting n ≤ k then some (n.toStringPI pre indent inline) else none := by
  induction k generalizing pre inline n with
  | zero =>
    cases n with
    | element e => simp [toStringD, nesting_ne]
    | _ => simp [toStringD, nesting, Node.toStringPI]
  | succ k ih =>
    cases n with
    | element e =>
      rw [toStringD]
      simp only [nesting_succ, Node.toStringPI]
      rw [toStringPI_elem]
      by_cases h0 : (e.children.length == 0) = true
      · have : e.children = [] := by simpa using h0
        simp [this, nestings]
      · rw [if_neg h0, if_neg h0]
        by_cases h1 : (e.children.length == 1 && !(e.children.any Node.isElement)) = true
        · rw [if_pos h1, if_pos h1]
          obtain ⟨c, hc⟩ : ∃ c, e.children = [c] := List.length_eq_one_iff.1 (by simp at h1; exact h1.1)
          rw [hc] at h1 ⊢
          cases c with
          | element e => simp [Node.isElement] at h1
          | text t => simp [collect, nestings, nesting, childrenToString, Node.toStringPI, Node.toStringWithIndent]
          | comment t => simp [collect, nestings, nesting, childrenToString, Node.toStringPI, Node.toStringWithIndent]
          | cdata t => simp [collect, nestings, nesting, childrenToString, Node.toStringPI, Node.toStringWithIndent]
        · rw [if_neg h1, if_neg h1]
          rw [collect_eq (k := k) (g := Node.toStringPI (pre ++ indent) indent (inline || e.children.any Node.isText)) _ (fun m _ => ih _ _ m)]
          by_cases h2 : nestings e.children ≤ k
          · rw [if_pos h2, if_pos h2, Option.map_some, childrenToString_map]
          · rw [if_neg h2, if_neg h2]; rfl
    | _ => simp [toStringD, nesting, Node.toStringPI]

theorem cloneChildren_map (l : List Node) : cloneChildren l = l.map Node.clone := by
  induction l with
  | nil => rfl
  | cons c l ih => rw [cloneChildren, ih]; rfl

theorem cloneD_eq (k : Nat) (n : Node) : cloneD k n = if nesting n ≤ k then some n.clone else none := by
  induction k generalizing n with
  | zero =>
    cases n with
    | element e => simp [cloneD, nesting_ne]
    | _ => simp [cloneD, nesting, Node.clone]
  | succ k ih =>
    cases n with
    | element e =>
      rw [cloneD, collect_eq (k := k) (g := Node.clone) _ (fun m _ => ih m)]
      simp only [nesting_succ]
      split
      · rw [Option.map_some, ← cloneChildren_map]
        obtain ⟨n, cs, a, x, p, c⟩ := e
        rw [Node.clone, ElementF.clone]
      · rfl
    | _ => simp [cloneD, nesting, Node.clone]

theorem dropD_eq (k : Nat) (n : Node) : dropD k n = if nesting n ≤ k then some () else none := by
  induction k generalizing n with
  | zero =>
    cases n with
    | element e => simp [dropD, nesting_ne]
    | _ => simp [dropD, nesting]
  | succ k ih =>
    cases n with
    | element e =>
      rw [dropD, collect_eq (k := k) (g := fun _ => ()) _ (fun m _ => ih m)]
      simp only [nesting_succ]
      split <;> rfl
    | _ => simp [dropD, nesting]

theorem childrenRecursiveOf_map (l : List Node) : childrenRecursiveOf l = (l.map Node.childrenRecursive).flatten := by
  induction l with
  | nil => rfl
  | cons c l ih => rw [childrenRecursiveOf, ih]; rfl

theorem childrenRecursiveD_eq (k : Nat) (n : Node) :
    childrenRecursiveD k n = if nesting n ≤ k then some n.childrenRecursive else none := by
  induction k generalizing n with
  | zero =>
    cases n with
    | element e => simp [childrenRecursiveD, nesting_ne]
    | _ => simp [childrenRecursiveD, nesting, Node.childrenRecursive]
  | succ k ih =>
    cases n with
    | element e =>
      rw [childrenRecursiveD, collect_eq (k := k) (g := Node.childrenRecursive) _ (fun m _ => ih m)]
      simp only [nesting_succ]
      split
      · rw [Option.map_some, ← childrenRecursiveOf_map]
        obtain ⟨n, cs, a, x, p, c⟩ := e
        rw [Node.childrenRecursive, ElementF.childrenRecursive]
      · rfl
    | _ => simp [childrenRecursiveD, nesting, Node.childrenRecursive]

/-! ## equality -/

theorem eq_elem (a b : Element) : (Node.element a).eq (.element b) = (a.name == b.name && a.xmlns == b.xmlns && a.pfx == b.pfx &&
    a.attrs.eq b.attrs && a.children.length == b.children.length && childrenEq a.children b.children) := by
  obtain ⟨n, cs, at', x, p, c⟩ := a
  obtain ⟨n', cs', at'', x', p', c'⟩ := b
  rw [Node.eq, ElementF.eq]

theorem eqD_sound (k : Nat) (a b : Node) {r : Bool} (h : eqD k a b = some r) : r = a.eq b := by
  induction k generalizing a b r with
  | zero =>
    unfold eqD at h
    split at h <;> simp_all
  | succ k ih =>
    have loop : ∀ (cs ds : List Node) (r : Bool), childrenEqD (eqD k) cs ds = some r → r = childrenEq cs ds := by
      intro cs
      induction cs with
      | nil => intro ds r h; rw [childrenEqD] at h; cases h; rw [childrenEq]
      | cons c cs ihc =>
        intro ds r h
        cases ds with
        | nil => rw [childrenEqD] at h; cases h; rw [childrenEq]
        | cons d ds =>
          rw [childrenEqD] at h
          cases hc : eqD k c d with
          | none => rw [hc] at h; cases h
          | some q =>
            rw [hc] at h
            rw [childrenEq, ← ih c d hc]
            cases q with
            | true => rw [Bool.true_and]; exact ihc ds r h
            | false => cases h; rfl
    cases a with
    | element a =>
      cases b with
      | element b =>
        rw [eqD] at h
        rw [eq_elem]
        split at h
        · rename_i hc
          rw [hc, Bool.true_and]
          exact loop _ _ _ h
        · rename_i hc
          cases h
          rw [Bool.not_eq_true] at hc
          rw [hc, Bool.false_and]
      | _ => cases h; rfl
    | _ => cases b <;> cases h <;> rfl

theorem eqD_some (k : Nat) (a b : Node) (h : min (nesting a) (nesting b) ≤ k) : eqD k a b = some (a.eq b) := by
  suffices hs : ∃ r, eqD k a b = some r by
    obtain ⟨r, hr⟩ := hs
    rw [hr, eqD_sound k a b hr]
  induction k generalizing a b with
  | zero =>
    cases a with
    | element a =>
      cases b with
      | element b => have := nesting_zero a; have := nesting_zero b; omega
      | _ => exact ⟨_, rfl⟩
    | _ => cases b <;> exact ⟨_, rfl⟩
  | succ k ih =>
    cases a with
    | element a =>
      cases b with
      | element b =>
        rw [eqD]
        split
        · rw [nesting_elem, nesting_elem] at h
          have loop : ∀ cs ds : List Node, min (nestings cs) (nestings ds) ≤ k → ∃ r, childrenEqD (eqD k) cs ds = some r := by
            intro cs
            induction cs with
            | nil => intro ds _; exact ⟨true, by rw [childrenEqD]⟩
            | cons c cs ihc =>
              intro ds hm
              cases ds with
              | nil => exact ⟨true, by rw [childrenEqD]⟩
              | cons d ds =>
                rw [nestings, nestings] at hm
                obtain ⟨q, hq⟩ := ih c d (by omega)
                rw [childrenEqD, hq]
                cases q with
                | true => exact ihc ds (by omega)
                | false => exact ⟨false, rfl⟩
          exact loop _ _ (by omega)
        · exact ⟨_, rfl⟩
      | _ => exact ⟨_, rfl⟩
    | _ => cases b <;> exact ⟨_, rfl⟩

theorem eqD_equal (k : Nat) (a b : Node) (h : a.eq b = true) : eqD k a b = if nesting a ≤ k then some true else none := by
  induction k generalizing a b with
  | zero =>
    cases a with
    | element a =>
      cases b with
      | element b => simp [eqD, nesting_ne]
      | _ => cases h
    | _ => cases b <;> simp_all [eqD, nesting]
  | succ k ih =>
    cases a with
    | element a =>
      cases b with
      | element b =>
        rw [eq_elem] at h
        rw [Bool.and_eq_true] at h
        have loop : ∀ cs ds : List Node, cs.length = ds.length → childrenEq cs ds = true →
            childrenEqD (eqD k) cs ds = if nestings cs ≤ k then some true else none := by
          intro cs
          induction cs with
          | nil => intro ds _ _; rw [childrenEqD]; simp [nestings]
          | cons c cs ihc =>
            intro ds hl he
            cases ds with
            | nil => cases hl
            | cons d ds =>
              rw [childrenEq, Bool.and_eq_true] at he
              rw [childrenEqD, ih c d he.1, nestings]
              have := ihc ds (by simpa using hl) he.2
              by_cases h1 : nesting c ≤ k
              · rw [if_pos h1]
                show childrenEqD (eqD k) cs ds = _
                rw [this]
                by_cases h2 : nestings cs ≤ k <;> simp [h1, h2, Nat.max_le]
              · rw [if_neg h1, if_neg (by omega)]
                rfl
        rw [eqD, if_pos h.1]
        simp only [nesting_succ]
        refine loop _ _ ?_ h.2
        have := h.1
        simp only [Bool.and_eq_true, beq_iff_eq] at this
        exact this.2
      | _ => cases h
    | _ => cases b <;> simp_all [eqD, nesting]

/-! ## removal -/

theorem removeAllF_depth (p : Node → Bool) (k : Nat) (e : Element) : ElementF.removeAllF p k e =
    if nesting (prune p (.element e)) ≤ k then e.removeAll p else .diverge := by
  rw [removeAll_eq, prune_element]
  induction k generalizing e with
  | zero => rw [if_neg (nesting_zero _)]; rfl
  | succ k ih =>
    unfold ElementF.removeAllF
    rw [removeBy_eq]
    simp only [Res.bind_ok, nesting_succ]
    have loop : ∀ l : List Node, forChildElements (ElementF.removeAllF p k) l =
        if nestings (l.map (prune p)) ≤ k then .ok (l.map (prune p), (l.map (hits p)).sum) else .diverge := by
      intro l
      induction l with
      | nil => simp [forChildElements, nestings]
      | cons c l ihl =>
        rw [List.map_cons, nestings]
        cases c with
        | element e =>
          rw [forChildElements, ih, ihl, prune_element, List.map_cons, List.sum_cons, hits_element]
          by_cases h1 : nesting (.element { e with children := pruneL p e.children }) ≤ k
          · by_cases h2 : nestings (l.map (prune p)) ≤ k
            · rw [if_pos h1, if_pos h2, if_pos (by omega)]; rfl
            · rw [if_pos h1, if_neg h2, if_neg (by omega)]; rfl
          · rw [if_neg h1, if_neg (fun h => h1 (Nat.le_trans (Nat.le_max_left _ _) h))]; rfl
        | _ =>
          rw [forChildElements, ihl, prune, nesting, List.map_cons, List.sum_cons, hits]
          by_cases h2 : nestings (l.map (prune p)) ≤ k
          · rw [if_pos h2, if_pos (by omega)]; simp
          · rw [if_neg h2, if_neg (by omega)]; rfl
          all_goals nofun
    rw [loop, pruneL_eq, hitsL_eq]
    split <;> rfl

/-! ## deep documents -/

theorem tower_nesting (n : Nat) : nesting (.element (tower n)) = n + 1 := by
  induction n with
  | zero => simp [tower, nesting, nestings]
  | succ n ih => rw [tower, nesting, nestings, nestings, ih]; omega

theorem reElem_nesting (n : Nat) : ∀ p, nesting (.element (reElem p (tower n))) = n + 1 := by
  induction n with
  | zero => intro p; rw [reElem_eq, nesting_elem]; simp [tower, reList, nestings]
  | succ n ih => intro p; rw [reElem_eq, nesting_elem]; simp [tower, reList, reNode, nestings, ih]; omega

theorem tower_bytes (n : Nat) : blen (Document.toStringWithIndent ⟨none, [], tower n⟩ []) = 9 * n + 5 := by
  have h := tower_size n [] []
  rw [document_eq]
  have h2 : blen (ElementF.toStringWithIndent (tower n) []) = 9 * n + 4 := by
    unfold ElementF.toStringWithIndent
    rw [if_pos (by decide), h]
    simp
  have h3 : headOut none [] = 0 := rfl
  rw [h2, h3]
  omega

theorem deep_source (k : Nat) : ∃ x d, parseStr x = .ok d ∧ blen x = 9 * k + 5 ∧ nesting (.element d.root) = k + 1 :=
  ⟨_, _, reparse (tower_fits k) [], tower_bytes k, reElem_nesting k none⟩

end KissXml
