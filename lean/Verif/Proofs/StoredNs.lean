import Verif.Spec.SizeNs
import Verif.Proofs.SizeNs
import Verif.Proofs.WriteCost
/-!
# How much is stored for namespaces
-/
namespace KissXml
open Spec

mutual
theorem nsStored_le {b : Nat} : ∀ n : Node,
    EveryNs (fun ns c => optBytes ns ≤ b ∧ (c.entries.map attrBytes).sum + 6 * c.entries.length ≤ b) n → nsStored n ≤ 2 * b * weigh counting n
  | .element ⟨n, cs, as, x, p, c⟩, h => by
    obtain ⟨⟨h1, h2⟩, h3⟩ := h
    have := nsStoredL_le cs h3
    simp only [nsStored, weigh, counting, Nat.mul_add] at this ⊢
    omega
  | .text _, _ => Nat.zero_le _
  | .comment _, _ => Nat.zero_le _
  | .cdata _, _ => Nat.zero_le _
theorem nsStoredL_le {b : Nat} : ∀ l : List Node,
    EveryNsL (fun ns c => optBytes ns ≤ b ∧ (c.entries.map attrBytes).sum + 6 * c.entries.length ≤ b) l → nsStoredL l ≤ 2 * b * weighs counting l
  | [], _ => Nat.zero_le _
  | n :: l, h => by
    have h1 := nsStored_le n h.1
    have h2 := nsStoredL_le l h.2
    simp only [nsStoredL, weighs, Nat.mul_add] at h1 h2 ⊢
    omega
end

/-! ## many elements below a long declaration -/

/-- the map with `p` alone -/
def onlyP (k v : Str) : SMap := ⟨[(k, v)], by simp⟩

/-- an element `b` that knows the prefix `p` -/
def fanLeaf (v : Str) : Element := ⟨c%"b", [], .empty, none, none, onlyP c%"p" v⟩

/-- an element that declares the prefix `p`, around some others -/
def fan (v : Str) (cs : List Node) : Element := ⟨c%"a", cs, onlyP c%"xmlns:p" v, none, none, onlyP c%"p" v⟩

/-- `k` of them -/
def fanOf (v : Str) (k : Nat) : Element := fan v (List.replicate k (.element (fanLeaf v)))

/-- a value of `m` characters -/
def longV (m : Nat) : Str := List.replicate m 'v'

theorem long_escape (m : Nat) : attributeEscape (longV m) = longV m := by
  have h : ∀ m, (longV m).flatMap escAttr = longV m := by
    intro m
    induction m with
    | zero => rfl
    | succ m ih => rw [longV, List.replicate_succ, List.flatMap_cons, ← longV, ih]; rfl
  exact (escape_eq _).trans (h m)

theorem long_fits (m : Nat) : ValueFits (longV m) := by
  intro a c b h hc
  have : c ∈ longV m := by rw [h]; simp
  rw [List.eq_of_mem_replicate this] at hc
  exact absurd hc (by decide)

theorem long_bytes (m : Nat) : blen (longV m) = m := by
  induction m with
  | zero => rfl
  | succ m ih =>
    rw [longV, List.replicate_succ, ← longV]
    show blen ([('v' : Char)] ++ longV m) = m + 1
    rw [blen_append, ih]
    have : blen [('v' : Char)] = 1 := rfl
    omega

theorem fan_re {v : Str} (hd : dec (attributeEscape v) = v) (k : Nat) : reElem none (fanOf v k) = fanOf v k := by
  rw [reElem_eq]
  have h0 : attrMap (ctagOf (fanOf v k)).attrs = onlyP c%"xmlns:p" v := by
    show SMap.insert .empty c%"xmlns:p" (dec (attributeEscape v)) = _
    rw [hd]; rfl
  have h1 : mkElem none (ctagOf (fanOf v k)).name (attrMap (ctagOf (fanOf v k)).attrs) = fan v [] := by
    rw [h0]; rfl
  have h2 : reElem (some (fan v [])) (fanLeaf v) = fanLeaf v := rfl
  rw [h1]
  have h3 : ∀ k, reList (fan v []) (List.replicate k (.element (fanLeaf v))) = List.replicate k (.element (fanLeaf v)) := by
    intro k
    induction k with
    | zero => rfl
    | succ k ih => rw [List.replicate_succ, reList, reNode, h2, ih]
  show { fan v [] with children := reList (fan v []) (List.replicate k (.element (fanLeaf v))) } = _
  rw [h3]; rfl

theorem fan_stored (v : Str) (k : Nat) : nsStored (.element (fanOf v k)) = (k + 1) * (blen v + 10) := by
  have h0 : (((onlyP c%"p" v).entries.map attrBytes).sum + 6 * (onlyP c%"p" v).entries.length) = blen v + 10 := by
    have : blen c%"p" = 1 := rfl
    simp only [onlyP, attrBytes, List.map_cons, List.map_nil, List.sum_cons, List.sum_nil, List.length_cons, List.length_nil, this]
    omega
  have h1 : ∀ k, nsStoredL (List.replicate k (.element (fanLeaf v))) = k * (blen v + 10) := by
    intro k
    induction k with
    | zero => simp [nsStoredL]
    | succ k ih =>
      rw [List.replicate_succ, nsStoredL, ih, fanLeaf, nsStored, nsStoredL]
      simp only [optBytes]
      rw [Nat.add_mul, Nat.one_mul]
      omega
  rw [fanOf, fan, nsStored, h1]
  simp only [optBytes]
  rw [Nat.add_mul, Nat.one_mul]
  omega

theorem fan_fits {v : Str} (hv : ValueFits v) (k : Nat) : DocFits ⟨none, [], fanOf v k⟩ := by
  have h0 : DocFits ⟨none, [], tower 0⟩ := docFitsB_sound (by decide)
  have hn : NcName c%"a" ∧ ApiName c%"a" := ElemFitsFor.name (h0.nodes (.element (tower 0)) (by simp [tower, docOrder]))
  have h1 : DocFits ⟨none, [], ⟨c%"b", [], ⟨[(c%"xmlns:p", c%"v")], by decide⟩, none, none, .empty⟩⟩ := docFitsB_sound (by decide)
  have h2 := h1.nodes (.element _) (List.mem_cons_self ..)
  have hb : NcName c%"b" ∧ ApiName c%"b" := ElemFitsFor.name h2
  have hk : XmlName c%"xmlns:p" ∧ ApiName c%"xmlns:p" := by
    obtain ⟨a, b, -⟩ := ElemFitsFor.attrs h2 c%"xmlns:p" c%"v" rfl
    exact ⟨a, b⟩
  have hL : ∀ k, ∀ m ∈ docOrderL (List.replicate k (.element (fanLeaf v))), m = .element (fanLeaf v) := by
    intro k
    induction k with
    | zero => intro m hm; cases hm
    | succ k ih =>
      intro m hm
      rw [List.replicate_succ, docOrderL] at hm
      rcases List.mem_append.1 hm with hm | hm
      · simpa [fanLeaf, docOrder, docOrderL] using hm
      · exact ih m hm
  refine ⟨nofun, rfl, fun m hm => ?_, nofun⟩
  rw [fanOf, fan, docOrder] at hm
  rcases List.mem_cons.1 hm with rfl | hm
  · refine ⟨hn, nofun, fun q w h => ?_, fun a b x y h => ?_⟩
    · simp only [onlyP, SMap.get, LMap.get] at h
      split at h
      · rename_i hq
        cases h; subst hq
        exact ⟨hk.1, hk.2, hv⟩
      · cases h
    · have : Node.text x ∈ List.replicate k (Node.element (fanLeaf v)) := by
        rw [show List.replicate k (Node.element (fanLeaf v)) = _ from h]; simp
      cases List.eq_of_mem_replicate this
  · rw [hL k m hm]
    refine ⟨hb, nofun, (fun q w h => by cases h), fun a b x y h => ?_⟩
    have := congrArg List.length h
    simp [fanLeaf] at this

theorem fan_bytes (m k : Nat) : blen (Document.toStringWithIndent ⟨none, [], fanOf (longV m) (k + 2)⟩ []) = m + 5 * k + 30 := by
  have hc : ∀ k, childrenToString [] [] false (List.replicate k (.element (fanLeaf (longV m)))) = (List.replicate k c%"<b/>\n").flatten := by
    intro k
    induction k with
    | zero => rfl
    | succ k ih =>
      rw [List.replicate_succ, List.replicate_succ, List.flatten_cons, childrenToString, ih]
      rfl
  have hl : ∀ k, blen (List.replicate k c%"<b/>\n").flatten = 5 * k := by
    intro k
    induction k with
    | zero => rfl
    | succ k ih =>
      rw [List.replicate_succ, List.flatten_cons, blen_append, ih]
      have : blen c%"<b/>\n" = 5 := rfl
      omega
  rw [document_eq]
  have h2 : ElementF.toStringWithIndent (fanOf (longV m) (k + 2)) [] =
      c%"<a xmlns:p=\"" ++ longV m ++ c%"\">\n" ++ (List.replicate (k + 2) c%"<b/>\n").flatten ++ c%"</a>" := by
    unfold ElementF.toStringWithIndent
    rw [if_pos (by decide), fanOf, fan, ElementF.toStringPI]
    have l6 : sortAttrs (onlyP c%"xmlns:p" (longV m)).entries = [(c%"xmlns:p", longV m)] := rfl
    have l7 : (List.replicate (k + 2) (Node.element (fanLeaf (longV m)))).any Node.isText = false := by
      simp [Node.isText]
    have l8 : (List.replicate (k + 2) (Node.element (fanLeaf (longV m)))).length = k + 2 := by simp
    simp [l6, l7, l8, hc, attrsToString, ElementF.tagName, long_escape]
  have h3 : headOut none [] = 0 := rfl
  rw [h2, h3]
  simp only [blen_append, hl, long_bytes]
  have n1 : blen c%"<a xmlns:p=\"" = 12 := rfl
  have n2 : blen c%"\">\n" = 3 := rfl
  have n3 : blen c%"</a>" = 4 := rfl
  omega

/-- a source of `m + 5 k + 30` bytes, and what is stored for it -/
theorem fan_source (m k : Nat) : ∃ x d, parseStr x = .ok d ∧ blen x = m + 5 * k + 30 ∧ nsStored (.element d.root) = (k + 3) * (m + 10) := by
  refine ⟨_, _, reparse (fan_fits (long_fits m) (k + 2)) [], fan_bytes m k, ?_⟩
  show nsStored (.element (reElem none (fanOf (longV m) (k + 2)))) = _
  rw [fan_re (dec_attr (long_fits m)), fan_stored, long_bytes]

end KissXml
