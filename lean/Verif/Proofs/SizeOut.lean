import Verif.Proofs.Size
import Verif.Proofs.Order
import Verif.Proofs.Layout
import Verif.Proofs.RoundTrip
import Verif.Proofs.ConformCheck
import Mathlib.Tactic.Ring
/-!
# The size of what is written
-/
namespace KissXml
open KissXml.Spec

theorem escText_bytes (c : Char) : c.utf8Size ≤ blen (escText c) ∧ blen (escText c) ≤ 6 * c.utf8Size := by
  unfold escText
  split
  · decide
  · decide
  · decide
  · simp only [blen_cons, blen_nil]; omega

theorem escAttr_bytes (c : Char) : c.utf8Size ≤ blen (escAttr c) ∧ blen (escAttr c) ≤ 6 * c.utf8Size := by
  unfold escAttr
  split
  · decide
  · decide
  · decide
  · decide
  · decide
  · simp only [blen_cons, blen_nil]; omega

theorem flatMap_bytes {f : Char → Str} (hf : ∀ c, c.utf8Size ≤ blen (f c) ∧ blen (f c) ≤ 6 * c.utf8Size) (s : Str) :
    blen s ≤ blen (s.flatMap f) ∧ blen (s.flatMap f) ≤ 6 * blen s := by
  induction s with
  | nil => simp
  | cons c s ih =>
    have := hf c
    simp only [List.flatMap_cons, blen_append, blen_cons]
    omega

theorem textEscape_bytes (s : Str) : blen s ≤ blen (textEscape s) ∧ blen (textEscape s) ≤ 6 * blen s := by
  rw [textEscape_eq]; exact flatMap_bytes escText_bytes s

theorem attributeEscape_bytes (s : Str) : blen s ≤ blen (attributeEscape s) ∧ blen (attributeEscape s) ≤ 6 * blen s := by
  rw [show attributeEscape s = s.flatMap escAttr from escape_eq s]; exact flatMap_bytes escAttr_bytes s

theorem attrsToString_bytes (l : List (Str × Str)) :
    (l.map attrBytes).sum ≤ blen (attrsToString l) ∧ blen (attrsToString l) ≤ 6 * (l.map attrBytes).sum := by
  induction l with
  | nil => simp [attrsToString]
  | cons kv l ih =>
    obtain ⟨k, v⟩ := kv
    have h1 := attributeEscape_bytes v
    have h2 : blen c%" " = 1 := rfl
    have h3 : blen c%"=\"" = 2 := rfl
    have h4 : blen c%"\"" = 1 := rfl
    simp only [attrsToString, List.map_cons, List.sum_cons, attrBytes, blen_append, h2, h3, h4]
    omega

theorem sortAttrs_bytes (l : List (Str × Str)) : ((sortAttrs l).map attrBytes).sum = (l.map attrBytes).sum :=
  ((sortAttrs_perm l).map _).sum_nat

theorem tagName_bytes (e : Element) :
    blen e.name + optBytes e.pfx ≤ blen e.tagName ∧ blen e.tagName ≤ blen e.name + optBytes e.pfx + 1 := by
  obtain ⟨n, cs, as, x, p, c⟩ := e
  cases p with
  | none => simp [ElementF.tagName, optBytes]
  | some p =>
    have h : blen c%":" = 1 := rfl
    simp only [ElementF.tagName, optBytes, blen_append, h]
    omega

theorem ite_bytes (b : Bool) (s : Str) : blen (if b then [] else s) ≤ blen s := by split <;> simp

mutual
theorem element_out (K : Nat) : ∀ (e : Element) (pre u : Str) (inl : Bool), blen pre + nesting (.element e) * blen u ≤ K →
    weigh storing (.element e) ≤ blen (e.toStringPI pre u inl) ∧
    blen (e.toStringPI pre u inl) + 1 ≤ 6 * weigh storing (.element e) + (13 + 2 * K) * weigh counting (.element e)
  | ⟨n, cs, as, x, p, c⟩, pre, u, inl, h => by
    have h1 := tagName_bytes ⟨n, cs, as, x, p, c⟩
    have h2 := attrsToString_bytes (sortAttrs as.entries)
    rw [sortAttrs_bytes] at h2
    have h3 := ite_bytes inl pre
    rw [nesting, Nat.add_mul] at h
    have l1 : blen c%"<" = 1 := rfl
    have l2 : blen c%">" = 1 := rfl
    have l3 : blen c%"</" = 2 := rfl
    have l4 : blen c%"/>" = 2 := rfl
    simp only [ElementF.toStringPI, weigh, storing, counting, blen_append, l1, Nat.mul_add, Nat.mul_one] at h1 ⊢
    by_cases c1 : (cs.length == 0) = true
    · have : cs = [] := by simpa using c1
      subst this
      rw [if_pos c1, l4]
      simp only [weighs]
      omega
    · rw [if_neg c1]
      by_cases c2 : (cs.length == 1 && !(cs.any Node.isElement)) = true
      · rw [if_pos c2]
        have := nodes_out K cs [] [] true (by simp)
        simp only [storing, counting] at this
        simp only [blen_append, l2, l3]
        omega
      · rw [if_neg c2]
        have := nodes_out K cs (pre ++ u) u (inl || cs.any Node.isText) (by rw [blen_append]; omega)
        have h5 := ite_bytes (inl || cs.any Node.isText) pre
        have h6 := ite_bytes (inl || cs.any Node.isText) c%"\n"
        have l5 : blen c%"\n" = 1 := rfl
        simp only [storing, counting] at this
        simp only [blen_append, l2, l3]
        omega
theorem nodes_out (K : Nat) : ∀ (l : List Node) (pre u : Str) (inl : Bool), blen pre + nestings l * blen u ≤ K →
    weighs storing l ≤ blen (childrenToString pre u inl l) ∧
    blen (childrenToString pre u inl l) ≤ 6 * weighs storing l + (13 + 2 * K) * weighs counting l
  | [], pre, u, inl, h => by simp [childrenToString, weighs]
  | n :: l, pre, u, inl, h => by
    rw [nestings] at h
    have g1 : nesting n * blen u ≤ max (nesting n) (nestings l) * blen u := Nat.mul_le_mul_right _ (Nat.le_max_left ..)
    have g2 : nestings l * blen u ≤ max (nesting n) (nestings l) * blen u := Nat.mul_le_mul_right _ (Nat.le_max_right ..)
    have h1 := node_out K n pre u inl (by omega)
    have h2 := nodes_out K l pre u inl (by omega)
    have h6 := ite_bytes inl c%"\n"
    have l5 : blen c%"\n" = 1 := rfl
    simp only [childrenToString, weighs, blen_append, Nat.mul_add]
    omega
theorem node_out (K : Nat) : ∀ (n : Node) (pre u : Str) (inl : Bool), blen pre + nesting n * blen u ≤ K →
    weigh storing n ≤ blen (n.toStringPI pre u inl) ∧
    blen (n.toStringPI pre u inl) + 1 ≤ 6 * weigh storing n + (13 + 2 * K) * weigh counting n
  | .element e, pre, u, inl, h => by
    rw [Node.toStringPI]
    exact element_out K e pre u inl h
  | .text t, pre, u, inl, h => by
    have := textEscape_bytes t
    simp only [Node.toStringPI, weigh, storing, counting, Nat.mul_one]
    omega
  | .comment t, pre, u, inl, h => by
    have h3 := ite_bytes inl pre
    have l1 : blen c%"<!--" = 4 := rfl
    have l2 : blen c%"-->" = 3 := rfl
    simp only [Node.toStringPI, commentToString, weigh, storing, counting, Nat.mul_one, blen_append, l1, l2]
    omega
  | .cdata t, pre, u, inl, h => by
    have h3 := ite_bytes inl pre
    have l1 : blen c%"<![CDATA[" = 9 := rfl
    have l2 : blen c%"]]>" = 3 := rfl
    simp only [Node.toStringPI, cdataToString, weigh, storing, counting, Nat.mul_one, blen_append, l1, l2]
    omega
end

theorem step_eq (i : Str) : step i = blen (if validateIndent i then i else c%"  ") := by
  have h : (i = ['\t'] ∨ ∀ c ∈ i, c = ' ') ↔ validateIndent i = true := by
    unfold validateIndent
    split
    · rename_i h; simp [h]
    · rename_i h
      have h' : i ≠ ['\t'] := h
      simp [h']
  unfold step
  split
  · rename_i g; rw [if_pos (h.1 g)]
  · rename_i g; rw [if_neg (fun w => g (h.2 w))]; rfl

theorem element_written (e : Element) (i : Str) :
    weigh storing (.element e) ≤ blen (e.toStringWithIndent i) ∧
    blen (e.toStringWithIndent i) + 1 ≤ 6 * weigh storing (.element e) + (13 + 2 * (nesting (.element e) * step i)) * weigh counting (.element e) := by
  have h := element_out (nesting (.element e) * step i) e [] (if validateIndent i then i else c%"  ") false (by rw [step_eq]; simp)
  unfold ElementF.toStringWithIndent
  split <;> rename_i hv <;> simpa [hv] using h

theorem node_written (n : Node) (i : Str) :
    weigh storing n ≤ blen (n.toStringWithIndent i) ∧
    blen (n.toStringWithIndent i) + 1 ≤ 6 * weigh storing n + (13 + 2 * (nesting n * step i)) * weigh counting n := by
  cases n with
  | element e => exact element_written e i
  | text t => simpa [Node.toStringWithIndent, Node.toStringPI, nesting] using node_out 0 (.text t) [] [] true (by simp)
  | comment t => simpa [Node.toStringWithIndent, Node.toStringPI, nesting] using node_out 0 (.comment t) [] [] true (by simp)
  | cdata t => simpa [Node.toStringWithIndent, Node.toStringPI, nesting] using node_out 0 (.cdata t) [] [] true (by simp)

theorem dtds_size (l : List DTD) : blen (dtdsToString l) = (l.map fun d => blen d.dtdStr).sum + l.length := by
  induction l with
  | nil => rfl
  | cons d l ih =>
    have l5 : blen c%"\n" = 1 := rfl
    simp only [dtdsToString, DTD.display, blen_append, List.map_cons, List.sum_cons, List.length_cons, ih, l5]
    omega

/-- what is written for a declaration and document types -/
def headOut (decl : Option Declaration) (dtds : List DTD) : Nat := headBytes decl dtds + 5 * decl.toList.length + dtds.length

theorem document_eq (d : Document) (i : Str) :
    blen (d.toStringWithIndent i) = headOut d.declaration d.dtds + blen (d.root.toStringWithIndent i) + 1 := by
  have l5 : blen c%"\n" = 1 := rfl
  have l1 : blen c%"<?" = 2 := rfl
  have l2 : blen c%"?>" = 2 := rfl
  have hr : d.root.toStringWithIndent (if validateIndent i then i else c%"  ") = d.root.toStringWithIndent i := by
    unfold ElementF.toStringWithIndent
    by_cases h : validateIndent i = true
    · rw [if_pos h]
    · rw [if_neg h, if_neg h, if_pos (by decide)]
  simp only [Document.toStringWithIndent, hr, blen_append, dtds_size, l5]
  cases hd : d.declaration with
  | none => simp [headOut, headBytes, optBytes]
  | some m => simp only [headOut, headBytes, optBytes, Declaration.display, Option.map_some, Option.toList_some, List.length_cons, List.length_nil, blen_append, l5, l1, l2]; omega

theorem document_written (d : Document) (i : Str) :
    headBytes d.declaration d.dtds + weigh storing (.element d.root) ≤ blen (d.toStringWithIndent i) ∧
    blen (d.toStringWithIndent i) ≤ headBytes d.declaration d.dtds + 5 + d.dtds.length +
      6 * weigh storing (.element d.root) + (13 + 2 * (nesting (.element d.root) * step i)) * weigh counting (.element d.root) := by
  have h1 := element_written d.root i
  have h2 : d.declaration.toList.length ≤ 1 := by cases d.declaration <;> simp
  rw [document_eq]
  unfold headOut
  omega

/-! ## parsed documents -/

/-- the bytes around a declaration -/
def declExtra (n : Nat) : Option Declaration → Nat
  | none => n
  | some _ => 5

theorem pro_head {pos prev : Nat} {w : Bool} {d : Option Declaration} {ds : List DTD} {toks : List (Str × Str)}
    {D : Option Declaration} {DS : List DTD} {tag : Str} {rest : List (Str × Str)} (h : Pro pos prev w d ds toks D DS tag rest) :
    headBytes D DS + declExtra 1 D + DS.length + blen tag + costs blen blen rest ≤ headBytes d ds + declExtra 1 d + ds.length + costs blen blen toks := by
  induction h with
  | root =>
    simp only [costs, List.map_cons, List.sum_cons]
    omega
  | @decl _ _ d _ _ m _ _ _ _ _ _ _ _ ih =>
    have l1 : blen c%"<?" = 2 := rfl
    have l2 : blen c%"?>" = 2 := rfl
    have : 1 ≤ declExtra 1 d := by cases d <;> simp [declExtra]
    have hs : declExtra 1 (some ⟨m⟩) = 5 := rfl
    rw [hs] at ih
    simp only [costs, List.map_cons, List.sum_cons, headBytes, blen_append, Option.map_some, optBytes, l1, l2] at ih ⊢
    omega
  | comment _ _ _ _ ih =>
    simp only [costs, List.map_cons, List.sum_cons] at ih ⊢
    omega
  | doctype _ _ ih =>
    have l1 : blen c%"<!DOCTYPE" = 9 := rfl
    simp only [costs, List.map_cons, List.sum_cons, headBytes, List.map_append, List.sum_append, List.length_append, List.length_cons, List.length_nil, blen_append, List.map_nil,
      List.sum_nil, l1] at ih ⊢
    omega
  | other _ _ _ _ _ ih =>
    simp only [costs, List.map_cons, List.sum_cons] at ih ⊢
    omega

theorem parse_headOut {x : Str} {d : Document} (h : parseStr x = .ok d) :
    headOut d.declaration d.dtds + weigh storing (.element d.root) ≤ blen x + 1 := by
  obtain ⟨toks, D, DS, tag, rest, E, F, hL, hP, hR, rfl⟩ := (parse_iff.1 h).ex
  obtain ⟨tail, hl⟩ := lex_lexes hL
  have h1 := lexes_bytes hl
  have h2 := pro_head hP
  have h3 := rootPart_weigh storing_bounded hR
  have h4 : headBytes none [] = 0 := rfl
  have h5 : declExtra 1 none = 1 := rfl
  have h6 : 5 * D.toList.length ≤ declExtra 1 D := by cases D <;> simp [declExtra]
  change headOut D DS + weigh storing (.element (addRev E F).reverseChildren) ≤ _
  simp only [List.length_nil] at h2
  unfold headOut
  omega

theorem parse_written {x : Str} {d : Document} (h : parseStr x = .ok d) (i : Str) :
    blen (d.toStringWithIndent i) ≤ 6 * blen x + 6 + (13 + (x.count '<' + 1) * step i) * max 1 (2 * x.count '<' - 2) := by
  have h1 := element_written d.root i
  have h2 := parse_headOut h
  have h3 := parse_nodes h
  have h4 := parse_nesting h
  rw [document_eq]
  have h5 : (13 + 2 * (nesting (.element d.root) * step i)) * weigh counting (.element d.root) ≤
      (13 + (x.count '<' + 1) * step i) * max 1 (2 * x.count '<' - 2) := by
    refine Nat.mul_le_mul (Nat.add_le_add_left ?_ _) h3
    rw [← Nat.mul_assoc]
    exact Nat.mul_le_mul_right _ h4
  omega

/-! ## nested elements -/

/-- `n + 1` nested elements -/
def tower : Nat → Element
  | 0 => ⟨c%"a", [], .empty, none, none, .empty⟩
  | n + 1 => ⟨c%"a", [.element (tower n)], .empty, none, none, .empty⟩

theorem tower_size (n : Nat) : ∀ pre u : Str,
    blen ((tower n).toStringPI pre u false) = (2 * n + 1) * blen pre + n * n * blen u + 9 * n + 4 := by
  induction n with
  | zero =>
    intro pre u
    have : blen c%"<a/>" = 4 := rfl
    rw [show (tower 0).toStringPI pre u false = pre ++ c%"<a/>" by simp [tower, ElementF.toStringPI, ElementF.tagName, SMap.empty, sortAttrs, attrsToString],
      blen_append, this]
    omega
  | succ n ih =>
    intro pre u
    have h := ih (pre ++ u) u
    have l1 : blen c%"<a>\n" = 4 := rfl
    have l2 : blen c%"</a>" = 4 := rfl
    have l3 : blen c%"\n" = 1 := rfl
    rw [show (tower (n + 1)).toStringPI pre u false = pre ++ c%"<a>\n" ++ (tower n).toStringPI (pre ++ u) u false ++ c%"\n" ++ pre ++ c%"</a>" by
      simp [tower, ElementF.toStringPI, ElementF.tagName, SMap.empty, sortAttrs, attrsToString, childrenToString, Node.toStringPI, Node.isElement, Node.isText]]
    simp only [blen_append, h, l1, l2, l3]
    ring

theorem tower_fits (n : Nat) : DocFits ⟨none, [], tower n⟩ := by
  have h0 : DocFits ⟨none, [], tower 0⟩ := docFitsB_sound (by decide)
  have hn : NcName c%"a" ∧ ApiName c%"a" := ElemFitsFor.name (h0.nodes (.element (tower 0)) (by simp [tower, docOrder]))
  have hw : ∀ n, ∀ m ∈ docOrder (.element (tower n)), NodeFits m := by
    intro n
    induction n with
    | zero => exact h0.nodes
    | succ n ih =>
      intro m hm
      rw [tower, docOrder, docOrderL, docOrderL, List.append_nil] at hm
      rcases List.mem_cons.1 hm with rfl | hm
      · refine ⟨hn, nofun, (fun k v h => by cases h), fun a b x y h => ?_⟩
        have := congrArg List.length h
        simp at this
        omega
      · exact ih m hm
  exact ⟨nofun, rfl, hw n, by cases n <;> exact nofun⟩

theorem tower_written (n : Nat) : ∃ x d, parseStr x = .ok d ∧ blen x = 9 * n + 5 ∧
    ∀ i, blen (d.toStringWithIndent i) = n * n * step i + 9 * n + 5 := by
  have hs : ∀ i, blen (Document.toStringWithIndent ⟨none, [], tower n⟩ i) = n * n * step i + 9 * n + 5 := by
    intro i
    have h := tower_size n [] (if validateIndent i then i else c%"  ")
    rw [← step_eq] at h
    rw [document_eq]
    have h2 : blen (ElementF.toStringWithIndent (tower n) i) = n * n * step i + 9 * n + 4 := by
      unfold ElementF.toStringWithIndent
      split <;> rename_i hv <;> simpa [hv] using h
    have h3 : headOut none [] = 0 := rfl
    rw [h2, h3]
    omega
  refine ⟨_, _, reparse (tower_fits n) [], ?_, fun i => ?_⟩
  · have : step [] = 0 := by decide
    rw [hs, this]
    omega
  · rw [rewrite_same (tower_fits n), hs]

end KissXml
