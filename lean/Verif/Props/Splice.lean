import Verif.Proofs.Splice
import Verif.Props.Serialize
import Verif.Props.Dom
/-!
# C104: a change in one place of a document changes one place of the output
-/
namespace KissXml.Props
open KissXml KissXml.Spec

open Classical in
/-- C104: if some nodes side by side are replaced by others, anywhere in an element, then the output is the same up to them and
after them; in between it has the layouts (C10) of the old and of the new nodes.  If there is no text beside them or around them, these
are whole lines. -/
theorem C104_output {M M' : List Node} {d : Nat} {mixed : Prop} {e e' : Element} (h : Spliced M M' d mixed e e') (i : Str) :
    ∃ A B s s', LLayout (if ValidIndent i then i else c%"  ") d (decide mixed) M s ∧ LLayout (if ValidIndent i then i else c%"  ") d (decide mixed) M' s' ∧
      e.toStringWithIndent i = A ++ s ++ B ∧ e'.toStringWithIndent i = A ++ s' ++ B ∧ (¬ mixed → ∃ A0, A = A0 ++ ['\n']) := by
  have key : ∀ u : Str, ∃ A B s s', LLayout u d (decide mixed) M s ∧ LLayout u d (decide mixed) M' s' ∧
      e.toStringPI [] u false = A ++ s ++ B ∧ e'.toStringPI [] u false = A ++ s' ++ B ∧ (¬ mixed → ∃ A0, A = A0 ++ ['\n']) := by
    intro u
    obtain ⟨A, B, h1, h2, h3⟩ := spliced_print h u [] false
    rw [Bool.false_or] at h1 h2 h3
    exact ⟨A, B, _, _, llayout u d _ _ M fun _ => rfl, llayout u d _ _ M' fun _ => rfl, h1, h2, fun hm => h3 (by simpa using hm)⟩
  unfold ElementF.toStringWithIndent
  by_cases hv : ValidIndent i
  · simp only [if_pos hv, if_pos (validateIndent_iff.2 hv)]
    exact key i
  · simp only [if_neg hv, if_neg (fun h' => hv (validateIndent_iff.1 h'))]
    exact key c%"  "

open Classical in
/-- C104 for documents: nothing else changes in the file. -/
theorem C104_document {M M' : List Node} {d : Nat} {mixed : Prop} {D D' : Document} (h : Spliced M M' d mixed D.root D'.root)
    (h1 : D.declaration = D'.declaration) (h2 : D.dtds = D'.dtds) (i : Str) :
    ∃ A B s s', LLayout (if ValidIndent i then i else c%"  ") d (decide mixed) M s ∧ LLayout (if ValidIndent i then i else c%"  ") d (decide mixed) M' s' ∧
      D.toStringWithIndent i = A ++ s ++ B ∧ D'.toStringWithIndent i = A ++ s' ++ B ∧ (¬ mixed → ∃ A0, A = A0 ++ ['\n']) := by
  have key : ∀ i, ValidIndent i → ∃ A B s s', LLayout i d (decide mixed) M s ∧ LLayout i d (decide mixed) M' s' ∧
      D.toStringWithIndent i = A ++ s ++ B ∧ D'.toStringWithIndent i = A ++ s' ++ B ∧ (¬ mixed → ∃ A0, A = A0 ++ ['\n']) := by
    intro i hi
    obtain ⟨A, B, s, s', h3, h4, h5, h6, h7⟩ := C104_output h i
    rw [if_pos hi] at h3 h4
    obtain ⟨t, ht, h8⟩ := (C10_document D i).1 hi
    obtain ⟨t', ht', h9⟩ := (C10_document D' i).1 hi
    have e1 := C10_element D.root i
    have e2 := C10_element D'.root i
    rw [if_pos hi] at e1 e2
    rw [← layout_functional e1 ht, h5] at h8
    rw [← layout_functional e2 ht', h6, ← h1, ← h2] at h9
    generalize (D.declaration.elim [] fun x => c%"<?" ++ x.declStr ++ c%"?>\n") ++ D.dtds.flatMap (fun x => x.dtdStr ++ ['\n']) = P at h8 h9
    refine ⟨P ++ A, B ++ ['\n'], s, s', h3, h4, h8.trans (by simp only [List.append_assoc]), h9.trans (by simp only [List.append_assoc]), fun hm => ?_⟩
    obtain ⟨A0, rfl⟩ := h7 hm
    exact ⟨_, (List.append_assoc _ _ _).symm⟩
  by_cases hv : ValidIndent i
  · rw [if_pos hv]
    exact key i hv
  · rw [if_neg hv, (C10_document D i).2 hv, (C10_document D' i).2 hv]
    exact key c%"  " (.inr ⟨2, rfl⟩)

/-- C104: if only the attributes of an element change, then the output changes only where these are. -/
theorem C104_attributes {x : Element} {a' : SMap} {d : Nat} {mixed : Prop} {e e' : Element}
    (h : Spliced [.element x] [.element { x with attrs := a' }] d mixed e e') (i : Str) :
    ∃ A B l l', SortedAttrs x.attrs l ∧ SortedAttrs a' l' ∧
      e.toStringWithIndent i = A ++ l.flatMap attrStr ++ B ∧ e'.toStringWithIndent i = A ++ l'.flatMap attrStr ++ B := by
  have key : ∀ u : Str, ∃ A B l l', SortedAttrs x.attrs l ∧ SortedAttrs a' l' ∧
      e.toStringPI [] u false = A ++ l.flatMap attrStr ++ B ∧ e'.toStringPI [] u false = A ++ l'.flatMap attrStr ++ B := by
    intro u
    obtain ⟨A, B, h1, h2, -⟩ := spliced_print h u [] false
    simp only [childrenToString, Node.toStringPI] at h1 h2
    obtain ⟨A', B', h3⟩ := attrs_place u x ([] ++ pad u d) (false || @decide mixed (Classical.propDecidable _))
    have h4 := h3 x.attrs
    have h5 : ({ x with attrs := x.attrs } : Element) = x := rfl
    rw [h5] at h4
    rw [h4] at h1
    rw [h3] at h2
    exact ⟨A ++ A', B' ++ _, sortAttrs x.attrs.entries, sortAttrs a'.entries, ⟨sortAttrs_perm _, sortAttrs_pairwise x.attrs.nodup⟩,
      ⟨sortAttrs_perm _, sortAttrs_pairwise a'.nodup⟩, by rw [h1]; simp only [List.append_assoc]; rfl, by rw [h2]; simp only [List.append_assoc]⟩
  unfold ElementF.toStringWithIndent
  split
  · exact key i
  · exact key c%"  "

/-- C104 applies to `remove`, where no text goes and more than a single text, comment or CDATA section is left … -/
theorem C104_remove (e : Element) (i : Nat) (n : Node) (e1 : Element) (h : e.remove i = .ok (n, e1))
    (h1 : Several e.children) (h2 : Several e1.children) (h3 : HasText e.children ↔ HasText e1.children) :
    Spliced [n] [] 1 (HasText e.children) e e1 := by
  rw [remove_eq] at h
  cases hc : e.children[i]? with
  | none => simp [hc] at h
  | some m =>
    simp only [hc, Res.ok.injEq, Prod.mk.injEq] at h
    obtain ⟨rfl, rfl⟩ := h
    obtain ⟨hi, hm⟩ := List.getElem?_eq_some_iff.1 hc
    obtain ⟨nm, cs, a, x, p, c⟩ := e
    simp only at *
    have e1 : cs = cs.take i ++ [m] ++ cs.drop (i + 1) := by rw [← hm]; simp
    have e2 : cs.eraseIdx i = cs.take i ++ [] ++ cs.drop (i + 1) := by rw [List.eraseIdx_eq_take_drop_succ]; simp
    rw [e2] at h2 h3 ⊢
    generalize cs.take i = X at *
    generalize cs.drop (i + 1) = Y at *
    subst e1
    exact .here h1 h2 h3

/-- … and to `append`, where the new node is no text and there were already several children in normal form. -/
theorem C104_append (e : Element) (n : Node) (h1 : NoAdjText e.children) (h2 : ∀ t, Node.text t ∈ e.children → ¬ Blank t)
    (hn : ∀ t, n ≠ .text t) (hs : Several e.children) :
    ∃ n' e1, HandedDown (givenDefault e) e.ctx n n' ∧ e.append n = .ok e1 ∧ Spliced [] [n'] 1 (HasText e.children) e e1 := by
  obtain ⟨n', h3, h4⟩ := C16_append_nontext e n h1 h2 hn
  refine ⟨n', _, h3, h4, ?_⟩
  have hn' : ∀ t, n' ≠ .text t := by
    rintro t rfl
    cases n with
    | element k => cases h3
    | text s => exact hn s rfl
    | comment s => cases h3
    | cdata s => cases h3
  obtain ⟨nm, cs, a, x, p, c⟩ := e
  simp only at *
  have h5 : Spliced [] [n'] 1 (HasText (cs ++ [] ++ [])) ⟨nm, cs ++ [] ++ [], a, x, p, c⟩ ⟨nm, cs ++ [n'] ++ [], a, x, p, c⟩ := by
    refine .here (by simpa using hs) ?_ ?_
    · rcases hs with ⟨y, z, w, rfl⟩ | ⟨k, rfl⟩
      · exact .inl ⟨y, z, w ++ [n'] ++ [], rfl⟩
      · exact .inl ⟨_, _, _, rfl⟩
    · simp only [HasText, List.append_nil, List.mem_append, List.mem_singleton]
      exact ⟨fun ⟨t, ht⟩ => ⟨t, .inl ht⟩, fun ⟨t, ht⟩ => ⟨t, ht.resolve_right fun h => hn' t h.symm⟩⟩
  simpa using h5

/-! ## Examples -/

/-- `<r><a/><b><c/></b></r>`, a comment put beside `<c/>` -/
example : Spliced [] [.comment c%"x"] 2 (HasText [.element ⟨c%"a", [], .empty, none, none, .empty⟩,
      .element ⟨c%"b", [.element ⟨c%"c", [], .empty, none, none, .empty⟩], .empty, none, none, .empty⟩] ∨
      HasText [.element ⟨c%"c", [], .empty, none, none, .empty⟩])
    ⟨c%"r", [.element ⟨c%"a", [], .empty, none, none, .empty⟩,
      .element ⟨c%"b", [.element ⟨c%"c", [], .empty, none, none, .empty⟩], .empty, none, none, .empty⟩], .empty, none, none, .empty⟩
    ⟨c%"r", [.element ⟨c%"a", [], .empty, none, none, .empty⟩,
      .element ⟨c%"b", [.element ⟨c%"c", [], .empty, none, none, .empty⟩, .comment c%"x"], .empty, none, none, .empty⟩], .empty, none, none, .empty⟩ :=
  .inside (X := [.element ⟨c%"a", [], .empty, none, none, .empty⟩]) (Y := [])
    (.here (X := [.element ⟨c%"c", [], .empty, none, none, .empty⟩]) (Y := []) (.inr ⟨_, rfl⟩) (.inl ⟨_, _, _, rfl⟩)
      (by simp [HasText]))

example : (⟨c%"r", [.element ⟨c%"a", [], .empty, none, none, .empty⟩,
      .element ⟨c%"b", [.element ⟨c%"c", [], .empty, none, none, .empty⟩], .empty, none, none, .empty⟩], .empty, none, none, .empty⟩ : Element).toString =
    c%"<r>\n  <a/>\n  <b>\n    <c/>\n  </b>\n</r>" := by rfl
example : (⟨c%"r", [.element ⟨c%"a", [], .empty, none, none, .empty⟩,
      .element ⟨c%"b", [.element ⟨c%"c", [], .empty, none, none, .empty⟩, .comment c%"x"], .empty, none, none, .empty⟩], .empty, none, none, .empty⟩ : Element).toString =
    c%"<r>\n  <a/>\n  <b>\n    <c/>\n    <!--x-->\n  </b>\n</r>" := by rfl
/-- the conditions are needed: with a text, the whole element is written on one line; a single comment is written between the tags -/
example : (⟨c%"r", [.element ⟨c%"a", [], .empty, none, none, .empty⟩, .text c%"t"], .empty, none, none, .empty⟩ : Element).toString = c%"<r><a/>t</r>" ∧
    (⟨c%"r", [.element ⟨c%"a", [], .empty, none, none, .empty⟩, .comment c%"t"], .empty, none, none, .empty⟩ : Element).toString = c%"<r>\n  <a/>\n  <!--t-->\n</r>" ∧
    (⟨c%"r", [.comment c%"t"], .empty, none, none, .empty⟩ : Element).toString = c%"<r><!--t--></r>" := ⟨rfl, rfl, rfl⟩

/-- attributes of a child changed -/
example : Spliced [.element ⟨c%"a", [], ⟨[(c%"k", c%"1")], by decide⟩, none, none, .empty⟩] [.element ⟨c%"a", [], ⟨[(c%"k", c%"2"), (c%"j", c%"<")], by decide⟩, none, none, .empty⟩] 1
    (HasText [.text c%"t", .element ⟨c%"a", [], ⟨[(c%"k", c%"1")], by decide⟩, none, none, .empty⟩])
    ⟨c%"r", [.text c%"t", .element ⟨c%"a", [], ⟨[(c%"k", c%"1")], by decide⟩, none, none, .empty⟩], .empty, none, none, .empty⟩
    ⟨c%"r", [.text c%"t", .element ⟨c%"a", [], ⟨[(c%"k", c%"2"), (c%"j", c%"<")], by decide⟩, none, none, .empty⟩], .empty, none, none, .empty⟩ :=
  .here (X := [.text c%"t"]) (Y := []) (.inl ⟨_, _, _, rfl⟩) (.inl ⟨_, _, _, rfl⟩) (by simp [HasText])
example : (⟨c%"r", [.text c%"t", .element ⟨c%"a", [], ⟨[(c%"k", c%"2"), (c%"j", c%"<")], by decide⟩, none, none, .empty⟩], .empty, none, none, .empty⟩ : Element).toString =
    c%"<r>t<a j=\"&lt;\" k=\"2\"/></r>" := by decide +kernel

/-- `remove` and `append` in `<r>`, with two comments and with three -/
example : (⟨c%"r", [.comment c%"a", .comment c%"b", .comment c%"c"], .empty, none, none, .empty⟩ : Element).remove 1 =
      .ok (.comment c%"b", ⟨c%"r", [.comment c%"a", .comment c%"c"], .empty, none, none, .empty⟩) ∧
    (⟨c%"r", [.comment c%"a", .comment c%"c"], .empty, none, none, .empty⟩ : Element).append (.comment c%"b") =
      .ok ⟨c%"r", [.comment c%"a", .comment c%"c", .comment c%"b"], .empty, none, none, .empty⟩ ∧
    Several [.comment c%"a", .comment c%"c"] ∧ Several [.comment c%"a", .comment c%"b", .comment c%"c"] :=
  ⟨rfl, rfl, .inl ⟨_, _, _, rfl⟩, .inl ⟨_, _, _, rfl⟩⟩

end KissXml.Props
