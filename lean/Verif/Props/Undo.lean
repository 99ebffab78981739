import Verif.Proofs.Undo
import Verif.Props.Dom
/-!
# C99: taking out what was put in, putting back what was taken out
-/
namespace KissXml.Props
open KissXml KissXml.Spec

theorem lastGiven_mapLast {e : Element} (h : e.children ≠ []) :
    LastGiven e { e with children := mapLast (applyXmlnsContext e.defaultNamespace e.ctx) e.children } := by
  rcases List.eq_nil_or_concat e.children with h0 | ⟨A, x, hx⟩
  · exact absurd h0 h
  · rw [List.concat_eq_append] at hx
    refine ⟨A, x, applyXmlnsContext e.defaultNamespace e.ctx x, hx, givenDefault_eq e ▸ handedDown_apply _ _ x, ?_⟩
    rw [hx, mapLast_append]

theorem mapLast_given {e : Element} (hg : ∀ n, e.children.getLast? = some n → HandedDown (givenDefault e) e.ctx n n) :
    mapLast (applyXmlnsContext e.defaultNamespace e.ctx) e.children = e.children := by
  rcases List.eq_nil_or_concat e.children with h0 | ⟨A, x, hx⟩
  · rw [h0]; rfl
  · rw [List.concat_eq_append] at hx
    rw [hx, mapLast_append, givenDefault_eq, apply_of_handedDown (hg x (by simp [hx]))]

theorem put_back {e : Element} (h : TextNormal e) {i : Nat} {n : Node} {e1 : Element} (h1 : e.remove i = .ok (n, e1)) :
    e.children ≠ [] ∧ e1.insert i n =
      .ok { e with children := mapLast (applyXmlnsContext e.defaultNamespace e.ctx) e.children } := by
  rw [remove_eq] at h1
  cases hc : e.children[i]? with
  | none => simp [hc] at h1
  | some m =>
    simp only [hc, Res.ok.injEq, Prod.mk.injEq] at h1
    obtain ⟨rfl, rfl⟩ := h1
    obtain ⟨hi, hm⟩ := List.getElem?_eq_some_iff.1 hc
    have hl : (e.children.eraseIdx i).take i ++ m :: (e.children.eraseIdx i).drop i = e.children := by
      have hlen : (e.children.take i).length = i := by simp; omega
      rw [List.eraseIdx_eq_take_drop_succ, List.take_append_of_le_length (by omega),
        List.drop_append_of_le_length (by omega), List.take_take, Nat.min_self,
        List.drop_eq_nil_of_le (by omega), List.nil_append, ← hm]
      simp
    refine ⟨fun h0 => by simp [h0] at hi, ?_⟩
    rw [insert_eq, if_neg (by simp [List.length_eraseIdx, hi]; omega)]
    simp only [hl]
    have : ({ e with children := e.children.eraseIdx i } : Element).defaultNamespace = e.defaultNamespace := by cases e; rfl
    rw [this, normalText_normalL (normalL_mapLast.2 ⟨h.1, h.2⟩)]

/-- C99: in an element whose texts are in normal form (C23), a node that is taken out and inserted again at the same index is back:
everything is as before, except that the last child has been handed down the namespaces of the element again. -/
theorem C99_put_back (e : Element) (h : TextNormal e) (i : Nat) (n : Node) (e1 : Element) (h1 : e.remove i = .ok (n, e1)) :
    ∃ e2, e1.insert i n = .ok e2 ∧ LastGiven e e2 :=
  ⟨_, (put_back h h1).2, lastGiven_mapLast (put_back h h1).1⟩

/-- C99: nothing at all has changed if this had been done before. -/
theorem C99_put_back_same (e : Element) (h : TextNormal e)
    (hg : ∀ n, e.children.getLast? = some n → HandedDown (givenDefault e) e.ctx n n) (i : Nat) (n : Node) (e1 : Element)
    (h1 : e.remove i = .ok (n, e1)) : e1.insert i n = .ok e := by
  rw [(put_back h h1).2, mapLast_given hg]

/-- that is so for a node that is no element, and for every node to which the namespaces have been handed down (by `append`, C16) -/
theorem C99_given (d : Option Str) (ctx : SMap) (n n' : Node) (h : HandedDown d ctx n n') : HandedDown d ctx n' n' := by
  cases n with
  | element e =>
    cases n' with
    | element e' =>
      obtain ⟨h1, h2, h3, h4, h5, h6⟩ := h
      refine ⟨rfl, rfl, rfl, rfl, fun k => ?_, ?_⟩
      · rw [h5 k]; cases e.ctx.get k <;> cases ctx.get k <;> rfl
      · rw [h6, h4]
        cases hp : e.pfx with
        | none => cases e.xmlns <;> cases d <;> rfl
        | some p =>
          simp only [h5 p]
          cases e.xmlns <;> cases e.ctx.get p <;> cases ctx.get p <;> rfl
    | _ => cases h
  | text t => cases h; rfl
  | comment t => cases h; rfl
  | cdata t => cases h; rfl

/-- C99: a node that is inserted and then taken out: if it fits between its neighbours, the element is as before, except for the
namespaces that its last child has been handed down.  (At the last index it is the node itself to which they are handed down.) -/
theorem C99_take_back (e : Element) (h : TextNormal e) (i : Nat) (hi : i ≤ e.children.length) (n : Node) (hf : Fits e.children i n) :
    ∃ e1 n' e2, e.insert i n = .ok e1 ∧ e1.remove i = .ok (n', e2) ∧
      (i < e.children.length → n' = n ∧ LastGiven e e2) ∧
      (i = e.children.length → HandedDown (givenDefault e) e.ctx n n' ∧ e2 = e) := by
  have hlen : (e.children.take i).length = i := by simp; omega
  have hN : NormalL (e.children.take i ++ n :: e.children.drop i) := by
    rw [normalL_insert (by rw [List.take_append_drop]; exact ⟨h.1, h.2⟩), List.take_append_drop, hlen]
    exact hf
  have h1 := insert_eq e i n
  rw [if_neg (by omega), normalText_normalL (normalL_mapLast.2 hN)] at h1
  rcases Nat.lt_or_ge i e.children.length with hlt | hge
  · have hd : e.children.drop i ≠ [] := by simp; omega
    rw [mapLast_cons_ne _ _ _ hd] at h1
    refine ⟨_, n, _, h1, (C19_remove _ i).2 (e.children.take i) n _ rfl hlen, fun _ => ⟨rfl, ?_⟩, fun h => by omega⟩
    rw [← mapLast_append_ne _ _ hd, List.take_append_drop]
    exact lastGiven_mapLast (fun h0 => by simp [h0] at hlt)
  · have hd : e.children.drop i = [] := List.drop_eq_nil_of_le hge
    have ht : e.children.take i = e.children := List.take_of_length_le hge
    rw [hd, mapLast_append, ht] at h1
    rw [ht] at hlen
    refine ⟨_, applyXmlnsContext e.defaultNamespace e.ctx n, e, h1, ?_, fun h => by omega,
      fun _ => ⟨givenDefault_eq e ▸ handedDown_apply _ _ n, rfl⟩⟩
    have := (C19_remove { e with children := e.children ++ [applyXmlnsContext e.defaultNamespace e.ctx n] } i).2 e.children
      (applyXmlnsContext e.defaultNamespace e.ctx n) [] rfl hlen
    rw [this]
    simp

/-- C99: the same for `append`. -/
theorem C99_take_back_append (e : Element) (h : TextNormal e) (n : Node) (hf : Fits e.children e.children.length n) :
    ∃ e1 n', e.append n = .ok e1 ∧ e1.remove e.children.length = .ok (n', e) ∧ HandedDown (givenDefault e) e.ctx n n' := by
  obtain ⟨e1, n', e2, h1, h2, -, h3⟩ := C99_take_back e h e.children.length (Nat.le_refl _) n hf
  obtain ⟨h4, rfl⟩ := h3 rfl
  refine ⟨e1, n', ?_, h2, h4⟩
  rw [← h1, insert_eq, append_eq, if_neg (by omega)]
  simp [mapLast_append]

/-- C99: if the node does not fit, what has been inserted cannot be taken out again: a child is missing afterwards, or there is none at
the index. -/
theorem C99_no_way_back (e : Element) (h : TextNormal e) (i : Nat) (hi : i ≤ e.children.length) (n : Node) (hf : ¬ Fits e.children i n)
    (e1 : Element) (h1 : e.insert i n = .ok e1) (j : Nat) (n' : Node) (e2 : Element) (h2 : e1.remove j = .ok (n', e2)) :
    e2.children.length < e.children.length := by
  have hlen : (e.children.take i).length = i := by simp; omega
  rw [insert_eq, if_neg (by omega)] at h1
  obtain rfl := (Res.ok.inj h1).symm
  have hN : ¬ NormalL (mapLast (applyXmlnsContext e.defaultNamespace e.ctx) (e.children.take i ++ n :: e.children.drop i)) := by
    rw [normalL_mapLast, normalL_insert (by rw [List.take_append_drop]; exact ⟨h.1, h.2⟩), List.take_append_drop, hlen]
    exact hf
  have h3 := mt normalL_of_length hN
  have h4 := normalText_length_le (mapLast (applyXmlnsContext e.defaultNamespace e.ctx) (e.children.take i ++ n :: e.children.drop i))
  have h5 : (mapLast (applyXmlnsContext e.defaultNamespace e.ctx) (e.children.take i ++ n :: e.children.drop i)).length =
      e.children.length + 1 := by
    rw [length_mapLast]
    simp; omega
  rw [remove_eq] at h2
  split at h2
  · rename_i m hm
    obtain ⟨hj, -⟩ := List.getElem?_eq_some_iff.1 hm
    simp only [Res.ok.injEq, Prod.mk.injEq] at h2
    rw [← h2.2]
    simp only [List.length_eraseIdx, hj, if_true]
    simp only at hj
    omega
  · cases h2

private def undoE : Element :=
  ⟨c%"r", [.text c%"x", .element ⟨c%"k", [], .empty, some c%"d", none, .empty⟩, .comment c%"c"], .empty, some c%"d", none, .empty⟩

example : TextNormal undoE ∧ (∀ n, undoE.children.getLast? = some n → HandedDown (givenDefault undoE) undoE.ctx n n) := by
  refine ⟨⟨?_, ?_⟩, ?_⟩
  · intro a b x y h
    match a with
    | [] => simp [undoE] at h
    | [_] => simp [undoE] at h
    | [_, _] => simp [undoE] at h
    | _ :: _ :: _ :: a => simp [undoE] at h
  · intro t ht
    simp only [undoE, List.mem_cons, Node.text.injEq, reduceCtorEq, List.not_mem_nil, or_false] at ht
    subst ht; decide
  · intro n hn
    have : n = .comment c%"c" := by simpa [undoE] using hn.symm
    subst this; rfl

/-- a node that fits, and one that does not -/
example : Fits undoE.children 1 (.comment c%"z") ∧ Fits undoE.children 2 (.text c%"z") ∧ ¬ Fits undoE.children 1 (.text c%"z") ∧
    ¬ Fits undoE.children 2 (.text c%" ") := by
  refine ⟨fun t h => by simp at h, fun t h => ?_, fun h => ?_, fun h => ?_⟩
  · obtain rfl : c%"z" = t := by simpa using h
    refine ⟨by decide, ?_⟩
    rintro j s (rfl | hj) hs
    · simp [undoE] at hs
    · obtain rfl : j = 1 := by omega
      simp [undoE] at hs
  · exact (h _ rfl).2 0 c%"x" (.inr rfl) rfl
  · exact (h _ rfl).1 (by decide)

example : (match undoE.insert 1 (.text c%"z") with
    | .ok e => (match e.remove 1 with | .ok (_, e) => e.children.map Node.textOf | _ => []) | _ => []) = [c%"xz", c%"c"] := by decide

end KissXml.Props
