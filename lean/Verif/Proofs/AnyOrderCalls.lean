import Verif.Proofs.AnyOrder
/-!
# Changing an element does not depend on the order of the maps
-/
namespace KissXml
open Spec Runs

theorem twin_attrs {a b : Element} {A B : SMap} (h : TwinElement a b) (hl : Shuffle A B) :
    TwinElement { a with attrs := A } { b with attrs := B } := by
  obtain ⟨h1, h2, h3, -, h5, h6⟩ := twin_parts h
  exact twin_of_parts h1 h2 h3 hl h5 h6

theorem twinList_eraseIdx {a b : List Node} (h : TwinList a b) (i : Nat) : TwinList (a.eraseIdx i) (b.eraseIdx i) := by
  induction a generalizing b i with
  | nil => cases h; exact .nil
  | cons x a ih =>
    cases h with
    | cons h1 h2 =>
      cases i with
      | zero => exact h2
      | succ i => exact .cons h1 (ih h2 i)

theorem twin_elem {p : Element → Bool} (hp : ∀ n m, TwinElement n m → p n = p m) (n m : Node) (h : TwinNode n m) :
    ElementF.elemPred p n = ElementF.elemPred p m := by
  cases h with
  | element he => exact hp _ _ he
  | _ => rfl

theorem twinList_drop_p {p : Node → Bool} (hp : ∀ n m, TwinNode n m → p n = p m) {l m : List Node} (h : TwinList l m) :
    TwinList (l.filter fun n => !p n) (m.filter fun n => !p n) :=
  twinList_filter (fun n m h => by rw [hp n m h]) h

mutual
theorem twin_prune {p : Node → Bool} (hp : ∀ n m, TwinNode n m → p n = p m) : ∀ {a b : Node}, TwinNode a b → TwinNode (prune p a) (prune p b)
  | .text _, _, .text t => by rw [prune]; exact .text t
  | .comment _, _, .comment t => by rw [prune]; exact .comment t
  | .cdata _, _, .cdata t => by rw [prune]; exact .cdata t
  | .element ⟨_, _, _, _, _, _⟩, _, .element (.mk h1 h2 h3) => by
    rw [prune, prune]
    exact .element (.mk h1 h2 (twin_pruneL hp h3))
theorem twin_pruneL {p : Node → Bool} (hp : ∀ n m, TwinNode n m → p n = p m) : ∀ {a b : List Node}, TwinList a b → TwinList (pruneL p a) (pruneL p b)
  | [], _, .nil => .nil
  | _ :: _, _, .cons h1 h2 => by
    rw [pruneL, pruneL, hp _ _ h1]
    split
    · exact twin_pruneL hp h2
    · exact .cons (twin_prune hp h1) (twin_pruneL hp h2)
end

theorem twinList_split {A B m : List Node} {c : Element} (h : TwinList (A ++ .element c :: B) m) :
    ∃ A' c' B', m = A' ++ .element c' :: B' ∧ TwinList A A' ∧ TwinElement c c' ∧ TwinList B B' := by
  induction A generalizing m with
  | nil =>
    cases h with
    | cons h1 h2 => cases h1 with | element he => exact ⟨[], _, _, rfl, .nil, he, h2⟩
  | cons x A ih =>
    cases h with
    | cons h1 h2 =>
      obtain ⟨A', c', B', rfl, h3, h4, h5⟩ := ih h2
      exact ⟨_ :: A', c', B', rfl, .cons h1 h3, h4, h5⟩

theorem agree_removeElement {a b : Element} (h : TwinElement a b) (k : Nat) :
    Agree (fun e e' => e = e') TwinElement (a.removeElement k >>= fun r => pure r.2) (b.removeElement k >>= fun r => pure r.2) := by
  have hc := (twin_parts h).2.2.2.2.2
  have hl := each_length (each_elements (same_of_twinList hc))
  by_cases hk : k < (a.children.filterMap element?).length
  · obtain ⟨A, c, B, h1, h2, h3⟩ := removeElement_ok a k hk
    obtain ⟨A', c', B', h1', h2', h3'⟩ := removeElement_ok b k (by omega)
    rw [h1] at hc
    obtain ⟨A2, c2, B2, h4, h5, h6, h7⟩ := twinList_split hc
    have h8 := each_length (each_elements (same_of_twinList h5))
    obtain ⟨rfl, rfl, rfl⟩ := element_split_unique (h4.symm.trans h1') (by omega)
    rw [h3, h3']
    exact .ok (twin_children h (twinList_append h5 h7))
  · rw [removeElement_err a k (by omega), removeElement_err b k (by omega), hl]
    exact .err rfl

theorem agree_remove {a b : Element} (h : TwinElement a b) (i : Nat) :
    Agree (fun e e' => e = e') TwinElement (a.remove i >>= fun r => pure r.2) (b.remove i >>= fun r => pure r.2) := by
  have hc := (twin_parts h).2.2.2.2.2
  rw [remove_eq, remove_eq, twinList_length hc]
  rcases twinList_getElem hc i with ⟨h1, h2⟩ | ⟨x, y, h1, h2, -⟩
  · rw [h1, h2]; exact .err rfl
  · rw [h1, h2]; exact .ok (twin_children h (twinList_eraseIdx hc i))

theorem agree_setAttr {a b : Element} (h : TwinElement a b) (k v : Str) : Agree (fun e e' => e = e') TwinElement (a.setAttr k v) (b.setAttr k v) := by
  unfold ElementF.setAttr checkAttrName
  by_cases hv : validName k
  · simp only [if_pos hv]
    exact .ok (twin_attrs h (shuffle_iff.2 fun k' => by rw [SMap.get_insert, SMap.get_insert, (twin_parts h).2.2.2.1.get]))
  · simp only [if_neg hv]
    exact .err rfl

theorem allowed_call {c c' : Call} (hc : TwinCall c c') : ∀ {a b : Element}, TwinElement a b → Allowed (fun e e' => e = e') TwinElement (c.run a) (c'.runAny b) := by
  induction hc with
  | setAttr k v => exact fun h => allowed_of (agree_setAttr h k v)
  | removeAttr k =>
    exact fun h => allowed_pure (twin_attrs h (shuffle_iff.2 fun k' => by rw [SMap.get_remove, SMap.get_remove, (twin_parts h).2.2.2.1.get]))
  | clearAttributes => exact fun h => allowed_pure (twin_attrs h (.refl _))
  | setText t => exact fun h => allowed_append (twin_children h .nil) (.text t)
  | clearChildren => exact fun h => allowed_pure (twin_children h .nil)
  | append hn => exact fun h => allowed_append h hn
  | appendAll hl => exact fun h => allowed_appendAll h hl
  | insert i hn => exact fun h => allowed_insert h hn i
  | remove i => exact fun h => allowed_of (agree_remove h i)
  | removeElement i => exact fun h => allowed_of (agree_removeElement h i)
  | removeElementsByName n =>
    intro a b h
    refine allowed_of ?_
    simp only [Call.run, ElementF.removeElementsByName, removeElements_eq]
    exact .ok (twin_children h (twinList_drop_p (twin_elem fun x y hxy => by rw [(twin_parts hxy).1]) (twin_parts h).2.2.2.2.2))
  | removeBy hp =>
    intro a b h
    refine allowed_of ?_
    simp only [Call.run, removeBy_eq]
    exact .ok (twin_children h (twinList_drop_p hp (twin_parts h).2.2.2.2.2))
  | removeAll hp =>
    intro a b h
    refine allowed_of ?_
    simp only [Call.run, removeAll_eq]
    exact .ok (twin_children h (twin_pruneL hp (twin_parts h).2.2.2.2.2))
  | removeElements hp =>
    intro a b h
    refine allowed_of ?_
    simp only [Call.run, removeElements_eq]
    exact .ok (twin_children h (twinList_drop_p (twin_elem hp) (twin_parts h).2.2.2.2.2))
  | removeAllElements hp =>
    intro a b h
    refine allowed_of ?_
    simp only [Call.run, removeAllElements_eq]
    exact .ok (twin_children h (twin_pruneL (twin_elem hp) (twin_parts h).2.2.2.2.2))
  | @inChild i c c' hc ih =>
    intro a b h
    have hl := (twin_parts h).2.2.2.2.2
    unfold Call.run Call.runAny
    rcases twinList_getElem hl i with ⟨h1, h2⟩ | ⟨x, y, h1, h2, h3⟩
    · rw [h1, h2]; exact allowed_pure h
    · rw [h1, h2]
      cases h3 with
      | element he => exact allowed_bind (ih he) fun k k' hk => allowed_pure (twin_children h (twinList_set hl i (.element hk)))
      | _ => exact allowed_pure h

theorem allowed_calls {l l' : List Call} (hl : TwinCalls l l') : ∀ {a b : Element}, TwinElement a b → Allowed (fun e e' => e = e') TwinElement (runCalls l a) (runCallsAny l' b) := by
  induction hl with
  | nil => exact fun h => allowed_pure h
  | cons hc _ ih => exact fun h => allowed_bind (allowed_call hc h) fun _ _ h => ih h

theorem has_call : ∀ (c : Call) (e : Element), (c.runAny e).has (c.run e)
  | .setText _, _ => has_append _ _
  | .append _, _ => has_append _ _
  | .appendAll _, _ => has_appendAll _ _
  | .insert _ _, _ => has_insert _ _ _
  | .inChild i c, e => by
    unfold Call.run Call.runAny
    cases e.children[i]? with
    | none => rfl
    | some n =>
      cases n with
      | element k => exact has_bind (has_call c k) fun _ _ => has_pure _
      | _ => rfl
  | .setAttr _ _, _ => rfl
  | .removeAttr _, _ => rfl
  | .clearAttributes, _ => rfl
  | .clearChildren, _ => rfl
  | .remove _, _ => rfl
  | .removeElement _, _ => rfl
  | .removeElementsByName _, _ => rfl
  | .removeBy _, _ => rfl
  | .removeAll _, _ => rfl
  | .removeElements _, _ => rfl
  | .removeAllElements _, _ => rfl

theorem has_calls : ∀ (l : List Call) (e : Element), (runCallsAny l e).has (runCalls l e)
  | [], _ => rfl
  | _ :: l, _ => has_bind (has_call _ _) fun _ _ => has_calls l _

theorem twinCall_refl {c c' : Call} (h : TwinCall c c') : TwinCall c c := by
  induction h with
  | append _ => exact .append (twinNode_refl _)
  | appendAll _ => exact .appendAll (twinList_refl _)
  | insert i _ => exact .insert i (twinNode_refl _)
  | removeBy h => exact .removeBy h
  | removeAll h => exact .removeAll h
  | removeElements h => exact .removeElements h
  | removeAllElements h => exact .removeAllElements h
  | inChild i _ ih => exact .inChild i ih
  | _ => constructor

theorem twinCalls_refl {l l' : List Call} (h : TwinCalls l l') : TwinCalls l l := by
  induction h with
  | nil => exact .nil
  | cons h _ ih => exact .cons (twinCall_refl h) ih

/-! ## what `Element::new` may report -/

/-- nothing after the first loop reports a bad attribute name -/
def NoBadName {α : Type} (m : Runs α) : Prop := ∀ n, ¬ m.has (.err (.invalidAttributeName n))

theorem noBadName_bind {α β : Type} {m : Runs α} {g : α → Runs β} (h : NoBadName m) (hg : ∀ a, NoBadName (g a)) : NoBadName (m >>= g) := by
  rintro n (⟨a, -, h2⟩ | ⟨e, h1, h2⟩ | ⟨-, h2⟩ | ⟨-, h2⟩)
  · exact hg a n h2
  · cases h2; exact h n h1
  · cases h2
  · cases h2

theorem noBadName_pure {α : Type} (a : α) : NoBadName (pure a : Runs α) := fun _ h => nomatch (h : _ = Res.ok a)

theorem noBadName_within {α : Type} {r : α → α → Prop} {a : α} {m : Runs α} {q : Err → Err → Prop} (h : Allowed q r (.ok a) m) : NoBadName m := fun _ hn => nomatch h _ hn

theorem noBadName_append (e : Element) (n : Node) : NoBadName (e.appendAny n) :=
  noBadName_within (q := fun e e' => e = e') (append_eq e n ▸ allowed_append (twinElement_refl e) (twinNode_refl n))

theorem noBadName_appendAll (e : Element) (l : List Node) : NoBadName (e.appendAllAny l) :=
  noBadName_within (q := fun e e' => e = e') (appendAll_eq e l ▸ allowed_appendAll (twinElement_refl e) (twinList_refl l))

theorem new_bad_name (name : Str) (text : Option Str) (A : SMap) (xmlns pfx : Option Str) (cs : Option (List Node)) (n : Str) :
    (ElementF.newAny name text (some A) xmlns pfx cs).has (.err (.invalidAttributeName n)) ↔
      validName name = true ∧ (A.get n).isSome = true ∧ validName n = false := by
  constructor
  · unfold ElementF.newAny
    rintro (⟨_, h1, h⟩ | ⟨e, h1, h2⟩ | ⟨-, h2⟩ | ⟨-, h2⟩)
    · have hv : validName name = true := by
        have h1 : Res.ok _ = checkElemName name := h1
        unfold checkElemName at h1
        split at h1
        · assumption
        · cases h1
      refine ⟨hv, ?_⟩
      rcases h with ⟨a, -, h⟩ | ⟨e, h1, h2⟩ | ⟨-, h2⟩ | ⟨-, h2⟩
      · exfalso
        refine noBadName_bind (noBadName_within (q := fun e e' => e = e') (allowed_context (Shuffle.refl a))) (fun c => noBadName_bind ?_ fun e => ?_) n h
        · cases text with
          | none => exact noBadName_pure _
          | some t => exact noBadName_append _ _
        · cases cs with
          | none => exact noBadName_pure _
          | some l => exact noBadName_appendAll _ _
      · cases h2
        rcases h1 with ⟨l, ⟨l', hl, hl'⟩, h3⟩ | ⟨e, ⟨_, _, hl'⟩, h2⟩ | ⟨-, h2⟩ | ⟨-, h2⟩
        · cases hl'
          have h3 : Res.err (Err.invalidAttributeName n) = checkAndCopy l SMap.empty := h3
          by_cases hb : ∃ kv ∈ l, validName kv.1 = false
          · obtain ⟨kv, h4, h5, h6⟩ := checkAndCopy_bad hb SMap.empty
            rw [h6] at h3
            cases h3
            exact ⟨by rw [SMap.get_eq_some.2 (hl.mem_iff.1 h4 : (kv.1, kv.2) ∈ A.entries)]; rfl, h5⟩
          · obtain ⟨m', h4, -⟩ := checkAndCopy_good (l := l) (fun kv hkv => by
              cases hv : validName kv.1 with
              | true => rfl
              | false => exact absurd ⟨kv, hkv, hv⟩ hb) (nodup_keys hl) SMap.empty
            rw [h4] at h3
            cases h3
        · cases hl'
        · cases h2
        · cases h2
      · cases h2
      · cases h2
    · cases h2
      have h1 : Res.err _ = checkElemName name := h1
      unfold checkElemName at h1
      split at h1 <;> cases h1
    · cases h2
    · cases h2
  · rintro ⟨h1, h2, h3⟩
    obtain ⟨v, hv⟩ := Option.isSome_iff_exists.1 h2
    refine .inl ⟨(), ?_, .inr (.inl ⟨_, .inl ⟨(n, v) :: A.entries.erase (n, v), ⟨_, ?_, rfl⟩, ?_⟩, rfl⟩)⟩
    · show Res.ok () = checkElemName name
      unfold checkElemName; rw [if_pos h1]
    · exact (List.perm_cons_erase (SMap.get_eq_some.1 hv)).symm
    · show Res.err _ = checkAndCopy _ _
      rw [checkAndCopy, checkAttrName, h3]; rfl

end KissXml
