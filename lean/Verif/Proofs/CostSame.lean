import Verif.Proofs.Cost
/-!
# The counted parser gives the same results
-/
namespace KissXml
open Run

@[simp] theorem out_bind {α β : Type} (r : Run α) (f : α → Run β) : (r >>= f).out = (r.out >>= fun a => (f a).out) := by
  show (Run.bind r f).out = _
  unfold Run.bind
  rcases r with ⟨_ | _ | _ | _, n⟩ <;> rfl
@[simp] theorem out_pure {α : Type} (a : α) : (pure a : Run α).out = .ok a := rfl
@[simp] theorem out_free {α : Type} (r : R α) : (free r).out = r := rfl
@[simp] theorem out_rounds (n : Nat) : (rounds n).out = .ok () := rfl

@[simp] theorem out_unescape (s : Str) : (unescapeRun s).out = unescape s := unescapeLoopC_same _ _ _

@[simp] theorem out_nextTag (x : Str) (n : Nat) : (nextTagRun x n).out = Res.unwrap (nextTag x n) := by
  rw [← nextTagC_same]
  unfold nextTagRun
  rcases nextTagC x n with _ | ⟨r, m⟩ <;> rfl

@[simp] theorem out_realText (s : Str) : (realTextRun s).out = realText s := by
  unfold realTextRun realText
  split
  · rfl
  · simp

theorem bind_congr_r {α β : Type} {r : R α} {f g : α → R β} (h : ∀ a, f a = g a) : (r >>= f) = (r >>= g) := by
  rw [funext h]

@[simp] theorem out_attrs (x : Str) (i : Nat) (l : List Str) (m : SMap) : (parseAttrsRun x i l m).out = parseAttrs x i l m := by
  induction l generalizing m with
  | nil => rfl
  | cons kv l ih =>
    unfold parseAttrsRun parseAttrs
    split
    · rfl
    · simp only [out_bind, out_free]
      refine bind_congr_r fun a => ?_
      obtain ⟨k, v⟩ := a
      simp only
      split
      · rfl
      · split
        · rfl
        · simp only [out_bind, out_free, out_unescape, ih]

@[simp] theorem out_context (e : Element) (d : Option Str) (c : Option SMap) :
    (setNamespaceContextRun e d c).out = .ok (e.setNamespaceContext d c) := rfl

@[simp] theorem out_newElement (t x : Str) (i : Nat) (p : Option Element) :
    (parseNewElementRun t x i p).out = parseNewElement t x i p := by
  unfold parseNewElementRun parseNewElement
  simp only [out_bind, out_rounds, Res.bind_ok]
  cases quoteAwareSplit t with
  | nil => rfl
  | cons a l =>
    simp only [out_bind, out_free, out_attrs]
    refine bind_congr_r fun m => bind_congr_r fun n => ?_
    rcases p with _ | p
    · simp only [out_context]
      congr 1
      split
      · simp only [out_bind, out_free]
        refine bind_congr_r fun ab => ?_
        split <;> rfl
      · rfl
    · simp only [out_context]
      congr 1
      split
      · simp only [out_bind, out_free]
        refine bind_congr_r fun ab => ?_
        split <;> rfl
      · rfl

@[simp] theorem out_prolog (x : Str) (fuel : Nat) (st : Prolog) : (prologLoopRun x fuel st).out = prologLoop x fuel st := by
  induction fuel generalizing st with
  | zero => rfl
  | succ fuel ih =>
    unfold prologLoopRun prologLoop
    simp only [out_bind, out_nextTag]
    refine bind_congr_r fun a => ?_
    rcases a with ⟨_ | s, _ | e⟩
    · rfl
    · rfl
    · rfl
    · simp only [out_bind, out_free, out_realText]
      refine bind_congr_r fun t => bind_congr_r fun o => ?_
      split
      · rfl
      · simp only [out_bind, out_free]
        refine bind_congr_r fun g => ?_
        split
        · split
          · rfl
          · simp only [out_bind, out_free, ih]
        · split
          · simp only [out_bind, out_free, ih]
          · split
            · simp only [out_bind, out_free, ih]
            · split
              · exact ih _
              · split
                · rfl
                · simp only [out_bind, out_free, out_pure, Res.pure_eq]

theorem startsWith_trans' {a b s : Str} (h : startsWith s b = true) (hab : a <+: b) : startsWith s a = true := by
  have := List.isPrefixOf_iff_prefix.1 h
  exact List.isPrefixOf_iff_prefix.2 (hab.trans this)

@[simp] theorem out_handleTag (x : Str) (i : Nat) (g : Str) (t : ParseTree) : (handleTagRun x i g t).out = handleTag x i g t := by
  unfold handleTagRun
  split
  · rfl
  · rename_i h
    simp only [Bool.or_eq_true, not_or, Bool.not_eq_true] at h
    obtain ⟨h1, h2⟩ := h
    have h3 : startsWith g c%"<!--" = false := by
      cases hh : startsWith g c%"<!--" with
      | false => rfl
      | true => rw [startsWith_trans' hh (by decide)] at h1; cases h1
    have h4 : startsWith g c%"<![CDATA[" = false := by
      cases hh : startsWith g c%"<![CDATA[" with
      | false => rfl
      | true => rw [startsWith_trans' hh (by decide)] at h1; cases h1
    unfold handleTag
    simp only [h1, h2, h3, h4, Bool.false_and, out_bind, out_free, out_newElement]
    refine bind_congr_r fun d => bind_congr_r fun _ => bind_congr_r fun p => bind_congr_r fun e => ?_
    split <;> rfl

@[simp] theorem out_elements (x : Str) (b : Bool) (fuel : Nat) (sp : Nat × Nat) (t : ParseTree) :
    (elementLoopRun x b fuel sp t).out = elementLoop x b fuel sp t := by
  induction fuel generalizing sp t with
  | zero => rfl
  | succ fuel ih =>
    unfold elementLoopRun elementLoop
    simp only [out_bind, out_nextTag]
    refine bind_congr_r fun a => ?_
    rcases a with ⟨_ | s, _ | e⟩
    · rfl
    · rfl
    · rfl
    · simp only
      split
      · rfl
      · simp only [out_bind, out_free, out_realText, out_handleTag, ih]
        refine bind_congr_r fun t => bind_congr_r fun o => ?_
        cases o <;> rfl

@[simp] theorem out_merge (i : Nat) (l : List Node) : (mergeTextRun i l).out = mergeTextLoop i l := by
  induction i generalizing l with
  | zero => rfl
  | succ i ih =>
    unfold mergeTextRun mergeTextLoop
    simp only [out_bind, out_free, out_rounds, Res.bind_ok]
    refine bind_congr_r fun a => bind_congr_r fun b => ?_
    split
    · simp only [out_bind, out_free, ih]
    · exact ih _

@[simp] theorem out_dropWs (i : Nat) (l : List Node) : (dropWsRun i l).out = dropWsLoop i l := by
  induction i generalizing l with
  | zero =>
    unfold dropWsRun dropWsLoop
    simp only [out_bind, out_free, out_rounds, Res.bind_ok]
    rfl
  | succ i ih =>
    unfold dropWsRun dropWsLoop
    simp only [out_bind, out_free, out_rounds, Res.bind_ok, ih]

@[simp] theorem out_cleanup (l : List Node) : (cleanupTextNodesRun l).out = cleanupTextNodes l := by
  unfold cleanupTextNodesRun cleanupTextNodes
  split
  · rfl
  · simp only [out_bind, out_merge]
    refine bind_congr_r fun l => ?_
    split
    · simp
    · rfl

@[simp] theorem out_apply (d : Option Str) (c : SMap) (n : Node) : (applyXmlnsContextRun d c n).out = .ok (applyXmlnsContext d c n) := by
  cases n <;> rfl

@[simp] theorem out_append (e : Element) (n : Node) : (appendRun e n).out = e.append n := by
  unfold appendRun ElementF.append
  simp only [out_bind, out_apply, Res.bind_ok, out_cleanup]
  rfl

@[simp] theorem out_toDomLoop (i : Nat) (d : List (Nat × PTNode)) : (toDomLoopRun i d).out = ParseTree.toDomLoop i d := by
  induction i generalizing d with
  | zero => rfl
  | succ i ih =>
    unfold toDomLoopRun ParseTree.toDomLoop
    simp only [out_bind, out_free, out_rounds, Res.bind_ok, out_append, ih]

@[simp] theorem out_toDom (t : ParseTree) : (toDomRun t).out = t.toDom := by
  unfold toDomRun ParseTree.toDom
  split
  · rfl
  · simp only [out_bind, out_free, out_toDomLoop]
    rfl

theorem out_parse (x : Str) : (parseStrRun x).out = parseStr x := by
  unfold parseStrRun parseStr
  simp only [out_bind, out_free, out_prolog, out_newElement, out_elements]
  refine bind_congr_r fun pro => bind_congr_r fun g => bind_congr_r fun s => bind_congr_r fun e => bind_congr_r fun t =>
    bind_congr_r fun t => bind_congr_r fun t => ?_
  split
  · rfl
  · simp only [out_bind, out_toDom]
    rfl

end KissXml
