import Verif.Model.Compile
import Verif.Proofs.CostUpper
/-!
# The parser that counts compilations gives the same results
-/
namespace KissXml
open Run

@[simp] theorem out_pattern : pattern.out = .ok () := rfl
@[simp] theorem count_pattern : pattern.count = 1 := rfl

@[simp] theorem comp_realText (s : Str) : (realTextComp s).out = realText s := by
  unfold realTextComp
  simp only [out_bind, out_pattern, Res.bind_ok, out_free]

theorem comp_attrs (l : List (Str × Str)) : (checkAttrsComp l).out =
    match l.find? (fun kv => !validName kv.1) with
    | some kv => .err (.invalidAttributeName kv.1)
    | none => .ok () := by
  induction l with
  | nil => rfl
  | cons kv l ih =>
    unfold checkAttrsComp
    simp only [out_bind, out_pattern, Res.bind_ok, out_free, ih, checkAttrName, List.find?_cons]
    cases validName kv.1 <;> rfl

@[simp] theorem comp_new (name : Str) (attrs : SMap) (x p : Option Str) :
    (newComp name attrs x p).out = ElementF.new name none (some attrs) x p none := by
  unfold newComp
  simp only [out_bind, out_pattern, Res.bind_ok, out_free, comp_attrs]
  unfold ElementF.new checkElemName
  cases validName name with
  | false => rfl
  | true =>
    simp only [if_true, Res.bind_ok]
    cases attrs.entries.find? (fun kv => !validName kv.1) <;> rfl

@[simp] theorem comp_newElement (t x : Str) (i : Nat) (p : Option Element) :
    (parseNewElementComp t x i p).out = parseNewElement t x i p := by
  unfold parseNewElementComp parseNewElement
  cases quoteAwareSplit t with
  | nil => rfl
  | cons a l =>
    simp only [out_bind, out_free, out_attrs]
    refine bind_congr_r fun m => bind_congr_r fun n => ?_
    rcases p with _ | p
    · simp only [comp_new, out_pure, Res.pure_eq]
      congr 1
      split
      · simp only [out_bind, out_free]
        refine bind_congr_r fun ab => ?_
        split <;> rfl
      · rfl
    · simp only [comp_new, out_pure, Res.pure_eq]
      congr 1
      split
      · simp only [out_bind, out_free]
        refine bind_congr_r fun ab => ?_
        split <;> rfl
      · rfl

@[simp] theorem comp_prolog (x : Str) (fuel : Nat) (st : Prolog) : (prologLoopComp x fuel st).out = prologLoop x fuel st := by
  induction fuel generalizing st with
  | zero => rfl
  | succ fuel ih =>
    unfold prologLoopComp prologLoop
    simp only [out_bind, out_free]
    refine bind_congr_r fun a => ?_
    rcases a with ⟨_ | s, _ | e⟩
    · rfl
    · rfl
    · rfl
    · simp only [out_bind, out_free, comp_realText]
      refine bind_congr_r fun t => bind_congr_r fun o => ?_
      split
      · rfl
      · simp only [out_bind, out_free]
        refine bind_congr_r fun g => ?_
        split
        · split
          · rfl
          · simp only [out_bind, out_free, ih]
        · split
          · simp only [out_bind, out_free, ih]
          · split
            · simp only [out_bind, out_free, ih]
            · split
              · exact ih _
              · split
                · rfl
                · simp only [out_bind, out_free, out_pure, Res.pure_eq, out_pattern, Res.bind_ok]

@[simp] theorem comp_handleTag (x : Str) (i : Nat) (g : Str) (t : ParseTree) : (handleTagComp x i g t).out = handleTag x i g t := by
  unfold handleTagComp
  split
  · rfl
  · rename_i h
    rw [Bool.not_eq_true] at h
    have h3 : startsWith g c%"<!--" = false := by
      cases hh : startsWith g c%"<!--" with
      | false => rfl
      | true => rw [startsWith_trans' hh (by decide)] at h; cases h
    have h4 : startsWith g c%"<![CDATA[" = false := by
      cases hh : startsWith g c%"<![CDATA[" with
      | false => rfl
      | true => rw [startsWith_trans' hh (by decide)] at h; cases h
    unfold handleTag
    simp only [h, h3, h4, Bool.false_and, out_bind, out_free, out_pattern, Res.bind_ok]
    refine bind_congr_r fun d => bind_congr_r fun _ => ?_
    split
    · simp only [out_bind, out_free]
      refine bind_congr_r fun p => ?_
      cases p with
      | none => rfl
      | some a => simp only; split <;> rfl
    · simp only [out_bind, out_free, comp_newElement]
      refine bind_congr_r fun p => bind_congr_r fun e => ?_
      split <;> rfl

@[simp] theorem comp_elements (x : Str) (b : Bool) (fuel : Nat) (sp : Nat × Nat) (t : ParseTree) :
    (elementLoopComp x b fuel sp t).out = elementLoop x b fuel sp t := by
  induction fuel generalizing sp t with
  | zero => rfl
  | succ fuel ih =>
    unfold elementLoopComp elementLoop
    simp only [out_bind, out_free]
    refine bind_congr_r fun a => ?_
    rcases a with ⟨_ | s, _ | e⟩
    · rfl
    · rfl
    · rfl
    · simp only
      split
      · rfl
      · simp only [out_bind, out_free, comp_realText, comp_handleTag, ih]
        refine bind_congr_r fun t => bind_congr_r fun o => ?_
        cases o <;> rfl

theorem comp_dropOne (n : Node) (i : Nat) (l : List Node) : (dropOneComp n i l).out =
    (if n.isText then do
      let t ← expect n.asText
      if textIsWhitespace t then do
        let (_, l) ← Res.unwrap (vecRemove l i)
        pure l
      else pure l
    else pure l) := by
  unfold dropOneComp
  split
  · simp only [out_bind, out_free, out_pattern, Res.bind_ok]
    refine bind_congr_r fun t => ?_
    split
    · simp only [out_bind, out_free, out_pure, Res.pure_eq]
    · rfl
  · rfl

@[simp] theorem comp_dropWs (i : Nat) (l : List Node) : (dropWsComp i l).out = dropWsLoop i l := by
  induction i generalizing l with
  | zero =>
    unfold dropWsComp dropWsLoop
    simp only [out_bind, out_free]
    refine bind_congr_r fun n => ?_
    exact congrArg (· >>= _) (comp_dropOne n 0 l)
  | succ i ih =>
    unfold dropWsComp dropWsLoop
    simp only [out_bind, out_free, ih]
    refine bind_congr_r fun n => ?_
    exact congrArg (· >>= _) (comp_dropOne n (i + 1) l)

@[simp] theorem comp_cleanup (l : List Node) : (cleanupTextNodesComp l).out = cleanupTextNodes l := by
  unfold cleanupTextNodesComp cleanupTextNodes
  split
  · rfl
  · simp only [out_bind, out_merge]
    refine bind_congr_r fun l => ?_
    split
    · simp
    · rfl

@[simp] theorem comp_append (e : Element) (n : Node) : (appendComp e n).out = e.append n := by
  unfold appendComp ElementF.append
  simp only [out_bind, out_apply, Res.bind_ok, comp_cleanup]
  rfl

@[simp] theorem comp_toDomLoop (i : Nat) (d : List (Nat × PTNode)) : (toDomLoopComp i d).out = ParseTree.toDomLoop i d := by
  induction i generalizing d with
  | zero => rfl
  | succ i ih =>
    unfold toDomLoopComp ParseTree.toDomLoop
    simp only [out_bind, out_free, out_rounds, Res.bind_ok, comp_append, ih]

@[simp] theorem comp_toDom (t : ParseTree) : (toDomComp t).out = t.toDom := by
  unfold toDomComp ParseTree.toDom
  split
  · rfl
  · simp only [out_bind, out_free, comp_toDomLoop]
    rfl

theorem comp_parse (x : Str) : (parseStrComp x).out = parseStr x := by
  unfold parseStrComp parseStr
  simp only [out_bind, out_free, comp_prolog, comp_newElement, comp_elements]
  refine bind_congr_r fun pro => bind_congr_r fun g => bind_congr_r fun s => bind_congr_r fun e => bind_congr_r fun t =>
    bind_congr_r fun t => bind_congr_r fun t => ?_
  split
  · rfl
  · simp only [out_bind, comp_toDom]
    rfl

end KissXml
