import Verif.Model.Foreign
import Verif.Spec.Foreign
/-!
# Foreign nodes are handled as comments
-/
namespace KissXml
open Spec

variable {code : Foreign → Str}

/-! ## outcomes -/

theorem alike_bind {α β α' β' : Type} {r : α → α' → Prop} {r' : β → β' → Prop} {x : R α} {y : R α'} {f : α → R β} {g : α' → R β'}
    (h : SameEnd r x y) (hf : ∀ a b, r a b → SameEnd r' (f a) (g b)) : SameEnd r' (x >>= f) (y >>= g) := by
  cases h with
  | ok hab => exact hf _ _ hab
  | err e => exact .err e
  | panic => exact .panic
  | diverge => exact .diverge

theorem alike_step {α β β' : Type} {r' : β → β' → Prop} {x : R α} {f : α → R β} {g : α → R β'} (hf : ∀ a, SameEnd r' (f a) (g a)) :
    SameEnd r' (x >>= f) (x >>= g) := by
  cases x with
  | ok a => exact hf a
  | err e => exact .err e
  | panic => exact .panic
  | diverge => exact .diverge

theorem alike_unwrap {α α' : Type} {r : α → α' → Prop} {x : Option α} {y : Option α'}
    (h : (x = none ∧ y = none) ∨ ∃ a b, x = some a ∧ y = some b ∧ r a b) : SameEnd r (Res.unwrap x : R α) (Res.unwrap y) := by
  rcases h with ⟨rfl, rfl⟩ | ⟨a, b, rfl, rfl, h⟩
  · exact .panic
  · exact .ok h

/-! ## nodes -/

theorem like_isElement {n : XNode} {m : Node} (h : LikeNode code n m) : n.isElement = m.isElement := by
  cases h with
  | foreign h => exact h.1
  | _ => rfl
theorem like_isText {n : XNode} {m : Node} (h : LikeNode code n m) : n.isText = m.isText := by
  cases h with
  | foreign h => exact h.2.1
  | _ => rfl

/-- casts whose failure is a panic -/
theorem alike_asElement {n : XNode} {m : Node} (h : LikeNode code n m) : SameEnd (LikeElement code) (Res.unwrap n.asElement) (expect m.asElement) := by
  cases h with
  | element h => exact .ok h
  | _ => exact .panic
theorem alike_asText {n : XNode} {m : Node} (h : LikeNode code n m) : SameEnd (fun a b => a = b) (Res.unwrap n.asText) (expect m.asText) := by
  cases h with
  | text t => exact .ok rfl
  | _ => exact .panic

/-! ## elements -/

theorem like_parts {a : XElement} {b : Element} (h : LikeElement code a b) :
    a.name = b.name ∧ a.xmlns = b.xmlns ∧ a.pfx = b.pfx ∧ a.attrs = b.attrs ∧ a.ctx = b.ctx ∧ LikeList code a.children b.children := by
  cases h with | mk h => exact ⟨rfl, rfl, rfl, rfl, rfl, h⟩

theorem like_of_parts {a : XElement} {b : Element} (h1 : a.name = b.name) (h2 : a.xmlns = b.xmlns) (h3 : a.pfx = b.pfx) (h4 : a.attrs = b.attrs)
    (h5 : a.ctx = b.ctx) (h6 : LikeList code a.children b.children) : LikeElement code a b := by
  cases a; cases b
  simp only at h1 h2 h3 h4 h5 h6
  subst h1 h2 h3 h4 h5
  exact .mk h6

theorem like_children {a : XElement} {b : Element} (h : LikeElement code a b) {l : List XNode} {m : List Node} (hl : LikeList code l m) :
    LikeElement code { a with children := l } { b with children := m } := by
  cases h; exact .mk hl

theorem like_children' {a : XElement} {b : Element} (h : LikeElement code a b) {l : List XNode} {m : List Node} (hl : LikeList code l m) :
    LikeElement code { a with children := l, ctx := b.ctx } { b with children := m } := by
  cases h; exact .mk hl

theorem like_default {a : XElement} {b : Element} (h : LikeElement code a b) : XElement.defaultNamespace a = b.defaultNamespace := by cases h; rfl
theorem like_tagName {a : XElement} {b : Element} (h : LikeElement code a b) : XElement.tagName a = b.tagName := by cases h; rfl

theorem like_setContext {a : XElement} {b : Element} (h : LikeElement code a b) (d : Option Str) (ps : Option SMap) :
    LikeElement code (XElement.setNamespaceContext a d ps) (b.setNamespaceContext d ps) := by
  cases h with
  | @mk n x p at' c cs cs' h =>
    unfold XElement.setNamespaceContext ElementF.setNamespaceContext XElement.defaultNamespace ElementF.defaultNamespace
    cases p <;> cases x <;> cases ps <;> cases d <;> first | exact .mk h | skip

theorem alike_apply {n : XNode} {m : Node} (h : LikeNode code n m) (d : Option Str) (c : SMap) :
    ∃ n', XElement.applyXmlnsContext d c n = .ok n' ∧ LikeNode code n' (applyXmlnsContext d c m) := by
  cases h with
  | element h => exact ⟨_, rfl, .element (like_setContext h d (some c))⟩
  | foreign h =>
    refine ⟨_, ?_, .foreign h⟩
    simp [XElement.applyXmlnsContext, XNode.isElement, h.1]
  | text t => exact ⟨_, rfl, .text t⟩
  | comment t => exact ⟨_, rfl, .comment t⟩
  | cdata t => exact ⟨_, rfl, .cdata t⟩

/-! ## lists -/

theorem likeList_length {l : List XNode} {m : List Node} (h : LikeList code l m) : l.length = m.length := by
  induction l generalizing m with
  | nil => cases h; rfl
  | cons a l ih => cases h with | cons _ h => simp [ih h]

theorem likeList_append {a c : List XNode} {b d : List Node} (h : LikeList code a b) (h' : LikeList code c d) : LikeList code (a ++ c) (b ++ d) := by
  induction a generalizing b with
  | nil => cases h; exact h'
  | cons x a ih => cases h with | cons hx h => exact .cons hx (ih h)

theorem likeList_getElem {l : List XNode} {m : List Node} (h : LikeList code l m) (i : Nat) :
    (l[i]? = none ∧ m[i]? = none) ∨ ∃ a b, l[i]? = some a ∧ m[i]? = some b ∧ LikeNode code a b := by
  induction l generalizing m i with
  | nil => cases h; exact .inl ⟨rfl, rfl⟩
  | cons x l ih =>
    cases h with
    | cons hx h =>
      cases i with
      | zero => exact .inr ⟨_, _, rfl, rfl, hx⟩
      | succ i => simpa using ih h i

theorem likeList_set {l : List XNode} {m : List Node} (h : LikeList code l m) (i : Nat) {a : XNode} {b : Node} (hab : LikeNode code a b) :
    LikeList code (l.set i a) (m.set i b) := by
  induction l generalizing m i with
  | nil => cases h; exact .nil
  | cons x l ih =>
    cases h with
    | cons hx h =>
      cases i with
      | zero => exact .cons hab h
      | succ i => exact .cons hx (ih h i)

theorem likeList_eraseIdx {l : List XNode} {m : List Node} (h : LikeList code l m) (i : Nat) : LikeList code (l.eraseIdx i) (m.eraseIdx i) := by
  induction l generalizing m i with
  | nil => cases h; exact .nil
  | cons x l ih =>
    cases h with
    | cons hx h =>
      cases i with
      | zero => exact h
      | succ i => exact .cons hx (ih h i)

theorem likeList_insertIdx {l : List XNode} {m : List Node} (h : LikeList code l m) (i : Nat) {a : XNode} {b : Node} (hab : LikeNode code a b) :
    LikeList code (l.insertIdx i a) (m.insertIdx i b) := by
  induction l generalizing m i with
  | nil =>
    cases h
    cases i with
    | zero => exact .cons hab .nil
    | succ i => exact .nil
  | cons x l ih =>
    cases h with
    | cons hx h =>
      cases i with
      | zero => exact .cons hab (.cons hx h)
      | succ i => exact .cons hx (ih h i)

theorem likeList_getLast {l : List XNode} {m : List Node} (h : LikeList code l m) :
    (l.getLast? = none ∧ m.getLast? = none) ∨ ∃ a b, l.getLast? = some a ∧ m.getLast? = some b ∧ LikeNode code a b := by
  rw [List.getLast?_eq_getElem?, List.getLast?_eq_getElem?, likeList_length h]
  exact likeList_getElem h _

theorem alike_vecRemove {l : List XNode} {m : List Node} (h : LikeList code l m) (i : Nat) :
    SameEnd (fun (x : XNode × List XNode) (y : Node × List Node) => LikeNode code x.1 y.1 ∧ LikeList code x.2 y.2)
      (Res.unwrap (vecRemove l i)) (Res.unwrap (vecRemove m i)) := by
  unfold vecRemove
  rcases likeList_getElem h i with ⟨h1, h2⟩ | ⟨a, b, h1, h2, h3⟩ <;> rw [h1, h2]
  · exact .panic
  · exact .ok ⟨h3, likeList_eraseIdx h i⟩

theorem alike_vecInsert {l : List XNode} {m : List Node} (h : LikeList code l m) (i : Nat) {a : XNode} {b : Node} (hab : LikeNode code a b) :
    SameEnd (LikeList code) (Res.unwrap (vecInsert l i a)) (Res.unwrap (vecInsert m i b)) := by
  unfold vecInsert
  rw [likeList_length h]
  split
  · exact .ok (likeList_insertIdx h i hab)
  · exact .panic

theorem likeList_any {l : List XNode} {m : List Node} (h : LikeList code l m) {p : XNode → Bool} {q : Node → Bool}
    (hp : ∀ n n', LikeNode code n n' → p n = q n') : l.any p = m.any q := by
  induction l generalizing m with
  | nil => cases h; rfl
  | cons x l ih => cases h with | cons hx h => simp [hp _ _ hx, ih h]

theorem likeList_elemIndices {l : List XNode} {m : List Node} (h : LikeList code l m) (i : Nat) :
    XElement.elemIndices i l = ElementF.elemIndices i m := by
  induction l generalizing m i with
  | nil => cases h; rfl
  | cons x l ih =>
    cases h with
    | cons hx h => simp only [XElement.elemIndices, ElementF.elemIndices, like_isElement hx, ih h]

theorem likeList_elementIndices {l : List XNode} {m : List Node} (h : LikeList code l m) (i : Nat) :
    XElement.elemIndices i l = ElementF.elementIndices i m := by
  induction l generalizing m i with
  | nil => cases h; rfl
  | cons x l ih =>
    cases h with
    | cons hx h => simp only [XElement.elemIndices, ElementF.elementIndices, like_isElement hx, ih h]

/-! ## edits -/

theorem alike_merge (i : Nat) {l : List XNode} {m : List Node} (h : LikeList code l m) :
    SameEnd (LikeList code) (XElement.mergeTextLoop i l) (mergeTextLoop i m) := by
  induction i generalizing l m with
  | zero => exact .ok h
  | succ i ih =>
    unfold XElement.mergeTextLoop mergeTextLoop
    refine alike_bind (alike_unwrap (likeList_getElem h (i + 1))) fun b b' hb => ?_
    refine alike_bind (alike_unwrap (likeList_getElem h i)) fun f f' hf => ?_
    rw [like_isText hb, like_isText hf]
    split
    · refine alike_bind (alike_vecRemove h (i + 1)) fun x y hx => ?_
      refine alike_bind (alike_vecRemove hx.2 i) fun u v hu => ?_
      refine alike_bind (alike_asText hu.1) fun t t' ht => ?_
      refine alike_bind (alike_asText hx.1) fun s s' hs => ?_
      subst ht hs
      exact alike_bind (alike_vecInsert hu.2 i (.text _)) fun k k' hk => ih hk
    · exact ih h

theorem alike_drop (i : Nat) {l : List XNode} {m : List Node} (h : LikeList code l m) :
    SameEnd (LikeList code) (XElement.dropWsLoop i l) (dropWsLoop i m) := by
  induction i generalizing l m with
  | zero =>
    unfold XElement.dropWsLoop dropWsLoop
    refine alike_bind (alike_unwrap (likeList_getElem h 0)) fun b b' hb => ?_
    rw [like_isText hb]
    refine alike_bind ?_ fun k k' hk => .ok hk
    split
    · refine alike_bind (alike_asText hb) fun t t' ht => ?_
      subst ht
      split
      · exact alike_bind (alike_vecRemove h 0) fun x y hx => .ok hx.2
      · exact .ok h
    · exact .ok h
  | succ i ih =>
    unfold XElement.dropWsLoop dropWsLoop
    refine alike_bind (alike_unwrap (likeList_getElem h (i + 1))) fun b b' hb => ?_
    rw [like_isText hb]
    refine alike_bind (r := LikeList code) ?_ fun k k' hk => ih hk
    split
    · refine alike_bind (alike_asText hb) fun t t' ht => ?_
      subst ht
      split
      · exact alike_bind (alike_vecRemove h (i + 1)) fun x y hx => .ok hx.2
      · exact .ok h
    · exact .ok h

theorem alike_cleanup {l : List XNode} {m : List Node} (h : LikeList code l m) :
    SameEnd (LikeList code) (XElement.cleanupTextNodes l) (cleanupTextNodes m) := by
  unfold XElement.cleanupTextNodes cleanupTextNodes
  rw [likeList_length h]
  split
  · exact .ok h
  · refine alike_bind (alike_merge _ h) fun k k' hk => ?_
    rw [likeList_length hk]
    split
    · exact alike_drop _ hk
    · exact .panic

theorem alike_append {e : XElement} {e' : Element} (he : LikeElement code e e') {n : XNode} {n' : Node} (hn : LikeNode code n n') :
    SameEnd (LikeElement code) (XElement.append e n) (e'.append n') := by
  unfold XElement.append ElementF.append
  obtain ⟨m, h1, h2⟩ := alike_apply hn e'.defaultNamespace e'.ctx
  rw [like_default he, (like_parts he).2.2.2.2.1, h1]
  exact alike_bind (r := LikeList code) (alike_cleanup (likeList_append (like_parts he).2.2.2.2.2 (.cons h2 .nil))) fun k k' hk =>
    .ok (like_children' he hk)

theorem alike_applyAt (d : Option Str) (c : SMap) (is : List Nat) {l : List XNode} {m : List Node} (h : LikeList code l m) :
    SameEnd (LikeList code) (XElement.applyAt d c is l) (ElementF.applyAt d c is m) := by
  induction is generalizing l m with
  | nil => exact .ok h
  | cons i is ih =>
    unfold XElement.applyAt ElementF.applyAt
    refine alike_bind (alike_unwrap (likeList_getElem h i)) fun b b' hb => ?_
    obtain ⟨b2, h1, h2⟩ := alike_apply hb d c
    rw [h1]
    exact ih (likeList_set h i h2)

theorem alike_appendAll {e : XElement} {e' : Element} (he : LikeElement code e e') {l : List XNode} {l' : List Node} (hl : LikeList code l l') :
    SameEnd (LikeElement code) (XElement.appendAll e l) (e'.appendAll l') := by
  have hc := (like_parts he).2.2.2.2.2
  unfold XElement.appendAll ElementF.appendAll
  rw [like_default he, (like_parts he).2.2.2.2.1, likeList_length hc, likeList_elemIndices hl]
  exact alike_bind (alike_applyAt _ _ _ (likeList_append hc hl)) fun k k' hk =>
    alike_bind (alike_cleanup hk) fun k k' hk => .ok (like_children' he hk)

theorem alike_insert {e : XElement} {e' : Element} (he : LikeElement code e e') (i : Nat) {n : XNode} {n' : Node} (hn : LikeNode code n n') :
    SameEnd (LikeElement code) (XElement.insert e i n) (e'.insert i n') := by
  have hc := (like_parts he).2.2.2.2.2
  unfold XElement.insert ElementF.insert
  rw [like_default he, (like_parts he).2.2.2.2.1, likeList_length hc]
  split
  · exact .err _
  · refine alike_bind (alike_vecInsert hc i hn) fun k k' hk => ?_
    refine alike_bind (alike_unwrap (likeList_getLast hk)) fun b b' hb => ?_
    obtain ⟨b2, h1, h2⟩ := alike_apply hb e'.defaultNamespace e'.ctx
    rw [h1]
    refine alike_bind (r := LikeList code) ?_ fun k k' hk => .ok (like_children' he hk)
    rw [likeList_length hk]
    exact alike_cleanup (likeList_set hk _ h2)

theorem alike_remove {e : XElement} {e' : Element} (he : LikeElement code e e') (i : Nat) :
    SameEnd (fun (x : XNode × XElement) (y : Node × Element) => LikeNode code x.1 y.1 ∧ LikeElement code x.2 y.2) (XElement.remove e i) (e'.remove i) := by
  have hc := (like_parts he).2.2.2.2.2
  unfold XElement.remove ElementF.remove
  rw [likeList_length hc]
  split
  · exact .err _
  · exact alike_bind (alike_vecRemove hc i) fun x y hx => .ok ⟨hx.1, like_children he hx.2⟩

/-! ## removal by predicate -/

/-- predicates that answer alike and do not panic -/
def LikeTest (code : Foreign → Str) (p : XNode → R Bool) (p' : Node → Bool) : Prop := ∀ n n', LikeNode code n n' → p n = .ok (p' n')

theorem likeTest_pure {p : XNode → Bool} {p' : Node → Bool} (h : LikePred code p p') : LikeTest code (fun n => pure (p n)) p' :=
  fun n n' hn => congrArg Res.ok (h n n' hn)

theorem likeTest_elem {p : XElement → Bool} {p' : Element → Bool} (h : LikeElemPred code p p') :
    LikeTest code (XElement.elemPred p) (ElementF.elemPred p') := by
  intro n n' hn
  cases hn with
  | element he => exact congrArg Res.ok (h _ _ he)
  | foreign hf => simp [XElement.elemPred, XNode.isElement, hf.1, ElementF.elemPred, pure]
  | _ => rfl

theorem matchIndices_alike {p : XNode → R Bool} {p' : Node → Bool} (hp : LikeTest code p p') {l : List XNode} {m : List Node}
    (h : LikeList code l m) (i : Nat) : XElement.matchIndices p l i = ElementF.matchIndices p' m i := by
  induction i with
  | zero => rfl
  | succ i ih =>
    unfold XElement.matchIndices ElementF.matchIndices
    rcases likeList_getElem h i with ⟨h1, h2⟩ | ⟨a, b, h1, h2, h3⟩ <;> rw [h1, h2]
    · rfl
    · show (do let b ← p a; _) = _
      rw [hp _ _ h3, ih]
      rfl

theorem alike_removeIndices (is : List Nat) {l : List XNode} {m : List Node} (h : LikeList code l m) :
    SameEnd (LikeList code) (ElementF.removeIndices is l) (ElementF.removeIndices is m) := by
  induction is generalizing l m with
  | nil => exact .ok h
  | cons i is ih =>
    unfold ElementF.removeIndices
    exact alike_bind (alike_vecRemove h i) fun x y hx => ih hx.2

/-- results of removals -/
def LikeCount (code : Foreign → Str) (x : XElement × Nat) (y : Element × Nat) : Prop := LikeElement code x.1 y.1 ∧ x.2 = y.2

theorem alike_removeBy {p : XNode → R Bool} {p' : Node → Bool} (hp : LikeTest code p p') {e : XElement} {e' : Element} (he : LikeElement code e e') :
    SameEnd (LikeCount code) (XElement.removeBy e p) (e'.removeBy p') := by
  have hc := (like_parts he).2.2.2.2.2
  unfold XElement.removeBy ElementF.removeBy
  rw [likeList_length hc, matchIndices_alike hp hc]
  exact alike_step fun is => alike_bind (alike_removeIndices is hc) fun k k' hk => .ok ⟨like_children he hk, rfl⟩

theorem alike_removeElements {p : XElement → Bool} {p' : Element → Bool} (hp : LikeElemPred code p p') {e : XElement} {e' : Element}
    (he : LikeElement code e e') : SameEnd (LikeCount code) (XElement.removeElements e p) (e'.removeElements p') :=
  alike_removeBy (likeTest_elem hp) he

theorem alike_forChildElements {f : XElement → R (XElement × Nat)} {f' : Element → R (Element × Nat)}
    (hf : ∀ e e', LikeElement code e e' → SameEnd (LikeCount code) (f e) (f' e')) {l : List XNode} {m : List Node} (h : LikeList code l m) :
    SameEnd (fun x y => LikeList code x.1 y.1 ∧ x.2 = y.2) (XElement.forChildElements f l) (forChildElements f' m) := by
  induction l generalizing m with
  | nil => cases h; exact .ok ⟨.nil, rfl⟩
  | cons x l ih =>
    cases h with
    | cons hx h =>
      cases hx with
      | @element e _ he =>
        have h1 : XElement.forChildElements f (.element e :: l) =
          (f e >>= fun x => XElement.forChildElements f l >>= fun y => pure (.element x.1 :: y.1, x.2 + y.2)) := rfl
        rw [h1]
        refine alike_bind (hf _ _ he) fun a b hab => alike_bind (ih h) fun c d hcd => .ok ?_
        exact ⟨.cons (.element hab.1) hcd.1, by rw [hab.2, hcd.2]⟩
      | foreign hq =>
        unfold XElement.forChildElements forChildElements
        rw [if_neg (by simp [XNode.isElement, hq.1])]
        exact alike_bind (ih h) fun c d hcd => .ok ⟨.cons (.foreign hq) hcd.1, hcd.2⟩
      | text t => exact alike_bind (ih h) fun c d hcd => .ok ⟨.cons (.text t) hcd.1, hcd.2⟩
      | comment t => exact alike_bind (ih h) fun c d hcd => .ok ⟨.cons (.comment t) hcd.1, hcd.2⟩
      | cdata t => exact alike_bind (ih h) fun c d hcd => .ok ⟨.cons (.cdata t) hcd.1, hcd.2⟩

theorem alike_removeAllF {p : XNode → R Bool} {p' : Node → Bool} (hp : LikeTest code p p') (fuel : Nat) {e : XElement} {e' : Element}
    (he : LikeElement code e e') : SameEnd (LikeCount code) (XElement.removeAllF p fuel e) (ElementF.removeAllF p' fuel e') := by
  induction fuel generalizing e e' with
  | zero => exact .diverge
  | succ k ih =>
    unfold XElement.removeAllF ElementF.removeAllF
    refine alike_bind (alike_removeBy hp he) fun a b hab => ?_
    refine alike_bind (alike_forChildElements (fun e e' h => ih h) (like_parts hab.1).2.2.2.2.2) fun c d hcd => ?_
    exact .ok ⟨like_children hab.1 hcd.1, by rw [hab.2, hcd.2]⟩

mutual
theorem like_size : ∀ {n : XNode} {m : Node}, LikeNode code n m → XNode.size n = m.size
  | _, _, .text _ => rfl
  | _, _, .comment _ => rfl
  | _, _, .cdata _ => rfl
  | _, _, .foreign _ => rfl
  | _, _, .element h => by simp only [XNode.size, Node.size, like_sizeE h]
theorem like_sizeE : ∀ {n : XElement} {m : Element}, LikeElement code n m → XElement.size n = m.size
  | _, _, .mk h => by simp only [XElement.size, ElementF.size, like_sizeL h]
theorem like_sizeL : ∀ {n : List XNode} {m : List Node}, LikeList code n m → XElement.sizeOfChildren n = sizeOfChildren m
  | _, _, .nil => rfl
  | _, _, .cons h h' => by simp only [XElement.sizeOfChildren, sizeOfChildren, like_size h, like_sizeL h']
end

theorem alike_removeAll {p : XNode → R Bool} {p' : Node → Bool} (hp : LikeTest code p p') {e : XElement} {e' : Element}
    (he : LikeElement code e e') : SameEnd (LikeCount code) (XElement.removeAll e p) (e'.removeAll p') := by
  unfold XElement.removeAll ElementF.removeAll
  rw [like_sizeE he]
  exact alike_removeAllF hp _ he

theorem alike_removeAllElements {p : XElement → Bool} {p' : Element → Bool} (hp : LikeElemPred code p p') {e : XElement} {e' : Element}
    (he : LikeElement code e e') : SameEnd (LikeCount code) (XElement.removeAllElements e p) (e'.removeAllElements p') := by
  unfold XElement.removeAllElements ElementF.removeAllElements
  refine alike_bind (alike_removeBy (likeTest_elem hp) he) fun a b hab => ?_
  refine alike_bind (alike_forChildElements (fun e e' h => alike_removeAll (likeTest_elem hp) h) (like_parts hab.1).2.2.2.2.2) fun c d hcd => ?_
  exact .ok ⟨like_children hab.1 hcd.1, by rw [hab.2, hcd.2]⟩

/-! ## calls -/

theorem alike_call {c : XCall} {c' : Call} (hc : LikeCall code c c') {e : XElement} {e' : Element} (he : LikeElement code e e') :
    SameEnd (LikeElement code) (c.run e) (c'.run e') := by
  have hp := like_parts he
  induction hc generalizing e e' with
  | setAttr k v =>
    refine alike_step fun _ => .ok ?_
    exact like_of_parts hp.1 hp.2.1 hp.2.2.1 (by simp only [hp.2.2.2.1]) hp.2.2.2.2.1 hp.2.2.2.2.2
  | removeAttr k => exact .ok (like_of_parts hp.1 hp.2.1 hp.2.2.1 (by simp only [ElementF.removeAttr, hp.2.2.2.1]) hp.2.2.2.2.1 hp.2.2.2.2.2)
  | clearAttributes => exact .ok (like_of_parts hp.1 hp.2.1 hp.2.2.1 rfl hp.2.2.2.2.1 hp.2.2.2.2.2)
  | setText t => exact alike_append (like_children he .nil) (.text t)
  | clearChildren => exact .ok (like_children he .nil)
  | append h => exact alike_append he h
  | appendAll h => exact alike_appendAll he h
  | insert i h => exact alike_insert he i h
  | remove i => exact alike_bind (alike_remove he i) fun _ _ h => .ok h.2
  | removeElementsByName n =>
    exact alike_bind (alike_removeElements (fun a b h => by rw [(like_parts h).1]) he) fun _ _ h => .ok h.1
  | removeBy h => exact alike_bind (alike_removeBy (likeTest_pure h) he) fun _ _ h => .ok h.1
  | removeAll h => exact alike_bind (alike_removeAll (likeTest_pure h) he) fun _ _ h => .ok h.1
  | removeElements h => exact alike_bind (alike_removeElements h he) fun _ _ h => .ok h.1
  | removeAllElements h => exact alike_bind (alike_removeAllElements h he) fun _ _ h => .ok h.1
  | inChild i h ih =>
    unfold XCall.run Call.run
    rcases likeList_getElem hp.2.2.2.2.2 i with ⟨h1, h2⟩ | ⟨a, b, h1, h2, h3⟩ <;> rw [h1, h2]
    · exact .ok he
    · cases h3 with
      | element hk => exact alike_bind (ih hk (like_parts hk)) fun k k' h => .ok (like_children he (likeList_set hp.2.2.2.2.2 i (.element h)))
      | _ => exact .ok he

theorem alike_calls {l : List XCall} {l' : List Call} (hl : LikeCalls code l l') {e : XElement} {e' : Element} (he : LikeElement code e e') :
    SameEnd (LikeElement code) (runXCalls l e) (runCalls l' e') := by
  induction hl generalizing e e' with
  | nil => exact .ok he
  | cons h _ ih => exact alike_bind (alike_call h he) fun _ _ h => ih h

/-! ## `new` -/

theorem alike_new (name : Str) (text : Option Str) (A : Option SMap) (xmlns pfx : Option Str) {cs : Option (List XNode)} {cs' : Option (List Node)}
    (h : LikeChildren code cs cs') : SameEnd (LikeElement code) (XElement.new name text A xmlns pfx cs) (ElementF.new name text A xmlns pfx cs') := by
  have hk : ∀ e e', LikeElement code e e' → SameEnd (LikeElement code)
      (match (generalizing := false) cs with
        | none => pure e
        | some cs => XElement.appendAll e cs)
      (match (generalizing := false) cs' with
        | none => pure e'
        | some cs => ElementF.appendAll e' cs) := fun e e' he => by
    cases cs <;> cases cs' <;> first | exact h.elim | skip
    · exact .ok he
    · exact alike_appendAll he h
  unfold XElement.new ElementF.new
  refine alike_step fun _ => ?_
  cases A with
  | none =>
    cases text with
    | none => exact hk _ _ (.mk .nil)
    | some t => exact alike_bind (alike_append (.mk .nil) (.text t)) hk
  | some A =>
    simp only
    cases List.find? (fun kv => !validName kv.1) A.entries with
    | some kv => exact .err _
    | none =>
      cases text with
      | none => exact hk _ _ (.mk .nil)
      | some t => exact alike_bind (alike_append (.mk .nil) (.text t)) hk

end KissXml
