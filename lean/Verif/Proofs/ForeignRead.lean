import Verif.Proofs.Foreign
import Verif.Proofs.Equal
import Verif.Proofs.Dom
import Verif.Proofs.Edit
/-!
# Foreign nodes: finding, printing, copying, comparing
-/
namespace KissXml
open Spec

variable {code : Foreign → Str}

/-! ## text and recursive iteration -/

mutual
theorem like_rec : ∀ {n : XNode} {m : Node}, LikeNode code n m → ∃ l, XNode.childrenRecursive n = .ok l ∧ LikeList code l m.childrenRecursive
  | _, _, .text _ => ⟨[], rfl, .nil⟩
  | _, _, .comment _ => ⟨[], rfl, .nil⟩
  | _, _, .cdata _ => ⟨[], rfl, .nil⟩
  | _, _, .foreign h => ⟨[], by simp [XNode.childrenRecursive, h.1], .nil⟩
  | _, _, .element h => by
    obtain ⟨l, h1, h2⟩ := like_recE h
    exact ⟨l, by rw [XNode.childrenRecursive, h1], by rw [Node.childrenRecursive]; exact h2⟩
theorem like_recE : ∀ {n : XElement} {m : Element}, LikeElement code n m →
    ∃ l, XElement.childrenRecursive n = .ok l ∧ LikeList code l m.childrenRecursive
  | _, _, .mk h => by
    obtain ⟨l, h1, h2⟩ := like_recL h
    exact ⟨_, by rw [XElement.childrenRecursive, h1]; rfl, by rw [ElementF.childrenRecursive]; exact likeList_append h h2⟩
theorem like_recL : ∀ {n : List XNode} {m : List Node}, LikeList code n m →
    ∃ l, XElement.childrenRecursiveOf n = .ok l ∧ LikeList code l (childrenRecursiveOf m)
  | _, _, .nil => ⟨[], rfl, .nil⟩
  | _, _, .cons h h' => by
    obtain ⟨l, h1, h2⟩ := like_rec h
    obtain ⟨k, h3, h4⟩ := like_recL h'
    exact ⟨l ++ k, by rw [XElement.childrenRecursiveOf, h1, h3]; rfl, by rw [childrenRecursiveOf]; exact likeList_append h2 h4⟩
end

mutual
theorem like_textE : ∀ {n : XElement} {m : Element}, LikeElement code n m → XElement.textOf n = m.textOf
  | _, _, .mk h => by rw [XElement.textOf, ElementF.textOf, like_textL h]
theorem like_textL : ∀ {n : List XNode} {m : List Node}, LikeList code n m → XElement.textOfChildren n = textOfChildren m
  | _, _, .nil => rfl
  | _, _, .cons (.text t) h' => by simp [XElement.textOfChildren, textOfChildren, XNode.isText, Node.isText, XNode.textOf, Node.textOf, like_textL h']
  | _, _, .cons (.comment t) h' => by
    simp [XElement.textOfChildren, textOfChildren, XNode.isText, Node.isText, XNode.isElement, Node.isElement, like_textL h']
  | _, _, .cons (.cdata t) h' => by
    simp [XElement.textOfChildren, textOfChildren, XNode.isText, Node.isText, XNode.isElement, Node.isElement, like_textL h']
  | _, _, .cons (.foreign h) h' => by
    simp [XElement.textOfChildren, textOfChildren, XNode.isText, Node.isText, XNode.isElement, Node.isElement, h.1, h.2.1, like_textL h']
  | _, _, .cons (.element h) h' => by
    simp [XElement.textOfChildren, textOfChildren, XNode.isText, Node.isText, XNode.isElement, Node.isElement, XNode.textOf, Node.textOf,
      like_textE h, like_textL h']
end

/-! ## searches -/

theorem casts_eq {α : Type} {is : XNode → Bool} {cast : XNode → Option α} (l : List XNode) (h : ∀ n ∈ l, is n = (cast n).isSome) :
    XElement.casts cast (l.filter is) = .ok (l.filterMap cast) := by
  induction l with
  | nil => rfl
  | cons n l ih =>
    have hn := h n (by simp)
    have ih := ih fun m hm => h m (by simp [hm])
    cases hc : cast n with
    | none =>
      rw [hc] at hn
      rw [List.filter_cons_of_neg (by simp [hn]), List.filterMap_cons_none hc, ih]
    | some a =>
      rw [hc] at hn
      rw [List.filter_cons_of_pos (by simp [hn]), List.filterMap_cons_some hc, XElement.casts, hc, ih]
      rfl

theorem likeList_is {l : List XNode} {m : List Node} (h : LikeList code l m) : ∀ n ∈ l,
    n.isElement = n.asElement.isSome ∧ n.isText = n.asText.isSome ∧ n.isComment = n.asComment.isSome := by
  induction l generalizing m with
  | nil => intro n hn; simp at hn
  | cons x l ih =>
    cases h with
    | cons hx h =>
      intro n hn
      rcases List.mem_cons.1 hn with rfl | hn
      · cases hx with
        | foreign hf => exact ⟨hf.1, hf.2.1, hf.2.2.1⟩
        | _ => exact ⟨rfl, rfl, rfl⟩
      · exact ih h n hn

theorem likeList_texts {l : List XNode} {m : List Node} (h : LikeList code l m) :
    l.filterMap XNode.asText = (m.filter Node.isText).filterMap (fun n => match n with | .text c => some c | _ => none) := by
  induction l generalizing m with
  | nil => cases h; rfl
  | cons x l ih =>
    cases h with
    | cons hx h => cases hx <;> simp [XNode.asText, Node.isText, ih h, List.filter_cons, List.filterMap_cons]

theorem likeList_elements {l : List XNode} {m : List Node} (h : LikeList code l m) :
    List.Forall₂ (LikeElement code) (l.filterMap XNode.asElement)
      ((m.filter Node.isElement).filterMap (fun n => match n with | .element c => some c | _ => none)) := by
  induction l generalizing m with
  | nil => cases h; exact .nil
  | cons x l ih =>
    cases h with
    | cons hx h =>
      cases hx with
      | element he => simpa [XNode.asElement, Node.isElement, List.filter_cons, List.filterMap_cons] using ⟨he, ih h⟩
      | _ => simpa [XNode.asElement, Node.isElement, List.filter_cons, List.filterMap_cons] using ih h

theorem forall₂_filter {α β : Type} {r : α → β → Prop} {p : α → Bool} {q : β → Bool} (hp : ∀ a b, r a b → p a = q b) {l : List α} {m : List β}
    (h : List.Forall₂ r l m) : List.Forall₂ r (l.filter p) (m.filter q) := by
  induction h with
  | nil => exact .nil
  | @cons a b l m hab _ ih =>
    rw [List.filter_cons, List.filter_cons, hp a b hab]
    split
    · exact .cons hab ih
    · exact ih

/-! ## printing -/

theorem sameBut_append {indent : Str} {fs gs : List (Foreign × Bool)} {a a' b b' : Str} (h : SameBut code indent fs a a')
    (h' : SameBut code indent gs b b') : SameBut code indent (fs ++ gs) (a ++ b) (a' ++ b') := by
  induction h with
  | nil s =>
    cases h' with
    | nil t => exact .nil _
    | cons t f o h => simpa using SameBut.cons (s ++ t) f o h
  | cons s f o _ ih => simpa using SameBut.cons s f o ih

theorem sameBut_pre {indent : Str} {fs : List (Foreign × Bool)} {a a' : Str} (s : Str) (h : SameBut code indent fs a a') :
    SameBut code indent fs (s ++ a) (s ++ a') := sameBut_append (.nil s) h

theorem sameBut_post {indent : Str} {fs : List (Foreign × Bool)} {a a' : Str} (s : Str) (h : SameBut code indent fs a a') :
    SameBut code indent fs (a ++ s) (a' ++ s) := by simpa using sameBut_append h (.nil s)

mutual
theorem print_node (pre indent : Str) (inline : Bool) : ∀ {n : XNode} {m : Node}, LikeNode code n m →
    ∃ out, XNode.toStringPI pre indent inline n = .ok out ∧ SameBut code indent (foreignIn false n) out (m.toStringPI pre indent inline)
  | _, _, .text t => ⟨_, rfl, .nil _⟩
  | _, _, .comment t => ⟨_, rfl, .nil _⟩
  | _, _, .cdata t => ⟨_, rfl, .nil _⟩
  | _, _, .foreign (f := f) h => by
    refine ⟨(if inline then [] else pre) ++ f.shown indent, ?_, ?_⟩
    · simp [XNode.toStringPI, h.1, h.2.1, pure]
    · have := SameBut.cons (code := code) (indent := indent) (if inline then [] else pre) f false (.nil [])
      simpa [Node.toStringPI, foreignIn] using this
  | _, _, .element h => by
    obtain ⟨out, h1, h2⟩ := print_element pre indent inline h
    exact ⟨out, by rw [XNode.toStringPI, h1], by rw [Node.toStringPI, foreignIn]; exact h2⟩
theorem print_list (pre indent : Str) (inline : Bool) : ∀ {n : List XNode} {m : List Node}, LikeList code n m →
    ∃ out, XElement.childrenToString pre indent inline n = .ok out ∧
      SameBut code indent (foreignAmong false n) out (childrenToString pre indent inline m)
  | _, _, .nil => ⟨[], rfl, .nil _⟩
  | _, _, .cons h h' => by
    obtain ⟨a, h1, h2⟩ := print_node pre indent inline h
    obtain ⟨b, h3, h4⟩ := print_list pre indent inline h'
    refine ⟨_, by rw [XElement.childrenToString, h1, h3]; rfl, ?_⟩
    rw [childrenToString, foreignAmong]
    exact sameBut_append (sameBut_post _ h2) h4
theorem print_element (pre indent : Str) (inline : Bool) : ∀ {n : XElement} {m : Element}, LikeElement code n m →
    ∃ out, XElement.toStringPI pre indent inline n = .ok out ∧ SameBut code indent (foreignBelow n) out (m.toStringPI pre indent inline)
  | _, _, .mk (n := n) (x := x) (p := p) (a := a) (c := c) (cs := cs) (cs' := cs') h => by
    have hl := likeList_length h
    have he : cs.any XNode.isElement = cs'.any Node.isElement := likeList_any h fun _ _ => like_isElement
    have ht : cs.any XNode.isText = cs'.any Node.isText := likeList_any h fun _ _ => like_isText
    have htag : XElement.tagName ⟨n, cs, a, x, p, c⟩ = ElementF.tagName ⟨n, cs', a, x, p, c⟩ := like_tagName (.mk h)
    obtain ⟨inner, h1, h2⟩ := print_list (pre ++ indent) indent (inline || cs'.any Node.isText) h
    rw [XElement.toStringPI, ElementF.toStringPI, foreignBelow, hl, he, ht, htag]
    simp only
    by_cases h0 : (cs'.length == 0) = true
    · rw [if_pos h0, if_pos h0]
      have : cs' = [] := by simpa using h0
      subst this
      cases h
      exact ⟨_, rfl, .nil _⟩
    · rw [if_neg h0, if_neg h0]
      by_cases h3 : (cs'.length == 1 && !(cs'.any Node.isElement)) = true
      · rw [if_pos h3, if_pos h3]
        refine ⟨_, rfl, sameBut_pre _ ?_⟩
        cases h with
        | nil => simp at h0
        | cons hx h' =>
          cases h' with
          | cons _ _ => simp at h3
          | nil =>
            cases hx with
            | element _ => simp [Node.isElement] at h3
            | @foreign f hf =>
              have := SameBut.cons (code := code) (indent := indent) c%">" f true (.nil (c%"</" ++ ElementF.tagName ⟨n, [.comment (code f)], a, x, p, c⟩ ++ c%">"))
              simpa [XElement.shownAlone, childrenToString, Node.toStringPI, foreignAmong, foreignIn] using this
            | _ =>
              simp only [XElement.shownAlone, childrenToString, Node.toStringPI, foreignAmong, foreignIn, List.append_nil, if_true, List.nil_append]
              exact .nil _
      · rw [if_neg h3, if_neg h3, h1]
        refine ⟨_, rfl, sameBut_pre _ ?_⟩
        have h4 : foreignAmong (cs'.length == 1) cs = foreignAmong false cs := by
          by_cases h5 : cs'.length = 1
          · cases h with
            | nil => simp at h5
            | cons hx h' =>
              cases h' with
              | cons _ _ => simp at h5
              | nil =>
                cases hx with
                | element _ => rfl
                | _ => simp [Node.isElement] at h3
          · rw [show (cs'.length == 1) = false by simpa using h5]
        rw [h4]
        exact sameBut_post _ (sameBut_post _ (sameBut_post _ (sameBut_post _ (sameBut_pre _ h2))))
end

/-! ## copies -/

mutual
theorem clone_node_eq (o : Bool) : ∀ n : XNode, XNode.clone n = if foreignIn o n = [] then .ok n else .panic
  | .text _ => rfl
  | .comment _ => rfl
  | .cdata _ => rfl
  | .foreign f => rfl
  | .element e => by
    rw [XNode.clone, clone_element_eq e, foreignIn]
    split <;> rfl
theorem clone_element_eq : ∀ e : XElement, XElement.clone e = if foreignBelow e = [] then .ok e else .panic
  | ⟨n, cs, a, x, p, c⟩ => by
    rw [XElement.clone, clone_list_eq (cs.length == 1) cs, foreignBelow]
    split <;> rfl
theorem clone_list_eq (o : Bool) : ∀ l : List XNode, XElement.cloneChildren l = if foreignAmong o l = [] then .ok l else .panic
  | [] => rfl
  | n :: l => by
    rw [XElement.cloneChildren, clone_node_eq o n, clone_list_eq o l, foreignAmong]
    by_cases h : foreignIn o n = [] <;> by_cases h' : foreignAmong o l = [] <;> simp [h, h']
end

/-! ## comparison -/

theorem plain_type {f : Foreign} (h : NoKind f) : (XNode.foreign f).nodeType = .panic := by
  simp [XNode.nodeType, XNode.isCData, XNode.isComment, XNode.isElement, XNode.isText, h.1, h.2.1, h.2.2.1, h.2.2.2]

/-- a comparison that meets a foreign node, or gives the answer of the comparison with comments -/
def Compared (x : R Bool) (b : Bool) (meets : Prop) : Prop := (x = .panic ∧ meets) ∨ (x = .ok b ∧ ¬ meets)

mutual
theorem eq_node : ∀ {a : XNode} {a' : Node}, LikeNode code a a' → ∀ {b : XNode} {b' : Node}, LikeNode code b b' →
    Compared (XNode.eq a b) (a'.eq b') (MeetsNode a b)
  | _, _, .foreign h, b, b', hb => by
    refine .inl ⟨?_, .left _ _⟩
    rw [XNode.eq.eq_def]
    simp only [plain_type h]
    rfl
  | _, _, .text t, b, b', hb => by
    cases hb with
    | foreign h =>
      refine .inl ⟨?_, .right _ _⟩
      rw [XNode.eq.eq_def]
      simp only [plain_type h]
      rfl
    | _ => exact .inr ⟨by simp [XNode.eq, XNode.nodeType, XNode.isCData, XNode.isComment, XNode.isElement, XNode.isText, XNode.asText, Node.eq], fun h => nomatch h⟩
  | _, _, .comment t, b, b', hb => by
    cases hb with
    | foreign h =>
      refine .inl ⟨?_, .right _ _⟩
      rw [XNode.eq.eq_def]
      simp only [plain_type h]
      rfl
    | _ => exact .inr ⟨by simp [XNode.eq, XNode.nodeType, XNode.isCData, XNode.isComment, XNode.isElement, XNode.isText, XNode.asComment, Node.eq], fun h => nomatch h⟩
  | _, _, .cdata t, b, b', hb => by
    cases hb with
    | foreign h =>
      refine .inl ⟨?_, .right _ _⟩
      rw [XNode.eq.eq_def]
      simp only [plain_type h]
      rfl
    | _ => exact .inr ⟨by simp [XNode.eq, XNode.nodeType, XNode.isCData, XNode.isComment, XNode.isElement, XNode.isText, XNode.asCData, Node.eq], fun h => nomatch h⟩
  | _, _, .element he, b, b', hb => by
    cases hb with
    | foreign h =>
      refine .inl ⟨?_, .right _ _⟩
      rw [XNode.eq.eq_def]
      simp only [plain_type h]
      rfl
    | element hd =>
      rcases eq_element he hd with ⟨h1, h2⟩ | ⟨h1, h2⟩
      · exact .inl ⟨by simp [XNode.eq, XNode.nodeType, XNode.isCData, XNode.isComment, XNode.isElement, h1], .inside h2⟩
      · refine .inr ⟨by simp [XNode.eq, XNode.nodeType, XNode.isCData, XNode.isComment, XNode.isElement, h1, Node.eq], fun h => ?_⟩
        cases h with | inside h => exact h2 h
    | _ => exact .inr ⟨by simp [XNode.eq, XNode.nodeType, XNode.isCData, XNode.isComment, XNode.isElement, XNode.isText, Node.eq], fun h => nomatch h⟩
theorem eq_element : ∀ {a : XElement} {a' : Element}, LikeElement code a a' → ∀ {b : XElement} {b' : Element}, LikeElement code b b' →
    Compared (XElement.eq a b) (a'.eq b') (MeetsElement a b)
  | _, _, .mk (n := n) (x := x) (p := p) (a := a) (c := c) (cs := cs) (cs' := cs') h, _, _,
    .mk (n := n2) (x := x2) (p := p2) (a := a2) (c := c2) (cs := ds) (cs' := ds') h' => by
    rw [XElement.eq, ElementF.eq, likeList_length h, likeList_length h']
    by_cases hc : (n == n2 && x == x2 && p == p2 && a.eq a2 && cs'.length == ds'.length) = true
    · rw [if_pos hc, hc, Bool.true_and]
      simp only [Bool.and_eq_true, beq_iff_eq] at hc
      obtain ⟨⟨⟨⟨rfl, rfl⟩, rfl⟩, hm⟩, hl⟩ := hc
      rcases eq_list h h' with ⟨h1, h2⟩ | ⟨h1, h2⟩
      · exact .inl ⟨h1, .mk (SMap.perm_iff_get.1 (SMap.eq_iff.1 hm)) (by rw [likeList_length h, likeList_length h', hl]) h2⟩
      · refine .inr ⟨h1, fun hm => ?_⟩
        cases hm with | mk _ _ h => exact h2 h
    · rw [if_neg hc, Bool.eq_false_iff.2 hc, Bool.false_and]
      refine .inr ⟨rfl, fun hm => hc ?_⟩
      cases hm with
      | mk h1 h2 _ =>
        simp [SMap.eq_iff.2 (SMap.perm_iff_get.2 h1), ← likeList_length h, ← likeList_length h', h2]
theorem eq_list : ∀ {a : List XNode} {a' : List Node}, LikeList code a a' → ∀ {b : List XNode} {b' : List Node}, LikeList code b b' →
    Compared (XElement.childrenEq a b) (childrenEq a' b') (MeetsList a b)
  | _, _, .nil, b, b', _ => .inr ⟨by rw [XElement.childrenEq, childrenEq]; rfl, fun h => nomatch h⟩
  | _, _, .cons _ _, _, _, .nil => .inr ⟨by rw [XElement.childrenEq, childrenEq]; rfl, fun h => nomatch h⟩
  | _, _, .cons hx hl, _, _, .cons hy hm => by
    rw [XElement.childrenEq, childrenEq]
    rcases eq_node hx hy with ⟨h1, h2⟩ | ⟨h1, h2⟩
    · exact .inl ⟨by rw [h1]; rfl, .here h2⟩
    · rw [h1]
      rename_i x x' l l' y y' m m'
      cases hb : x'.eq y' with
      | false =>
        refine .inr ⟨rfl, fun h => ?_⟩
        cases h with
        | here h => exact h2 h
        | later h _ => rw [h1, hb] at h; cases h
      | true =>
        rw [hb] at h1
        rcases eq_list hl hm with ⟨h3, h4⟩ | ⟨h3, h4⟩
        · exact .inl ⟨h3, .later h1 h4⟩
        · refine .inr ⟨h3, fun h => ?_⟩
          cases h with
          | here h => exact h2 h
          | later _ h => exact h4 h
end

/-- elements that compare equal contain no foreign nodes, whatever these say about themselves -/
def NoneTrue (x : R Bool) (fs gs : List (Foreign × Bool)) : Prop := x = .ok true → fs = [] ∧ gs = []

theorem nodeType_cases (n : XNode) : n.nodeType = .panic ∨ ∃ t, n.nodeType = .ok t := by
  unfold XNode.nodeType
  split
  · exact .inr ⟨_, rfl⟩
  split
  · exact .inr ⟨_, rfl⟩
  split
  · exact .inr ⟨_, rfl⟩
  split
  · exact .inr ⟨_, rfl⟩
  · exact .inl rfl

mutual
theorem eq_true_node (o o' : Bool) : ∀ a b : XNode, NoneTrue (XNode.eq a b) (foreignIn o a) (foreignIn o' b)
  | .foreign f, b => by
    intro h
    rw [XNode.eq.eq_def] at h
    simp only at h
    rcases nodeType_cases (.foreign f) with h1 | ⟨t, h1⟩ <;> rw [h1] at h
    · exact nomatch h
    rcases nodeType_cases b with h2 | ⟨t', h2⟩ <;> rw [h2] at h
    · exact nomatch h
    by_cases ht : t = t'
    · simp [ht, bind, Res.bind] at h
    · simp [ht, bind, Res.bind, pure] at h
  | .text t, b => by
    intro h
    rw [XNode.eq.eq_def] at h
    simp only at h
    cases b with
    | foreign f =>
      rcases nodeType_cases (.foreign f) with h1 | ⟨t', h1⟩ <;> rw [h1] at h
      · exact nomatch h
      by_cases ht : t' = .textNode
      · simp [ht, bind, Res.bind, XNode.asText, Res.unwrap] at h
      · simp [ht, bind, Res.bind, pure] at h
    | element e => exact nomatch h
    | _ => exact ⟨rfl, rfl⟩
  | .comment t, b => by
    intro h
    rw [XNode.eq.eq_def] at h
    simp only at h
    cases b with
    | foreign f =>
      rcases nodeType_cases (.foreign f) with h1 | ⟨t', h1⟩ <;> rw [h1] at h
      · exact nomatch h
      by_cases ht : t' = .commentNode
      · simp [ht, bind, Res.bind, XNode.asComment, Res.unwrap] at h
      · simp [ht, bind, Res.bind, pure] at h
    | element e => exact nomatch h
    | _ => exact ⟨rfl, rfl⟩
  | .cdata t, b => by
    intro h
    rw [XNode.eq.eq_def] at h
    simp only at h
    cases b with
    | foreign f =>
      rcases nodeType_cases (.foreign f) with h1 | ⟨t', h1⟩ <;> rw [h1] at h
      · exact nomatch h
      by_cases ht : t' = .cdataNode
      · simp [ht, bind, Res.bind, XNode.asCData, Res.unwrap] at h
      · simp [ht, bind, Res.bind, pure] at h
    | element e => exact nomatch h
    | _ => exact ⟨rfl, rfl⟩
  | .element e, b => by
    intro h
    rw [XNode.eq.eq_def] at h
    simp only at h
    cases b with
    | foreign f =>
      rcases nodeType_cases (.foreign f) with h1 | ⟨t', h1⟩ <;> rw [h1] at h
      · exact nomatch h
      by_cases ht : t' = .elementNode
      · simp [ht, bind, Res.bind] at h
      · simp [ht, bind, Res.bind, pure] at h
    | element d => exact eq_true_element e d h
    | text t => exact nomatch h
    | comment t => exact nomatch h
    | cdata t => exact nomatch h
theorem eq_true_element : ∀ a b : XElement, NoneTrue (XElement.eq a b) (foreignBelow a) (foreignBelow b)
  | ⟨n, cs, a, x, p, c⟩, ⟨n', cs', a', x', p', c'⟩ => by
    intro h
    rw [XElement.eq] at h
    split at h
    · rename_i hc
      simp only [Bool.and_eq_true, beq_iff_eq] at hc
      exact eq_true_list _ _ cs cs' hc.2 h
    · exact nomatch h
theorem eq_true_list (o o' : Bool) : ∀ a b : List XNode, a.length = b.length → NoneTrue (XElement.childrenEq a b) (foreignAmong o a) (foreignAmong o' b)
  | [], [], _ => fun _ => ⟨rfl, rfl⟩
  | [], _ :: _, h => by simp at h
  | _ :: _, [], h => by simp at h
  | x :: l, y :: m, hl => by
    intro h
    rw [XElement.childrenEq] at h
    cases h1 : XNode.eq x y with
    | ok b =>
      rw [h1] at h
      cases b with
      | true =>
        have h2 := eq_true_node o o' x y h1
        have h3 := eq_true_list o o' l m (by simpa using hl) h
        rw [foreignAmong, foreignAmong, h2.1, h2.2, h3.1, h3.2]
        exact ⟨rfl, rfl⟩
      | false => exact nomatch h
    | err e => rw [h1] at h; exact nomatch h
    | panic => rw [h1] at h; exact nomatch h
    | diverge => rw [h1] at h; exact nomatch h
end

/-! ## `remove_element` -/

theorem likeList_split {l : List XNode} {A' : List Node} {c' : Element} {B' : List Node} (h : LikeList code l (A' ++ .element c' :: B')) :
    ∃ A c B, l = A ++ .element c :: B ∧ LikeList code A A' ∧ LikeElement code c c' ∧ LikeList code B B' := by
  induction A' generalizing l with
  | nil =>
    cases h with
    | cons hx h => cases hx with | element he => exact ⟨[], _, _, rfl, .nil, he, h⟩
  | cons x A' ih =>
    cases h with
    | cons hx h =>
      obtain ⟨A, c, B, rfl, h1, h2, h3⟩ := ih h
      exact ⟨_ :: A, c, B, rfl, .cons hx h1, h2, h3⟩

theorem removeElement_like {e : XElement} {e' : Element} (he : LikeElement code e e') (i : Nat) :
    (∃ er, e'.removeElement i = .err er ∧ XElement.removeElement e i = .err er) ∨
    ∃ r d r' d', e'.removeElement i = .ok (r', d') ∧ LikeElement code r r' ∧ LikeElement code d d' ∧
      XElement.removeElement e i = if foreignBelow r = [] then .ok (r, d) else .panic := by
  have hc := (like_parts he).2.2.2.2.2
  unfold XElement.removeElement ElementF.removeElement
  simp only
  rw [likeList_elementIndices hc]
  by_cases hi : i ≥ (ElementF.elementIndices 0 e'.children).length
  · rw [if_pos hi, if_pos hi]
    exact .inl ⟨_, rfl, rfl⟩
  · rw [if_neg hi, if_neg hi]
    have hlt : i < (ElementF.elementIndices 0 e'.children).length := by omega
    obtain ⟨-, h2⟩ := elementIndices_spec e'.children 0
    have hj : (ElementF.elementIndices 0 e'.children)[i]? = some (ElementF.elementIndices 0 e'.children)[i] := List.getElem?_eq_getElem hlt
    generalize (ElementF.elementIndices 0 e'.children)[i] = j at hj
    rw [hj]
    obtain ⟨A', c', B', hl, hj', -, -⟩ := h2 i j hj
    rw [Nat.zero_add] at hj'
    subst hj'
    rw [hl] at hc
    obtain ⟨A, c, B, hl2, hA, hcc, hB⟩ := likeList_split hc
    rw [hl, hl2]
    have hA' : A'.length = A.length := (likeList_length hA).symm
    rw [Res.unwrap_some, Res.bind_ok, Res.bind_ok, vecRemove_append, hA', vecRemove_append]
    refine .inr ⟨c, { e with children := A ++ B }, c', { e' with children := A' ++ B' }, rfl, hcc, like_children he (likeList_append hA hB), ?_⟩
    simp only [Res.unwrap_some, Res.bind_ok, XNode.asElement, clone_element_eq]
    split <;> rfl

/-! ## nodes that say they are what they are not -/

/-- what is after the index stays as it is -/
theorem merge_keeps (A : List XNode) (s : XNode) (S : List XNode) (h : ∀ n ∈ A ++ [s], n.isText = n.asText.isSome) :
    ∃ T, XElement.mergeTextLoop A.length (A ++ s :: S) = .ok (T ++ S) := by
  induction hn : A.length generalizing A s S with
  | zero =>
    have := List.length_eq_zero_iff.1 hn
    subst this
    exact ⟨[s], rfl⟩
  | succ k ih =>
    obtain ⟨B, b, rfl⟩ : ∃ B b, A = B ++ [b] := by
      rcases List.eq_nil_or_concat A with rfl | ⟨B, b, rfl⟩
      · simp at hn
      · exact ⟨B, b, by simp⟩
    have hk : B.length = k := by simpa using hn
    subst hk
    have e1 : (B ++ [b] ++ s :: S)[B.length + 1]? = some s := by simp
    have e2 : (B ++ [b] ++ s :: S)[B.length]? = some b := by simp
    have hb := h b (by simp)
    have hs := h s (by simp)
    unfold XElement.mergeTextLoop
    rw [e1, e2]
    simp only [Res.unwrap_some, Res.bind_ok]
    split
    · rename_i ht
      rw [hb, hs] at ht
      simp only [Bool.and_eq_true, Option.isSome_iff_exists] at ht
      obtain ⟨⟨t, ht⟩, u, hu⟩ := ht
      have v1 : vecRemove (B ++ [b] ++ s :: S) (B.length + 1) = some (s, B ++ [b] ++ S) := by
        have := vecRemove_append (B ++ [b]) s S
        simpa using this
      have v2 : vecRemove (B ++ [b] ++ S) B.length = some (b, B ++ S) := by
        have := vecRemove_append B b S
        simpa using this
      simp only [v1, v2, ht, hu, Res.unwrap_some, Res.bind_ok, vecInsert_append]
      refine ih B _ S (fun n hm => ?_) rfl
      rcases List.mem_append.1 hm with hm | hm
      · exact h n (by simp [hm])
      · rw [List.mem_singleton.1 hm]; rfl
    · obtain ⟨T, hT⟩ := ih B b (s :: S) (fun n hm => h n (by simp at hm ⊢; rcases hm with hm | hm <;> simp [hm])) rfl
      exact ⟨T ++ [s], by simpa using hT⟩

theorem append_liar {e : XElement} {e' : Element} (he : LikeElement code e e') {f : Foreign} (h : f.isElement = true ∨ f.isText = true) :
    XElement.append e (.foreign f) = .panic := by
  unfold XElement.append XElement.applyXmlnsContext
  by_cases h0 : f.isElement = true
  · simp [XNode.isElement, h0, XNode.asElement]
  · have ht : f.isText = true := h.resolve_left h0
    have hc := likeList_is (like_parts he).2.2.2.2.2
    simp only [XNode.isElement, h0]
    show (XElement.cleanupTextNodes (e.children ++ [.foreign f]) >>= _) = _
    suffices hs : XElement.cleanupTextNodes (e.children ++ [.foreign f]) = .panic by rw [hs]; rfl
    unfold XElement.cleanupTextNodes
    rw [if_neg (by simp)]
    have hd : ∀ T : List XNode, XElement.dropWsLoop T.length (T ++ [.foreign f]) = .panic := by
      intro T
      unfold XElement.dropWsLoop
      rw [show (T ++ [XNode.foreign f])[T.length]? = some (.foreign f) by simp]
      simp [Res.unwrap_some, XNode.isText, ht, XNode.asText]
    rcases List.eq_nil_or_concat e.children with h1 | ⟨A, b, h1⟩
    · rw [h1]
      exact hd []
    · rw [List.concat_eq_append] at h1
      rw [h1] at hc ⊢
      have hl : (A ++ [b] ++ [XNode.foreign f]).length - 1 = A.length + 1 := by simp
      rw [hl]
      have e1 : (A ++ [b] ++ [XNode.foreign f])[A.length + 1]? = some (.foreign f) := by simp
      have e2 : (A ++ [b] ++ [XNode.foreign f])[A.length]? = some b := by simp
      unfold XElement.mergeTextLoop
      rw [e1, e2]
      simp only [Res.unwrap_some, Res.bind_ok]
      split
      · rename_i hb
        have hb : b.isText = true := by simp only [Bool.and_eq_true] at hb; exact hb.2
        rw [(hc b (by simp)).2.1, Option.isSome_iff_exists] at hb
        obtain ⟨t, hb⟩ := hb
        have v1 : vecRemove (A ++ [b] ++ [XNode.foreign f]) (A.length + 1) = some (.foreign f, A ++ [b]) := by
          have := vecRemove_append (A ++ [b]) (XNode.foreign f) []
          simpa using this
        have v2 : vecRemove (A ++ [b]) A.length = some (b, A) := by
          have := vecRemove_append A b []
          simpa using this
        simp only [v1, v2, hb, Res.unwrap_some, Res.bind_ok]
        rfl
      · obtain ⟨T, hT⟩ := merge_keeps A b [.foreign f] (fun n hn => (hc n hn).2.1)
        rw [List.append_assoc, List.singleton_append, hT, Res.bind_ok, if_pos (by simp)]
        simpa using hd T

theorem casts_panic {α : Type} {cast : XNode → Option α} {n : XNode} (l : List XNode) (hn : n ∈ l) (h : cast n = none) (hc : ∀ n, cast n = none ∨ ∃ a, cast n = some a) :
    XElement.casts cast l = .panic := by
  induction l with
  | nil => simp at hn
  | cons x l ih =>
    rw [XElement.casts]
    rcases hc x with hx | ⟨a, hx⟩
    · rw [hx]; rfl
    · rw [hx, Res.unwrap_some, Res.bind_ok]
      rcases List.mem_cons.1 hn with rfl | hm
      · rw [h] at hx; cases hx
      · rw [ih hm]; rfl

/-! ## counterparts -/

mutual
/-- a comment in the place of each foreign node -/
def standNode (code : Foreign → Str) : XNode → Node
  | .element e => .element (standElement code e)
  | .text t => .text t
  | .comment t => .comment t
  | .cdata t => .cdata t
  | .foreign f => .comment (code f)
def standElement (code : Foreign → Str) : XElement → Element
  | ⟨n, cs, a, x, p, c⟩ => ⟨n, standList code cs, a, x, p, c⟩
def standList (code : Foreign → Str) : List XNode → List Node
  | [] => []
  | n :: l => standNode code n :: standList code l
end

mutual
theorem like_stand_node (code : Foreign → Str) (o : Bool) : ∀ n : XNode, (∀ f only, (f, only) ∈ foreignIn o n → NoKind f) →
    LikeNode code n (standNode code n)
  | .element e, h => by rw [standNode]; exact .element (like_stand_element code e (by rw [foreignIn] at h; exact h))
  | .text _, _ => by rw [standNode]; exact .text _
  | .comment _, _ => by rw [standNode]; exact .comment _
  | .cdata _, _ => by rw [standNode]; exact .cdata _
  | .foreign f, h => by rw [standNode]; exact .foreign (h f o (by simp [foreignIn]))
theorem like_stand_element (code : Foreign → Str) : ∀ e : XElement, (∀ f only, (f, only) ∈ foreignBelow e → NoKind f) →
    LikeElement code e (standElement code e)
  | ⟨n, cs, a, x, p, c⟩, h => by
    rw [standElement]
    exact .mk (like_stand_list code (cs.length == 1) cs (by rw [foreignBelow] at h; exact h))
theorem like_stand_list (code : Foreign → Str) (o : Bool) : ∀ l : List XNode, (∀ f only, (f, only) ∈ foreignAmong o l → NoKind f) →
    LikeList code l (standList code l)
  | [], _ => by rw [standList]; exact .nil
  | n :: l, h => by
    rw [standList]
    rw [foreignAmong] at h
    exact .cons (like_stand_node code o n fun f b hm => h f b (List.mem_append_left _ hm))
      (like_stand_list code o l fun f b hm => h f b (List.mem_append_right _ hm))
end

theorem like_elementsOf {code : Foreign → Str} {cs : List XNode} {cs' : List Node} (h : LikeList code cs cs') :
    ∃ l, XElement.elementsOf cs = .ok l ∧
      List.Forall₂ (LikeElement code) l (cs'.filterMap fun n => match n with | .element c => some c | _ => none) := by
  induction cs generalizing cs' with
  | nil => cases h; exact ⟨[], rfl, .nil⟩
  | cons n cs ih =>
    cases h with
    | cons hn hl =>
      obtain ⟨l, h1, h2⟩ := ih hl
      cases hn with
      | element he => exact ⟨_ :: l, by simp [XElement.elementsOf, XNode.isElement, XNode.asElement, Res.unwrap, h1], .cons he h2⟩
      | foreign hf => exact ⟨l, by simp [XElement.elementsOf, XNode.isElement, hf.1, h1], h2⟩
      | _ => exact ⟨l, by simp [XElement.elementsOf, XNode.isElement, h1], h2⟩

end KissXml
