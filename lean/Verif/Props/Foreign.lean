import Verif.Proofs.ForeignRead
/-!
# C102: nodes of the user's own types
-/
namespace KissXml.Props
open KissXml KissXml.Spec

variable {code : Foreign → Str}

/-- C102: an element with any number of nodes that are none of the four kinds, at any depth, has a counterpart with comments in
their place. -/
theorem C102_counterpart (code : Foreign → Str) (e : XElement) (h : ∀ f only, (f, only) ∈ foreignBelow e → NoKind f) :
    ∃ e', LikeElement code e e' :=
  ⟨_, like_stand_element code e h⟩

/-- C102: any series of changing calls does with foreign nodes what it does with comments in their place: it ends in the same
error or panic, or succeeds with a result that differs only in this. -/
theorem C102_calls (l : List XCall) (l' : List Call) (hl : LikeCalls code l l') (e : XElement) (e' : Element) (he : LikeElement code e e') :
    SameEnd (LikeElement code) (runXCalls l e) (runCalls l' e') := alike_calls hl he

/-- C102: what the removing calls return: the node removed is a counterpart, and the numbers of nodes removed are the same. -/
theorem C102_removed (e : XElement) (e' : Element) (he : LikeElement code e e') :
    (∀ i, SameEnd (fun x y => LikeNode code x.1 y.1 ∧ LikeElement code x.2 y.2) (XElement.remove e i) (e'.remove i)) ∧
    (∀ p p', LikePred code p p' → SameEnd (fun x y => LikeElement code x.1 y.1 ∧ x.2 = y.2) (XElement.removeBy e (fun n => pure (p n))) (e'.removeBy p')) ∧
    (∀ p p', LikePred code p p' → SameEnd (fun x y => LikeElement code x.1 y.1 ∧ x.2 = y.2) (XElement.removeAll e (fun n => pure (p n))) (e'.removeAll p')) ∧
    (∀ p p', LikeElemPred code p p' → SameEnd (fun x y => LikeElement code x.1 y.1 ∧ x.2 = y.2) (XElement.removeElements e p) (e'.removeElements p')) ∧
    ∀ p p', LikeElemPred code p p' → SameEnd (fun x y => LikeElement code x.1 y.1 ∧ x.2 = y.2) (XElement.removeAllElements e p) (e'.removeAllElements p') :=
  ⟨alike_remove he, fun _ _ h => alike_removeBy (likeTest_pure h) he, fun _ _ h => alike_removeAll (likeTest_pure h) he,
    fun _ _ h => alike_removeElements h he, fun _ _ h => alike_removeAllElements h he⟩

/-- C102: so does `Element::new`. -/
theorem C102_new (name : Str) (text : Option Str) (attributes : Option SMap) (xmlns pfx : Option Str) (cs : Option (List XNode))
    (cs' : Option (List Node)) (h : LikeChildren code cs cs') :
    SameEnd (LikeElement code) (XElement.new name text attributes xmlns pfx cs) (ElementF.new name text attributes xmlns pfx cs') :=
  alike_new name text attributes xmlns pfx h

/-- C102: iteration over all nodes below an element gives the nodes and their counterparts in the same order; the text and the
texts found are the same; the elements found are counterparts. -/
theorem C102_find (e : XElement) (e' : Element) (he : LikeElement code e e') :
    (∃ l, XElement.childrenRecursive e = .ok l ∧ LikeList code l e'.childrenRecursive) ∧
    XElement.textOf e = e'.textOf ∧
    (∀ p, XElement.searchText e p = .ok (e'.searchText p)) ∧
    ∀ p p', LikeElemPred code p p' → ∃ l, XElement.searchElements e p = .ok l ∧ List.Forall₂ (LikeElement code) l (e'.searchElements p') := by
  obtain ⟨l, h1, h2⟩ := like_recE he
  have hi := likeList_is h2
  refine ⟨⟨l, h1, h2⟩, like_textE he, fun p => ?_, fun p p' hp => ?_⟩
  · rw [XElement.searchText, XElement.search, h1]
    simp only [Res.bind_ok, Res.pure_eq]
    rw [casts_eq l fun n hn => (hi n hn).2.1, Res.bind_ok, likeList_texts h2]
    rfl
  · rw [XElement.searchElements, XElement.search, h1]
    simp only [Res.bind_ok, Res.pure_eq]
    rw [casts_eq l fun n hn => (hi n hn).1, Res.bind_ok]
    exact ⟨_, rfl, forall₂_filter (fun a b h => hp a b h) (likeList_elements h2)⟩

/-- C102: `child_elements` does not panic, gives the counterparts of the child elements in the same order, and no foreign node. -/
theorem C102_child_elements (e : XElement) (e' : Element) (he : LikeElement code e e') :
    ∃ l, XElement.childElements e = .ok l ∧ List.Forall₂ (LikeElement code) l e'.childElements := by
  obtain ⟨h⟩ := he
  exact like_elementsOf h

/-- C102: `search_comments` gives the comments, and no foreign node. -/
theorem C102_comments (e : XElement) (e' : Element) (he : LikeElement code e e') (p : Str → Bool) :
    ∃ l, XElement.childrenRecursive e = .ok l ∧
      XElement.searchComments e p = .ok ((l.filterMap fun n => match n with | .comment c => some c | _ => none).filter p) := by
  obtain ⟨l, h1, h2⟩ := like_recE he
  refine ⟨l, h1, ?_⟩
  rw [XElement.searchComments, XElement.search, h1]
  simp only [Res.bind_ok, Res.pure_eq]
  rw [casts_eq l fun n hn => (likeList_is h2 n hn).2.2, Res.bind_ok]
  rfl

/-- C102: an element is printed like its counterpart, except that at the places of these comments the foreign nodes show
themselves, in the order of the document.  They are asked to use the indent of the document, or none if they are only
children. -/
theorem C102_print (e : XElement) (e' : Element) (he : LikeElement code e e') (indent : Str) :
    ∃ out, XElement.toStringWithIndent e indent = .ok out ∧
      SameBut code (if validateIndent indent then indent else c%"  ") (foreignBelow e) out (e'.toStringWithIndent indent) := by
  unfold XElement.toStringWithIndent ElementF.toStringWithIndent
  split <;> exact print_element _ _ _ he

/-- C102: `clone` gives an equal element if no foreign node is in it, and panics otherwise (also for foreign nodes that claim to be
of one of the four kinds). -/
theorem C102_copy (e : XElement) : XElement.clone e = if foreignBelow e = [] then .ok e else .panic := clone_element_eq e

/-- C102: `==` panics if the comparison meets a foreign node, and gives the answer for the counterparts otherwise. -/
theorem C102_compare (a b : XElement) (a' b' : Element) (ha : LikeElement code a a') (hb : LikeElement code b b') :
    (XElement.eq a b = .panic ∧ MeetsElement a b) ∨ (XElement.eq a b = .ok (a'.eq b') ∧ ¬ MeetsElement a b) := eq_element ha hb

/-- C102: elements with foreign nodes are never found to be equal, not even to themselves (also if the nodes claim to be of one of
the four kinds). -/
theorem C102_never_equal (a b : XElement) (h : XElement.eq a b = .ok true) : foreignBelow a = [] ∧ foreignBelow b = [] :=
  eq_true_element a b h

/-- C102: `remove_element` gives the same error as for the counterpart, or the element that stands for the one removed, unless there
is a foreign node in it: then it panics, as it makes a copy. -/
theorem C102_remove_element (e : XElement) (e' : Element) (he : LikeElement code e e') (i : Nat) :
    (∃ er, e'.removeElement i = .err er ∧ XElement.removeElement e i = .err er) ∨
    ∃ r d r' d', e'.removeElement i = .ok (r', d') ∧ LikeElement code r r' ∧ LikeElement code d d' ∧
      XElement.removeElement e i = if foreignBelow r = [] then .ok (r, d) else .panic := removeElement_like he i

/-- C102: a foreign node that claims to be an element or a text cannot be appended: `append` panics. -/
theorem C102_liars (e : XElement) (e' : Element) (he : LikeElement code e e') (f : Foreign) (h : f.isElement = true ∨ f.isText = true) :
    XElement.append e (.foreign f) = .panic := append_liar he h

/-- C102: one that claims to be a comment can, but `search_comments` panics when it comes to it. -/
theorem C102_comment_liars (e : XElement) (l : List XNode) (hl : XElement.childrenRecursive e = .ok l) (f : Foreign) (hf : XNode.foreign f ∈ l)
    (h : f.isComment = true) (p : Str → Bool) : XElement.searchComments e p = .panic := by
  rw [XElement.searchComments, XElement.search, hl]
  simp only [Res.bind_ok, Res.pure_eq]
  rw [casts_panic (n := .foreign f) _ (List.mem_filter.2 ⟨hf, h⟩) rfl ?_]
  · rfl
  · intro x
    cases x <;> simp [XNode.asComment]

/-! ## Examples -/

/-- a processing instruction as a node of its own -/
def pi : Foreign := ⟨false, false, false, false, c%"go", fun _ => c%"<?go on?>"⟩

/-- `<a>x<b><?go on?></b><?go on?></a>` -/
def withPi : XElement := ⟨c%"a", [.text c%"x", .element ⟨c%"b", [.foreign pi], .empty, none, none, .empty⟩, .foreign pi], .empty, none, none, .empty⟩

/-- with comments in their place -/
def withComments : Element := ⟨c%"a", [.text c%"x", .element ⟨c%"b", [.comment c%"pi"], .empty, none, none, .empty⟩, .comment c%"pi"],
  .empty, none, none, .empty⟩

theorem plain_pi : NoKind pi := ⟨rfl, rfl, rfl, rfl⟩

theorem withPi_like : LikeElement (fun _ => c%"pi") withPi withComments :=
  .mk (.cons (.text _) (.cons (.element (.mk (.cons (.foreign plain_pi) .nil))) (.cons (.foreign plain_pi) .nil)))

example : foreignBelow withPi = [(pi, true), (pi, false)] := rfl
example : XElement.toStringWithIndent withPi c%"  " = .ok c%"<a>x<b><?go on?></b><?go on?></a>" := rfl
example : withComments.toStringWithIndent c%"  " = c%"<a>x<b><!--pi--></b><!--pi--></a>" := rfl
example : XElement.clone withPi = .panic := rfl
example : ∃ r, XElement.remove withPi 2 = .ok (.foreign pi, r) := ⟨_, rfl⟩
/-- one child element -/
example : XElement.childElements withPi = .ok [⟨c%"b", [.foreign pi], .empty, none, none, .empty⟩] := rfl

/-- all but texts and elements: two, one in the element `b` -/
example : ∃ r, XElement.removeAll withPi (fun n => pure (!n.isText && !n.isElement)) = .ok (r, 2) := ⟨_, rfl⟩
example : XElement.eq withPi withPi = .panic := rfl
example : MeetsElement withPi withPi :=
  .mk (fun _ => rfl) rfl (.later rfl (.here (.inside (.mk (fun _ => rfl) rfl (.here (.left _ _))))))
example : XElement.eq withPi { withPi with name := c%"c" } = .ok false := rfl
example : XElement.removeElement withPi 0 = .panic := rfl
example : XElement.removeElement withPi 1 = .err (.indexOutOfBounds 1 (some (0, 1))) := rfl
example : XElement.searchText withPi (fun _ => true) = .ok [c%"x"] := rfl
example : XElement.searchComments withPi (fun _ => true) = .ok [] := rfl
example : LikeCalls (fun _ => c%"pi") [.append (.foreign pi), .append (.text c%"y"), .remove 3, .remove 2]
    [.append (.comment c%"pi"), .append (.text c%"y"), .remove 3, .remove 2] :=
  .cons (.append (.foreign plain_pi)) (.cons (.append (.text _)) (.cons (.remove 3) (.cons (.remove 2) .nil)))
example : ∃ r, runXCalls [.append (.foreign pi), .append (.text c%"y"), .remove 3, .remove 2] withPi = .ok r ∧
    XElement.textOf r = c%"xy" ∧ r.children.length = 3 := ⟨_, rfl, rfl, rfl⟩
/-- a node that claims to be a text, after a text and after an element -/
example : XElement.append withPi (.foreign { pi with isText := true }) = .panic :=
  C102_liars withPi withComments withPi_like _ (.inr rfl)
/-- one that claims to be a comment -/
example : ∃ e, XElement.append withPi (.foreign { pi with isComment := true }) = .ok e ∧ XElement.searchComments e (fun _ => true) = .panic :=
  ⟨_, rfl, rfl⟩

end KissXml.Props
