import Verif.Proofs.InPlace
import Verif.Proofs.Layout
/-!
# C88: text, comment and CDATA nodes, and the default element; C89: what a call that fails leaves behind
-/
namespace KissXml.Props
open KissXml KissXml.Spec

/-! ## C88 -/

/-- C88: `Comment::new` and `Comment::set_content` accept exactly what does not contain `-->`; otherwise they return this error,
and the comment keeps its content. -/
theorem C88_comment (old c : Str) :
    (¬ c%"-->" <:+: c → commentNew c = .ok c ∧ commentFrom c = .ok c ∧ commentSetContent old c = (.ok (), c)) ∧
    (c%"-->" <:+: c → commentNew c = .err (.invalidContent c%"Comments cannot contain '-->'") ∧ commentFrom c = .panic ∧
      commentSetContent old c = (.err (.invalidContent c%"Comments cannot contain '-->'"), old)) := by
  constructor
  · intro h
    have h' : ¬ contains c c%"-->" = true := fun hc => h (contains_iff.1 hc)
    unfold commentFrom commentNew commentSetContent
    rw [if_neg h', if_neg h']
    exact ⟨rfl, rfl, rfl⟩
  · intro h
    have h' := contains_iff.2 h
    unfold commentFrom commentNew commentSetContent
    rw [if_pos h', if_pos h']
    exact ⟨rfl, rfl, rfl⟩

example : ¬ c%"-->" <:+: c%" a - -> b-- " := by decide
example : c%"-->" <:+: c%"a--->" ∧ commentSetContent c%"old" c%"a--->" =
    (.err (.invalidContent c%"Comments cannot contain '-->'"), c%"old") := by decide

/-- C88: the same for `CData::new` and `CData::set_text`, with `]]>`. -/
theorem C88_cdata (old c : Str) :
    (¬ c%"]]>" <:+: c → cdataNew c = .ok c ∧ cdataFrom c = .ok c ∧ cdataSetText old c = (.ok (), c)) ∧
    (c%"]]>" <:+: c → cdataNew c = .err (.invalidContent c%"CDATA cannot contain ']]>' as content") ∧ cdataFrom c = .panic ∧
      cdataSetText old c = (.err (.invalidContent c%"CDATA cannot contain ']]>'"), old)) := by
  constructor
  · intro h
    have h' : ¬ contains c c%"]]>" = true := fun hc => h (contains_iff.1 hc)
    unfold cdataFrom cdataNew cdataSetText
    rw [if_neg h', if_neg h']
    exact ⟨rfl, rfl, rfl⟩
  · intro h
    have h' := contains_iff.2 h
    unfold cdataFrom cdataNew cdataSetText
    rw [if_pos h', if_pos h']
    exact ⟨rfl, rfl, rfl⟩

example : ¬ c%"]]>" <:+: c%"<x>]] ></x>" := by decide
example : c%"]]>" <:+: c%"x]]]>" ∧ cdataSetText c%"old" c%"x]]]>" = (.err (.invalidContent c%"CDATA cannot contain ']]>'"), c%"old") := by
  decide

/-- C88: a text, comment or CDATA node written alone: the escaped text, the comment, the section; the indent does not matter. -/
theorem C88_written (s i : Str) :
    (Node.text s).toStringWithIndent i = s.flatMap escText ∧ (Node.text s).toString = s.flatMap escText ∧
    (Node.comment s).toStringWithIndent i = c%"<!--" ++ s ++ c%"-->" ∧ (Node.comment s).toString = c%"<!--" ++ s ++ c%"-->" ∧
    (Node.cdata s).toStringWithIndent i = c%"<![CDATA[" ++ s ++ c%"]]>" ∧ (Node.cdata s).toString = c%"<![CDATA[" ++ s ++ c%"]]>" :=
  ⟨textEscape_eq s, textEscape_eq s, rfl, rfl, rfl, rfl⟩

example : (Node.text c%"a<b & 'c'").toString = c%"a&lt;b &amp; 'c'" ∧ (Node.comment c%" a<b ").toStringWithIndent c%"\t" = c%"<!-- a<b -->" ∧
    (Node.cdata c%"a<b").toString = c%"<![CDATA[a<b]]>" := by decide

/-- C88: `Text::concat`, `clear_children`, and `Element::default`, which is written `<x/>`. -/
theorem C88_other (a b : Str) (e : Element) :
    (Node.text (textConcat a b)).textOf = (Node.text a).textOf ++ (Node.text b).textOf ∧
    e.clearChildren = { e with children := [] } ∧
    ElementF.dflt.toString = c%"<x/>" ∧ ElementF.newFromName c%"x" = .ok ElementF.dflt ∧
    ElementF.dflt.namespace_ = none ∧ ElementF.dflt.namespacePrefix = none :=
  ⟨rfl, rfl, by decide +kernel, rfl, rfl, rfl⟩

example : textConcat c%"a " c%" b" = c%"a  b" := rfl

/-! ## C89 -/

/-- C89, `append`, `append_all`, `set_text`: run statement by statement they leave what `append` … say, without error or panic. -/
theorem C89_append (e : Element) (n : Node) (l : List Node) (t : Str) :
    (∃ e', e.append n = .ok e' ∧ ElementF.appendM n e = (.ok (), e')) ∧
    (∃ e', e.appendAll l = .ok e' ∧ ElementF.appendAllM l e = (.ok (), e')) ∧
    (∃ e', e.setText t = .ok e' ∧ ElementF.setTextM t e = (.ok (), e')) :=
  ⟨⟨_, append_eq e n, ElementF.appendM_eq _ _ _ (append_eq e n)⟩, ⟨_, appendAll_eq e l, ElementF.appendAllM_eq _ _ _ (appendAll_eq e l)⟩,
    ⟨_, append_eq e.clearChildren (.text t), ElementF.setTextM_eq _ _ _ (append_eq e.clearChildren (.text t))⟩⟩

/-- C89, `insert`: after an error the element is as before. -/
theorem C89_insert (e : Element) (i : Nat) (n : Node) :
    (i ≤ e.children.length → ∃ e', e.insert i n = .ok e' ∧ ElementF.insertM i n e = (.ok (), e')) ∧
    (e.children.length < i →
      ElementF.insertM i n e = (.err (.indexOutOfBounds (asIsize i) (some (0, asIsize e.children.length))), e)) := by
  constructor
  · intro h
    have := insert_eq e i n
    rw [if_neg (by omega)] at this
    exact ⟨_, this, ElementF.insertM_eq _ _ _ _ this⟩
  · exact ElementF.insertM_err e i n

/-- C89, `remove` and `remove_element`: after an error the element is as before. -/
theorem C89_remove (e : Element) (i : Nat) :
    (∀ n e', e.remove i = .ok (n, e') → ElementF.removeM i e = (.ok n, e')) ∧
    (∀ x, e.remove i = .err x → ElementF.removeM i e = (.err x, e)) ∧
    (∀ c e', e.removeElement i = .ok (c, e') → ElementF.removeElementM i e = (.ok c, e')) ∧
    (∀ x, e.removeElement i = .err x → ElementF.removeElementM i e = (.err x, e)) := by
  refine ⟨fun n e' h => ElementF.removeM_eq _ _ _ _ h, fun x h => ?_, fun c e' h => ElementF.removeElementM_eq _ _ _ _ h,
    fun x h => ElementF.removeElementM_err _ _ _ h⟩
  by_cases hi : e.children.length ≤ i
  · rw [ElementF.removeM_err e i hi]
    rw [remove_eq, List.getElem?_eq_none hi] at h
    cases h
    rfl
  · rw [remove_eq, List.getElem?_eq_getElem (by omega)] at h
    cases h

/-- C89, `set_attr`: after an error the element is as before. -/
theorem C89_set_attr (e : Element) (k v : Str) :
    (∀ e', e.setAttr k v = .ok e' → ElementF.setAttrM k v e = (.ok (), e')) ∧
    (∀ x, e.setAttr k v = .err x → ElementF.setAttrM k v e = (.err x, e)) :=
  ⟨fun _ h => ElementF.setAttrM_eq _ _ _ _ h, fun _ h => ElementF.setAttrM_err _ _ _ _ h⟩

/-- C89, `remove_by`: if the predicate panics (or does not return) on some child, nothing has been removed; otherwise the result is that of
`removeBy`. -/
theorem C89_remove_by (e : Element) (p : Node → R Bool) :
    (∀ q : Node → Bool, (∀ n ∈ e.children, p n = .ok (q n)) → ∃ e' k, e.removeBy q = .ok (e', k) ∧ ElementF.removeByM p e = (.ok k, e')) ∧
    (∀ n ∈ e.children, (∀ b, p n ≠ .ok b) → (ElementF.removeByM p e).2 = e ∧ ∀ k, (ElementF.removeByM p e).1 ≠ .ok k) :=
  ⟨fun q h => ⟨_, _, removeBy_eq e q, ElementF.removeByM_eq p q _ _ _ h (removeBy_eq e q)⟩, fun n hn hp => ElementF.removeByM_stop p e n hn hp⟩

/-- C89, `remove_by`: which outcome it is.  The children are looked at from the last to the first; the first one on which the predicate
panics (or does not return) decides. -/
theorem C89_remove_by_panic (e : Element) (p : Node → R Bool) (a b : List Node) (n : Node) (he : e.children = a ++ n :: b)
    (hp : ∀ m ∈ b, ∃ v, p m = .ok v) :
    (p n = .panic → ElementF.removeByM p e = (.panic, e)) ∧ (p n = .diverge → ElementF.removeByM p e = (.diverge, e)) :=
  ElementF.removeByM_outcome p e a b n he hp

/-- C89, `remove_elements`: the same. -/
theorem C89_remove_elements_panic (e : Element) (p : Element → R Bool) (a b : List Node) (c : Element)
    (he : e.children = a ++ .element c :: b) (hp : ∀ m, .element m ∈ b → ∃ v, p m = .ok v) :
    (p c = .panic → ElementF.removeElementsM p e = (.panic, e)) ∧ (p c = .diverge → ElementF.removeElementsM p e = (.diverge, e)) := by
  refine ElementF.removeByM_outcome (fun n => if n.isElement then do
      let e ← expect n.asElement
      p e
    else .ok false) e a b (.element c) he ?_
  intro m hm
  cases m with
  | element m => exact hp m hm
  | _ => exact ⟨false, rfl⟩

/-- C89, `remove_elements`: the same. -/
theorem C89_remove_elements (e : Element) (p : Element → R Bool) :
    (∀ q : Element → Bool, (∀ c, .element c ∈ e.children → p c = .ok (q c)) →
      ∃ e' k, e.removeElements q = .ok (e', k) ∧ ElementF.removeElementsM p e = (.ok k, e')) ∧
    (∀ c, .element c ∈ e.children → (∀ b, p c ≠ .ok b) →
      (ElementF.removeElementsM p e).2 = e ∧ ∀ k, (ElementF.removeElementsM p e).1 ≠ .ok k) := by
  constructor
  · intro q h
    refine ⟨_, _, removeElements_eq e q, ElementF.removeByM_eq _ (ElementF.elemPred q) _ _ _ ?_ (removeBy_eq e (ElementF.elemPred q))⟩
    intro n hn
    cases n with
    | element c => exact h c hn
    | _ => rfl
  · intro c hc hp
    exact ElementF.removeByM_stop _ e (.element c) hc hp

/-- `<r>a<x/><y/>b</r>` -/
def fourKids : Element := ⟨c%"r", [.text c%"a", .element ⟨c%"x", [], .empty, none, none, .empty⟩, .element ⟨c%"y", [], .empty, none, none, .empty⟩,
  .text c%"b"], .empty, none, none, .empty⟩

/-- the predicate panics on `<x/>`; it would not have returned on the first text -/
example : (match ElementF.removeByM (fun n => if n.isText then (if n.textOf = c%"a" then .diverge else .ok true)
      else match n with
        | .element c => if c.name = c%"x" then .panic else .ok true
        | _ => .ok true) fourKids with
    | (.panic, e) => e.children.length
    | _ => 0) = 4 := by decide
example : (match ElementF.insertM 5 (.comment c%"z") fourKids with
    | (.err (.indexOutOfBounds 5 (some (0, 4))), e) => e.children.length
    | _ => 0) = 4 := by decide
example : (match ElementF.insertM 1 (.text c%"z") fourKids with | (.ok (), e) => e.children.map Node.textOf | _ => []) =
    [c%"az", [], [], c%"b"] := by decide
example : (match ElementF.removeElementM 1 fourKids with | (.ok c, e) => (c.name, e.children.length) | _ => ([], 0)) = (c%"y", 3) := by decide
example : (match ElementF.removeElementM 2 fourKids with | (.err _, e) => e.children.length | _ => 0) = 4 := by decide
/-- a predicate that panics on `x`: `y` would have matched, and has been looked at before, but is still there -/
example : (match ElementF.removeElementsM (fun c => if c.name = c%"x" then .panic else .ok true) fourKids with
    | (.panic, e) => e.childElements.map (·.name)
    | _ => []) = [c%"x", c%"y"] := by decide
example : (match ElementF.removeByM (fun n => .ok n.isText) fourKids with | (.ok 2, e) => e.children.length | _ => 0) = 2 := by decide
example : (match ElementF.setAttrM c%"1" c%"v" fourKids with | (.err _, e) => e.attrs.get c%"1" | _ => some []) = none := by decide

end KissXml.Props
