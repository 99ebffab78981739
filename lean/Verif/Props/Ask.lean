import Verif.Proofs.Ask
/-!
# C105: what the removing calls ask their predicate
-/
namespace KissXml.Props
open KissXml KissXml.Spec
variable {τ : Type}

/-- C105, `remove_by`: the predicate is asked about each child once, from the last to the first; then those with the answer `true` are
removed.  If it panics, nothing has been removed. -/
theorem C105_remove_by (e : Element) (p : τ → Node → Option Bool × τ) (t : τ) :
    ElementF.removeByA p (e, t) =
      match judge p e.children t with
      | (none, t') => (.panic, e, t')
      | (some (k, c), t') => (.ok c, { e with children := k }, t') :=
  removeByA_eq p e t

/-- C105, `remove_elements`: the same, about elements only. -/
theorem C105_remove_elements (e : Element) (p : τ → Element → Option Bool × τ) (t : τ) :
    ElementF.removeElementsA p (e, t) =
      match judge (ofElements p) e.children t with
      | (none, t') => (.panic, e, t')
      | (some (k, c), t') => (.ok c, { e with children := k }, t') :=
  have h : ElementF.elemAsker p = ofElements p := by funext t n; cases n <;> rfl
  h ▸ removeByA_eq (ElementF.elemAsker p) e t

/-- C105, `remove_all`: first the children, then the children of those that are left; it ends with the number of removed nodes or with a
panic of the predicate, and this is what is in the element then. -/
theorem C105_remove_all (e : Element) (p : τ → Node → Option Bool × τ) (t : τ) (e' : Element) (t' : τ) :
    (∀ c, ElementF.removeAllA p (e, t) = (.ok c, e', t') ↔ ∃ cs, Weeded p t e.children (some c) cs t' ∧ e' = { e with children := cs }) ∧
    (ElementF.removeAllA p (e, t) = (.panic, e', t') ↔ ∃ cs, Weeded p t e.children none cs t' ∧ e' = { e with children := cs }) ∧
    ((∃ c, (ElementF.removeAllA p (e, t)).1 = .ok c) ∨ (ElementF.removeAllA p (e, t)).1 = .panic) :=
  weeded_iff (removeAllAF_spec p e.size e t (Nat.le_refl _)) e' t'

/-- C105, `remove_all_elements`: the same, about elements only. -/
theorem C105_remove_all_elements (e : Element) (p : τ → Element → Option Bool × τ) (t : τ) (e' : Element) (t' : τ) :
    (∀ c, ElementF.removeAllElementsA p (e, t) = (.ok c, e', t') ↔
      ∃ cs, Weeded (ofElements p) t e.children (some c) cs t' ∧ e' = { e with children := cs }) ∧
    (ElementF.removeAllElementsA p (e, t) = (.panic, e', t') ↔
      ∃ cs, Weeded (ofElements p) t e.children none cs t' ∧ e' = { e with children := cs }) ∧
    ((∃ c, (ElementF.removeAllElementsA p (e, t)).1 = .ok c) ∨ (ElementF.removeAllElementsA p (e, t)).1 = .panic) := by
  have h : ElementF.elemAsker p = ofElements p := by funext t n; cases n <;> rfl
  refine weeded_iff ?_ e' t'
  rw [← h]
  exact removal_spec (ElementF.elemAsker p) _ e t fun x _ t => removeAllAF_spec _ x.size x t (Nat.le_refl _)

/-- C105: no node is asked about twice, each as it was before the call.  If the predicate does not panic, the answer was `true` as often
as the returned number says, and `false` once for each node that is left.  Also after a panic, nothing has changed but that some nodes
with the answer `true` are gone. -/
theorem C105_once (e : Element) (p : τ → Node → Option Bool × τ) (t : τ) {r : R Nat} {e' : Element} {t' : τ} {M : List (Node × Bool)}
    (h : ElementF.removeAllA (noting p) (e, t, []) = (r, e', t', M)) :
    (M.map Prod.fst).Subperm (descendants e) ∧
    (∀ c, r = .ok c → M.countP (fun x => x.2) = c ∧ M.countP (fun x => !x.2) = (descendants e').length) ∧
    ∃ cs, e' = { e with children := cs } ∧ Thinned (fun n => (n, true) ∈ M) e.children cs := by
  obtain ⟨s, cs, u, h1, h2⟩ := removeAllAF_spec (noting p) e.size e (t, []) (Nat.le_refl _)
  obtain ⟨M', h3, h4, h5⟩ := weeded_notes h1
  rw [List.append_nil] at h3
  have h6 : (Res.unwrap s, { e with children := cs }, u) = (r, e', t', M) := h2.symm.trans h
  cases h6
  subst h3
  refine ⟨h4.once, fun c hc => h4.counts c ?_, cs, rfl, h5⟩
  cases s with
  | none => cases hc
  | some d => cases hc; rfl

/-- C105: for a predicate that neither panics nor remembers, this is what C20 and C21 describe. -/
theorem C105_plain (e : Element) (q : Node → Bool) (t : τ) :
    (∀ e' c, e.removeAll q = .ok (e', c) ↔ ElementF.removeAllA (fun (t : τ) n => (some (q n), t)) (e, t) = (.ok c, e', t)) ∧
    (∀ e' c, e.removeBy q = .ok (e', c) ↔ ElementF.removeByA (fun (t : τ) n => (some (q n), t)) (e, t) = (.ok c, e', t)) := by
  constructor
  · intro e' c
    obtain ⟨s, cs, u, h1, h2⟩ := removeAllAF_spec (fun (t : τ) n => (some (q n), t)) e.size e t (Nat.le_refl _)
    obtain ⟨rfl, rfl, rfl⟩ := weeded_plain q h1
    rw [removeAll_eq, show ElementF.removeAllA (fun (t : τ) n => (some (q n), t)) (e, u) = _ from h2]
    constructor
    · intro h; cases h; rfl
    · intro h; cases h; rfl
  · intro e' c
    rw [removeBy_eq, removeByA_eq, judge_plain]
    constructor
    · intro h; cases h; rfl
    · intro h; cases h; rfl

/-! ## Examples -/

/-- `<r>t<k><!--c--></k><l>u</l></r>` -/
private def askTree : Element :=
  ⟨c%"r", [.text c%"t", .element ⟨c%"k", [.comment c%"c"], .empty, none, none, .empty⟩,
    .element ⟨c%"l", [.text c%"u"], .empty, none, none, .empty⟩], .empty, none, none, .empty⟩

/-- every second node, with a counter: `l`, not `k`, `t`, not `c` -/
example : ElementF.removeAllA (fun (i : Nat) (_ : Node) => (some (i % 2 == 0), i + 1)) (askTree, 0) =
    (.ok 2, ⟨c%"r", [.element ⟨c%"k", [.comment c%"c"], .empty, none, none, .empty⟩], .empty, none, none, .empty⟩, 4) := by rfl

/-- what is asked, the last first -/
example : (ElementF.removeAllA (noting fun (_ : Unit) (n : Node) => (some n.isText, ())) (askTree, (), [])).2.2.2 =
    [(.text c%"u", true), (.comment c%"c", false)] ++ (askTree.children.map fun n => (n, n.isText)) := by rfl

/-- a panic about the comment: the text `t` is gone, `u` is still there -/
example : ElementF.removeAllA (fun (_ : Unit) (n : Node) => (if n.isComment then none else some n.isText, ())) (askTree, ()) =
    (.panic, ⟨c%"r", [.element ⟨c%"k", [.comment c%"c"], .empty, none, none, .empty⟩,
      .element ⟨c%"l", [.text c%"u"], .empty, none, none, .empty⟩], .empty, none, none, .empty⟩, ()) := by rfl

/-- a panic about the first child: nothing is gone -/
example : ElementF.removeByA (fun (i : Nat) (_ : Node) => (if i = 2 then none else some true, i + 1)) (askTree, 0) = (.panic, askTree, 3) := by rfl

end KissXml.Props
