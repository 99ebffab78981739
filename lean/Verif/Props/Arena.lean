import Verif.Proofs.Arena
/-!
# The parse arena: C53
-/
namespace KissXml.Props
open KissXml KissXml.Spec

/-- C53, first half: no sequence of operations on a new stack panics or runs forever; if it succeeds, `to_dom` gives an
element, or (if nothing was pushed) an error. -/
theorem C53_no_panic (l : List Op) :
    (∃ t, runOps l ParseTree.new = .ok t ∧ ((∃ e, t.toDom = .ok e) ∨ (t.data = [] ∧ ∃ m, t.toDom = .err (.parsing m none)))) ∨
    (∃ m, runOps l ParseTree.new = .err (.parsing m none)) := by
  rcases runOps_ok l [] none arenaOk_new with ⟨A, pos, h1, h2⟩ | h
  · refine .inl ⟨_, h1, ?_⟩
    cases A with
    | nil => exact .inr ⟨rfl, _, rfl⟩
    | cons a A =>
      obtain ⟨e, he, -⟩ := toDom_ok (fun _ => True) (by simp) (by simp) (a :: A) (by simp) pos h2 (by simp)
      exact .inl ⟨e, he⟩
  · exact .inr h

/-- `<a/>` -/
def ea : Element := ⟨c%"a", [], .empty, none, none, .empty⟩
/-- `<b/>` -/
def eb : Element := ⟨c%"b", [], .empty, none, none, .empty⟩

example : (match runOps [.push ea, .append (.text c%"x"), .push eb, .pop, .pop] ParseTree.new with
  | .ok t => (match t.toDom with | .ok e => e.children.map Node.textOf | _ => []) | _ => []) = [c%"x", []] := by rfl
example : (match runOps [.push ea, .pop, .pop] ParseTree.new with
  | .err (.parsing .closeWithoutOpen none) => true | _ => false) = true := by rfl

/-- C53, second half, is false: two texts appended one after the other come out in the wrong order, and an element
pushed when the stack is empty takes over the children of the first one. -/
theorem C53_false :
    (∃ t, runOps [.push ea, .append (.text c%"x"), .append (.text c%"y"), .pop] ParseTree.new = .ok t ∧
      t.toDom = .ok { ea with children := [.text c%"yx"] }) ∧
    (∃ t, runOps [.push ea, .append (.comment c%"x"), .pop, .push eb, .pop] ParseTree.new = .ok t ∧
      t.toDom = .ok { eb with children := [.comment c%"x"] }) :=
  ⟨⟨_, rfl, rfl⟩, ⟨_, rfl, rfl⟩⟩

/-- C53 for the operations that write one element with any content in which no two texts are adjacent and each pushed or
appended element comes without children of its own: `to_dom` returns that element, its children in call order without the
blank texts, each handed the namespaces of its parent.
Missing: adjacent texts, a second root element (see `C53_false`), and appended elements that already have children. -/
theorem C53_partial (e : Element) (f : Forest) (he : e.children = []) (hf : f.Ok) :
    ∃ t cs, runOps (.push e :: (f.ops ++ [.pop])) ParseTree.new = .ok t ∧ t.emptyStack = true ∧ Written e f cs ∧
      t.toDom = .ok { e with children := cs } := by
  obtain ⟨A, g1, g2, g3⟩ := push_none arenaOk_new e
  simp only [List.drop_nil] at g3
  subst g3
  obtain ⟨h1, h2⟩ := runOps_forest f _ 0 g2
  refine ⟨arena (⟨.element e, none⟩ :: flat 0 1 f) none, build e f, ?_, rfl, written_build f e, toDom_build hf e he none⟩
  show (do let t ← ParseTree.new.push e; runOps (f.ops ++ [Op.pop]) t) = _
  have g1' : ParseTree.new.push e = .ok (arena [⟨.element e, none⟩] (some 0)) := g1
  rw [g1', Res.bind_ok, runOps_append, h1]
  rfl

/-- `<a>x<b><!--c--></b>y</a>` -/
def sampleForest : Forest := .leaf (.text c%"x") (.elem eb (.leaf (.comment c%"c") .nil) (.leaf (.text c%"y") .nil))

example : sampleForest.Ok := by
  refine ⟨fun h => h, rfl, trivial, fun h => h, trivial⟩
example : (match runOps (.push ea :: (sampleForest.ops ++ [.pop])) ParseTree.new with
  | .ok t => (match t.toDom with | .ok e => e.children | _ => []) | _ => []) =
    [.text c%"x", .element { eb with children := [.comment c%"c"] }, .text c%"y"] := by rfl

end KissXml.Props
