import Verif.Spec.Dom
/-!
# Specification: a search that is called item by item

The predicate `p` has a state of its own: it may count or collect what it is asked.
-/
namespace KissXml.Spec

/-- The first item that satisfies the predicate, the items after it, and the state of the predicate, which has been asked about the
items up to there, once each and in order. -/
def firstMatch {α τ : Type} (p : τ → α → Bool × τ) : List α → τ → Option α × List α × τ
  | [], t => (none, [], t)
  | a :: l, t => if (p t a).1 then (some a, l, (p t a).2) else firstMatch p l (p t a).2

/-- what `k` calls of `next` return, and the state of the predicate after them -/
def searched {α τ : Type} (p : τ → α → Bool × τ) : Nat → List α → τ → List (Option α) × τ
  | 0, _, t => ([], t)
  | k + 1, l, t =>
    let r := firstMatch p l t
    let s := searched p k r.2.1 r.2.2
    (r.1 :: s.1, s.2)

/-- what `k` calls of `next` return if the iterator yields the items of a list, and then `None` for ever -/
def yielded {α : Type} (l : List α) (k : Nat) : List (Option α) := (List.range k).map (fun i => l[i]?)

end KissXml.Spec
