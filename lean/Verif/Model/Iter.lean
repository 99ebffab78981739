import Verif.Model.Dom
/-!
# The iterators of the recursive queries, call by call

`children_recursive`, `search`, `search_elements`, `search_text` and `search_comments` as iterators: a state and a function `next`.
`Model/Dom.lean` has the lists of all items instead; here one sees what has been done after some of the calls of `next`.

The loops have fuel; `none` says that there was not enough of it, or that `expect` panicked.
-/
namespace KissXml

/-- The iterator that `children_recursive` makes for an element, dom.rs:868-876: a `Chain` of the iterator over `child_nodes` (`here`,
`None` after it has ended) and a `Flatten`, of which `rest` are the child nodes that `child_elements` has not yet looked at and
`front` the iterator for the last element it found.  `off` is `None` in the place of `front`.  `Flatten` also has an iterator for
reading backwards, which is always `None` here, and a `Fuse`, which makes no difference for the iterator of a vector. -/
inductive Walk where
  | off
  | on (here : Option (List Node)) (rest : List Node) (front : Walk)

/-- the new iterator of `children_recursive`, dom.rs:868-876 -/
def Walk.new (e : Element) : Walk := .on (some e.children) e.children .off

/-- `next` of `child_elements`, dom.rs:844-848 -/
def childElementNext : List Node → Option (Element × List Node)
  | [] => none
  | .element e :: l => some (e, l)
  | _ :: l => childElementNext l

/-- `next` of the `flatten()` of dom.rs:872-873: the front iterator is used until it ends, then the one for the next element.
The last component of the result is the number of calls of `next` for iterators of `children_recursive`. -/
def flattenNext (nx : Walk → Option (Option Node × Walk × Nat)) :
    Nat → List Node → Walk → Option (Option Node × List Node × Walk × Nat)
  | 0, _, _ => none
  | k + 1, rest, front =>
    match nx front with
    | none => none
    | some (some n, front', c) => some (some n, rest, front', c)
    | some (none, _, c) =>
      match childElementNext rest with
      | none => some (none, [], .off, c)
      | some (e, rest') =>
        match flattenNext nx k rest' (.new e) with
        | none => none
        | some (r, a, b, c') => some (r, a, b, c + c')

/-- `next` of the iterator of `children_recursive`, dom.rs:868-876, and how many calls of `next` for such iterators this takes
(itself and those for the elements inside) -/
def Walk.next : Nat → Walk → Option (Option Node × Walk × Nat)
  | 0, _ => none
  | _ + 1, .off => some (none, .off, 0)
  | _ + 1, .on (some (n :: l)) rest front => some (some n, .on (some l) rest front, 1)
  | k + 1, .on _ rest front =>
    match flattenNext (Walk.next k) (k + 1) rest front with
    | none => none
    | some (r, rest', front', c) => some (r, .on none rest' front', c + 1)

/-- `k` calls of `next`, whatever they return -/
def pull {σ α : Type} (nx : σ → Option (Option α × σ)) : Nat → σ → Option (List (Option α) × σ)
  | 0, s => some ([], s)
  | k + 1, s =>
    match nx s with
    | none => none
    | some (r, s') => (pull nx k s').map fun x => (r :: x.1, x.2)

/-- `next` of `children_recursive` with the number of calls so far in the state -/
def Walk.count (fuel : Nat) (s : Walk × Nat) : Option (Option Node × Walk × Nat) :=
  (s.1.next fuel).map fun x => (x.1, x.2.1, s.2 + x.2.2)

/-- `next` of `children_recursive` without the counter -/
def Walk.step (fuel : Nat) (w : Walk) : Option (Option Node × Walk) := (w.next fuel).map fun x => (x.1, x.2.1)

/-- `next` of the standard library's `Filter`: items of the iterator `nx` until one satisfies the predicate, which may change its own
state (`FnMut`, dom.rs:1045) -/
def filterNext {σ τ α : Type} (nx : σ → Option (Option α × σ)) (p : τ → α → Bool × τ) :
    Nat → σ × τ → Option (Option α × σ × τ)
  | 0, _ => none
  | k + 1, (s, t) =>
    match nx s with
    | none => none
    | some (none, s') => some (none, s', t)
    | some (some a, s') => if (p t a).1 then some (some a, s', (p t a).2) else filterNext nx p k (s', (p t a).2)

/-- `next` of the standard library's `Map`, for a function that may panic -/
def mapNext {σ α β : Type} (nx : σ → Option (Option α × σ)) (f : α → Option β) (s : σ) : Option (Option β × σ) :=
  match nx s with
  | none => none
  | some (none, s') => some (none, s')
  | some (some a, s') => (f a).map fun b => (some b, s')

/-- `next` of `search`, dom.rs:1045-1050 -/
def searchNext {τ : Type} (fuel : Nat) (p : τ → Node → Bool × τ) : Walk × τ → Option (Option Node × Walk × τ) :=
  filterNext (Walk.step fuel) p fuel

/-- `next` of `search` with a predicate without state, as in dom.rs:1083, 1126 and 1136 -/
def searchStep (fuel : Nat) (p : Node → Bool) (w : Walk) : Option (Option Node × Walk) :=
  (searchNext fuel (fun (_ : Unit) n => (p n, ())) (w, ())).map fun x => (x.1, x.2.1)

/-- `next` of `search_elements`, dom.rs:1080-1087 -/
def searchElementsNext {τ : Type} (fuel : Nat) (p : τ → Element → Bool × τ) : Walk × τ → Option (Option Element × Walk × τ) :=
  filterNext (mapNext (searchStep fuel Node.isElement) fun n => match n with | .element e => some e | _ => none) p fuel

/-- `next` of `search_text`, dom.rs:1123-1130 -/
def searchTextNext {τ : Type} (fuel : Nat) (p : τ → Str → Bool × τ) : Walk × τ → Option (Option Str × Walk × τ) :=
  filterNext (mapNext (searchStep fuel Node.isText) fun n => match n with | .text s => some s | _ => none) p fuel

/-- `next` of `search_comments`, dom.rs:1133-1140 -/
def searchCommentsNext {τ : Type} (fuel : Nat) (p : τ → Str → Bool × τ) : Walk × τ → Option (Option Str × Walk × τ) :=
  filterNext (mapNext (searchStep fuel Node.isComment) fun n => match n with | .comment s => some s | _ => none) p fuel

end KissXml
