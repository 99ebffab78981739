import Verif.Spec.Dom
/-!
# Specification: what a removing call asks, and what it removes

`p t n` is the answer of a predicate about the node `n` if it remembers `t` (`none`: it panics), and what it remembers afterwards.
-/
namespace KissXml.Spec
variable {τ : Type}

/-- The nodes of a list are asked about once each, from the last to the first.  The result: those with the answer `false` and the
number of the others, or `none` if the predicate panics; what it remembers. -/
def judge (p : τ → Node → Option Bool × τ) : List Node → τ → Option (List Node × Nat) × τ
  | [], t => (some ([], 0), t)
  | n :: l, t =>
    match judge p l t with
    | (none, t1) => (none, t1)
    | (some (kept, c), t1) =>
      match p t1 n with
      | (none, t2) => (none, t2)
      | (some true, t2) => (some (kept, c + 1), t2)
      | (some false, t2) => (some (n :: kept, c), t2)

mutual
/-- Recursive removal from a list of children: first its nodes are asked about, and those with the answer `true` removed; then the
same is done inside the elements that are left, from the first to the last.  If the predicate panics about a node, the list of which
it is a member stays as it is, and so does everything after it. -/
inductive Weeded (p : τ → Node → Option Bool × τ) : τ → List Node → Option Nat → List Node → τ → Prop
  | stop {t t' cs} : judge p cs t = (none, t') → Weeded p t cs none cs t'
  | go {t t1 t' cs kept c r cs'} : judge p cs t = (some (kept, c), t1) → WeededIn p t1 kept r cs' t' →
      Weeded p t cs (r.map (c + ·)) cs' t'
/-- the same inside the elements of a list -/
inductive WeededIn (p : τ → Node → Option Bool × τ) : τ → List Node → Option Nat → List Node → τ → Prop
  | nil {t} : WeededIn p t [] (some 0) [] t
  | other {t t' n l r l'} : (∀ e, n ≠ .element e) → WeededIn p t l r l' t' → WeededIn p t (n :: l) r (n :: l') t'
  | stop {t t'} {x : Element} {l cs} : Weeded p t x.children none cs t' →
      WeededIn p t (.element x :: l) none (.element { x with children := cs } :: l) t'
  | elem {t t1 t'} {x : Element} {l a cs r l'} : Weeded p t x.children (some a) cs t1 → WeededIn p t1 l r l' t' →
      WeededIn p t (.element x :: l) (r.map (a + ·)) (.element { x with children := cs } :: l') t'
end

/-- the second list is the first without some nodes for which `Gone` holds, recursively -/
inductive Thinned (Gone : Node → Prop) : List Node → List Node → Prop
  | nil : Thinned Gone [] []
  | drop {n l l'} : Gone n → Thinned Gone l l' → Thinned Gone (n :: l) l'
  | keep {n l l'} : Thinned Gone l l' → Thinned Gone (n :: l) (n :: l')
  | into {x : Element} {l l' cs} : Thinned Gone x.children cs → Thinned Gone l l' →
      Thinned Gone (.element x :: l) (.element { x with children := cs } :: l')

/-- the predicate `p`, which also writes down what it is asked and what it answers, the last first -/
def noting (p : τ → Node → Option Bool × τ) : τ × List (Node × Bool) → Node → Option Bool × (τ × List (Node × Bool)) :=
  fun s n =>
    match p s.1 n with
    | (none, t) => (none, t, s.2)
    | (some b, t) => (some b, t, (n, b) :: s.2)

/-- a predicate about elements, which is not asked about other nodes -/
def ofElements (p : τ → Element → Option Bool × τ) : τ → Node → Option Bool × τ
  | t, .element e => p t e
  | t, _ => (some false, t)

end KissXml.Spec
