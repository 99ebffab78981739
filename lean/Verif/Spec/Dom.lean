import Verif.Model.Dom
/-!
# Specification: trees, document order, text normal form, pruning

Small list and tree functions, written without reference to the loops of `dom.rs`.
-/
namespace KissXml.Spec

/-! ## document order -/

mutual
/-- a node followed by everything below it, in document order -/
def docOrder : Node → List Node
  | .element ⟨n, cs, a, x, p, c⟩ => .element ⟨n, cs, a, x, p, c⟩ :: docOrderL cs
  | .text t => [.text t]
  | .comment t => [.comment t]
  | .cdata t => [.cdata t]
/-- the same for a list of nodes -/
def docOrderL : List Node → List Node
  | [] => []
  | c :: cs => docOrder c ++ docOrderL cs
end

/-- all nodes below an element, in document order -/
def descendants (e : Element) : List Node := docOrderL e.children

/-- the element behind a node -/
def element? : Node → Option Element
  | .element e => some e
  | _ => none
/-- the content of a text node -/
def text? : Node → Option Str
  | .text t => some t
  | _ => none
/-- the content of a comment -/
def comment? : Node → Option Str
  | .comment t => some t
  | _ => none
/-- the content of a CDATA section -/
def cdata? : Node → Option Str
  | .cdata t => some t
  | _ => none

/-! ## text normal form -/

/-- non-empty and only white space (Unicode `White_Space`) -/
def Blank (t : Str) : Prop := t ≠ [] ∧ ∀ c ∈ t, isWs c = true

instance (t : Str) : Decidable (Blank t) := inferInstanceAs (Decidable (_ ∧ _))

/-- put a node in front of a list, joining it to a leading text if it is a text itself -/
def consJoin : Node → List Node → List Node
  | .text a, .text b :: r => .text (a ++ b) :: r
  | n, r => n :: r

/-- join each maximal run of adjacent text nodes -/
def joinRuns : List Node → List Node
  | [] => []
  | n :: l => consJoin n (joinRuns l)

/-- is the node a blank text? -/
def isBlankText : Node → Bool
  | .text t => decide (Blank t)
  | _ => false

/-- joined runs, without blank ones -/
def normalText (l : List Node) : List Node := (joinRuns l).filter (fun n => !isBlankText n)

/-- equal except for namespace and prefix context -/
inductive NsOnly : Node → Node → Prop
  | refl (n : Node) : NsOnly n n
  | element (n : Str) (cs : List Node) (a : SMap) (x x' p : Option Str) (c c' : SMap) :
      NsOnly (.element ⟨n, cs, a, x, p, c⟩) (.element ⟨n, cs, a, x', p, c'⟩)

/-- What a parent with default namespace `d` and declared prefixes `ctx` hands down to a child node: an
element without a namespace gets `d` if it has no prefix, and the declaration of its prefix (its own, else the
parent's) if it has one; its known prefixes are its own and, for the others, the parent's. Nothing else
changes. -/
def HandedDown (d : Option Str) (ctx : SMap) : Node → Node → Prop
  | .element e, .element e' =>
      e'.name = e.name ∧ e'.children = e.children ∧ e'.attrs = e.attrs ∧ e'.pfx = e.pfx ∧
      (∀ k, e'.ctx.get k = (e.ctx.get k).or (ctx.get k)) ∧
      e'.xmlns = e.xmlns.or (match e.pfx with | none => d | some p => (e.ctx.get p).or (ctx.get p))
  | n, n' => n' = n

/-- the namespace an element gives to unprefixed children -/
def givenDefault (e : Element) : Option Str := if e.pfx = none then e.xmlns else none

/-! ## pruning -/

mutual
/-- the node without the descendants that satisfy `p` -/
def prune (p : Node → Bool) : Node → Node
  | .element ⟨n, cs, a, x, q, c⟩ => .element ⟨n, pruneL p cs, a, x, q, c⟩
  | .text t => .text t
  | .comment t => .comment t
  | .cdata t => .cdata t
/-- the list without the nodes that satisfy `p`, recursively -/
def pruneL (p : Node → Bool) : List Node → List Node
  | [] => []
  | m :: ms => if p m then pruneL p ms else prune p m :: pruneL p ms
end

mutual
/-- number of maximal subtrees below the node whose root satisfies `p` -/
def hits (p : Node → Bool) : Node → Nat
  | .element ⟨_, cs, _, _, _, _⟩ => hitsL p cs
  | .text _ => 0
  | .comment _ => 0
  | .cdata _ => 0
/-- the same for a list, counting its members -/
def hitsL (p : Node → Bool) : List Node → Nat
  | [] => 0
  | m :: ms => (if p m then 1 else hits p m) + hitsL p ms
end

/-! ## names -/

/-- `[_a-zA-Z]\S*` -/
def ApiName (s : Str) : Prop :=
  ∃ c t, s = c :: t ∧ (c = '_' ∨ ('a'.toNat ≤ c.toNat ∧ c.toNat ≤ 'z'.toNat) ∨ ('A'.toNat ≤ c.toNat ∧ c.toNat ≤ 'Z'.toNat)) ∧
    ∀ x ∈ t, isWs x = false

end KissXml.Spec
