import Verif.Model.Foreign
import Verif.Model.AnyOrder
/-!
# Specification: nodes of the user's own types in the place of comments
-/
namespace KissXml.Spec

/-- a node that is none of the four kinds, and says so -/
def NoKind (f : Foreign) : Prop := f.isElement = false ∧ f.isText = false ∧ f.isComment = false ∧ f.isCData = false

mutual
/-- The same nodes, except that a comment stands for each foreign node: the one that `code` gives for it. -/
inductive LikeNode (code : Foreign → Str) : XNode → Node → Prop
  | text (t : Str) : LikeNode code (.text t) (.text t)
  | comment (t : Str) : LikeNode code (.comment t) (.comment t)
  | cdata (t : Str) : LikeNode code (.cdata t) (.cdata t)
  | element {e : XElement} {e' : Element} : LikeElement code e e' → LikeNode code (.element e) (.element e')
  | foreign {f : Foreign} : NoKind f → LikeNode code (.foreign f) (.comment (code f))
/-- the same for elements -/
inductive LikeElement (code : Foreign → Str) : XElement → Element → Prop
  | mk {n x p a c : _} {cs : List XNode} {cs' : List Node} :
      LikeList code cs cs' → LikeElement code ⟨n, cs, a, x, p, c⟩ ⟨n, cs', a, x, p, c⟩
/-- the same for child lists -/
inductive LikeList (code : Foreign → Str) : List XNode → List Node → Prop
  | nil : LikeList code [] []
  | cons {n : XNode} {n' : Node} {l : List XNode} {l' : List Node} :
      LikeNode code n n' → LikeList code l l' → LikeList code (n :: l) (n' :: l')
end

/-- optional child lists that are alike -/
def LikeChildren (code : Foreign → Str) : Option (List XNode) → Option (List Node) → Prop
  | none, none => True
  | some l, some l' => LikeList code l l'
  | _, _ => False

/-- Two outcomes that agree: results related by `rel`, the same error, or panics. -/
inductive SameEnd {α β : Type} (rel : α → β → Prop) : R α → R β → Prop
  | ok {a : α} {b : β} : rel a b → SameEnd rel (.ok a) (.ok b)
  | err (e : Err) : SameEnd rel (.err e) (.err e)
  | panic : SameEnd rel .panic .panic
  | diverge : SameEnd rel .diverge .diverge

/-- Closures that answer alike for nodes that are alike. -/
def LikePred (code : Foreign → Str) (p : XNode → Bool) (p' : Node → Bool) : Prop := ∀ n n', LikeNode code n n' → p n = p' n'
/-- the same for closures about elements -/
def LikeElemPred (code : Foreign → Str) (p : XElement → Bool) (p' : Element → Bool) : Prop := ∀ e e', LikeElement code e e' → p e = p' e'

/-- calls with arguments that are alike -/
inductive LikeCall (code : Foreign → Str) : XCall → Call → Prop
  | setAttr (k v : Str) : LikeCall code (.setAttr k v) (.setAttr k v)
  | removeAttr (k : Str) : LikeCall code (.removeAttr k) (.removeAttr k)
  | clearAttributes : LikeCall code .clearAttributes .clearAttributes
  | setText (t : Str) : LikeCall code (.setText t) (.setText t)
  | clearChildren : LikeCall code .clearChildren .clearChildren
  | append {n : XNode} {n' : Node} : LikeNode code n n' → LikeCall code (.append n) (.append n')
  | appendAll {l : List XNode} {l' : List Node} : LikeList code l l' → LikeCall code (.appendAll l) (.appendAll l')
  | insert (i : Nat) {n : XNode} {n' : Node} : LikeNode code n n' → LikeCall code (.insert i n) (.insert i n')
  | remove (i : Nat) : LikeCall code (.remove i) (.remove i)
  | removeElementsByName (n : Str) : LikeCall code (.removeElementsByName n) (.removeElementsByName n)
  | removeBy {p p' : _} : LikePred code p p' → LikeCall code (.removeBy p) (.removeBy p')
  | removeAll {p p' : _} : LikePred code p p' → LikeCall code (.removeAll p) (.removeAll p')
  | removeElements {p p' : _} : LikeElemPred code p p' → LikeCall code (.removeElements p) (.removeElements p')
  | removeAllElements {p p' : _} : LikeElemPred code p p' → LikeCall code (.removeAllElements p) (.removeAllElements p')
  | inChild (i : Nat) {c : XCall} {c' : Call} : LikeCall code c c' → LikeCall code (.inChild i c) (.inChild i c')

/-- the same for lists of calls -/
inductive LikeCalls (code : Foreign → Str) : List XCall → List Call → Prop
  | nil : LikeCalls code [] []
  | cons {c : XCall} {c' : Call} {l : List XCall} {l' : List Call} :
      LikeCall code c c' → LikeCalls code l l' → LikeCalls code (c :: l) (c' :: l')

mutual
/-- the foreign nodes below an element in the order of the document, each with the answer whether it is an only child -/
def foreignBelow : XElement → List (Foreign × Bool)
  | ⟨_, cs, _, _, _, _⟩ => foreignAmong (cs.length == 1) cs
/-- those among the nodes of a list and below them -/
def foreignAmong (only : Bool) : List XNode → List (Foreign × Bool)
  | [] => []
  | n :: l => foreignIn only n ++ foreignAmong only l
/-- those of one node -/
def foreignIn (only : Bool) : XNode → List (Foreign × Bool)
  | .element e => foreignBelow e
  | .text _ => []
  | .comment _ => []
  | .cdata _ => []
  | .foreign f => [(f, only)]
end

/-- Two texts that are the same except that one has the foreign nodes of the list, as they show themselves, where the other has
comments.  An only child is asked to show itself without an indent. -/
inductive SameBut (code : Foreign → Str) (indent : Str) : List (Foreign × Bool) → Str → Str → Prop
  | nil (s : Str) : SameBut code indent [] s s
  | cons (s : Str) (f : Foreign) (only : Bool) {fs : List (Foreign × Bool)} {t t' : Str} : SameBut code indent fs t t' →
      SameBut code indent ((f, only) :: fs) (s ++ f.shown (if only then [] else indent) ++ t) (s ++ commentToString (code f) ++ t')

mutual
/-- The comparison of two elements meets a foreign node: the elements are equal in all but their children, of which there are
as many, and among these it meets one. -/
inductive MeetsElement : XElement → XElement → Prop
  | mk {n x p : _} {a a' : SMap} {c c' : SMap} {cs cs' : List XNode} :
      (∀ k, a.get k = a'.get k) → cs.length = cs'.length → MeetsList cs cs' → MeetsElement ⟨n, cs, a, x, p, c⟩ ⟨n, cs', a', x, p, c'⟩
/-- Child after child: a pair with a foreign node, or after some pairs of equal nodes. -/
inductive MeetsList : List XNode → List XNode → Prop
  | here {n n' : XNode} {l l' : List XNode} : MeetsNode n n' → MeetsList (n :: l) (n' :: l')
  | later {n n' : XNode} {l l' : List XNode} : XNode.eq n n' = .ok true → MeetsList l l' → MeetsList (n :: l) (n' :: l')
/-- One of the two is foreign, or both are elements in which one is met. -/
inductive MeetsNode : XNode → XNode → Prop
  | left (f : Foreign) (n : XNode) : MeetsNode (.foreign f) n
  | right (n : XNode) (f : Foreign) : MeetsNode n (.foreign f)
  | inside {e e' : XElement} : MeetsElement e e' → MeetsNode (.element e) (.element e')
end

end KissXml.Spec
