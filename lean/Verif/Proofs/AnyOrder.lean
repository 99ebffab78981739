import Verif.Model.AnyOrder
import Verif.Spec.AnyOrder
import Verif.Spec.Congr
import Verif.Proofs.Congr
/-!
# The order of the maps does not matter
-/
namespace KissXml
open Spec Runs

/-! ## outcomes -/

theorem Spec.SameComplaint.refl (e : Err) : SameComplaint e e := .inl rfl
theorem Spec.SameComplaint.symm {e e' : Err} : SameComplaint e e' → SameComplaint e' e
  | .inl h => .inl h.symm
  | .inr ⟨n, n', h1, h2, h3, h4⟩ => .inr ⟨n', n, h2, h1, h4, h3⟩
theorem Spec.SameComplaint.trans {a b c : Err} (h : SameComplaint a b) (h' : SameComplaint b c) : SameComplaint a c := by
  rcases h with rfl | ⟨n, n', rfl, rfl, h3, h4⟩
  · exact h'
  · rcases h' with rfl | ⟨m, m', h1, rfl, h5, h6⟩
    · exact .inr ⟨n, n', rfl, rfl, h3, h4⟩
    · exact .inr ⟨n, m', rfl, rfl, h3, h6⟩

/-- every error is related to itself -/
class Mild (q : Err → Err → Prop) : Prop where
  refl : ∀ e, q e e

instance : Mild (fun e e' => e = e') := ⟨fun _ => rfl⟩
instance : Mild SameComplaint := ⟨.refl⟩

variable {q : Err → Err → Prop}

theorem agree_eq [Mild q] {α : Type} (x : R α) : Agree q (fun a b : α => a = b) x x := by
  cases x with
  | ok a => exact .ok rfl
  | err e => exact .err (Mild.refl e)
  | panic => exact .panic
  | diverge => exact .diverge

theorem agree_symm {α : Type} {r : α → α → Prop} (hq : ∀ a b, q a b → q b a) (h : ∀ a b, r a b → r b a) {x y : R α} (ha : Agree q r x y) :
    Agree q r y x := by
  cases ha with
  | ok hab => exact .ok (h _ _ hab)
  | err he => exact .err (hq _ _ he)
  | panic => exact .panic
  | diverge => exact .diverge

theorem agree_trans {α : Type} {r : α → α → Prop} (hq : ∀ a b c, q a b → q b c → q a c) (h : ∀ a b c, r a b → r b c → r a c) {x y z : R α}
    (ha : Agree q r x y) (hb : Agree q r y z) : Agree q r x z := by
  cases ha with
  | ok hab => cases hb with | ok hbc => exact .ok (h _ _ _ hab hbc)
  | err he => cases hb with | err he' => exact .err (hq _ _ _ he he')
  | panic => exact hb
  | diverge => exact hb

theorem agree_bind {α β : Type} {r : α → α → Prop} {r' : β → β → Prop} {x y : R α} {f g : α → R β} (h : Agree q r x y)
    (hf : ∀ a b, r a b → Agree q r' (f a) (g b)) : Agree q r' (x >>= f) (y >>= g) := by
  cases h with
  | ok hab => exact hf _ _ hab
  | err he => exact .err he
  | panic => exact .panic
  | diverge => exact .diverge

theorem agree_mapErr {α : Type} {r : α → α → Prop} {x y : R α} {f : Err → Err} (hf : ∀ n, f (.invalidAttributeName n) = .invalidAttributeName n)
    (h : Agree SameComplaint r x y) : Agree SameComplaint r (x.mapErr f) (y.mapErr f) := by
  cases h with
  | ok hab => exact .ok hab
  | err he =>
    rcases he with rfl | ⟨n, n', rfl, rfl, h3, h4⟩
    · exact .err (.refl _)
    · rw [Res.mapErr_err, Res.mapErr_err, hf, hf]
      exact .err (.inr ⟨n, n', rfl, rfl, h3, h4⟩)
  | panic => exact .panic
  | diverge => exact .diverge

theorem agree_unwrap {α : Type} {r : α → α → Prop} {x y : Option α} (h : (x = none ∧ y = none) ∨ ∃ a b, x = some a ∧ y = some b ∧ r a b) :
    Agree q r (Res.unwrap x : R α) (Res.unwrap y) := by
  rcases h with ⟨rfl, rfl⟩ | ⟨a, b, rfl, rfl, h⟩
  · exact .panic
  · exact .ok h

/-- every outcome of `m` agrees with `x` -/
def Allowed {α : Type} (q : Err → Err → Prop) (r : α → α → Prop) (x : R α) (m : Runs α) : Prop := ∀ y, m.has y → Agree q r x y

theorem allowed_of {α : Type} {r : α → α → Prop} {x y : R α} (h : Agree q r x y) : Allowed q r x (of y) := by
  rintro z rfl; exact h

theorem allowed_same [Mild q] {α : Type} (x : R α) : Allowed q (fun a b : α => a = b) x (of x) := allowed_of (agree_eq x)

theorem allowed_pure {α : Type} {r : α → α → Prop} {a b : α} (h : r a b) : Allowed q r (.ok a) (pure b) := allowed_of (.ok h)

theorem allowed_bind {α β : Type} {r : α → α → Prop} {r' : β → β → Prop} {x : R α} {m : Runs α} {f : α → R β} {g : α → Runs β}
    (h : Allowed q r x m) (hf : ∀ a b, r a b → Allowed q r' (f a) (g b)) : Allowed q r' (x >>= f) (m >>= g) := by
  rintro z (⟨a, h1, h2⟩ | ⟨e, h1, rfl⟩ | ⟨h1, rfl⟩ | ⟨h1, rfl⟩)
  · have := h _ h1
    cases this with
    | ok hab => exact hf _ _ hab _ h2
  · have := h _ h1
    cases this with
    | err he => exact .err he
  · have := h _ h1
    cases this with
    | panic => exact .panic
  · have := h _ h1
    cases this with
    | diverge => exact .diverge

/-- for a first step without a loop -/
theorem allowed_step [Mild q] {α β : Type} {r' : β → β → Prop} {x : R α} {f : α → R β} {g : α → Runs β}
    (hf : ∀ a, Allowed q r' (f a) (g a)) : Allowed q r' (x >>= f) (of x >>= g) :=
  allowed_bind (allowed_same x) fun a _ h => h ▸ hf a

theorem has_of {α : Type} (x : R α) : (of x).has x := rfl

theorem has_bind {α β : Type} {x : R α} {m : Runs α} {f : α → R β} {g : α → Runs β} (h : m.has x) (hf : ∀ a, x = .ok a → (g a).has (f a)) :
    (m >>= g).has (x >>= f) := by
  cases x with
  | ok a => exact .inl ⟨a, h, hf a rfl⟩
  | err e => exact .inr (.inl ⟨e, h, rfl⟩)
  | panic => exact .inr (.inr (.inl ⟨h, rfl⟩))
  | diverge => exact .inr (.inr (.inr ⟨h, rfl⟩))

theorem has_pure {α : Type} (a : α) : (pure a : Runs α).has (.ok a) := rfl

theorem has_step {α β : Type} {x : R α} {f : α → R β} {g : α → Runs β} (hf : ∀ a, x = .ok a → (g a).has (f a)) :
    (of x >>= g).has (x >>= f) := has_bind rfl hf

theorem of_bind {α β : Type} {m : Runs α} {f : α → β} {y : R β} (h : (m >>= fun a => pure (f a)).has y) (hm : ∀ z, m.has z → ∃ a, z = .ok a) :
    ∃ a, m.has (.ok a) ∧ y = .ok (f a) := by
  rcases h with ⟨a, h1, h2⟩ | ⟨e, h1, rfl⟩ | ⟨h1, rfl⟩ | ⟨h1, rfl⟩
  · exact ⟨a, h1, h2⟩
  all_goals
    obtain ⟨a, ha⟩ := hm _ h1
    cases ha

/-! ## maps -/

/-- the same entries -/
def Shuffle (m m' : SMap) : Prop := m.entries.Perm m'.entries

theorem Shuffle.get {m m' : SMap} (h : Shuffle m m') (k : Str) : m.get k = m'.get k := SMap.perm_iff_get.1 h k
theorem shuffle_iff {m m' : SMap} : Shuffle m m' ↔ ∀ k, m.get k = m'.get k := SMap.perm_iff_get
theorem Shuffle.symm {m m' : SMap} (h : Shuffle m m') : Shuffle m' m := List.Perm.symm h
theorem Shuffle.trans {m m' m'' : SMap} (h : Shuffle m m') (h' : Shuffle m' m'') : Shuffle m m'' := List.Perm.trans h h'
theorem Shuffle.refl (m : SMap) : Shuffle m m := List.Perm.refl _

/-- a list of the entries of a map as a map -/
def listed (m : SMap) (l : List (Str × Str)) (h : l.Perm m.entries) : SMap := ⟨l, ((h.map _).nodup_iff).2 m.nodup⟩

theorem listed_get {m m' : SMap} (hm : Shuffle m m') {l : List (Str × Str)} (h : l.Perm m'.entries) (k : Str) : LMap.get l k = m.get k :=
  ((shuffle_iff.1 (hm.trans (List.Perm.symm h : Shuffle m' (listed m' l h)))) k).symm

theorem nodup_keys {m : SMap} {l : List (Str × Str)} (h : l.Perm m.entries) : (l.map Prod.fst).Nodup := (listed m l h).nodup

theorem allowed_context {a a' : SMap} (h : Shuffle a a') :
    Allowed q Shuffle (.ok (ElementF.xmlnsContextFromAttributes a)) (ElementF.contextFromAttributesAny a') := by
  intro y hy
  obtain ⟨l, ⟨l', hl, hl'⟩, rfl⟩ := of_bind hy fun z hz => let ⟨l, _, h⟩ := hz; ⟨l, h⟩
  cases hl'
  refine .ok (shuffle_iff.2 fun k => ?_)
  rw [xmlnsContext_get, xmlnsFold_get _ (nodup_keys hl), listed_get h hl]
  cases a.get (c%"xmlns:" ++ k) <;> rfl

theorem has_context (a : SMap) : (ElementF.contextFromAttributesAny a).has (.ok (ElementF.xmlnsContextFromAttributes a)) :=
  .inl ⟨a.entries, ⟨a.entries, .refl _, rfl⟩, rfl⟩

/-! ## twins -/

theorem twin_parts {a b : Element} (h : TwinElement a b) : a.name = b.name ∧ a.xmlns = b.xmlns ∧ a.pfx = b.pfx ∧
    Shuffle a.attrs b.attrs ∧ Shuffle a.ctx b.ctx ∧ TwinList a.children b.children := by
  cases h with
  | mk h1 h2 h3 => exact ⟨rfl, rfl, rfl, h1, h2, h3⟩

theorem twin_of_parts {a b : Element} (h1 : a.name = b.name) (h2 : a.xmlns = b.xmlns) (h3 : a.pfx = b.pfx)
    (h4 : Shuffle a.attrs b.attrs) (h5 : Shuffle a.ctx b.ctx) (h6 : TwinList a.children b.children) : TwinElement a b := by
  obtain ⟨n, cs, A, x, p, c⟩ := a
  obtain ⟨n', cs', A', x', p', c'⟩ := b
  simp only at h1 h2 h3
  subst h1 h2 h3
  exact .mk h4 h5 h6

theorem twin_children {a b : Element} (h : TwinElement a b) {l m : List Node} (hl : TwinList l m) :
    TwinElement { a with children := l } { b with children := m } := by
  obtain ⟨h1, h2, h3, h4, h5, -⟩ := twin_parts h
  exact twin_of_parts h1 h2 h3 h4 h5 hl

mutual
theorem twinNode_refl : ∀ n : Node, TwinNode n n
  | .text t => .text t
  | .comment t => .comment t
  | .cdata t => .cdata t
  | .element e => .element (twinElement_refl e)
theorem twinElement_refl : ∀ e : Element, TwinElement e e
  | ⟨_, cs, _, _, _, _⟩ => .mk (.refl _) (.refl _) (twinList_refl cs)
theorem twinList_refl : ∀ l : List Node, TwinList l l
  | [] => .nil
  | n :: l => .cons (twinNode_refl n) (twinList_refl l)
end

mutual
theorem twinNode_symm : ∀ {n m : Node}, TwinNode n m → TwinNode m n
  | _, _, .text t => .text t
  | _, _, .comment t => .comment t
  | _, _, .cdata t => .cdata t
  | _, _, .element h => .element (twinElement_symm h)
theorem twinElement_symm : ∀ {n m : Element}, TwinElement n m → TwinElement m n
  | _, _, .mk h1 h2 h3 => .mk h1.symm h2.symm (twinList_symm h3)
theorem twinList_symm : ∀ {n m : List Node}, TwinList n m → TwinList m n
  | _, _, .nil => .nil
  | _, _, .cons h1 h2 => .cons (twinNode_symm h1) (twinList_symm h2)
end

mutual
theorem twinNode_trans : ∀ {a b c : Node}, TwinNode a b → TwinNode b c → TwinNode a c
  | _, _, _, .text t, .text _ => .text t
  | _, _, _, .comment t, .comment _ => .comment t
  | _, _, _, .cdata t, .cdata _ => .cdata t
  | _, _, _, .element h, .element h' => .element (twinElement_trans h h')
theorem twinElement_trans : ∀ {a b c : Element}, TwinElement a b → TwinElement b c → TwinElement a c
  | _, _, _, .mk h1 h2 h3, .mk h1' h2' h3' => .mk (h1.trans h1') (h2.trans h2') (twinList_trans h3 h3')
theorem twinList_trans : ∀ {a b c : List Node}, TwinList a b → TwinList b c → TwinList a c
  | _, _, _, .nil, .nil => .nil
  | _, _, _, .cons h1 h2, .cons h1' h2' => .cons (twinNode_trans h1 h1') (twinList_trans h2 h2')
end

mutual
theorem same_of_twinNode : ∀ {n m : Node}, TwinNode n m → SameNode n m
  | _, _, .text t => .text t
  | _, _, .comment t => .comment t
  | _, _, .cdata t => .cdata t
  | _, _, .element h => .element (same_of_twinElement h)
theorem same_of_twinElement : ∀ {n m : Element}, TwinElement n m → SameElement n m
  | _, _, .mk h1 _ h3 => .mk h1 (same_of_twinList h3)
theorem same_of_twinList : ∀ {n m : List Node}, TwinList n m → SameList n m
  | _, _, .nil => .nil
  | _, _, .cons h1 h2 => .cons (same_of_twinNode h1) (same_of_twinList h2)
end

theorem twin_default {a b : Element} (h : TwinElement a b) : a.defaultNamespace = b.defaultNamespace := by cases h; rfl
theorem twin_tagName {a b : Element} (h : TwinElement a b) : a.tagName = b.tagName := by cases h; rfl

theorem twinList_append {a b c d : List Node} (h : TwinList a b) (h' : TwinList c d) : TwinList (a ++ c) (b ++ d) := by
  induction a generalizing b with
  | nil => cases h; exact h'
  | cons x a ih => cases h with | cons h1 h2 => exact .cons h1 (ih h2)

theorem twinList_reverse {a b : List Node} (h : TwinList a b) : TwinList a.reverse b.reverse := by
  induction a generalizing b with
  | nil => cases h; exact .nil
  | cons x a ih =>
    cases h with
    | cons h1 h2 =>
      rw [List.reverse_cons, List.reverse_cons]
      exact twinList_append (ih h2) (.cons h1 .nil)

theorem twinList_length {a b : List Node} (h : TwinList a b) : a.length = b.length := sameList_length (same_of_twinList h)

theorem twinList_getElem {a b : List Node} (h : TwinList a b) (i : Nat) :
    (a[i]? = none ∧ b[i]? = none) ∨ ∃ x y, a[i]? = some x ∧ b[i]? = some y ∧ TwinNode x y := by
  induction a generalizing b i with
  | nil => cases h; exact .inl ⟨rfl, rfl⟩
  | cons x a ih =>
    cases h with
    | cons h1 h2 =>
      cases i with
      | zero => exact .inr ⟨_, _, rfl, rfl, h1⟩
      | succ i => simpa using ih h2 i

theorem twinList_set {a b : List Node} (h : TwinList a b) (i : Nat) {x y : Node} (hx : TwinNode x y) : TwinList (a.set i x) (b.set i y) := by
  induction a generalizing b i with
  | nil => cases h; exact .nil
  | cons z a ih =>
    cases h with
    | cons h1 h2 =>
      cases i with
      | zero => exact .cons hx h2
      | succ i => exact .cons h1 (ih h2 i)

theorem twinList_take {a b : List Node} (h : TwinList a b) (i : Nat) : TwinList (a.take i) (b.take i) := by
  induction a generalizing b i with
  | nil => cases h; simpa using TwinList.nil
  | cons z a ih =>
    cases h with
    | cons h1 h2 =>
      cases i with
      | zero => exact .nil
      | succ i => exact .cons h1 (ih h2 i)

theorem twinList_drop {a b : List Node} (h : TwinList a b) (i : Nat) : TwinList (a.drop i) (b.drop i) := by
  induction a generalizing b i with
  | nil => cases h; simpa using TwinList.nil
  | cons z a ih =>
    cases h with
    | cons h1 h2 =>
      cases i with
      | zero => exact .cons h1 h2
      | succ i => exact ih h2 i

theorem twinList_consJoin {n m : Node} {l k : List Node} (h : TwinNode n m) (hl : TwinList l k) :
    TwinList (consJoin n l) (consJoin m k) := by
  cases h with
  | text t =>
    cases hl with
    | nil => exact .cons (.text t) .nil
    | cons h1 h2 =>
      cases h1 with
      | text u => exact .cons (.text _) h2
      | comment u => exact .cons (.text _) (.cons (.comment _) h2)
      | cdata u => exact .cons (.text _) (.cons (.cdata _) h2)
      | element he => exact .cons (.text _) (.cons (.element he) h2)
  | comment t => exact .cons (.comment t) hl
  | cdata t => exact .cons (.cdata t) hl
  | element he => exact .cons (.element he) hl

theorem twinList_filter {p : Node → Bool} (hp : ∀ n m, TwinNode n m → p n = p m) {l m : List Node} (h : TwinList l m) :
    TwinList (l.filter p) (m.filter p) := by
  induction l generalizing m with
  | nil => cases h; exact .nil
  | cons x l ih =>
    cases h with
    | cons h1 h2 =>
      rw [List.filter_cons, List.filter_cons, hp _ _ h1]
      split
      · exact .cons h1 (ih h2)
      · exact ih h2

theorem twinList_normalText {l m : List Node} (h : TwinList l m) : TwinList (normalText l) (normalText m) := by
  have hj : TwinList (joinRuns l) (joinRuns m) := by
    induction l generalizing m with
    | nil => cases h; exact .nil
    | cons x l ih => cases h with | cons h1 h2 => exact twinList_consJoin h1 (ih h2)
  exact twinList_filter (fun n m h => respects_not respects_blank _ _ (same_of_twinNode h)) hj

theorem agree_cleanup {l m : List Node} (h : TwinList l m) : Agree q TwinList (cleanupTextNodes l) (cleanupTextNodes m) := by
  rw [cleanupTextNodes_eq, cleanupTextNodes_eq]
  exact .ok (twinList_normalText h)

theorem twinList_elemIndices {l m : List Node} (h : TwinList l m) (i : Nat) : ElementF.elemIndices i l = ElementF.elemIndices i m := by
  induction l generalizing m i with
  | nil => cases h; rfl
  | cons x l ih =>
    cases h with
    | cons h1 h2 =>
      rw [ElementF.elemIndices, ElementF.elemIndices, same_isElement (same_of_twinNode h1), ih h2]

/-! ## building elements -/

/-- the last step of `set_namespace_context` -/
def finishContext (e : Element) (ctx : SMap) : Element :=
  let e2 : Element := { e with ctx := ctx }
  if e2.xmlns.isNone then
    match e2.pfx with
    | none => e2
    | some p => { e2 with xmlns := e2.ctx.get p }
  else e2

/-- its first step -/
def startContext (e : Element) (d : Option Str) : Element :=
  match e.pfx with
  | none => match e.defaultNamespace with
    | none => { e with xmlns := d }
    | some _ => e
  | some _ => e

theorem twin_start {a b : Element} (h : TwinElement a b) (d : Option Str) : TwinElement (startContext a d) (startContext b d) := by
  cases h with
  | @mk n x p a a' cs cs' c c' h1 h2 h3 =>
    cases p with
    | some p => exact .mk h1 h2 h3
    | none =>
      cases x with
      | none => exact .mk h1 h2 h3
      | some x => exact .mk h1 h2 h3

theorem twin_finish {a b : Element} (h : TwinElement a b) {c c' : SMap} (hc : Shuffle c c') : TwinElement (finishContext a c) (finishContext b c') := by
  cases h with
  | @mk n x p a a' cs cs' d d' h1 h2 h3 =>
    cases x with
    | some x => exact .mk h1 hc h3
    | none =>
      cases p with
      | none => exact .mk h1 hc h3
      | some p =>
        show TwinElement ⟨n, cs, a, c.get p, some p, c⟩ ⟨n, cs', a', c'.get p, some p, c'⟩
        rw [hc.get]
        exact .mk h1 hc h3

theorem setContext_eq (e : Element) (d : Option Str) (ps : Option SMap) : e.setNamespaceContext d ps = finishContext (startContext e d)
    (match ps with
      | none => (startContext e d).ctx
      | some ps => ps.entries.foldl (fun m kv => if m.containsKey kv.1 then m else m.insert kv.1 kv.2) (startContext e d).ctx) := by
  cases ps <;> rfl

theorem setContextAny_eq (e : Element) (d : Option Str) (ps : Option SMap) : e.setNamespaceContextAny d ps = (do
    let ctx ← (match ps with
      | none => pure (startContext e d).ctx
      | some ps => do
        let l ← anyOrder ps
        pure (l.foldl (fun m kv => if m.containsKey kv.1 then m else m.insert kv.1 kv.2) (startContext e d).ctx) : Runs SMap)
    pure (finishContext (startContext e d) ctx)) := rfl

/-- the maps that a child may inherit -/
def TwinPrefixes : Option SMap → Option SMap → Prop
  | none, none => True
  | some m, some m' => Shuffle m m'
  | _, _ => False

theorem allowed_setContext {a b : Element} (h : TwinElement a b) (d : Option Str) {ps ps' : Option SMap} (hp : TwinPrefixes ps ps') :
    Allowed q TwinElement (.ok (a.setNamespaceContext d ps)) (b.setNamespaceContextAny d ps') := by
  have hs := twin_start h d
  rw [setContext_eq, setContextAny_eq]
  cases ps with
  | none =>
    cases ps' with
    | none =>
      exact allowed_bind (f := fun c => .ok (finishContext (startContext a d) c)) (allowed_pure (twin_parts hs).2.2.2.2.1)
        fun c c' hc => allowed_pure (twin_finish hs hc)
    | some _ => exact hp.elim
  | some m =>
    cases ps' with
    | none => exact hp.elim
    | some m' =>
      refine allowed_bind (r := Shuffle) (x := .ok _) (f := fun c => .ok (finishContext (startContext a d) c)) ?_
        fun c c' hc => allowed_pure (twin_finish hs hc)
      intro y hy
      obtain ⟨l, ⟨l', hl, hl'⟩, rfl⟩ := of_bind hy fun z hz => let ⟨l, _, h⟩ := hz; ⟨l, h⟩
      cases hl'
      refine .ok (shuffle_iff.2 fun k => ?_)
      rw [ctxFold_get _ m.nodup, ctxFold_get _ (nodup_keys hl), listed_get hp hl, (twin_parts hs).2.2.2.2.1.get]
      rfl

theorem has_setContext (e : Element) (d : Option Str) (ps : Option SMap) :
    (e.setNamespaceContextAny d ps).has (.ok (e.setNamespaceContext d ps)) := by
  rw [setContext_eq, setContextAny_eq]
  cases ps with
  | none => exact .inl ⟨_, rfl, rfl⟩
  | some ps => exact .inl ⟨_, .inl ⟨ps.entries, ⟨_, .refl _, rfl⟩, rfl⟩, rfl⟩

theorem allowed_apply {n m : Node} (h : TwinNode n m) (d : Option Str) {c c' : SMap} (hc : Shuffle c c') :
    Allowed q TwinNode (.ok (applyXmlnsContext d c n)) (ElementF.applyXmlnsContextAny d c' m) := by
  cases h with
  | element he =>
    exact allowed_bind (r' := TwinNode) (f := fun e => .ok (Node.element e)) (allowed_setContext he d (ps := some c) (ps' := some c') hc)
      fun a b hab => allowed_pure (TwinNode.element hab)
  | text t => exact allowed_pure (.text t)
  | comment t => exact allowed_pure (.comment t)
  | cdata t => exact allowed_pure (.cdata t)

theorem has_apply (n : Node) (d : Option Str) (c : SMap) : (ElementF.applyXmlnsContextAny d c n).has (.ok (applyXmlnsContext d c n)) := by
  cases n with
  | element e => exact .inl ⟨_, has_setContext e d (some c), rfl⟩
  | _ => rfl

theorem allowed_append {a b : Element} {n m : Node} (h : TwinElement a b) (hn : TwinNode n m) : Allowed q TwinElement (a.append n) (b.appendAny m) := by
  have hp := twin_parts h
  unfold ElementF.appendAny
  rw [← twin_default h]
  exact allowed_bind (f := fun n => cleanupTextNodes (a.children ++ [n]) >>= fun l => pure { a with children := l })
    (allowed_apply hn _ hp.2.2.2.2.1) fun x y hxy =>
      allowed_bind (allowed_of (agree_cleanup (twinList_append hp.2.2.2.2.2 (.cons hxy .nil)))) fun l l' hl => allowed_pure (twin_children h hl)

theorem has_append (e : Element) (n : Node) : (e.appendAny n).has (e.append n) := by
  unfold ElementF.appendAny
  exact has_bind (f := fun n => cleanupTextNodes (e.children ++ [n]) >>= fun l => pure { e with children := l }) (has_apply n e.defaultNamespace e.ctx)
    fun _ _ => has_step fun _ _ => has_pure _

theorem allowed_applyAt (d : Option Str) {c c' : SMap} (hc : Shuffle c c') (is : List Nat) {l m : List Node} (h : TwinList l m) :
    Allowed q TwinList (ElementF.applyAt d c is l) (ElementF.applyAtAny d c' is m) := by
  induction is generalizing l m with
  | nil => exact allowed_pure h
  | cons i is ih =>
    refine allowed_bind (allowed_of (agree_unwrap (twinList_getElem h i))) fun x y hxy => ?_
    exact allowed_bind (f := fun n => ElementF.applyAt d c is (l.set i n)) (allowed_apply hxy d hc) fun x y hxy => ih (twinList_set h i hxy)

theorem has_applyAt (d : Option Str) (c : SMap) (is : List Nat) (l : List Node) : (ElementF.applyAtAny d c is l).has (ElementF.applyAt d c is l) := by
  induction is generalizing l with
  | nil => rfl
  | cons i is ih =>
    exact has_step fun x _ => has_bind (f := fun n => ElementF.applyAt d c is (l.set i n)) (has_apply x d c) fun y _ => ih _

theorem allowed_appendAll {a b : Element} {l m : List Node} (h : TwinElement a b) (hl : TwinList l m) :
    Allowed q TwinElement (a.appendAll l) (b.appendAllAny m) := by
  have hp := twin_parts h
  unfold ElementF.appendAllAny ElementF.appendAll
  rw [← twin_default h, ← twinList_elemIndices hl, ← twinList_length hp.2.2.2.2.2]
  refine allowed_bind (allowed_applyAt _ hp.2.2.2.2.1 _ (twinList_append hp.2.2.2.2.2 hl)) fun x y hxy => ?_
  exact allowed_bind (allowed_of (agree_cleanup hxy)) fun l l' hl => allowed_pure (twin_children h hl)

theorem has_appendAll (e : Element) (l : List Node) : (e.appendAllAny l).has (e.appendAll l) :=
  has_bind (has_applyAt _ _ _ _) fun _ _ => has_step fun _ _ => rfl

theorem twinList_getLast {a b : List Node} (h : TwinList a b) :
    (a.getLast? = none ∧ b.getLast? = none) ∨ ∃ x y, a.getLast? = some x ∧ b.getLast? = some y ∧ TwinNode x y := by
  rw [List.getLast?_eq_getElem?, List.getLast?_eq_getElem?, twinList_length h]
  exact twinList_getElem h _

theorem allowed_insert [Mild q] {a b : Element} {n m : Node} (h : TwinElement a b) (hn : TwinNode n m) (i : Nat) :
    Allowed q TwinElement (a.insert i n) (b.insertAny i m) := by
  have hp := twin_parts h
  have hlen := twinList_length hp.2.2.2.2.2
  unfold ElementF.insertAny ElementF.insert
  rw [← twin_default h, ← hlen]
  split
  · exact allowed_of (.err (Mild.refl _))
  · rename_i hi
    unfold vecInsert
    rw [if_pos (by omega), if_pos (by omega), insertIdx_eq _ _ _ (by omega), insertIdx_eq _ _ _ (by omega)]
    have hl := twinList_append (twinList_take hp.2.2.2.2.2 i) (.cons hn (twinList_drop hp.2.2.2.2.2 i))
    refine allowed_bind (allowed_of (.ok hl)) fun l l' hl => ?_
    refine allowed_bind (allowed_of (agree_unwrap (twinList_getLast hl))) fun x y hxy => ?_
    refine allowed_bind (f := fun last => cleanupTextNodes (l.set (l.length - 1) last) >>= fun l => pure { a with children := l })
      (allowed_apply hxy _ hp.2.2.2.2.1) fun x y hxy => ?_
    rw [← twinList_length hl]
    exact allowed_bind (allowed_of (agree_cleanup (twinList_set hl _ hxy))) fun l l' hl => allowed_pure (twin_children h hl)

theorem has_insert (e : Element) (i : Nat) (n : Node) : (e.insertAny i n).has (e.insert i n) := by
  unfold ElementF.insertAny ElementF.insert
  split
  · rfl
  · exact has_step fun l _ => has_step fun x _ =>
      has_bind (f := fun last => cleanupTextNodes (l.set (l.length - 1) last) >>= fun l => pure { e with children := l })
        (has_apply x e.defaultNamespace e.ctx) fun _ _ => has_step fun _ _ => rfl

/-! ## `Element::new` -/

theorem checkAndCopy_bad {l : List (Str × Str)} (h : ∃ kv ∈ l, validName kv.1 = false) (m : SMap) :
    ∃ kv ∈ l, validName kv.1 = false ∧ checkAndCopy l m = .err (.invalidAttributeName kv.1) := by
  induction l generalizing m with
  | nil => obtain ⟨kv, h, -⟩ := h; cases h
  | cons kv l ih =>
    obtain ⟨k, v⟩ := kv
    rw [checkAndCopy, checkAttrName]
    cases hk : validName k with
    | false => exact ⟨(k, v), by simp, hk, rfl⟩
    | true =>
      obtain ⟨kv, h1, h2⟩ := h
      rcases List.mem_cons.1 h1 with rfl | h1
      · rw [hk] at h2; cases h2
      · obtain ⟨kv, h3, h4, h5⟩ := ih ⟨kv, h1, h2⟩ (m.insert k v)
        exact ⟨kv, List.mem_cons_of_mem _ h3, h4, h5⟩

theorem checkAndCopy_good {l : List (Str × Str)} (h : ∀ kv ∈ l, validName kv.1 = true) (hn : (l.map Prod.fst).Nodup) (m : SMap) :
    ∃ m', checkAndCopy l m = .ok m' ∧ ∀ k, m'.get k = (LMap.get l k).or (m.get k) := by
  induction l generalizing m with
  | nil => exact ⟨m, rfl, fun k => rfl⟩
  | cons kv l ih =>
    obtain ⟨k, v⟩ := kv
    simp only [List.map_cons, List.nodup_cons] at hn
    obtain ⟨m', h1, h2⟩ := ih (fun kv hkv => h kv (List.mem_cons_of_mem _ hkv)) hn.2 (m.insert k v)
    refine ⟨m', ?_, fun x => ?_⟩
    · rw [checkAndCopy, checkAttrName, if_pos (h (k, v) (by simp))]; exact h1
    · rw [h2, SMap.get_insert]
      simp only [LMap.get]
      by_cases hk : k = x
      · subst hk
        rw [LMap.get_eq_none.2 hn.1, if_pos rfl, if_pos rfl]; rfl
      · rw [if_neg hk, if_neg hk]

/-- the first loop of `Element::new`: checked copies of the map -/
def checkedCopy (A : SMap) : R SMap :=
  match A.entries.find? (fun kv => !validName kv.1) with
  | some kv => .err (.invalidAttributeName kv.1)
  | none => .ok A

theorem allowed_checked {A A' : SMap} (h : Shuffle A A') :
    Allowed SameComplaint Shuffle (checkedCopy A) (do let l ← anyOrder A'; of (checkAndCopy l SMap.empty)) := by
  have key : ∀ l : List (Str × Str), l.Perm A'.entries → Agree SameComplaint Shuffle (checkedCopy A) (checkAndCopy l SMap.empty) := by
    intro l hl
    have hA : A.entries.Perm l := List.Perm.trans h hl.symm
    unfold checkedCopy
    cases hf : A.entries.find? (fun kv => !validName kv.1) with
    | some kv =>
      have h1 : validName kv.1 = false := by simpa using List.find?_some hf
      obtain ⟨kv', -, h3, h4⟩ := checkAndCopy_bad ⟨kv, hA.mem_iff.1 (List.mem_of_find?_eq_some hf), h1⟩ SMap.empty
      rw [h4]
      exact .err (.inr ⟨_, _, rfl, rfl, h1, h3⟩)
    | none =>
      have h1 : ∀ kv ∈ l, validName kv.1 = true := fun kv hkv => by
        simpa using (List.find?_eq_none.1 hf) kv (hA.mem_iff.2 hkv)
      obtain ⟨m', h2, h3⟩ := checkAndCopy_good h1 (nodup_keys hl) SMap.empty
      rw [h2]
      refine .ok (shuffle_iff.2 fun k => ?_)
      rw [h3, listed_get h hl, SMap.get_empty, Option.or_none]
  rintro y (⟨l, ⟨l', hl, hl'⟩, hy⟩ | ⟨e, ⟨l', hl, hl'⟩, rfl⟩ | ⟨⟨l', hl, hl'⟩, rfl⟩ | ⟨⟨l', hl, hl'⟩, rfl⟩)
  · cases hl'
    rw [show y = _ from hy]
    exact key _ hl
  all_goals cases hl'

theorem insert_fresh (l : List (Str × Str)) (k v : Str) (h : k ∉ l.map Prod.fst) : LMap.insert l k v = l ++ [(k, v)] := by
  induction l with
  | nil => rfl
  | cons kv l ih =>
    obtain ⟨k', v'⟩ := kv
    simp only [List.map_cons, List.mem_cons, not_or] at h
    rw [LMap.insert, if_neg (fun hk => h.1 hk.symm), ih h.2]; rfl

theorem checkAndCopy_entries (l : List (Str × Str)) (h : ∀ kv ∈ l, validName kv.1 = true) (m : SMap) (hn : ((m.entries ++ l).map Prod.fst).Nodup) :
    ∃ m', checkAndCopy l m = .ok m' ∧ m'.entries = m.entries ++ l := by
  induction l generalizing m with
  | nil => exact ⟨m, rfl, by simp⟩
  | cons kv l ih =>
    obtain ⟨k, v⟩ := kv
    have hfresh : k ∉ m.entries.map Prod.fst := by
      rw [List.map_append] at hn
      intro hk
      exact (List.nodup_append.1 hn).2.2 k hk k (by simp) rfl
    have he : (m.insert k v).entries = m.entries ++ [(k, v)] := insert_fresh _ _ _ hfresh
    obtain ⟨m', h1, h2⟩ := ih (fun kv hkv => h kv (List.mem_cons_of_mem _ hkv)) (m.insert k v) (by rw [he]; simpa using hn)
    refine ⟨m', ?_, by rw [h2, he]; simp⟩
    rw [checkAndCopy, checkAttrName, if_pos (h (k, v) (by simp))]; exact h1

theorem checkAndCopy_self (A : SMap) : checkAndCopy A.entries SMap.empty = checkedCopy A := by
  unfold checkedCopy
  cases hf : A.entries.find? (fun kv => !validName kv.1) with
  | none =>
    have h1 : ∀ kv ∈ A.entries, validName kv.1 = true := fun kv hkv => by
      simpa using (List.find?_eq_none.1 hf) kv hkv
    obtain ⟨m', h2, h3⟩ := checkAndCopy_entries A.entries h1 SMap.empty (by simpa [SMap.empty] using A.nodup)
    rw [h2]
    have : m' = A := by
      cases m' with
      | mk l _ => cases A; simp only [SMap.empty, List.nil_append] at h3; subst h3; rfl
    rw [this]
  | some kv =>
    have go : ∀ (l : List (Str × Str)) (m : SMap), l.find? (fun kv => !validName kv.1) = some kv → checkAndCopy l m = .err (.invalidAttributeName kv.1) := by
      intro l
      induction l with
      | nil => intro m h; cases h
      | cons kv' l ih =>
        intro m h
        obtain ⟨k, v⟩ := kv'
        rw [List.find?_cons] at h
        rw [checkAndCopy, checkAttrName]
        cases hk : validName k with
        | false => simp only [hk] at h; cases h; rfl
        | true => simp only [hk] at h; exact ih _ h
    exact go _ _ hf

theorem has_checked (A : SMap) : (anyOrder A >>= fun l => of (checkAndCopy l SMap.empty)).has (checkedCopy A) := by
  rw [← checkAndCopy_self]
  cases h : checkAndCopy A.entries SMap.empty with
  | ok m => exact .inl ⟨A.entries, ⟨_, .refl _, rfl⟩, h.symm⟩
  | err e => exact .inl ⟨A.entries, ⟨_, .refl _, rfl⟩, h.symm⟩
  | panic => exact .inl ⟨A.entries, ⟨_, .refl _, rfl⟩, h.symm⟩
  | diverge => exact .inl ⟨A.entries, ⟨_, .refl _, rfl⟩, h.symm⟩

/-- what `Element::new` does with the attributes, in two steps -/
theorem new_steps (name : Str) (text : Option Str) (A : Option SMap) (xmlns pfx : Option Str) (cs : Option (List Node)) :
    ElementF.new name text A xmlns pfx cs = (do
      checkElemName name
      let attrs ← (match A with
        | none => .ok SMap.empty
        | some m => checkedCopy m)
      let xmlns := match xmlns with
        | some x => some x
        | none => match pfx with
          | none => attrs.get c%"xmlns"
          | some p => attrs.get (c%"xmlns:" ++ p)
      let ctx ← Res.ok (ElementF.xmlnsContextFromAttributes attrs)
      let elem : Element := ⟨name, [], attrs, xmlns, pfx, ctx⟩
      let elem ← (match text with
        | none => Res.ok elem
        | some t => elem.append (.text t) : R Element)
      match cs with
      | none => Res.ok elem
      | some cs => elem.appendAll cs) := by
  unfold ElementF.new
  cases checkElemName name with
  | ok _ =>
    cases A with
    | none => cases text <;> cases cs <;> rfl
    | some m =>
      simp only [checkedCopy]
      cases m.entries.find? (fun kv => !validName kv.1) with
      | none => cases text <;> cases cs <;> rfl
      | some kv => rfl
  | _ => rfl

/-- related arguments of `Element::new` -/
def TwinChildren : Option (List Node) → Option (List Node) → Prop
  | none, none => True
  | some l, some l' => TwinList l l'
  | _, _ => False

theorem allowed_new (name : Str) (text : Option Str) {A A' : Option SMap} (hA : TwinPrefixes A A') (xmlns pfx : Option Str)
    {cs cs' : Option (List Node)} (hc : TwinChildren cs cs') :
    Allowed SameComplaint TwinElement (ElementF.new name text A xmlns pfx cs) (ElementF.newAny name text A' xmlns pfx cs') := by
  rw [new_steps]
  unfold ElementF.newAny
  refine allowed_step fun _ => allowed_bind (r := Shuffle) ?_ fun a b hab => ?_
  · cases A with
    | none =>
      cases A' with
      | none => exact allowed_pure (Shuffle.refl _)
      | some _ => exact hA.elim
    | some m =>
      cases A' with
      | none => exact hA.elim
      | some m' => exact allowed_checked hA
  · simp only [hab.get]
    refine allowed_bind (allowed_context hab) fun c c' hcc => ?_
    refine allowed_bind (r := TwinElement) ?_ fun e e' he => ?_
    · cases text with
      | none => exact allowed_pure (.mk hab hcc .nil)
      | some t => exact allowed_append (.mk hab hcc .nil) (.text t)
    · cases cs with
      | none =>
        cases cs' with
        | none => exact allowed_pure he
        | some _ => exact hc.elim
      | some l =>
        cases cs' with
        | none => exact hc.elim
        | some l' => exact allowed_appendAll he hc

theorem has_new (name : Str) (text : Option Str) (A : Option SMap) (xmlns pfx : Option Str) (cs : Option (List Node)) :
    (ElementF.newAny name text A xmlns pfx cs).has (ElementF.new name text A xmlns pfx cs) := by
  rw [new_steps]
  unfold ElementF.newAny
  refine has_step fun _ _ => has_bind ?_ fun a _ => has_bind (has_context a) fun c _ => has_bind ?_ fun e _ => ?_
  · cases A with
    | none => rfl
    | some m => exact has_checked m
  · cases text with
    | none => rfl
    | some t => exact has_append _ _
  · cases cs with
    | none => rfl
    | some l => exact has_appendAll _ _

end KissXml
