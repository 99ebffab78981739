import Verif.Proofs.AnyOrder
/-!
# Parsing does not depend on the order of the maps
-/
namespace KissXml
open Spec Runs

/-! ## the arena -/

/-- the same place in two arenas -/
def TwinEntry (x y : Nat × PTNode) : Prop := x.1 = y.1 ∧ TwinNode x.2.value y.2.value ∧ x.2.parent = y.2.parent
def TwinPT (x y : PTNode) : Prop := TwinNode x.value y.value ∧ x.parent = y.parent
def TwinData (d d' : List (Nat × PTNode)) : Prop := EachTo TwinEntry d d'
def TwinTree (t t' : ParseTree) : Prop := TwinData t.data t'.data ∧ t.pos = t'.pos

theorem twinData_length {d d' : List (Nat × PTNode)} (h : TwinData d d') : d.length = d'.length := by
  induction d generalizing d' with
  | nil => cases h; rfl
  | cons x d ih => cases h with | cons _ h2 => simp [ih h2]

theorem twinData_get {d d' : List (Nat × PTNode)} (h : TwinData d d') (i : Nat) :
    (LMap.get d i = none ∧ LMap.get d' i = none) ∨ ∃ x y, LMap.get d i = some x ∧ LMap.get d' i = some y ∧ TwinPT x y := by
  induction d generalizing d' with
  | nil => cases h; exact .inl ⟨rfl, rfl⟩
  | cons x d ih =>
    cases h with
    | @cons _ y _ m h1 h2 =>
      obtain ⟨k, x⟩ := x
      obtain ⟨k', y⟩ := y
      obtain ⟨rfl, h3, h4⟩ := h1
      simp only [LMap.get]
      by_cases hk : k = i
      · rw [if_pos hk, if_pos hk]; exact .inr ⟨_, _, rfl, rfl, h3, h4⟩
      · rw [if_neg hk, if_neg hk]; exact ih h2

theorem twinData_insert {d d' : List (Nat × PTNode)} (h : TwinData d d') (i : Nat) {x y : PTNode} (hx : TwinPT x y) :
    TwinData (LMap.insert d i x) (LMap.insert d' i y) := by
  induction d generalizing d' with
  | nil => cases h; exact .cons ⟨rfl, hx⟩ .nil
  | cons z d ih =>
    cases h with
    | @cons _ w _ m h1 h2 =>
      obtain ⟨k, z⟩ := z
      obtain ⟨k', w⟩ := w
      obtain ⟨rfl, h3⟩ := h1
      simp only [LMap.insert]
      by_cases hk : k = i
      · rw [if_pos hk, if_pos hk]; exact .cons ⟨rfl, hx⟩ h2
      · rw [if_neg hk, if_neg hk]; exact .cons ⟨rfl, h3⟩ (ih h2)

theorem twinData_remove {d d' : List (Nat × PTNode)} (h : TwinData d d') (i : Nat) : TwinData (LMap.remove d i) (LMap.remove d' i) := by
  induction d generalizing d' with
  | nil => cases h; exact .nil
  | cons z d ih =>
    cases h with
    | @cons _ w _ m h1 h2 =>
      obtain ⟨k, z⟩ := z
      obtain ⟨k', w⟩ := w
      obtain ⟨rfl, h3⟩ := h1
      simp only [LMap.remove]
      by_cases hk : k = i
      · rw [if_pos hk, if_pos hk]; exact h2
      · rw [if_neg hk, if_neg hk]; exact .cons ⟨rfl, h3⟩ (ih h2)

theorem agree_asElement {n m : Node} (h : TwinNode n m) : Agree SameComplaint TwinElement (expect n.asElement) (expect m.asElement) := by
  cases h with
  | element h => exact .ok h
  | _ => exact .panic

theorem twin_flip {n m : Node} (h : TwinNode n m) : TwinNode (ParseTree.flipElement n) (ParseTree.flipElement m) := by
  cases h with
  | element h => exact .element (twin_children h (twinList_reverse (twin_parts h).2.2.2.2.2))
  | text t => exact .text t
  | comment t => exact .comment t
  | cdata t => exact .cdata t

theorem agree_push {t t' : ParseTree} (h : TwinTree t t') {e e' : Element} (he : TwinElement e e') : Agree SameComplaint TwinTree (t.push e) (t'.push e') := by
  obtain ⟨h1, h2⟩ := h
  unfold ParseTree.push
  rw [← h2]
  cases t.pos with
  | none => exact .ok ⟨twinData_insert h1 _ ⟨.element he, rfl⟩, rfl⟩
  | some p =>
    simp only [← twinData_length h1]
    exact agree_bind (agree_unwrap (twinData_get h1 p)) fun _ _ _ => .ok ⟨twinData_insert h1 _ ⟨.element he, rfl⟩, rfl⟩

theorem agree_pop {t t' : ParseTree} (h : TwinTree t t') : Agree SameComplaint TwinTree t.pop t'.pop := by
  obtain ⟨h1, h2⟩ := h
  unfold ParseTree.pop
  rw [← h2]
  cases t.pos with
  | none => exact .err (.refl _)
  | some p => exact agree_bind (agree_unwrap (twinData_get h1 p)) fun _ _ hxy => .ok ⟨h1, hxy.2⟩

theorem agree_treeAppend {t t' : ParseTree} (h : TwinTree t t') {n n' : Node} (hn : TwinNode n n') : Agree SameComplaint TwinTree (t.append n) (t'.append n') := by
  obtain ⟨h1, h2⟩ := h
  unfold ParseTree.append
  rw [← h2]
  cases t.pos with
  | none => exact .err (.refl _)
  | some p =>
    simp only [← twinData_length h1]
    exact agree_bind (agree_unwrap (twinData_get h1 p)) fun _ _ _ => .ok ⟨twinData_insert h1 _ ⟨hn, rfl⟩, rfl⟩

/-- related parents -/
def TwinParent : Option Element → Option Element → Prop
  | none, none => True
  | some e, some e' => TwinElement e e'
  | _, _ => False

theorem agree_top {t t' : ParseTree} (h : TwinTree t t') : Agree SameComplaint TwinParent t.topElement t'.topElement := by
  obtain ⟨h1, h2⟩ := h
  unfold ParseTree.topElement
  rw [← h2]
  cases t.pos with
  | none => exact .ok trivial
  | some p =>
    exact agree_bind (agree_unwrap (twinData_get h1 p)) fun _ _ hxy => agree_bind (agree_asElement hxy.1) fun _ _ he => .ok he

theorem allowed_toDomLoop (i : Nat) {d d' : List (Nat × PTNode)} (h : TwinData d d') :
    Allowed SameComplaint TwinData (ParseTree.toDomLoop i d) (ParseTree.toDomLoopAny i d') := by
  induction i generalizing d d' with
  | zero => exact allowed_pure h
  | succ i ih =>
    refine allowed_bind (allowed_of (agree_unwrap (twinData_get h (i + 1)))) fun x y hxy => ?_
    have h' := twinData_remove h (i + 1)
    simp only [← hxy.2]
    refine allowed_step fun p => ?_
    refine allowed_bind (allowed_of (agree_unwrap (twinData_get h' p))) fun q q' hq => ?_
    refine allowed_bind (allowed_of (agree_asElement hq.1)) fun e e' he => ?_
    refine allowed_bind (allowed_append he (twin_flip hxy.1)) fun f f' hf => ?_
    exact ih (twinData_insert h' p ⟨.element hf, hq.2⟩)

theorem has_toDomLoop (i : Nat) (d : List (Nat × PTNode)) : (ParseTree.toDomLoopAny i d).has (ParseTree.toDomLoop i d) := by
  induction i generalizing d with
  | zero => rfl
  | succ i ih =>
    exact has_step fun _ _ => has_step fun _ _ => has_step fun _ _ => has_step fun _ _ => has_bind (has_append _ _) fun _ _ => ih _

theorem allowed_toDom {t t' : ParseTree} (h : TwinTree t t') : Allowed SameComplaint TwinElement t.toDom t'.toDomAny := by
  have hl := twinData_length h.1
  have he : t.data.isEmpty = t'.data.isEmpty := by
    rw [Bool.eq_iff_iff, List.isEmpty_iff_length_eq_zero, List.isEmpty_iff_length_eq_zero, hl]
  unfold ParseTree.toDomAny ParseTree.toDom
  rw [← he, ← hl]
  split
  · exact allowed_of (.err (.refl _))
  · refine allowed_bind (allowed_toDomLoop _ h.1) fun d d' hd => ?_
    refine allowed_bind (allowed_of (agree_unwrap (twinData_get hd 0))) fun x y hxy => ?_
    exact allowed_bind (allowed_of (agree_asElement hxy.1)) fun e e' he =>
      allowed_pure (twin_children he (twinList_reverse (twin_parts he).2.2.2.2.2))

theorem has_toDom (t : ParseTree) : t.toDomAny.has t.toDom := by
  unfold ParseTree.toDomAny ParseTree.toDom
  split
  · rfl
  · exact has_bind (has_toDomLoop _ _) fun _ _ => has_step fun _ _ => has_step fun _ _ => has_pure _

/-! ## tags -/

theorem twin_get_containsKey {a b : SMap} (h : Shuffle a b) (k : Str) : a.containsKey k = b.containsKey k := by
  unfold SMap.containsKey; rw [h.get]

/-- what a child inherits -/
theorem twin_inherit {p p' : Option Element} (h : TwinParent p p') :
    p.bind ElementF.defaultNamespace = p'.bind ElementF.defaultNamespace ∧ TwinPrefixes (p.map ElementF.ctx) (p'.map ElementF.ctx) := by
  cases p with
  | none =>
    cases p' with
    | none => exact ⟨rfl, trivial⟩
    | some _ => exact h.elim
  | some e =>
    cases p' with
    | none => exact h.elim
    | some e' => exact ⟨twin_default h, (twin_parts h).2.2.2.2.1⟩

theorem allowed_parseNewElement (tag buffer : Str) (s : Nat) {p p' : Option Element} (h : TwinParent p p') :
    Allowed SameComplaint TwinElement (parseNewElement tag buffer s p) (parseNewElementAny tag buffer s p') := by
  unfold parseNewElement parseNewElementAny
  cases quoteAwareSplit tag with
  | nil => exact allowed_of (.err (.refl _))
  | cons c cs =>
    refine allowed_step fun attrs => allowed_step fun name => ?_
    cases p with
    | none =>
      cases p' with
      | none =>
        refine allowed_step fun x => ?_
        obtain ⟨name, xmlns, pfx⟩ := x
        refine allowed_bind (allowed_new name none (A := some attrs) (A' := some attrs) (Shuffle.refl _) xmlns pfx (cs := none) (cs' := none) trivial)
          fun e e' he => allowed_setContext he none (ps := none) (ps' := none) trivial
      | some _ => exact h.elim
    | some e =>
      cases p' with
      | none => exact h.elim
      | some e' =>
        have hctx := (twin_parts h).2.2.2.2.1
        simp only [← twin_default h, ← hctx.get]
        refine allowed_step fun x => ?_
        obtain ⟨name, xmlns, pfx⟩ := x
        refine allowed_bind (allowed_new name none (A := some attrs) (A' := some attrs) (Shuffle.refl _) xmlns pfx (cs := none) (cs' := none) trivial)
          fun f f' hf => allowed_setContext hf e.defaultNamespace (ps := some e.ctx) (ps' := some e'.ctx) hctx

theorem has_parseNewElement (tag buffer : Str) (s : Nat) (p : Option Element) :
    (parseNewElementAny tag buffer s p).has (parseNewElement tag buffer s p) := by
  unfold parseNewElement parseNewElementAny
  cases quoteAwareSplit tag with
  | nil => rfl
  | cons c cs =>
    refine has_step fun attrs _ => has_step fun name _ => ?_
    cases p with
    | none => exact has_step fun x _ => has_bind (has_new _ _ _ _ _ _) fun _ _ => has_setContext _ _ _
    | some e => exact has_step fun x _ => has_bind (has_new _ _ _ _ _ _) fun _ _ => has_setContext _ _ _

theorem rewrap_attr (buffer : Str) (pos : Nat) (n : Str) : rewrap buffer pos (.invalidAttributeName n) = .invalidAttributeName n := rfl

theorem agree_same {α β : Type} {r' : β → β → Prop} {x : R α} {f g : α → R β} (hf : ∀ a, Agree SameComplaint r' (f a) (g a)) :
    Agree SameComplaint r' (x >>= f) (x >>= g) :=
  agree_bind (agree_eq x) fun a _ h => h ▸ hf a

theorem agree_handleClose (buffer : Str) (s : Nat) (slice : Str) {t t' : ParseTree} (h : TwinTree t t')
    (hs : (startsWith slice c%"<!" || startsWith slice c%"</") = true) :
    Agree SameComplaint TwinTree (handleTag buffer s slice t) (handleTag buffer s slice t') := by
  unfold handleTag
  split
  · simp only
    split
    · exact agree_same fun b => agree_same fun c => agree_mapErr (rewrap_attr buffer s) (agree_treeAppend h (.comment c))
    · split
      · exact agree_same fun c => agree_treeAppend h (.comment c)
      · exact .err (.refl _)
  · split
    · split
      · exact .err (.refl _)
      · exact agree_same fun b => agree_same fun c => agree_mapErr (rewrap_attr buffer s) (agree_treeAppend h (.cdata c))
    · split
      · exact agree_same fun b => .err (.refl _)
      · refine agree_same fun b => agree_same fun _ => ?_
        split
        · refine agree_bind (agree_top h) fun a b hab => ?_
          cases a with
          | none =>
            cases b with
            | none => exact .err (.refl _)
            | some _ => exact hab.elim
          | some e =>
            cases b with
            | none => exact hab.elim
            | some e' =>
              simp only [← twin_tagName hab]
              split
              · exact .err (.refl _)
              · exact agree_pop h
        · rename_i h1 h2 _ h4
          simp [h2, h4] at hs

theorem startsWith_bang {s p : Str} (hp : c%"<!" <+: p) (h : startsWith s p = true) : startsWith s c%"<!" = true :=
  startsWith_iff.2 (hp.trans (startsWith_iff.1 h))

/-- the handling of an opening tag -/
theorem handleTag_open (buffer : Str) (s : Nat) (slice : Str) (t : ParseTree)
    (hs : ¬(startsWith slice c%"<!" || startsWith slice c%"</") = true) :
    handleTag buffer s slice t = (do
      let tagDef ← Res.unwrap (stripTag slice)
      let _ ← (checkElementTag slice).mapErr (rewrap buffer s)
      let top ← t.topElement
      let e ← parseNewElement tagDef buffer s top
      if endsWith slice c%"/>" then (t.append (.element e)).mapErr (rewrap buffer s) else t.push e) := by
  simp only [Bool.or_eq_true, not_or] at hs
  have h1 : startsWith slice c%"<!--" = false := by
    rw [← Bool.not_eq_true]; exact fun h => hs.1 (startsWith_bang ⟨c%"--", rfl⟩ h)
  have h2 : startsWith slice c%"<![CDATA[" = false := by
    rw [← Bool.not_eq_true]; exact fun h => hs.1 (startsWith_bang ⟨c%"[CDATA[", rfl⟩ h)
  unfold handleTag
  rw [h1, h2]
  simp only [Bool.false_and, Bool.false_eq_true, if_false, if_neg hs.1, if_neg hs.2]

theorem allowed_handleTag (buffer : Str) (s : Nat) (slice : Str) {t t' : ParseTree} (h : TwinTree t t') :
    Allowed SameComplaint TwinTree (handleTag buffer s slice t) (handleTagAny buffer s slice t') := by
  unfold handleTagAny
  split
  · rename_i hs
    exact allowed_of (agree_handleClose buffer s slice h hs)
  · rename_i hs
    rw [handleTag_open _ _ _ _ hs]
    refine allowed_step fun tagDef => allowed_step fun _ => ?_
    refine allowed_bind (allowed_of (agree_top h)) fun a b hab => ?_
    refine allowed_bind (allowed_parseNewElement tagDef buffer s hab) fun e e' he => allowed_of ?_
    split
    · exact agree_mapErr (rewrap_attr buffer s) (agree_treeAppend h (.element he))
    · exact agree_push h he

theorem has_handleTag (buffer : Str) (s : Nat) (slice : Str) (t : ParseTree) : (handleTagAny buffer s slice t).has (handleTag buffer s slice t) := by
  unfold handleTagAny
  split
  · rfl
  · rename_i hs
    rw [handleTag_open _ _ _ _ hs]
    exact has_step fun _ _ => has_step fun _ _ => has_step fun _ _ => has_bind (has_parseNewElement _ _ _ _) fun _ _ => rfl

/-! ## documents -/

theorem allowed_elementLoop (buffer : Str) (b : Bool) (fuel : Nat) (span : Nat × Nat) {t t' : ParseTree} (h : TwinTree t t') :
    Allowed SameComplaint TwinTree (elementLoop buffer b fuel span t) (elementLoopAny buffer b fuel span t') := by
  induction fuel generalizing span t t' with
  | zero => exact allowed_of .diverge
  | succ fuel ih =>
    unfold elementLoop elementLoopAny
    refine allowed_step fun x => ?_
    obtain ⟨s, e⟩ := x
    cases s with
    | none => exact allowed_pure h
    | some s =>
      cases e with
      | none => exact allowed_of (.err (.refl _))
      | some e =>
        simp only
        split
        · exact allowed_of (.err (.refl _))
        · refine allowed_step fun text => allowed_step fun content => ?_
          refine allowed_bind (r := TwinTree) (allowed_of ?_) fun t t' h => ?_
          · cases content with
            | none => exact .ok h
            | some c => exact agree_mapErr (rewrap_attr buffer s) (agree_treeAppend h (.text c))
          · refine allowed_step fun slice => ?_
            exact allowed_bind (allowed_handleTag buffer s slice h) fun t t' h => ih _ h

theorem has_elementLoop (buffer : Str) (b : Bool) (fuel : Nat) (span : Nat × Nat) (t : ParseTree) :
    (elementLoopAny buffer b fuel span t).has (elementLoop buffer b fuel span t) := by
  induction fuel generalizing span t with
  | zero => rfl
  | succ fuel ih =>
    unfold elementLoop elementLoopAny
    refine has_step fun x _ => ?_
    obtain ⟨s, e⟩ := x
    cases s with
    | none => rfl
    | some s =>
      cases e with
      | none => rfl
      | some e =>
        simp only
        split
        · rfl
        · exact has_step fun _ _ => has_step fun c _ => by
            cases c <;> exact has_step fun _ _ => has_step fun _ _ => has_bind (has_handleTag _ _ _ _) fun _ _ => ih _ _

theorem twinTree_new : TwinTree ParseTree.new ParseTree.new := ⟨.nil, rfl⟩

theorem allowed_parseStr (x : Str) : Allowed SameComplaint TwinDocument (parseStr x) (parseStrAny x) := by
  unfold parseStr parseStrAny
  refine allowed_step fun pro => allowed_step fun rootSlice => allowed_step fun stripped => ?_
  refine allowed_bind (allowed_parseNewElement stripped x pro.tagSpan.1 (p := none) (p' := none) trivial) fun r r' hr => ?_
  refine allowed_bind (allowed_of (agree_push twinTree_new hr)) fun t t' ht => ?_
  refine allowed_bind (r := TwinTree) (allowed_of ?_) fun t t' ht => ?_
  · split
    · exact agree_pop ht
    · exact .ok ht
  · refine allowed_bind (allowed_elementLoop x _ _ _ ht) fun t t' ht => ?_
    unfold ParseTree.emptyStack
    rw [← ht.2]
    split
    · exact allowed_of (.err (.refl _))
    · exact allowed_bind (allowed_toDom ht) fun e e' he => allowed_pure ⟨rfl, rfl, he⟩

theorem has_parseStr (x : Str) : (parseStrAny x).has (parseStr x) := by
  unfold parseStr parseStrAny
  refine has_step fun pro _ => has_step fun rootSlice _ => has_step fun stripped _ => ?_
  refine has_bind (has_parseNewElement _ _ _ _) fun r _ => has_step fun t _ => ?_
  refine has_bind (x := if endsWith rootSlice c%"/>" then t.pop else pure t) rfl fun t _ => ?_
  refine has_bind (has_elementLoop _ _ _ _ _) fun t _ => ?_
  split
  · rfl
  · exact has_bind (has_toDom t) fun _ _ => has_pure _

/-! ## serialising -/

theorem bind_only {α β : Type} {m : Runs α} {a : α} (h : ∀ y, m.has y ↔ y = .ok a) (f : α → β) (r : R β) :
    (m >>= fun a => pure (f a)).has r ↔ r = .ok (f a) := by
  constructor
  · intro hr
    obtain ⟨a', h1, h2⟩ := of_bind hr fun z hz => ⟨a, (h z).1 hz⟩
    cases (h _).1 h1
    exact h2
  · rintro rfl
    exact .inl ⟨a, (h _).2 rfl, rfl⟩

mutual
theorem toStringPIAny_has (pre indent : Str) (inline : Bool) : ∀ (e : Element) (r : R Str),
    (e.toStringPIAny pre indent inline).has r ↔ r = .ok (e.toStringPI pre indent inline)
  | ⟨n, cs, a, x, p, c⟩, r => by
    have ha : ∀ {β : Type} (g : List (Str × Str) → Runs β) (y : R β), (anyOrder a >>= g).has y ↔ ∃ l, l.Perm a.entries ∧ (g l).has y := by
      intro β g y
      constructor
      · rintro (⟨l, ⟨l', hl, hl'⟩, hy⟩ | ⟨e, ⟨l', hl, hl'⟩, rfl⟩ | ⟨⟨l', hl, hl'⟩, rfl⟩ | ⟨⟨l', hl, hl'⟩, rfl⟩)
        · cases hl'; exact ⟨_, hl, hy⟩
        all_goals cases hl'
      · rintro ⟨l, hl, hy⟩
        exact .inl ⟨l, ⟨l, hl, rfl⟩, hy⟩
    rw [ElementF.toStringPIAny]
    refine (ha _ r).trans ?_
    have e1 : ∀ g : Str → Str, ∀ y, (childrenToStringAny [] [] true cs >>= fun i => pure (g i)).has y ↔ y = .ok (g (childrenToString [] [] true cs)) := fun g y =>
      bind_only (childrenToStringAny_has [] [] true cs) g y
    have e2 : ∀ g : Str → Str, ∀ y, (childrenToStringAny (pre ++ indent) indent (inline || cs.any Node.isText) cs >>= fun i => pure (g i)).has y ↔
        y = .ok (g (childrenToString (pre ++ indent) indent (inline || cs.any Node.isText) cs)) := fun g y =>
      bind_only (childrenToStringAny_has (pre ++ indent) indent (inline || cs.any Node.isText) cs) g y
    have key : ∀ (l : List (Str × Str)) (_ : sortAttrs l = sortAttrs a.entries),
        ((fun l => (do
          let tagName := ElementF.tagName ⟨n, cs, a, x, p, c⟩
          let start := (if inline then [] else pre) ++ c%"<" ++ tagName ++ attrsToString (sortAttrs l)
          if cs.length == 0 then pure (start ++ c%"/>")
          else if cs.length == 1 && !(cs.any Node.isElement) then do
            let inner ← childrenToStringAny [] [] true cs
            pure (start ++ (c%">" ++ inner ++ c%"</" ++ tagName ++ c%">"))
          else do
            let inline := inline || cs.any Node.isText
            let inner ← childrenToStringAny (pre ++ indent) indent inline cs
            pure (start ++ (c%">" ++ (if inline then [] else c%"\n") ++ inner ++ (if inline then [] else pre) ++
              c%"</" ++ tagName ++ c%">")) : Runs Str)) l).has r ↔ r = .ok (ElementF.toStringPI pre indent inline ⟨n, cs, a, x, p, c⟩) := by
      intro l hl
      rw [ElementF.toStringPI]
      simp only [hl]
      by_cases h0 : (cs.length == 0) = true
      · simp only [if_pos h0]; exact Iff.rfl
      · simp only [if_neg h0]
        by_cases h1 : (cs.length == 1 && !(cs.any Node.isElement)) = true
        · simp only [if_pos h1]; exact e1 _ r
        · simp only [if_neg h1]; exact e2 _ r
    constructor
    · rintro ⟨l, hl, h⟩
      exact (key l (sortAttrs_congr hl (nodup_keys hl))).1 h
    · intro h
      exact ⟨a.entries, .refl _, (key a.entries rfl).2 h⟩
theorem childrenToStringAny_has (pre indent : Str) (inline : Bool) : ∀ (l : List Node) (r : R Str),
    (childrenToStringAny pre indent inline l).has r ↔ r = .ok (childrenToString pre indent inline l)
  | [], r => by rw [childrenToStringAny, childrenToString]; exact Iff.rfl
  | n :: l, r => by
    rw [childrenToStringAny, childrenToString]
    constructor
    · rintro (⟨a, h1, h2⟩ | ⟨e, h1, rfl⟩ | ⟨h1, rfl⟩ | ⟨h1, rfl⟩)
      · cases (nodeToStringPIAny_has pre indent inline n _).1 h1
        exact (bind_only (childrenToStringAny_has pre indent inline l) _ r).1 h2
      all_goals cases (nodeToStringPIAny_has pre indent inline n _).1 h1
    · intro h
      exact .inl ⟨_, (nodeToStringPIAny_has pre indent inline n _).2 rfl, (bind_only (childrenToStringAny_has pre indent inline l) _ r).2 h⟩
theorem nodeToStringPIAny_has (pre indent : Str) (inline : Bool) : ∀ (n : Node) (r : R Str),
    (n.toStringPIAny pre indent inline).has r ↔ r = .ok (n.toStringPI pre indent inline)
  | .text t, r => by rw [Node.toStringPIAny, Node.toStringPI]; exact Iff.rfl
  | .comment t, r => by rw [Node.toStringPIAny, Node.toStringPI]; exact Iff.rfl
  | .cdata t, r => by rw [Node.toStringPIAny, Node.toStringPI]; exact Iff.rfl
  | .element e, r => by rw [Node.toStringPIAny, Node.toStringPI]; exact toStringPIAny_has pre indent inline e r
end

end KissXml
