import Verif.Proofs.AnyOrderParse
import Verif.Proofs.AnyOrderCalls
import Verif.Props.Serialize
import Verif.Props.Parse
/-!
# C100, C101: the order in which hash maps are iterated

`parseStrAny`, `newAny` and so on are the program with each loop over a `HashMap` taking the entries in any order;
`has` are the outcomes that it may have.  `Twin…` is equality but for the order of maps.
-/
namespace KissXml.Props
open KissXml KissXml.Spec Runs

/-! ## C100 -/

/-- C100 fails in one point: two runs on the same text may end with different errors, because a tag has two attributes with
bad names and the one met first is reported. -/
theorem C100_false : ∃ x n n', n ≠ n' ∧ (parseStrAny x).has (.err (.invalidAttributeName n)) ∧
    (parseStrAny x).has (.err (.invalidAttributeName n')) := by
  have next : ∀ {α β : Type} {m : Runs α} {g : α → Runs β} {r : R β} (a : α), m.has (.ok a) → (g a).has r → (m >>= g).has r :=
    fun a h h' => .inl ⟨a, h, h'⟩
  have stop : ∀ {α β : Type} {m : Runs α} {g : α → Runs β} (e : Err), m.has (.err e) → (m >>= g).has (.err e) :=
    fun e h => .inr (.inl ⟨e, h, rfl⟩)
  refine ⟨c%"<a b=\"\" 1=\"x\" 2=\"y\"/>", c%"1", c%"2", by decide, ?_, ?_⟩
  · have h : parseStr c%"<a b=\"\" 1=\"x\" 2=\"y\"/>" = .err (.invalidAttributeName c%"1") := by rfl
    exact h ▸ has_parseStr _
  · unfold parseStrAny
    refine next ⟨none, [], 0, (0, 21)⟩ (by rfl : Res.ok _ = prologLoop _ _ _) ?_
    refine next c%"<a b=\"\" 1=\"x\" 2=\"y\"/>" (by decide +kernel : Res.ok _ = Res.unwrap _) ?_
    refine next c%"a b=\"\" 1=\"x\" 2=\"y\"" (by decide +kernel : Res.ok _ = Res.unwrap _) (stop _ ?_)
    have hq : quoteAwareSplit c%"a b=\"\" 1=\"x\" 2=\"y\"" = [c%"a", c%"b=\"\"", c%"1=\"x\"", c%"2=\"y\""] := by decide +kernel
    unfold parseNewElementAny
    rw [hq]
    refine next ⟨[(c%"b", []), (c%"1", c%"x"), (c%"2", c%"y")], by decide⟩ (by rfl : Res.ok _ = parseAttrs _ _ _ _) ?_
    refine next c%"a" (by decide +kernel : Res.ok _ = Res.unwrap _) ?_
    refine next (c%"a", none, none) rfl (stop _ ?_)
    refine next () rfl (stop _ ?_)
    exact next [(c%"2", c%"y"), (c%"b", []), (c%"1", c%"x")] ⟨_, by decide, rfl⟩ rfl

/-- C100, but for the choice among bad attribute names: any two runs of `parse_str` on the same text both give a document, and the
two are equal, print the same and differ at most in the order of their maps; or both give the same error; or both report a bad
attribute name; or both panic (C34 says when). -/
theorem C100_partial (x : Str) {r r' : R Document} (h : (parseStrAny x).has r) (h' : (parseStrAny x).has r') :
    (∃ d d', r = .ok d ∧ r' = .ok d' ∧ TwinDocument d d' ∧ d.eq d' = true ∧ d.toString = d'.toString ∧
      ∀ i, d.toStringWithIndent i = d'.toStringWithIndent i) ∨
    (∃ e, r = .err e ∧ r' = .err e) ∨
    (∃ n n', r = .err (.invalidAttributeName n) ∧ r' = .err (.invalidAttributeName n') ∧ validName n = false ∧ validName n' = false) ∨
    (r = .panic ∧ r' = .panic) := by
  have hs : ∀ d d' : Document, TwinDocument d d' → TwinDocument d' d := fun _ _ ⟨h1, h2, h3⟩ => ⟨h1.symm, h2.symm, twinElement_symm h3⟩
  have ht : ∀ a b c : Document, TwinDocument a b → TwinDocument b c → TwinDocument a c :=
    fun _ _ _ ⟨h1, h2, h3⟩ ⟨h1', h2', h3'⟩ => ⟨h1.trans h1', h2.trans h2', twinElement_trans h3 h3'⟩
  have hr := allowed_parseStr x r h
  have ha : Agree SameComplaint TwinDocument r r' :=
    agree_trans (fun _ _ _ h h' => h.trans h') ht (agree_symm (fun _ _ h => h.symm) hs hr) (allowed_parseStr x r' h')
  cases ha with
  | @ok d d' hd =>
    have h3 := same_of_twinElement hd.2.2
    refine .inl ⟨d, d', rfl, rfl, hd, ?_, (C09_document hd.1 hd.2.1 h3 []).2, fun i => (C09_document hd.1 hd.2.1 h3 i).1⟩
    simp only [Document.eq, Bool.and_eq_true, beq_iff_eq, element_eq_iff]
    exact ⟨⟨hd.1, hd.2.1⟩, h3⟩
  | @err e e' he =>
    rcases he with rfl | ⟨n, n', rfl, rfl, h1, h2⟩
    · exact .inr (.inl ⟨e, rfl, rfl⟩)
    · exact .inr (.inr (.inl ⟨n, n', rfl, rfl, h1, h2⟩))
  | panic => exact .inr (.inr (.inr ⟨rfl, rfl⟩))
  | diverge =>
    generalize hp : parseStr x = p at hr
    cases hr
    exact absurd hp (C33_terminates x)

/-- The model of `parse_str` used elsewhere is one of the runs, so every run agrees with it in this way. -/
theorem C100_runs (x : Str) : (parseStrAny x).has (parseStr x) := has_parseStr x

example : ∃ d, parseStr c%"<a xmlns:p=\"u\" k=\"1\"><p:b xmlns:q=\"v\"/></a>" = .ok d ∧ d.root.ctx.entries = [(c%"p", c%"u")] := by
  refine ⟨_, rfl, ?_⟩; decide +kernel

/-! ## C101 -/

/-- C101: building and changing elements does not depend on the order in which maps are iterated.  Whatever order is taken, and
whatever the order in the maps given, `Element::new`, `append`, `append_all` and `insert` … -/
theorem C101_build (name : Str) (text : Option Str) {A A' : SMap} (hA : A.entries.Perm A'.entries) (xmlns pfx : Option Str)
    {l l' : List Node} (hl : TwinList l l') {e e' : Element} (he : TwinElement e e') {n n' : Node} (hn : TwinNode n n') (i : Nat) :
    (∀ r, (ElementF.newAny name text (some A') xmlns pfx (some l')).has r →
      Agree SameComplaint TwinElement (ElementF.new name text (some A) xmlns pfx (some l)) r) ∧
    (∀ r, (e'.appendAny n').has r → Agree (fun e e' => e = e') TwinElement (e.append n) r) ∧
    (∀ r, (e'.appendAllAny l').has r → Agree (fun e e' => e = e') TwinElement (e.appendAll l) r) ∧
    (∀ r, (e'.insertAny i n').has r → Agree (fun e e' => e = e') TwinElement (e.insert i n) r) :=
  ⟨allowed_new name text (A := some A) (A' := some A') hA xmlns pfx (cs := some l) (cs' := some l') hl, allowed_append he hn, allowed_appendAll he hl,
    allowed_insert he hn i⟩

/-- … and programs that make a series of calls, also for child elements, with whatever closures that cannot see the order of
maps themselves, end with the same error or with elements that differ at most in the order of maps. -/
theorem C101_calls {l l' : List Call} (hl : TwinCalls l l') {e e' : Element} (he : TwinElement e e') {r r' : R Element}
    (h : (runCallsAny l e).has r) (h' : (runCallsAny l' e').has r') : Agree (fun e e' => e = e') TwinElement r r' :=
  agree_trans (q := fun e e' => e = e') (r := TwinElement) (fun _ _ _ => Eq.trans) (fun _ _ _ h h' => twinElement_trans h h')
    (agree_symm (q := fun e e' => e = e') (fun _ _ => Eq.symm) (fun _ _ h => twinElement_symm h) (allowed_calls (twinCalls_refl hl) (twinElement_refl e) r h)) (allowed_calls hl he r' h')

/-- two maps and two elements that differ in order only -/
def mapA : SMap := ⟨[(c%"xmlns:p", c%"u"), (c%"1", c%"x"), (c%"2", c%"y")], by decide⟩
def mapB : SMap := ⟨[(c%"2", c%"y"), (c%"xmlns:p", c%"u"), (c%"1", c%"x")], by decide⟩
def ctxA : SMap := ⟨[(c%"p", c%"u"), (c%"q", c%"v")], by decide⟩
def ctxB : SMap := ⟨[(c%"q", c%"v"), (c%"p", c%"u")], by decide⟩
def twinA : Element := ⟨c%"a", [.text c%"t"], mapA, none, none, ctxA⟩
def twinB : Element := ⟨c%"a", [.text c%"t"], mapB, none, none, ctxB⟩
/-- a child that takes its namespace from its parent -/
def orphan : Element := ⟨c%"b", [], .empty, none, some c%"q", .empty⟩

theorem twinAB : TwinElement twinA twinB := .mk (SMap.eq_iff.1 (by decide)) (SMap.eq_iff.1 (by decide)) (.cons (.text _) .nil)

example : TwinCalls [.append (.element orphan), .inChild 1 (.setAttr c%"k" c%"v")] [.append (.element orphan), .inChild 1 (.setAttr c%"k" c%"v")] ∧
    runCalls [.append (.element orphan), .inChild 1 (.setAttr c%"k" c%"v")] twinA = .ok { twinA with children :=
      [.text c%"t", .element { orphan with xmlns := some c%"v", attrs := ⟨[(c%"k", c%"v")], by decide⟩, ctx := ctxA }] } :=
  ⟨.cons (.append (twinNode_refl _)) (.cons (.inChild 1 (.setAttr _ _)) .nil), rfl⟩

/-- Printing does not depend on the order: `to_string` and `to_string_with_indent` have one outcome, the one of the model used
elsewhere. -/
theorem C101_print (e : Element) (indent : Str) (r : R Str) :
    (e.toStringWithIndentAny indent).has r ↔ r = .ok (e.toStringWithIndent indent) := by
  unfold ElementF.toStringWithIndentAny ElementF.toStringWithIndent
  split
  · exact toStringPIAny_has [] indent false e r
  · exact toStringPIAny_has [] c%"  " false e r

/-- `namespace_prefixes` gives the same map, as far as `==` on maps goes. -/
theorem C101_prefixes {e e' : Element} (he : TwinElement e e') (r : R (Option SMap)) (h : (e'.namespacePrefixesAny).has r) :
    (e.namespacePrefixes = none ∧ r = .ok none) ∨
    ∃ m m', e.namespacePrefixes = some m ∧ r = .ok (some m') ∧ m.eq m' = true := by
  have hc := allowed_context (q := fun e e' => e = e') (twin_parts he).2.2.2.1
  unfold ElementF.namespacePrefixesAny at h
  unfold ElementF.namespacePrefixes
  rcases h with ⟨m', h1, h2⟩ | ⟨e, h1, -⟩ | ⟨h1, -⟩ | ⟨h1, -⟩
  · have := hc _ h1
    cases this with
    | ok hm =>
      have h3 : ∀ m m' : SMap, Shuffle m m' → m.isEmpty = m'.isEmpty := fun m m' h => by
        rw [Bool.eq_iff_iff, smap_isEmpty, smap_isEmpty]
        simp only [h.get]
      simp only [h3 _ _ hm]
      rw [show r = _ from h2]
      cases m'.isEmpty with
      | true => exact .inl ⟨rfl, rfl⟩
      | false => exact .inr ⟨_, _, rfl, rfl, SMap.eq_iff.2 hm⟩
  · cases hc _ h1
  · cases hc _ h1
  · cases hc _ h1

/-- What `Element::new` may report as a bad attribute name is exactly any of the bad names in the map given: this is the one thing
in which the order shows. -/
theorem C101_bad_name (name : Str) (text : Option Str) (A : SMap) (xmlns pfx : Option Str) (cs : Option (List Node)) (n : Str) :
    (ElementF.newAny name text (some A) xmlns pfx cs).has (.err (.invalidAttributeName n)) ↔
      validName name = true ∧ (A.get n).isSome = true ∧ validName n = false :=
  new_bad_name name text A xmlns pfx cs n

example : ElementF.new c%"a" none (some mapA) none none none = .err (.invalidAttributeName c%"1") ∧
    ElementF.new c%"a" none (some mapB) none none none = .err (.invalidAttributeName c%"2") := ⟨rfl, rfl⟩

/-- The models used elsewhere are among the runs. -/
theorem C101_runs (name : Str) (text : Option Str) (A : Option SMap) (xmlns pfx : Option Str) (cs : Option (List Node)) (e : Element)
    (l : List Call) :
    (ElementF.newAny name text A xmlns pfx cs).has (ElementF.new name text A xmlns pfx cs) ∧ (runCallsAny l e).has (runCalls l e) :=
  ⟨has_new name text A xmlns pfx cs, has_calls l e⟩

end KissXml.Props
