import Verif.Proofs.Outer
import Verif.Proofs.Scope
import Verif.Proofs.TokenCheck
/-!
# What accepted documents look like: C30, C31, C36, C37, C38, C43, C51, C52
-/
namespace KissXml.Props
open KissXml KissXml.Spec

/-! ## C36 -/

/-- C36: an accepted input is a sequence of tokens (`Parts`): prolog tags, then at least one more tag; the tags from the first
non-prolog tag on are well nested, each closing tag having the name of the innermost open element. -/
theorem C36_well_nested (x : Str) (d : Document) (h : parseStr x = .ok d) :
    ∃ pre rest, Parts x pre rest ∧ rest ≠ [] ∧ WellNested [] (rest.map Prod.snd) := by
  obtain ⟨pre, text, tag, rest, E, F, h1, h2, h3, h4, h5⟩ := accepted h
  exact ⟨pre, _, h1, by simp, root_nested h3 (h5 (text, tag) (by simp)) (fun t ht => h5 t (by simp [ht]))⟩

/-- the parts of an input are unique -/
theorem C36_parts_unique (x : Str) (pre rest pre' rest' : List (Str × Str)) (h : Parts x pre rest) (h' : Parts x pre' rest') :
    pre = pre' ∧ rest = rest' := parts_unique h h'

/-- Hence: if the tags of the input are not well nested, it is rejected. -/
theorem C36_reject (x : Str) (pre rest : List (Str × Str)) (h : Parts x pre rest) (hn : ¬ WellNested [] (rest.map Prod.snd))
    (d : Document) : parseStr x ≠ .ok d := by
  intro hd
  obtain ⟨pre', rest', h1, -, h2⟩ := C36_well_nested x d hd
  obtain ⟨rfl, rfl⟩ := parts_unique h h1
  exact hn h2

example : ∃ d, parseStr c%"<?xml?><!--c--><a:r xmlns:a='>'><b ></b > <c/></a:r>" = .ok d := ⟨_, rfl⟩
example : ¬ WellNested [] [c%"<a>", c%"<b>", c%"</a>", c%"</b>"] := by
  intro h
  cases h with
  | start _ hn h =>
    cases h with
    | start _ hn' h =>
      cases h with
      | close _ hi h =>
        obtain ⟨s, hs, hw⟩ := hn'
        cases (inner_iff.1 hs).1
        cases (inner_iff.1 hi).1
        obtain ⟨-, -, r, hr, -⟩ := hw
        cases hr
      | mark hk => cases hk
      | empty hk => cases hk
      | start hk => cases hk
    | mark hk => cases hk
    | empty hk => cases hk
    | close hk => cases hk
  | mark hk => cases hk
  | empty hk => cases hk

/-! ## C37 -/

/-- C37 is false: a second top-level element is accepted, and takes the children of the first. -/
theorem C37_false : (match parseStr c%"<a><c/></a><b></b>" with | .ok d => d.root.toString | _ => []) = c%"<b>\n  <c/>\n</b>" ∧
    (match parseStr c%"<a>x</a><b>y</b>" with | .ok d => d.root.toString | _ => []) = c%"<b>yx</b>" := ⟨rfl, rfl⟩

/-- C37 for inputs with one top-level element (`OneRoot`): the root of the result has the name of that element, and its content
is described by the tokens between its tags, recursively: names of elements, comments and CDATA verbatim, texts as
`unescape` reads them (`ReadAs`), white space between tags dropped.
Missing: inputs with several top-level elements, for which the claim fails. -/
theorem C37_partial (x : Str) (d : Document) (pre rest : List (Str × Str)) (h : parseStr x = .ok d) (hp : Parts x pre rest)
    (h1 : OneRoot (rest.map Prod.snd)) :
    ∃ text tag rest', rest = (text, tag) :: rest' ∧ OpenName tag d.root.tagName ∧
      ((kind tag = .empty ∧ rest' = [] ∧ d.root.children = []) ∨
       (kind tag = .start ∧ Content ReadAs d.root.tagName rest' d.root.children)) := by
  obtain ⟨text, tag, rest', E, F, rfl, -, h3, h4, h5⟩ := accepted_parts h hp
  obtain ⟨hO, hB⟩ := root_one h3 h1
  have hn : d.root.tagName = E.tagName := by rw [h4, addRev_tagName]
  refine ⟨text, tag, rest', rfl, hn ▸ opens_name hO (h5 (text, tag) (by simp)), ?_⟩
  rcases hB with ⟨hs, rfl, rfl⟩ | ⟨hs, hB⟩
  · refine .inl ⟨kind_empty hO hs, rfl, ?_⟩
    rw [h4, addRev]
    simp [ElementF.reverseChildren, opens_children hO]
  · refine .inr ⟨kind_start hO hs, ?_⟩
    rw [hn, h4, body_dom hB (opens_children hO)]
    exact content_mono (fun s t => unescapes_readAs) (body_content hB (fun t ht => h5 t (by simp [ht])))

example : ∃ d, parseStr c%"<a> <b>x&lt;</b><!--c--></a>" = .ok d ∧ d.root.toString = c%"<a>\n  <b>x&lt;</b>\n  <!--c-->\n</a>" := ⟨_, rfl, rfl⟩
example : OneRoot [c%"<a>", c%"<b>", c%"</b>", c%"<!--c-->", c%"</a>"] := by
  intro a b h ha hb
  rcases a with _ | ⟨_, _ | ⟨_, _ | ⟨_, _ | ⟨_, _ | ⟨_, a⟩⟩⟩⟩⟩
  · exact absurd rfl ha
  · cases h; decide
  · cases h; decide
  · cases h; decide
  · cases h; decide
  · simp only [List.cons_append, List.cons.injEq] at h
    have := h.2.2.2.2.2
    simp at this
    exact absurd this.2 hb

/-- an input for the theorems about accepted documents -/
def input : Str := c%"<?xml?>\n<!--x--><p:r xmlns:p='u'>t&lt;<p:b><c xmlns=''/><!--y--></p:b></p:r>"
/-- its prolog -/
def inputPre : List (Str × Str) := [([], c%"<?xml?>"), (c%"\n", c%"<!--x-->")]
/-- the rest of its tokens -/
def inputRest : List (Str × Str) := [([], c%"<p:r xmlns:p='u'>"), (c%"t&lt;", c%"<p:b>"), ([], c%"<c xmlns=''/>"), ([], c%"<!--y-->"),
  ([], c%"</p:b>"), ([], c%"</p:r>")]
-- it is accepted, and meets the hypotheses of C30, C31, C36, C37, C38, C43 and C52
example : Parts input inputPre inputRest ∧ OneRoot (inputRest.map Prod.snd) ∧
    (match parseStr input with | .ok d => d.toString | _ => []) =
      c%"<?xml?>\n<p:r xmlns:p=\"u\">t&lt;<p:b><c xmlns=\"\"/><!--y--></p:b></p:r>\n" :=
  ⟨partsB_sound [] (by decide) rfl, oneRootB_sound (by decide), by decide +kernel⟩

/-! ## C38 -/

/-- C38 is false: any text without `<` after an accepted document is ignored. -/
theorem C38_false : (∃ d, parseStr c%"<a/>garbage" = .ok d) ∧
    ∀ (x g : Str) (d : Document), parseStr x = .ok d → '<' ∉ g → parseStr (x ++ g) = .ok d := by
  refine ⟨⟨_, rfl⟩, fun x g d h hg => ?_⟩
  obtain ⟨toks, D, DS, tag, rest, E, F, hL, hP, hR, hd⟩ := parse_iff.1 h
  exact parse_iff.2 ⟨toks, D, DS, tag, rest, E, F, lex_trailing hL hg, hP, hR, hd⟩

/-- C38 for the texts that are followed by a tag: in an accepted document the text before each prolog tag, and before each tag
at which no element is open (the root tag among them), is white space.
Missing: the text after the last tag, which is not looked at. -/
theorem C38_partial (x : Str) (d : Document) (pre rest : List (Str × Str)) (h : parseStr x = .ok d) (hp : Parts x pre rest) :
    (∀ t ∈ pre, ∀ c ∈ t.1, isWs c = true) ∧
    ∀ a text tag b, rest = a ++ (text, tag) :: b → depth (a.map Prod.snd) = 0 → ∀ c ∈ text, isWs c = true := by
  obtain ⟨text, tag, rest', E, F, rfl, h2, h3, h4, h5⟩ := accepted_parts h hp
  refine ⟨fun t ht => (h2.prolog t ht).2, fun a text' tag' b hab hd => ?_⟩
  cases a with
  | nil =>
    simp only [List.nil_append, List.cons.injEq, Prod.mk.injEq] at hab
    obtain ⟨⟨rfl, rfl⟩, -⟩ := hab
    exact h2.blank
  | cons l a =>
    simp only [List.cons_append, List.cons.injEq] at hab
    obtain ⟨rfl, hab⟩ := hab
    exact root_blank h3 a b text' tag' hab hd

example : (∃ e, parseStr c%"x<a/>" = .err e) ∧ (∃ e, parseStr c%"<a></a>x<b></b>" = .err e) ∧
    (∃ e, parseStr c%"<?xml?>x<!--y--><b></b>" = .err e) := ⟨⟨_, rfl⟩, ⟨_, rfl⟩, ⟨_, rfl⟩⟩

/-! ## C43 -/

/-- C43: the sources of the comments and CDATA sections below the root of an accepted document, in document order, are the
tags that begin with `<!` from the root tag on, in order of appearance, character for character. -/
theorem C43_verbatim (x : Str) (d : Document) (pre rest : List (Str × Str)) (h : parseStr x = .ok d) (hp : Parts x pre rest) :
    (descendants d.root).filterMap markSource = (rest.map Prod.snd).filter (fun t => c%"<!".isPrefixOf t) := by
  obtain ⟨text, tag, rest', E, F, rfl, h2, h3, h4, h5⟩ := accepted_parts h hp
  have := root_marks h3
  rw [← h4] at this
  show marks d.root.children = _
  have hk : (fun t => decide (kind t = Kind.mark)) = (fun t => c%"<!".isPrefixOf t) := by
    funext t
    unfold kind
    by_cases ht : c%"<!" <+: t
    · rw [if_pos ht, List.isPrefixOf_iff_prefix.2 ht]; rfl
    · have hf : c%"<!".isPrefixOf t = false := by
        rw [Bool.eq_false_iff]; exact fun hh => ht (List.isPrefixOf_iff_prefix.1 hh)
      rw [if_neg ht, hf]
      split
      · rfl
      · split <;> rfl
  have ht : c%"<!".isPrefixOf tag = false := by
    rw [Bool.eq_false_iff]; exact fun hh => h2.root (.inr (List.isPrefixOf_iff_prefix.1 hh))
  rw [this, markTags, hk, List.map_cons, List.filter_cons]
  simp only [ht, Bool.false_eq_true, if_false, tagsOf]

example : (match parseStr c%"<r><!-- &lt; --><a><![CDATA[ <b> ]]></a></r>" with
    | .ok d => (descendants d.root).filterMap markSource | _ => []) = [c%"<!-- &lt; -->", c%"<![CDATA[ <b> ]]>"] := rfl

/-! ## C51 -/

/-- C51 is false: only the prefix of the root is checked. -/
theorem C51_false : (match parseStr c%"<r><p:a/></r>" with
    | .ok d => d.root.children.map (fun n => match n with | .element e => (e.pfx, e.xmlns) | _ => (none, none))
    | _ => []) = [(some c%"p", none)] := rfl

/-- C51 for the root: if the root of an accepted document has a prefix, the root has an `xmlns:` attribute for it, and that is
its namespace.
Missing: the elements inside the root. -/
theorem C51_partial (x : Str) (d : Document) (h : parseStr x = .ok d) (p : Str) (hp : d.root.pfx = some p) :
    ∃ v, d.root.attrs.get (c%"xmlns:" ++ p) = some v ∧ d.root.xmlns = some v := by
  obtain ⟨pre, text, tag, rest, E, F, h1, h2, h3, h4, h5⟩ := accepted h
  obtain ⟨tag', hO⟩ := root_opens h3
  obtain ⟨g1, g2, g3, g4, g5⟩ := addRev_fields E F
  rw [h4] at hp ⊢
  simp only [ElementF.reverseChildren, g2, g3, g4] at hp ⊢
  obtain ⟨k1, k2⟩ := (opens_ns_root hO).1 p hp
  obtain ⟨v, hv⟩ := Option.isSome_iff_exists.1 k2
  exact ⟨v, k1 ▸ hv, hv⟩

example : (match parseStr c%"<p:r xmlns:p='u'/>" with | .ok d => d.root.pfx | _ => none) = some c%"p" := rfl
example : ∃ e, parseStr c%"<p:r xmlns:q='u'/>" = .err e := ⟨_, rfl⟩

/-! ## C52 -/

/-- C52 is false: a declaration is accepted after white space, after a comment at the start, twice at the start, and inside
the root (as an element with prefix `?xml`). -/
theorem C52_false : (∃ d, parseStr c%" <?xml?><a/>" = .ok d) ∧ (∃ d, parseStr c%"<!----><?xml?><a/>" = .ok d) ∧
    (∃ d, parseStr c%"<?xml?><?xml 2?><a/>" = .ok d ∧ d.declaration = some ⟨c%"xml 2"⟩) ∧
    (∃ d, parseStr c%"<r><?xml:a='<x>'?></?xml:a='<x>'?></r>" = .ok d) := ⟨⟨_, rfl⟩, ⟨_, rfl⟩, ⟨_, rfl, rfl⟩, ⟨_, rfl⟩⟩

/-- C52, what is checked: in the prolog of an accepted document each `<?xml` tag is the first tag, or the second and the first
begins at offset 0 (hence there are at most two).  The last one is the declaration of the result; the doctype declarations
of the result are those of the prolog, in order.
Missing: the exceptions of `C52_false`. -/
theorem C52_partial (x : Str) (d : Document) (pre rest : List (Str × Str)) (h : parseStr x = .ok d) (hp : Parts x pre rest) :
    (∀ a text tag b, pre = a ++ (text, tag) :: b → c%"<?xml" <+: tag → a = [] ∨ ∃ t, a = [([], t)]) ∧
    d.declaration.map Declaration.display = ((pre.map Prod.snd).filter (fun t => c%"<?xml".isPrefixOf t)).getLast? ∧
    d.dtds.map (fun m => c%"<!DOCTYPE" ++ m.dtdStr ++ c%">") = (pre.map Prod.snd).filter (fun t => c%"<!DOCTYPE".isPrefixOf t) := by
  obtain ⟨text, tag, rest', E, F, rfl, h2, h3, h4, h5⟩ := accepted_parts h hp
  refine ⟨fun a text tag b hab hx => ?_, by simpa using h2.decl, by simpa using h2.dtds⟩
  rcases h2.order a text tag b hab hx with ⟨rfl, -⟩ | ⟨⟨l, t⟩, rfl, h0⟩
  · exact .inl rfl
  · have : l = [] := blen_eq_zero.1 (by simpa using h0)
    exact .inr ⟨t, by rw [this]⟩

example : ∃ d, parseStr c%"<?xml 1?> <!DOCTYPE a> <!--x--> <!DOCTYPE b> <r/>" = .ok d ∧
    d.declaration = some ⟨c%"xml 1"⟩ ∧ d.dtds = [⟨c%" a"⟩, ⟨c%" b"⟩] := ⟨_, rfl, rfl, rfl⟩
example : (∃ e, parseStr c%" <!----><?xml?><a/>" = .err e) ∧ (∃ e, parseStr c%"<?xml?><!----><?xml?><a/>" = .err e) :=
  ⟨⟨_, rfl⟩, ⟨_, rfl⟩⟩

/-! ## C30 -/

/-- C30 is false: an attribute `xmlns:xmlns:p` outweighs `xmlns:p`. -/
theorem C30_false : (match parseStr c%"<r xmlns:xmlns:p='u' xmlns:p='v'><p:a/></r>" with
    | .ok d => d.root.children.map (fun n => match n with | .element e => e.xmlns | _ => none)
    | _ => []) = [some c%"u"] := rfl

/-- C30 for documents with one top-level element and without attributes that begin with `xmlns:xmlns:`: the namespace of every
prefixed element is that of the nearest declaration of the prefix, on itself or around it.
Missing: documents with such attributes or several top-level elements. -/
theorem C30_partial (x : Str) (d : Document) (pre rest : List (Str × Str)) (h : parseStr x = .ok d) (hp : Parts x pre rest)
    (h1 : OneRoot (rest.map Prod.snd))
    (h2 : ∀ e, Node.element e ∈ docOrder (.element d.root) → ∀ k, (e.attrs.get k).isSome → ¬ c%"xmlns:xmlns:" <+: k) :
    PrefixScope (fun _ => none) (.element d.root) := by
  obtain ⟨text, tag, rest', E, F, rfl, -, h3, h4, h5⟩ := accepted_parts h hp
  have := (root_rules h3 h1).1
  rw [← h4] at this
  refine prefixScope_of _ (fun _ => rfl) _ ?_ this
  intro m hm e he
  subst he
  exact h2 e hm

-- the inner `p:b` redeclares the prefix, `p:c` uses the outer one
example : (match parseStr c%"<r xmlns:p='u'><a><p:b xmlns:p='v'><p:d/></p:b></a><p:c/></r>" with
    | .ok d => (docOrder (.element d.root)).filterMap (fun n => match n with | .element e => some e.xmlns | _ => none)
    | _ => []) = [none, none, some c%"v", some c%"v", some c%"u"] := rfl

/-! ## C31 -/

/-- C31 is false: the default namespace is not handed down through a prefixed element. -/
theorem C31_false : (match parseStr c%"<r xmlns='u' xmlns:p='v'><p:a><b/></p:a></r>" with
    | .ok d => (descendants d.root).map (fun n => match n with | .element e => e.xmlns | _ => none)
    | _ => []) = [some c%"v", none] := rfl

/-- C31 for documents with one top-level element in which every unprefixed child of a prefixed element has an `xmlns`
attribute itself: the namespace of every unprefixed element is the nearest `xmlns`, on itself or around it.
Missing: the other documents (see `C31_false`). -/
theorem C31_partial (x : Str) (d : Document) (pre rest : List (Str × Str)) (h : parseStr x = .ok d) (hp : Parts x pre rest)
    (h1 : OneRoot (rest.map Prod.snd))
    (h2 : ∀ e, Node.element e ∈ docOrder (.element d.root) → e.pfx ≠ none → ∀ c, Node.element c ∈ e.children → c.pfx = none →
      (c.attrs.get c%"xmlns").isSome) :
    DefaultScope none (.element d.root) := by
  obtain ⟨text, tag, rest', E, F, rfl, -, h3, h4, h5⟩ := accepted_parts h hp
  have := (root_rules h3 h1).2
  rw [← h4] at this
  refine defaultScope_of none none _ ?_ this (.inl rfl)
  intro m hm e he
  subst he
  exact h2 e hm

example : (match parseStr c%"<r xmlns='u'><a/><b xmlns='v'><c/></b><p:d><e xmlns='w'/></p:d></r>" with
    | .ok d => (descendants d.root).map (fun n => match n with | .element e => e.xmlns | _ => none)
    | _ => []) = [some c%"u", some c%"v", some c%"v", none, some c%"w"] := rfl

end KissXml.Props
