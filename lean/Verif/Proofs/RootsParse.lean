import Verif.Proofs.Roots
import Verif.Proofs.TagNames
import Verif.Proofs.Syntax
import Verif.Proofs.Steps
/-!
# Documents with several top-level elements
-/
namespace KissXml
open Spec

/-! ## no top-level element begins with `<?` -/

theorem words_last {s : Str} {l : List Str} (h : Words s l) {c : Char} (hc : isWs c = false) (hs : [c] <:+ s) :
    ∃ w, l.getLast? = some w ∧ [c] <:+ w := by
  induction h with
  | done hw =>
    obtain ⟨u, rfl⟩ := hs
    have := hw c (by simp)
    rw [this] at hc; cases hc
  | @word w n r l hw hn hr ih =>
    rcases List.eq_nil_or_concat r with rfl | ⟨r', c', rfl⟩
    · have hl : l = [] := by
        generalize hz : ([] : Str) = z at hr
        cases hr with
        | done => rfl
        | @word w n r l _ hn _ =>
          have := hn.1
          simp at hz
          exact absurd hz.2.1 this
      subst hl
      refine ⟨n, rfl, ?_⟩
      rcases List.eq_nil_or_concat n with rfl | ⟨n', c', rfl⟩
      · exact absurd rfl hn.1
      · obtain ⟨u, hu⟩ := hs
        rw [List.concat_eq_append] at hu ⊢
        have hu' : u ++ [c] = (w ++ n') ++ [c'] := by rw [hu]; simp
        cases (List.append_inj' hu' rfl).2
        exact ⟨n', rfl⟩
    · rw [List.concat_eq_append] at hs ih
      obtain ⟨u, hu⟩ := hs
      have hu' : u ++ [c] = (w ++ n ++ r') ++ [c'] := by rw [hu]; simp
      cases (List.append_inj' hu' rfl).2
      obtain ⟨w', h1, h2⟩ := ih ⟨r', rfl⟩
      exact ⟨w', by rw [List.getLast?_cons, h1]; rfl, h2⟩

theorem joined_last {l ps : List Str} (h : Joined l ps) {c : Char} {w : Str} (hl : l.getLast? = some w) (hw : [c] <:+ w) :
    ∃ y, ps.getLast? = some y ∧ [c] <:+ y := by
  have last : ∀ {a : Str} {m : List Str}, (a :: m).getLast? = some w → (m = [] ∧ a = w) ∨ m.getLast? = some w := by
    intro a m h
    cases m with
    | nil => simp at h; exact .inl ⟨rfl, h⟩
    | cons b m => exact .inr (by rwa [List.getLast?_cons_cons] at h)
  have up : ∀ {a y : Str} {m : List Str}, m.getLast? = some y → (a :: m).getLast? = some y := by
    intro a y m h
    rw [List.getLast?_cons, h]; rfl
  have nil : ∀ {m : List Str}, Joined [] m → m = [] := by
    intro m h; cases h; rfl
  induction h with
  | nil => simp at hl
  | one _ hj ih =>
    rcases last hl with ⟨rfl, rfl⟩ | h
    · rw [nil hj]; exact ⟨_, rfl, hw⟩
    · obtain ⟨y, h1, h2⟩ := ih h
      exact ⟨y, up h1, h2⟩
  | @two a b l ps _ _ hj ih =>
    rcases last hl with ⟨h, -⟩ | h
    · cases h
    · rcases last h with ⟨rfl, rfl⟩ | h
      · rw [nil hj]
        obtain ⟨u, rfl⟩ := hw
        exact ⟨_, rfl, a ++ u, by simp⟩
      · obtain ⟨y, h1, h2⟩ := ih h
        exact ⟨y, up h1, h2⟩
  | @three a b c' l ps _ _ hj ih =>
    rcases last hl with ⟨h, -⟩ | h
    · cases h
    · rcases last h with ⟨h, -⟩ | h
      · cases h
      · rcases last h with ⟨rfl, rfl⟩ | h
        · rw [nil hj]
          obtain ⟨u, rfl⟩ := hw
          exact ⟨_, rfl, a ++ b ++ u, by simp⟩
        · obtain ⟨y, h1, h2⟩ := ih h
          exact ⟨y, up h1, h2⟩

theorem inner_pi {m s : Str} (h : Inner (c%"<?" ++ m ++ c%"?>") s) : s = c%"?" ++ m ++ c%"?" := by
  obtain ⟨a, m', b, w1, w2, h1, ha, hb, rfl, hw1, hw2, -⟩ := h
  have ha : a = c%"<" := by
    rcases ha with rfl | ⟨h, -⟩
    · simp at h1
    · exact h
  subst ha
  have hb : b = c%">" := by
    rcases hb with rfl | ⟨h, -⟩
    · have h1' : (c%"<?" ++ m) ++ c%"?>" = (c%"<" ++ (w1 ++ s ++ w2)) ++ c%"/>" := by simpa using h1
      have := (List.append_inj' h1' rfl).2
      simp at this
    · exact h
  subst hb
  have h2 : c%"?" ++ m ++ c%"?" = w1 ++ s ++ w2 := by
    have h1' : (c%"?" ++ m ++ c%"?") ++ c%">" = (w1 ++ s ++ w2) ++ c%">" := by simpa using h1
    exact (List.append_inj' h1' rfl).1
  have e1 : w1 = [] := by
    cases w1 with
    | nil => rfl
    | cons c w1 =>
      simp at h2
      have := hw1 c (by simp)
      rw [← h2.1] at this; cases this
  have e2 : w2 = [] := by
    rcases List.eq_nil_or_concat w2 with h | ⟨w, c, rfl⟩
    · exact h
    · rw [List.concat_eq_append] at h2 hw2
      have h2' : (c%"?" ++ m) ++ c%"?" = (w1 ++ s ++ w) ++ [c] := by simpa using h2
      have := hw2 c (by simp)
      have h3 := (List.append_inj' h2' rfl).2
      simp at h3
      rw [← h3] at this; cases this
  subst e1 e2
  simpa using h2.symm

theorem opens_not_pi {tag s : Str} {e : Element} (h : Opens none tag e) (ht : TagAt s tag) : ¬ c%"<?" <+: tag := by
  intro hx
  obtain ⟨m, rfl⟩ := tagAt_pi_form ht hx
  obtain ⟨ps, ⟨s', ws, hi, hW, hJ⟩, hA⟩ := opens_writes h ⟨c%"?" ++ m ++ c%"?", by simp⟩ []
  obtain ⟨t, attrs, n0, n, x, q, h1, hN⟩ := h.elem
  have hat : e.attrs = attrs := by rw [hN.eq, (setNamespaceContext_fields _ _ _).2.2.1]
  rw [opens_tagName_children, newElem_tagName hN] at hW
  have hs := inner_pi hi
  have hT : Trimmed s' := by obtain ⟨_, _, _, _, _, _, _, _, _, _, _, hT⟩ := hi; exact hT
  have hF := words_first hW hT
  have hn0 : ∃ r, n0 = '?' :: r := by
    obtain ⟨hne, -, r, hr, -⟩ := hF
    cases n0 with
    | nil => exact absurd rfl hne
    | cons c n0 =>
      rw [hs] at hr
      simp at hr
      exact ⟨n0, by rw [← hr.1]⟩
  obtain ⟨r, rfl⟩ := hn0
  obtain ⟨w, hw1, hw2⟩ := words_last hW (c := '?') (by decide) ⟨c%"?" ++ m, by rw [hs]⟩
  cases hN.name with
  | plain =>
    obtain ⟨c, t, h2, h3, -⟩ := validName_iff.1 hN.valid
    simp at h2
    rw [← h2.1] at h3
    revert h3
    decide
  | own _ _ hg =>
    obtain ⟨raw, p, hp, -⟩ := hA.only _ _ (hat ▸ hg)
    cases ws with
    | nil => cases hJ; cases hp
    | cons w' ws =>
      rw [List.getLast?_cons_cons] at hw1
      obtain ⟨y, hy1, hy2⟩ := joined_last hJ hw1 hw2
      obtain ⟨k, raw, -, qq, hq, rfl⟩ := hA.form y (List.mem_of_getLast? hy1)
      obtain ⟨u, hu⟩ := hy2
      have := (List.append_inj' hu rfl).2
      simp at this
      subst this
      revert hq; decide
  | inh _ _ _ hp => cases hp

/-! ## the nodes of a top-level element -/

/-- the nodes of a forest, blank texts at the top included -/
def nodesOf : Forest → List Node
  | .nil => []
  | .leaf n r => n :: nodesOf r
  | .elem c k r => .element { c with children := plain k } :: nodesOf r

theorem plain_nodesOf (f : Forest) : plain f = (nodesOf f).filter (fun n => !isBlankText n) := by
  induction f with
  | nil => rfl
  | leaf n r ih => rw [plain, nodesOf, List.filter_cons, ← ih]; by_cases h : isBlankText n = true <;> simp [h]
  | elem c k r _ ih => rw [plain, nodesOf, List.filter_cons, ← ih]; rfl

theorem ok_fresh {f : Forest} (h : f.Ok) : f.Fresh := by
  induction f with
  | nil => trivial
  | leaf n r ih => exact ih (leafOk h).1
  | elem e k r ih1 ih2 => exact ⟨h.1, ih1 h.2.1, ih2 h.2.2⟩

theorem joinBack_laid {e : Element} {f : Forest} (h : f.Ok) (hs : Settled e f) (he : e.children = []) :
    joinBack (laid e f) = plain f := by
  have h1 := addRev_laid (ok_fresh h) e he
  rw [addRev_eq h e he, build_plain hs] at h1
  have := congrArg ElementF.children h1
  exact (List.reverse_injective this).symm

theorem laid_nodesOf {e : Element} {f : Forest} (h : f.Ok) (hs : Settled e f) (X : Element) :
    laid X f = (nodesOf f).map (applyXmlnsContext X.defaultNamespace X.ctx) := by
  induction f with
  | nil => rfl
  | leaf n r ih =>
    have hn : ParseTree.flipElement n = n := by
      rw [flipElement_eq]
      cases n with
      | element e =>
        obtain ⟨n, cs, a, x, p, c⟩ := e
        have : cs = [] := h.1
        subst this
        rfl
      | text _ => rfl
      | comment _ => rfl
      | cdata _ => rfl
    rw [laid, nodesOf, ih (leafOk h).1 hs.2, hn]; rfl
  | elem c k r _ ih => rw [laid, nodesOf, ih h.2.2 hs.2.2, joinBack_laid h.2.1 hs.2.1 h.1]; rfl

theorem laid_fappend (X : Element) (f g : Forest) : laid X (fappend f g) = laid X f ++ laid X g := by
  induction f with
  | nil => rfl
  | leaf n r ih => simp [fappend, laid, ih]
  | elem c k r _ ih => simp [fappend, laid, ih]

theorem textNode_of {text : Str} {f f' : Forest} (h : WithText text f f') :
    ∃ l, TextNode ReadAs text l ∧ nodesOf f' = l ++ nodesOf f := by
  cases h with
  | blank hw => exact ⟨[], .inl ⟨all_iff.1 hw, rfl⟩, rfl⟩
  | @text t hw hu => exact ⟨[.text t], .inr ⟨by simpa using hw, t, unescapes_readAs hu, rfl⟩, rfl⟩

theorem body_inside {e : Element} {toks : List (Str × Str)} {f : Forest} (h : Body e toks f)
    (ha : ∀ t ∈ toks, Angled t.2) : Inside ReadAs e.tagName toks (nodesOf f) := by
  induction h with
  | close hc hw =>
    obtain ⟨l, h1, h2⟩ := textNode_of hw
    rw [h2, nodesOf, List.append_nil]
    exact .close (kind_close hc.slash) (inner_iff.2 ⟨hc.name, ha (_, _) (List.mem_cons_self ..)⟩) h1
  | comment _ _ hw ih =>
    obtain ⟨l, h1, h2⟩ := textNode_of hw
    rw [h2]
    exact .comment h1 (ih (fun t ht => ha t (by simp [ht])))
  | cdata _ _ hw ih =>
    obtain ⟨l, h1, h2⟩ := textNode_of hw
    rw [h2]
    exact .cdata h1 (ih (fun t ht => ha t (by simp [ht])))
  | empty hO hs _ hw ih =>
    obtain ⟨l, h1, h2⟩ := textNode_of hw
    rw [h2]
    exact .empty (kind_empty hO hs) (opens_name hO (ha (_, _) (List.mem_cons_self ..))) (opens_children hO) h1
      (ih (fun t ht => ha t (by simp [ht])))
  | @elem e c text tag toks1 toks2 k f f' hO hs hB _ hw ih1 ih2 =>
    obtain ⟨l, h1, h2⟩ := textNode_of hw
    rw [h2]
    refine .elem (kind_start hO hs) ?_ ?_ h1 (ih2 (fun t ht => ha t (by simp [ht])))
    · rw [opens_tagName_children]; exact opens_name hO (ha (_, _) (List.mem_cons_self ..))
    · rw [opens_tagName_children]
      exact content_mono (fun _ _ => unescapes_readAs) (body_content hB (fun t ht => ha t (by simp [ht])))

/-! ## a top-level element alone -/

theorem lexes_toks {x : Str} {toks : List (Str × Str)} {tail : Str} (h : Lexes x toks tail) : ∀ t ∈ toks, TokOk t := by
  induction h with
  | done => simp
  | tag h1 hT _ _ ih =>
    intro t ht
    rcases List.mem_cons.1 ht with rfl | ht
    · exact ⟨h1, tagAt_alone hT⟩
    · exact ih t ht

theorem tokOk_angled {t : Str × Str} (h : TokOk t) : Angled t.2 :=
  lex_angled (lexes_lex (lexes_flat (l := [t]) (by simpa using h) (tail := []) (by simp)) 0) t (by simp)

theorem alone_lexes {tag : Str} {toks : List (Str × Str)} (ht : TagAt tag tag) (h : ∀ t ∈ toks, TokOk t) :
    Lexes (tag ++ srcOf toks) (([], tag) :: toks) [] := by
  have := lexes_flat (l := ([], tag) :: toks) (tail := []) (by
    intro t ht'
    rcases List.mem_cons.1 ht' with rfl | ht'
    · exact ⟨by simp, ht⟩
    · exact h t ht') (by simp)
  rw [flatToks_cons] at this
  simpa [flatToks, srcOf] using this

theorem alone_lex {tag : Str} {toks : List (Str × Str)} (ht : TagAt tag tag) (h : ∀ t ∈ toks, TokOk t) :
    Lex 0 (tag ++ srcOf toks) (([], tag) :: toks) none := lexes_lex (alone_lexes ht h) 0

theorem opens_not_prolog {tag s : Str} {e : Element} (hO : Opens none tag e) (ht : TagAt s tag) : ¬ IsProlog tag := by
  rintro (h | h)
  · exact opens_not_pi hO ht (List.IsPrefix.trans ⟨c%"xml", rfl⟩ h)
  · exact hO.not_decl h

theorem alone_pro {tag s : Str} {e : Element} {toks : List (Str × Str)} (hO : Opens none tag e) (ht : TagAt s tag) :
    Pro 0 0 false none [] (([], tag) :: toks) none [] tag toks :=
  .root rfl (fun h => opens_not_pi hO ht (List.IsPrefix.trans ⟨c%"xml", rfl⟩ h)) hO.not_decl hO.not_close hO.regex

/-- the piece of a start tag and its content -/
def elemPiece (text tag : Str) (toks : List (Str × Str)) (e : Element) (k : Forest) : RootPiece :=
  ⟨⟨text, tag, toks⟩, Document.newWithDeclDtd { e with children := plain k } none (some []), nodesOf k⟩

theorem elemPiece_ok {text tag : Str} {toks : List (Str × Str)} {e : Element} {k : Forest} (hw : text.all isWs = true)
    (hO : Opens none tag e) (hs : ¬ c%"/>" <:+ tag) (hB : Body e toks k) (ht : TagAt tag tag) (h : ∀ t ∈ toks, TokOk t) :
    (elemPiece text tag toks e k).Ok ReadAs := by
  have ha : ∀ t ∈ toks, Angled t.2 := fun t ht => tokOk_angled (h t ht)
  refine ⟨all_iff.1 hw, alone_lexes ht h, opens_not_prolog hO ht, ?_, ?_, plain_nodesOf k, .inr ⟨kind_start hO hs, ?_⟩⟩
  · intro a b hab h1 h2
    cases a with
    | nil => exact absurd rfl h1
    | cons t a =>
      simp only [elemPiece, List.cons_append, List.cons.injEq] at hab
      obtain ⟨rfl, hab⟩ := hab
      obtain ⟨l1, l2, rfl, rfl, rfl⟩ := List.map_eq_append_iff.1 hab
      cases l2 with
      | nil => exact absurd rfl h2
      | cons t' l2 =>
        have : 0 ≤ depth (List.map Prod.snd l1) := body_prefix hB _ _ _ rfl
        rw [depth_cons, delta_start (kind_start hO hs)]
        omega
  · refine parse_iff.2 ⟨_, none, [], tag, toks, e, k, alone_lex ht h, alone_pro hO ht, .elem hO hs (by simp) hB .nil, ?_⟩
    rw [body_dom hB (opens_children hO)]
    rfl
  · show Inside ReadAs (ElementF.tagName { e with children := plain k }) toks (nodesOf k)
    rw [opens_tagName_children]
    exact body_inside hB ha

/-- the piece of an empty-element tag -/
def emptyPiece (text tag : Str) (e : Element) : RootPiece := ⟨⟨text, tag, []⟩, Document.newWithDeclDtd e none (some []), []⟩

theorem emptyPiece_ok {text tag : Str} {e : Element} (hw : text.all isWs = true)
    (hO : Opens none tag e) (hs : c%"/>" <:+ tag) (ht : TagAt tag tag) : (emptyPiece text tag e).Ok ReadAs := by
  have he := opens_children hO
  refine ⟨all_iff.1 hw, alone_lexes ht (by simp [emptyPiece]), opens_not_prolog hO ht, ?_, ?_, ?_, .inl ⟨kind_empty hO hs, rfl, rfl⟩⟩
  · intro a b hab h1 h2
    cases a with
    | nil => exact absurd rfl h1
    | cons t a =>
      simp [emptyPiece] at hab
      exact absurd hab.2.2 h2
  · refine parse_iff.2 ⟨_, none, [], tag, [], e, .nil, ?_, alone_pro hO ht, .empty hO hs rfl, ?_⟩
    · have := alone_lex (toks := []) ht (by simp)
      simpa [Top.src, emptyPiece, srcOf] using this
    · simp only [addRev, emptyPiece]
      obtain ⟨n, cs, a, x, q, c⟩ := e
      simp at he
      subst he
      rfl
  · simpa [emptyPiece, Document.newWithDeclDtd] using he

/-! ## all top-level elements -/

theorem fappend_fresh {f g : Forest} (hf : f.Fresh) (hg : g.Fresh) : (fappend f g).Fresh := by
  rw [← then_eq]; exact then_fresh hf hg

theorem tops_pieces {toks : List (Str × Str)} {e E : Element} {f F : Forest} (h : Tops toks e f E F)
    (ht : ∀ t ∈ toks, TokOk t) (hf : f.Fresh) (he : e.children = []) : ∃ ps : List RootPiece, toks = ps.flatMap (fun p => p.top.toks) ∧
      (∀ p ∈ ps, p.Ok ReadAs ∧ kind p.top.tag = .start) ∧ F.Fresh ∧
      (∀ X, laid X F = laid X f ++ (ps.flatMap RootPiece.nodes).map (applyXmlnsContext X.defaultNamespace X.ctx)) ∧
      E.children = [] ∧ ((ps = [] ∧ E = e) ∨ ∃ qs q, ps = qs ++ [q] ∧ E = { q.doc.root with children := [] }) := by
  induction h with
  | nil => exact ⟨[], rfl, by simp, hf, by simp, he, .inl ⟨rfl, rfl⟩⟩
  | @more text tag toks rest e e' E f k F hw hO hs hB hT ih =>
    have hk := ok_fresh (body_ok hB)
    have he' := opens_children hO
    obtain ⟨ps, h1, h2, h3, h4, h5, h6⟩ := ih (fun t h => ht t (by simp [h])) (fappend_fresh hf hk) he'
    have hp := elemPiece_ok hw hO hs hB (ht _ (List.mem_cons_self ..)).2 (fun t h => ht t (by simp [h]))
    refine ⟨elemPiece text tag toks e' k :: ps, ?_, ?_, h3, ?_, h5, .inr ?_⟩
    · rw [List.flatMap_cons, ← h1]; rfl
    · intro p hp'
      rcases List.mem_cons.1 hp' with rfl | hp'
      · exact ⟨hp, kind_start hO hs⟩
      · exact h2 p hp'
    · intro X
      rw [h4, laid_fappend, laid_nodesOf (body_ok hB) (body_settled hB), List.flatMap_cons, List.map_append, List.append_assoc]
      rfl
    · rcases h6 with ⟨rfl, rfl⟩ | ⟨qs, q, rfl, h7⟩
      · refine ⟨[], _, rfl, ?_⟩
        obtain ⟨n, cs, a, x, q, c⟩ := E
        simp at he'
        subst he'
        rfl
      · exact ⟨elemPiece text tag toks e' k :: qs, q, rfl, h7⟩

/-- the top-level elements of an accepted document -/
theorem root_pieces {text tag : Str} {rest : List (Str × Str)} {E : Element} {F : Forest} (h : RootPart tag rest E F)
    (hw : text.all isWs = true) (ht : ∀ t ∈ (text, tag) :: rest, TokOk t) : ∃ (qs : List RootPiece) (q : RootPiece),
      (text, tag) :: rest = (qs ++ [q]).flatMap (fun p => p.top.toks) ∧ (∀ p ∈ qs ++ [q], p.Ok ReadAs) ∧
      (qs ≠ [] → ∀ p ∈ qs ++ [q], kind p.top.tag = .start) ∧ F.Fresh ∧ E.children = [] ∧
      (∀ X, laid X F = ((qs ++ [q]).flatMap RootPiece.nodes).map (applyXmlnsContext X.defaultNamespace X.ctx)) ∧
      E = { q.doc.root with children := [] } := by
  have hT := (ht (text, tag) (by simp)).2
  cases h with
  | empty hO hs hr =>
    subst hr
    have he := opens_children hO
    refine ⟨[], emptyPiece text tag E, rfl, ?_, by simp, trivial, he, fun X => rfl, ?_⟩
    · simpa using emptyPiece_ok hw hO hs hT
    · obtain ⟨n, cs, a, x, q, c⟩ := E
      simp at he
      subst he
      rfl
  | @elem e _ f _ t1 t2 hO hs hr hB hTs =>
    subst hr
    have he := opens_children hO
    have hp := elemPiece_ok hw hO hs hB hT (fun t h => ht t (by simp [h]))
    obtain ⟨ps, h1, h2, h3, h4, h5, h6⟩ := tops_pieces hTs (fun t h => ht t (by simp [h])) (ok_fresh (body_ok hB)) he
    have hl := fun X => laid_nodesOf (body_ok hB) (body_settled hB) X
    rcases h6 with ⟨rfl, rfl⟩ | ⟨qs, q, rfl, h7⟩
    · refine ⟨[], elemPiece text tag t1 E f, ?_, by simpa using hp, by simp, h3, he, ?_, ?_⟩
      · rw [h1]; simp [elemPiece, Top.toks]
      · intro X
        rw [h4, hl]
        simp [elemPiece]
      · obtain ⟨n, cs, a, x, q, c⟩ := E
        simp at he
        subst he
        rfl
    · refine ⟨elemPiece text tag t1 e f :: qs, q, ?_, ?_, ?_, h3, h5, ?_, h7⟩
      · rw [h1]; simp [elemPiece, Top.toks]
      · intro p hp'
        rcases List.mem_cons.1 hp' with rfl | hp'
        · exact hp
        · exact (h2 p hp').1
      · intro _ p hp'
        rcases List.mem_cons.1 hp' with rfl | hp'
        · exact kind_start hO hs
        · exact (h2 p hp').2
      · intro X
        rw [h4, hl]
        simp [elemPiece]

/-! ## one more top-level element -/

theorem lexes_append {x y tail : Str} {toks toks' : List (Str × Str)} (h : Lexes x toks []) (h' : Lexes y toks' tail) :
    Lexes (x ++ y) (toks ++ toks') tail := by
  generalize he : ([] : Str) = e at h
  induction h with
  | done => subst he; exact h'
  | tag h1 hT hs _ ih =>
    rw [List.append_assoc, List.cons_append]
    exact .tag h1 (tagAt_append _ hT) (by rw [hs, List.append_assoc]) (ih he)

theorem pro_append {pos prev : Nat} {w : Bool} {d : Option Declaration} {ds : List DTD} {toks : List (Str × Str)}
    {D : Option Declaration} {DS : List DTD} {tag : Str} {rest : List (Str × Str)}
    (h : Pro pos prev w d ds toks D DS tag rest) (m : List (Str × Str)) :
    Pro pos prev w d ds (toks ++ m) D DS tag (rest ++ m) := by
  induction h with
  | root h1 h2 h3 h4 h5 => exact .root h1 h2 h3 h4 h5
  | decl h1 h2 _ ih => exact .decl h1 h2 ih
  | comment h1 h2 h3 _ ih => exact .comment h1 h2 h3 ih
  | doctype h1 _ ih => exact .doctype h1 ih
  | other h1 h2 h3 h4 _ ih => exact .other h1 h2 h3 h4 ih

theorem tops_shift {toks : List (Str × Str)} {e E : Element} {f F : Forest} (h : Tops toks e f E F) (e0 : Element) (f0 : Forest) :
    ∃ E' F', Tops toks e0 f0 E' F' := by
  induction h generalizing e0 f0 with
  | nil => exact ⟨_, _, .nil⟩
  | @more text tag toks rest e e' E f k F hw hO hs hB hT ih =>
    obtain ⟨E', F', h⟩ := ih e' (fappend f0 k)
    exact ⟨E', F', .more hw hO hs hB h⟩

theorem tops_append {t1 t2 : List (Str × Str)} {e E E' : Element} {f F F' : Forest} (h : Tops t1 e f E F) (h' : Tops t2 E F E' F') :
    Tops (t1 ++ t2) e f E' F' := by
  induction h with
  | nil => exact h'
  | more hw hO hs hB hT ih =>
    rw [List.cons_append, List.append_assoc]
    exact .more hw hO hs hB (ih h')

theorem parse_append {x y : Str} {d d' : Document} {pre rest rest' : List (Str × Str)} {text tag text' tag' : Str}
    {toks : List (Str × Str)} (hx : parseStr x = .ok d)
    (hy : parseStr y = .ok d') (hl : Lexes x toks []) (hp : Parts x pre ((text, tag) :: rest)) (hk : kind tag = .start)
    (hp' : Parts y [] ((text', tag') :: rest')) (hk' : kind tag' = .start) :
    ∃ d'', parseStr (x ++ y) = .ok d'' ∧ d''.declaration = d.declaration ∧ d''.dtds = d.dtds := by
  obtain ⟨tx, D, DS, tg, rs, E, F, hL, hP, hR, rfl⟩ := parse_iff.1 hx
  obtain ⟨pre0, text0, hF⟩ := pro_split hP
  obtain ⟨tail, hT⟩ := lex_lexes hL
  obtain ⟨tailp, hTp⟩ := hp.lexes
  have e1 := lexes_unique hT hl
  have e2 := lexes_unique hT hTp
  subst e1
  obtain ⟨text1, tag1, rest1, E1, F1, g1, g2, g3, -, -⟩ := accepted_parts hx hp
  obtain ⟨text2, tag2, rest2, E2, F2, k1, k2, k3, -, -⟩ := accepted_parts hy hp'
  cases g1
  cases k1
  obtain ⟨tail', hT'⟩ := hp'.lexes
  have hlex := lexes_lex (lexes_append hl hT') 0
  have hrs : tg = tag ∧ rs = rest := by
    have hp0 : Parts x pre0 ((text0, tg) :: rs) :=
      ⟨⟨tail, hF.split ▸ hT⟩, fun t ht => (hF.prolog t ht).1, by rintro t r ⟨⟩; exact hF.root⟩
    have := (parts_unique hp0 hp).2
    simp at this
    exact ⟨this.1.2, this.2⟩
  obtain ⟨rfl, rfl⟩ := hrs
  have hns : ∀ {tag : Str}, kind tag = .start → ¬ c%"/>" <:+ tag := by
    intro tag h hs
    unfold kind at h
    split at h
    · cases h
    · split at h
      · cases h
      · cases h
  cases hR with
  | empty _ hs _ => exact absurd hs (hns hk)
  | @elem e _ f _ t1 t2 hO hs hr hB hTs =>
    subst hr
    cases k3 with
    | empty _ hs _ => exact absurd hs (hns hk')
    | @elem e' _ f' _ t1' t2' hO' hs' hr' hB' hTs' =>
      subst hr'
      obtain ⟨E', F', h3⟩ := tops_shift hTs' e' (fappend F f')
      have h4 := tops_append hTs (.more (all_iff.2 k2.blank) hO' hs' hB' h3)
      exact ⟨_, parse_iff.2 ⟨_, D, DS, tg, _, E', F', hlex, pro_append hP _, .elem hO hs (by simp) hB h4, rfl⟩, rfl, rfl⟩

/-! ## the elements of all top-level elements -/

theorem elementsL_filter (l : List Node) (p : Node → Bool) (hp : ∀ n ∈ l, p n = false → n.isText = true) :
    elementsL (l.filter p) = elementsL l := by
  induction l with
  | nil => rfl
  | cons n l ih =>
    have ih := ih (fun n hn => hp n (by simp [hn]))
    rw [List.filter_cons]
    cases h : p n with
    | true => simp only [if_true, elementsL_cons, ih]
    | false =>
      have ht := hp n (by simp) h
      cases n with
      | text t => rw [elementsL_cons]; exact ih
      | element _ => cases ht
      | comment _ => cases ht
      | cdata _ => cases ht

theorem elementsL_notText (l : List Node) : elementsL (l.filter notText) = elementsL l :=
  elementsL_filter l _ (fun n _ h => by simpa [notText] using h)

theorem backCons_notText (n : Node) (l : List Node) : (backCons n l).filter notText = (n :: l).filter notText := by
  unfold backCons
  split
  · split <;> simp [notText, Node.isText]
  · split
    · rename_i h
      obtain ⟨t, rfl, -⟩ := isBlankText_iff.1 h
      simp [notText, Node.isText]
    · rfl

theorem joinBack_notText (l : List Node) : (joinBack l).filter notText = l.filter notText := by
  induction l with
  | nil => rfl
  | cons n l ih => rw [joinBack, backCons_notText, List.filter_cons, List.filter_cons, ih]

theorem elementsL_joinBack (l : List Node) : elementsL (joinBack l) = elementsL l := by
  rw [← elementsL_notText, joinBack_notText, elementsL_notText]

theorem tagWrites_same {D : Str → Str → Prop} {tag : Str} {e e' : Element} (h : TagWrites D tag e) (hn : e'.tagName = e.tagName)
    (ha : e'.attrs = e.attrs) : TagWrites D tag e' := by
  obtain ⟨ps, h1, h2⟩ := h
  exact ⟨ps, hn ▸ h1, ha ▸ h2⟩

/-- same name and attributes -/
def WrittenAlike (e e' : Element) : Prop := e'.tagName = e.tagName ∧ e'.attrs = e.attrs

theorem writtenAlike_refl (l : List Element) : List.Forall₂ WrittenAlike l l := List.forall₂_same.2 fun _ _ => ⟨rfl, rfl⟩

theorem handedDown_elements {d : Option Str} {ctx : SMap} {l l' : List Node} (h : List.Forall₂ (HandedDown d ctx) l l') :
    List.Forall₂ WrittenAlike (elementsL l) (elementsL l') := by
  induction h with
  | nil => exact .nil
  | @cons n n' l l' hn _ ih =>
    rw [elementsL_cons, elementsL_cons]
    refine List.rel_append ?_ ih
    cases n with
    | element e =>
      cases n' with
      | element e' =>
        obtain ⟨h1, h2, h3, h4, -, -⟩ := hn
        show List.Forall₂ WrittenAlike (elementsOf e) (elementsOf e')
        rw [elementsOf_eq, elementsOf_eq, h2]
        exact .cons ⟨by unfold ElementF.tagName; rw [h1, h4], h3⟩ (writtenAlike_refl _)
      | text _ => cases hn
      | comment _ => cases hn
      | cdata _ => cases hn
    | text _ => cases hn; exact writtenAlike_refl _
    | comment _ => cases hn; exact writtenAlike_refl _
    | cdata _ => cases hn; exact writtenAlike_refl _

theorem piece_writes {p : RootPiece} (h : p.Ok ReadAs) : TagWrites ReadAs p.top.tag p.doc.root ∧
    List.Forall₂ (TagWrites ReadAs) (openTags (p.top.body.map Prod.snd)) (elementsL p.nodes) := by
  have hp : Parts p.top.src [] (([], p.top.tag) :: p.top.body) := ⟨⟨_, h.lexes⟩, by simp, by rintro t r ⟨⟩; exact h.root⟩
  have hw := (root_writes h.alone hp h.one).imp fun _ _ hw => tagWrites_mono (fun _ _ hu => unescapes_readAs hu) hw
  have ho : Opening p.top.tag := by
    rcases h.nodes with h | h
    · exact .inr h.1
    · exact .inl h.1
  rw [tagsOf, List.map_cons, openTags_cons, if_pos ho, elementsOf_eq, List.singleton_append] at hw
  cases hw with
  | cons h1 h2 =>
    refine ⟨h1, ?_⟩
    rw [h.children, elementsL_filter _ _ (by
      intro n _ hb
      have hb : isBlankText n = true := by simpa using hb
      obtain ⟨t, rfl, -⟩ := isBlankText_iff.1 hb
      rfl)] at h2
    exact h2

theorem pieces_write {ps : List RootPiece} (h : ∀ p ∈ ps, p.Ok ReadAs) :
    List.Forall₂ (TagWrites ReadAs) (openTags ((ps.flatMap fun p => p.top.body).map Prod.snd)) (elementsL (ps.flatMap RootPiece.nodes)) := by
  induction ps with
  | nil => exact .nil
  | cons p ps ih =>
    rw [List.flatMap_cons, List.flatMap_cons, List.map_append, openTags_append, elementsL_append]
    exact List.rel_append (piece_writes (h p (by simp))).2 (ih fun p hp => h p (by simp [hp]))

theorem writtenAlike_writes {D : Str → Str → Prop} {tags : List Str} {l l' : List Element} (h : List.Forall₂ (TagWrites D) tags l)
    (hs : List.Forall₂ WrittenAlike l l') : List.Forall₂ (TagWrites D) tags l' := by
  induction h generalizing l' with
  | nil => cases hs; exact .nil
  | cons h1 _ ih =>
    cases hs with
    | cons h2 h3 => exact .cons (tagWrites_same h1 h2.1 h2.2) (ih h3)

end KissXml
