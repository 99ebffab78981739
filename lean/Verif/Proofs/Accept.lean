import Verif.Proofs.Grammar
/-!
# The accepted documents: prolog and whole document
-/
namespace KissXml
open Spec

/-- The prolog.  Arguments: offset; offset of the previous tag (0 at the start); whether a comment was seen; declaration and
DTDs so far; tokens; final declaration and DTDs; root tag; tokens after it. -/
inductive Pro : Nat → Nat → Bool → Option Declaration → List DTD → List (Str × Str) →
    Option Declaration → List DTD → Str → List (Str × Str) → Prop
  | root {pos prev : Nat} {w : Bool} {d : Option Declaration} {ds : List DTD} {text tag : Str} {toks : List (Str × Str)} :
      text.all isWs = true → ¬ c%"<?xml" <+: tag → ¬ c%"<!" <+: tag → ¬ c%"</" <+: tag → Re.isMatch elemRe tag = true →
      Pro pos prev w d ds ((text, tag) :: toks) d ds tag toks
  | decl {pos : Nat} {w : Bool} {d : Option Declaration} {ds : List DTD} {text m : Str} {toks : List (Str × Str)}
      {D : Option Declaration} {DS : List DTD} {r : Str} {rest : List (Str × Str)} :
      text.all isWs = true → c%"xml" <+: m →
      Pro (pos + blen text + blen (c%"<?" ++ m ++ c%"?>")) (pos + blen text) w (some ⟨m⟩) ds toks D DS r rest →
      Pro pos 0 w d ds ((text, c%"<?" ++ m ++ c%"?>") :: toks) D DS r rest
  | comment {pos prev : Nat} {w : Bool} {d : Option Declaration} {ds : List DTD} {text tag : Str} {toks : List (Str × Str)}
      {D : Option Declaration} {DS : List DTD} {r : Str} {rest : List (Str × Str)} :
      text.all isWs = true → c%"<!--" <+: tag → (w = false → (abbreviate tag 32).isSome) →
      Pro (pos + blen text + blen tag) (pos + blen text) true d ds toks D DS r rest →
      Pro pos prev w d ds ((text, tag) :: toks) D DS r rest
  | doctype {pos prev : Nat} {w : Bool} {d : Option Declaration} {ds : List DTD} {text m : Str} {toks : List (Str × Str)}
      {D : Option Declaration} {DS : List DTD} {r : Str} {rest : List (Str × Str)} :
      text.all isWs = true →
      Pro (pos + blen text + blen (c%"<!DOCTYPE" ++ m ++ c%">")) (pos + blen text) w d (ds ++ [⟨m⟩]) toks D DS r rest →
      Pro pos prev w d ds ((text, c%"<!DOCTYPE" ++ m ++ c%">") :: toks) D DS r rest
  | other {pos prev : Nat} {w : Bool} {d : Option Declaration} {ds : List DTD} {text tag : Str} {toks : List (Str × Str)}
      {D : Option Declaration} {DS : List DTD} {r : Str} {rest : List (Str × Str)} :
      text.all isWs = true → c%"<!" <+: tag → ¬ c%"<!--" <+: tag → ¬ c%"<!DOCTYPE" <+: tag →
      Pro (pos + blen text + blen tag) (pos + blen text) w d ds toks D DS r rest →
      Pro pos prev w d ds ((text, tag) :: toks) D DS r rest

/-- the state after some of the prolog -/
def proState (d : Option Declaration) (ds : List DTD) (k a b : Nat) : Prolog := ⟨d, ds, k, (a, b)⟩

theorem realText_blank {text : Str} : (∃ o, realText text = .ok o ∧ o.isSome = false) ↔ text.all isWs = true := by
  unfold realText
  split
  · rename_i h; simp [h]
  · rename_i h
    refine ⟨?_, fun h' => absurd h' h⟩
    rintro ⟨o, h1, h2⟩
    obtain ⟨s, -, h3⟩ := bind_eq_ok.1 h1
    cases h3
    simp at h2

theorem realText_of_blank {text : Str} (h : text.all isWs = true) : realText text = .ok none := by
  unfold realText; rw [if_pos h]

theorem pro_sound {pos : Nat} {r : Str} {toks : List (Str × Str)} {er : Option Nat} (h : Lex pos r toks er) :
    ∀ (buffer : Str) (st st' : Prolog) (tag : Str) (rest : List (Str × Str)),
    runProlog buffer er pos toks st = .ok (st', tag, rest) →
    Pro pos st.tagSpan.1 (decide (st.noCommentWarn ≠ 0)) st.decl st.dtds toks st'.decl st'.dtds tag rest := by
  induction h with
  | done => intro buffer st st' tag rest hr; simp [runProlog] at hr
  | fail => intro buffer st st' tag rest hr; simp [runProlog] at hr
  | @tag pos text tag rest s toks er h1 h2 ht hs hl ih =>
    intro buffer st st' rtag rrest hr
    rw [runProlog] at hr
    obtain ⟨⟨st1, b⟩, h3, h4⟩ := bind_eq_ok.1 hr
    unfold prologTag at h3
    obtain ⟨o, ho, h3'⟩ := bind_eq_ok.1 h3
    simp only at h3'
    split at h3'
    · cases h3'
    rename_i hos
    have hw : text.all isWs = true := realText_blank.1 ⟨o, ho, by simpa using hos⟩
    split at h3'
    · rename_i hx
      split at h3'
      · cases h3'
      · rename_i hprev
        obtain ⟨m, hm⟩ := tagAt_pi_form ht (List.IsPrefix.trans ⟨c%"xml", rfl⟩ (startsWith_iff.1 hx))
        rw [hm, fromStr_tag] at h3'
        simp only [Res.bind_ok, Res.pure_eq, Res.ok.injEq, Prod.mk.injEq] at h3'
        obtain ⟨rfl, rfl⟩ := h3'
        subst hm
        have hprev : st.tagSpan.1 = 0 := by simpa using hprev
        have := ih buffer _ _ _ _ h4
        rw [hprev]
        refine .decl hw ?_ this
        obtain ⟨u, hu⟩ := startsWith_iff.1 hx
        simp only [List.cons_append, List.nil_append, List.cons.injEq, true_and] at hu
        rcases m with _ | ⟨a, _ | ⟨b, _ | ⟨c, m⟩⟩⟩
        · simp at hu
        · simp at hu
        · simp at hu
        · simp only [List.cons_append, List.cons.injEq] at hu
          obtain ⟨rfl, rfl, rfl, -⟩ := hu
          exact ⟨m, rfl⟩
    · rename_i hx
      split at h3'
      · rename_i hc
        obtain ⟨dd, h5, h6⟩ := bind_eq_ok.1 h3'
        simp only [Res.pure_eq, Res.ok.injEq, Prod.mk.injEq] at h6
        obtain ⟨rfl, rfl⟩ := h6
        have := ih buffer _ _ _ _ h4
        simp only [ne_eq, Nat.add_eq_zero_iff, Nat.succ_ne_self, and_false, not_false_eq_true, decide_true] at this
        refine .comment hw (startsWith_iff.1 hc) ?_ this
        intro hwarn
        simp only [ne_eq, decide_not, Bool.not_eq_false', decide_eq_true_eq] at hwarn
        rw [if_pos hwarn] at h5
        rw [unwrap_eq_ok.1 h5]; rfl
      · rename_i hc
        split at h3'
        · rename_i hd
          obtain ⟨m, rfl⟩ := tagAt_doctype_form ht (startsWith_iff.1 hd)
          rw [dtd_tag] at h3'
          simp only [Res.bind_ok, Res.pure_eq, Res.ok.injEq, Prod.mk.injEq] at h3'
          obtain ⟨rfl, rfl⟩ := h3'
          exact .doctype hw (ih buffer _ _ _ _ h4)
        · rename_i hd
          split at h3'
          · rename_i hn
            simp only [Res.pure_eq, Res.ok.injEq, Prod.mk.injEq] at h3'
            obtain ⟨rfl, rfl⟩ := h3'
            exact .other hw (startsWith_iff.1 hn) (not_true_prefix hc) (not_true_prefix hd) (ih buffer _ _ _ _ h4)
          · rename_i hn
            split at h3'
            · cases h3'
            · rename_i hcl
              obtain ⟨dd, h5, h6⟩ := bind_eq_ok.1 h3'
              simp only [Res.pure_eq, Res.ok.injEq, Prod.mk.injEq] at h6
              obtain ⟨rfl, rfl⟩ := h6
              simp only [Res.pure_eq, Res.ok.injEq, Prod.mk.injEq] at h4
              obtain ⟨rfl, rfl, rfl⟩ := h4
              exact .root hw (not_true_prefix hx) (not_true_prefix hn) (not_true_prefix hcl)
                (checkElementTag_ok.1 (mapErr_eq_ok.1 h5))

theorem pro_run {pos prev : Nat} {w : Bool} {d : Option Declaration} {ds : List DTD} {toks : List (Str × Str)}
    {D : Option Declaration} {DS : List DTD} {tag : Str} {rest : List (Str × Str)}
    (h : Pro pos prev w d ds toks D DS tag rest) : ∀ (buffer : Str) (er : Option Nat) (k b : Nat), w = decide (k ≠ 0) →
    ∃ st', runProlog buffer er pos toks ⟨d, ds, k, (prev, b)⟩ = .ok (st', tag, rest) ∧ st'.decl = D ∧ st'.dtds = DS := by
  induction h with
  | root hw h1 h2 h3 h4 =>
    intro buffer er k b hk
    have g1 : ¬ c%"<!--" <+: _ := fun h => h2 (List.IsPrefix.trans ⟨c%"--", rfl⟩ h)
    have g2 : ¬ c%"<!DOCTYPE" <+: _ := fun h => h2 (List.IsPrefix.trans ⟨c%"DOCTYPE", rfl⟩ h)
    rw [runProlog, prologTag, realText_of_blank hw]
    simp only [Res.bind_ok, Option.isSome_none, Bool.false_eq_true, if_false]
    rw [if_neg (by rwa [startsWith_iff]), if_neg (by rwa [startsWith_iff]), if_neg (by rwa [startsWith_iff]),
      if_neg (by rwa [startsWith_iff]), if_neg (by rwa [startsWith_iff])]
    simp only [checkElementTag_ok.2 h4, Res.mapErr_ok, Res.bind_ok, Res.pure_eq]
    exact ⟨_, rfl, rfl, rfl⟩
  | @decl pos w d ds text m toks D DS r rest hw hx hP ih =>
    intro buffer er k b hk
    rw [runProlog, prologTag, realText_of_blank hw]
    simp only [Res.bind_ok, Option.isSome_none, Bool.false_eq_true, if_false]
    rw [if_pos (by
      rw [startsWith_iff]; obtain ⟨u, rfl⟩ := hx; exact ⟨u ++ c%"?>", by simp⟩)]
    rw [if_neg (by simp), fromStr_tag]
    simp only [Res.bind_ok, Res.pure_eq]
    exact ih buffer er k _ hk
  | @comment pos prev w d ds text tag toks D DS r rest hw hx ha hP ih =>
    intro buffer er k b hk
    rw [runProlog, prologTag, realText_of_blank hw]
    simp only [Res.bind_ok, Option.isSome_none, Bool.false_eq_true, if_false]
    obtain ⟨u, rfl⟩ := hx
    rw [if_neg (by rw [startsWith_iff]; rintro ⟨v, hv⟩; simp at hv), if_pos (startsWith_iff.2 ⟨u, rfl⟩)]
    have : ∃ s, (if k = 0 then Res.unwrap (abbreviate (c%"<!--" ++ u) 32) else pure [] : R Str) = .ok s := by
      split
      · rename_i h0
        obtain ⟨s, hs⟩ := Option.isSome_iff_exists.1 (ha (by simp [hk, h0]))
        exact ⟨s, by rw [hs]; rfl⟩
      · exact ⟨_, rfl⟩
    obtain ⟨s, hs⟩ := this
    rw [hs]
    simp only [Res.bind_ok, Res.pure_eq]
    exact ih buffer er (k + 1) _ (by simp)
  | @doctype pos prev w d ds text m toks D DS r rest hw hP ih =>
    intro buffer er k b hk
    rw [runProlog, prologTag, realText_of_blank hw]
    simp only [Res.bind_ok, Option.isSome_none, Bool.false_eq_true, if_false]
    rw [if_neg (by rw [startsWith_iff]; rintro ⟨v, hv⟩; simp at hv), if_neg (by rw [startsWith_iff]; rintro ⟨v, hv⟩; simp at hv),
      if_pos (startsWith_iff.2 ⟨m ++ c%">", by simp⟩), dtd_tag]
    simp only [Res.bind_ok, Res.pure_eq]
    exact ih buffer er k _ hk
  | @other pos prev w d ds text tag toks D DS r rest hw hx h1 h2 hP ih =>
    intro buffer er k b hk
    rw [runProlog, prologTag, realText_of_blank hw]
    simp only [Res.bind_ok, Option.isSome_none, Bool.false_eq_true, if_false]
    rw [if_neg (by rw [startsWith_iff]; obtain ⟨u, rfl⟩ := hx; rintro ⟨v, hv⟩; simp at hv), if_neg (by rwa [startsWith_iff]),
      if_neg (by rwa [startsWith_iff]), if_pos (by rwa [startsWith_iff])]
    simp only [Res.bind_ok, Res.pure_eq]
    exact ih buffer er k _ hk

theorem pro_root {pos prev : Nat} {w : Bool} {d : Option Declaration} {ds : List DTD} {toks : List (Str × Str)}
    {D : Option Declaration} {DS : List DTD} {tag : Str} {rest : List (Str × Str)}
    (h : Pro pos prev w d ds toks D DS tag rest) :
    ¬ c%"<?xml" <+: tag ∧ ¬ c%"<!" <+: tag ∧ ¬ c%"</" <+: tag ∧ Re.isMatch elemRe tag = true := by
  induction h with
  | root _ h1 h2 h3 h4 => exact ⟨h1, h2, h3, h4⟩
  | decl _ _ _ ih => exact ih
  | comment _ _ _ _ ih => exact ih
  | doctype _ _ ih => exact ih
  | other _ _ _ _ _ ih => exact ih

/-- the root element and what follows: either an empty-element tag and nothing else, or a start tag with its content, and
possibly more elements -/
inductive RootPart (tag : Str) (rest : List (Str × Str)) : Element → Forest → Prop
  | empty {e : Element} : Opens none tag e → c%"/>" <:+ tag → rest = [] → RootPart tag rest e .nil
  | elem {e E : Element} {f F : Forest} {t1 t2 : List (Str × Str)} : Opens none tag e → ¬ c%"/>" <:+ tag →
      rest = t1 ++ t2 → Body e t1 f → Tops t2 e f E F → RootPart tag rest E F

theorem push_new (e : Element) : ParseTree.new.push e = .ok (arena (rootArena e .nil) (some 0)) := rfl

theorem arenaOk_root (e : Element) : ArenaOk (rootArena e .nil) (some 0) := by
  obtain ⟨A, h1, h2, h3⟩ := push_none arenaOk_new e
  simp only [List.drop_nil] at h3
  subst h3
  exact h2

theorem bodyRoot {e : Element} {toks : List (Str × Str)} {f : Forest} (hB : Body e toks f) :
    ArenaOk (rootArena e f) none ∧ ∀ (buffer : Str) (er : Option Nat) (pos : Nat) (rest : List (Str × Str)),
      runToks buffer false er pos (toks ++ rest) (arena (rootArena e .nil) (some 0)) =
        runToks buffer false er (pos + tlen toks) rest (arena (rootArena e f) none) :=
  body_run hB _ 0 none (arenaOk_root e) rfl

/-- `parse_str` accepts `x` with result `d` -/
structure Accepts (x : Str) (d : Document) : Prop where
  ex : ∃ toks D DS tag rest E F, Lex 0 x toks none ∧ Pro 0 0 false none [] toks D DS tag rest ∧ RootPart tag rest E F ∧
    d = Document.newWithDeclDtd (addRev E F).reverseChildren D (some DS)

theorem runToks_end {buffer : Str} {sc : Bool} {er : Option Nat} {pos : Nat} {st st' : ParseTree} :
    runToks buffer sc er pos [] st = .ok st' ↔ er = none ∧ st' = st := by
  unfold runToks
  cases er <;> simp [eq_comm]

theorem parse_iff {x : Str} {d : Document} : parseStr x = .ok d ↔ Accepts x d := by
  constructor
  · intro h
    obtain ⟨toks, er, hlex⟩ := exists_lex 0 x
    rw [parseStr_eq hlex] at h
    unfold parseToks at h
    obtain ⟨⟨pro, tag, rest⟩, h1, h'⟩ := bind_eq_ok.1 h
    have hpro := pro_sound hlex _ _ _ _ _ h1
    obtain ⟨g1, g2, g3, g4⟩ := pro_root hpro
    simp only at h'
    obtain ⟨t, h2, h''⟩ := bind_eq_ok.1 h'
    obtain ⟨e, h3, h4⟩ := bind_eq_ok.1 h''
    rw [push_new] at h4
    simp only [Res.bind_ok] at h4
    obtain ⟨attrs, n0, n, xx, q, hN⟩ := parseNewElement_ok h3
    have hO : Opens none tag e := ⟨g3, g2, g4, t, attrs, n0, n, xx, q, unwrap_eq_ok.1 h2, hN⟩
    clear h h' h'' h2 h3
    by_cases hs : c%"/>" <:+ tag
    · have hs' : endsWith tag c%"/>" = true := endsWith_iff.2 hs
      rw [hs', if_pos rfl] at h4
      have hpop : (arena (rootArena e .nil) (some 0)).pop = .ok (arena (rootArena e .nil) none) := rfl
      rw [hpop, Res.bind_ok] at h4
      obtain ⟨st, h5, h6⟩ := bind_eq_ok.1 h4
      cases rest with
      | cons tt rest => rw [runToks] at h5; simp at h5
      | nil =>
        obtain ⟨rfl, rfl⟩ := runToks_end.1 h5
        have hem : (arena (rootArena e .nil) none).emptyStack = true := rfl
        simp only [hem, Bool.not_true, Bool.false_eq_true, if_false] at h6
        have htd := toDom_forest e .nil none
        rw [show (arena (rootArena e .nil) none).toDom = _ from htd] at h6
        simp only [Res.bind_ok, Res.pure_eq, Res.ok.injEq] at h6
        exact ⟨toks, _, _, tag, [], e, .nil, hlex, hpro, .empty hO hs rfl, h6.symm⟩
    · have hs' : endsWith tag c%"/>" = false := by
        rw [Bool.eq_false_iff]; exact fun h => hs (endsWith_iff.1 h)
      simp only [hs', Bool.false_eq_true, if_false, Res.pure_eq, Res.bind_ok] at h4
      obtain ⟨st, h5, h6⟩ := bind_eq_ok.1 h4
      split at h6
      · cases h6
      · rename_i hem
        have hpos : st.pos = none := by simpa [ParseTree.emptyStack] using hem
        obtain ⟨t1, t2, f, rfl, hB⟩ := body_sound _ _ (Nat.le_refl _) _ 0 none e (arenaOk_root e) rfl _ _ _ _ h5 hpos
        obtain ⟨i1, i2⟩ := bodyRoot hB
        rw [i2] at h5
        obtain ⟨rfl, E, F, hT⟩ := tops_sound _ _ (Nat.le_refl _) e f i1 _ _ _ _ h5 hpos
        rw [tops_run hT i1] at h5
        cases h5
        have htd := toDom_forest E F none
        rw [show (arena (rootArena E F) none).toDom = _ from htd] at h6
        simp only [Res.bind_ok, Res.ok.injEq] at h6
        exact ⟨toks, _, _, tag, _, E, F, hlex, hpro, .elem hO hs rfl hB hT, h6.symm⟩
  · rintro ⟨toks, D, DS, tag, rest, E, F, hlex, hpro, hR, rfl⟩
    rw [parseStr_eq hlex]
    unfold parseToks
    obtain ⟨st, h1, rfl, rfl⟩ := pro_run hpro x none 0 0 (by simp)
    rw [h1]
    simp only [Res.bind_ok]
    cases hR with
    | empty hO hs hr =>
      subst hr
      obtain ⟨t, attrs, n0, n, xx, q, h2, hN⟩ := hO.elem
      simp only [h2, Res.unwrap_some, Res.bind_ok, parseNewElement_of hN, push_new, endsWith_iff.2 hs, if_true]
      have hpop : (arena (rootArena E .nil) (some 0)).pop = .ok (arena (rootArena E .nil) none) := rfl
      rw [hpop, Res.bind_ok, runToks_end.2 ⟨rfl, rfl⟩, Res.bind_ok]
      have htd : (arena (rootArena E .nil) none).toDom = _ := toDom_forest E .nil none
      rw [htd]
      rfl
    | @elem e _ f _ t1 t2 hO hs hr hB hT =>
      subst hr
      obtain ⟨t, attrs, n0, n, xx, q, h2, hN⟩ := hO.elem
      have hs' : endsWith tag c%"/>" = false := by
        rw [Bool.eq_false_iff]; exact fun h => hs (endsWith_iff.1 h)
      obtain ⟨i1, i2⟩ := bodyRoot hB
      simp only [h2, Res.unwrap_some, Res.bind_ok, parseNewElement_of hN, push_new, hs', Bool.false_eq_true, if_false,
        Res.pure_eq, i2, tops_run hT i1]
      have htd : (arena (rootArena E F) none).toDom = _ := toDom_forest E F none
      rw [htd]
      rfl

end KissXml
