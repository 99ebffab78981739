import Verif.Proofs.Lex
/-!
# The parser loops as loops over a list of tokens
-/
namespace KissXml
open Spec

/-- a list of (text, tag) tokens, followed by text without `<` (`none`) or by an unclosed `<` at the given absolute
offset -/
inductive Lex : Nat → Str → List (Str × Str) → Option Nat → Prop
  | done {pos : Nat} {s : Str} : '<' ∉ s → Lex pos s [] none
  | fail {pos : Nat} {text s : Str} : '<' ∉ text → c%"<" <+: s → (∀ t, ¬ TagAt s t) →
      Lex pos (text ++ s) [] (some (pos + blen text))
  | tag {pos : Nat} {text tag rest s : Str} {toks : List (Str × Str)} {e : Option Nat} : '<' ∉ text → c%"<" <+: s →
      TagAt s tag → s = tag ++ rest → Lex (pos + blen text + blen tag) rest toks e →
      Lex pos (text ++ s) ((text, tag) :: toks) e

theorem split_lt (r : Str) : '<' ∉ r ∨ ∃ t s, r = t ++ s ∧ '<' ∉ t ∧ c%"<" <+: s := by
  cases h : find c%"<" r with
  | none => exact .inl (find_single_none.1 h)
  | some i =>
    obtain ⟨a, b, rfl, -, ha⟩ := find_single.1 h
    exact .inr ⟨a, '<' :: b, rfl, ha, ⟨b, rfl⟩⟩

theorem tagAt_pos {s t : Str} (h : TagAt s t) : 0 < t.length := by
  cases h <;> simp

theorem lex_total (n : Nat) : ∀ (r : Str), r.length ≤ n → ∀ pos, ∃ toks e, Lex pos r toks e := by
  induction n with
  | zero =>
    intro r hr pos
    have : r = [] := List.length_eq_zero_iff.1 (by omega)
    subst this
    exact ⟨[], none, .done (by simp)⟩
  | succ n ih =>
    intro r hr pos
    rcases split_lt r with h | ⟨t, s, rfl, h1, h2⟩
    · exact ⟨[], none, .done h⟩
    · by_cases h3 : ∃ tag, TagAt s tag
      · obtain ⟨tag, ht⟩ := h3
        obtain ⟨rest, hrest⟩ := tagAt_prefix ht
        have := tagAt_pos ht
        obtain ⟨toks, e, he⟩ := ih rest (by rw [← hrest] at hr; simp at hr; omega) (pos + blen t + blen tag)
        exact ⟨_, _, .tag h1 h2 ht hrest.symm he⟩
      · exact ⟨[], _, .fail h1 h2 (fun t ht => h3 ⟨t, ht⟩)⟩

theorem exists_lex (pos : Nat) (r : Str) : ∃ toks e, Lex pos r toks e := lex_total r.length r (Nat.le_refl _) pos

theorem split_lt_unique {t t' s s' : Str} (h : t ++ s = t' ++ s') (h1 : '<' ∉ t) (h2 : c%"<" <+: s) (h1' : '<' ∉ t')
    (h2' : c%"<" <+: s') : t = t' ∧ s = s' := by
  obtain ⟨u, rfl⟩ := h2
  obtain ⟨u', rfl⟩ := h2'
  have e1 : splitOnce '<' (t ++ '<' :: u) = some (t, u) := splitOnce_eq_some.2 ⟨rfl, h1⟩
  have e2 : splitOnce '<' (t' ++ '<' :: u') = some (t', u') := splitOnce_eq_some.2 ⟨rfl, h1'⟩
  have h' : t ++ '<' :: u = t' ++ '<' :: u' := h
  rw [h', e2] at e1
  simp at e1
  simp [e1]

theorem lex_unique {pos : Nat} {r : Str} {toks toks' : List (Str × Str)} {e e' : Option Nat} (h : Lex pos r toks e)
    (h' : Lex pos r toks' e') : toks = toks' ∧ e = e' := by
  induction h generalizing toks' e' with
  | done hs =>
    cases h' with
    | done => exact ⟨rfl, rfl⟩
    | fail h1 h2 => obtain ⟨u, rfl⟩ := h2; exact absurd (by simp) hs
    | tag h1 h2 => obtain ⟨u, rfl⟩ := h2; exact absurd (by simp) hs
  | @fail pos text s h1 h2 h3 =>
    generalize hr : text ++ s = r at h'
    cases h' with
    | done hs => subst hr; obtain ⟨u, rfl⟩ := h2; exact absurd (by simp) hs
    | fail h1' h2' => obtain ⟨rfl, rfl⟩ := split_lt_unique hr h1 h2 h1' h2'; exact ⟨rfl, rfl⟩
    | tag h1' h2' ht => obtain ⟨rfl, rfl⟩ := split_lt_unique hr h1 h2 h1' h2'; exact absurd ht (h3 _)
  | @tag pos text tag rest s toks e h1 h2 ht hs hl ih =>
    generalize hr : text ++ s = r at h'
    cases h' with
    | done hs => subst hr; obtain ⟨u, rfl⟩ := h2; exact absurd (by simp) hs
    | fail h1' h2' h3 => obtain ⟨rfl, rfl⟩ := split_lt_unique hr h1 h2 h1' h2'; exact absurd ht (h3 _)
    | tag h1' h2' ht' hs' hl' =>
      obtain ⟨rfl, rfl⟩ := split_lt_unique hr h1 h2 h1' h2'
      obtain rfl := tagAt_unique h2 ht ht'
      have : rest = _ := List.append_cancel_left (hs.symm.trans hs')
      subst this
      obtain ⟨rfl, rfl⟩ := ih hl'
      exact ⟨rfl, rfl⟩

theorem lex_length {pos : Nat} {r : Str} {toks : List (Str × Str)} {e : Option Nat} (h : Lex pos r toks e) :
    toks.length ≤ blen r := by
  induction h with
  | done => simp
  | fail => simp
  | @tag pos text tag rest s toks e h1 h2 ht hs _ ih =>
    subst hs
    have := tagAt_pos ht
    have := length_le_blen tag
    simp only [blen_append, List.length_cons]
    omega

/-! ## element loop -/

/-- lib.rs:483-498 -/
def addText (buffer : Str) (s : Nat) (text : Str) (stack : ParseTree) : R ParseTree := do
  match ← realText text with
  | none => pure stack
  | some content => (stack.append (.text content)).mapErr (rewrap buffer s)

/-- the element loop on tokens -/
def runToks (buffer : Str) (sc : Bool) (e : Option Nat) : Nat → List (Str × Str) → ParseTree → R ParseTree
  | _, [], stack =>
    match e with
    | none => .ok stack
    | some n => .err (errAt .invalidSyntax buffer n)
  | pos, (text, tag) :: toks, stack =>
    if sc then .err (errAt .onlyOneRoot buffer (pos + blen text))
    else do
      let stack ← addText buffer (pos + blen text) text stack
      let stack ← handleTag buffer (pos + blen text) tag stack
      runToks buffer sc e (pos + blen text + blen tag) toks stack

theorem elementLoop_eq {pre r : Str} {toks : List (Str × Str)} {e : Option Nat} {pos : Nat} (hpos : pos = blen pre)
    (h : Lex pos r toks e) (buffer : Str) (hb : buffer = pre ++ r) (sc : Bool) (fuel : Nat) (hf : toks.length < fuel)
    (x : Nat) (stack : ParseTree) :
    elementLoop buffer sc fuel (x, pos) stack = runToks buffer sc e pos toks stack := by
  induction h generalizing pre fuel x stack with
  | @done pos s hs =>
    obtain ⟨f, rfl⟩ : ∃ f, fuel = f + 1 := ⟨fuel - 1, by omega⟩
    rw [elementLoop]
    simp only [hb, hpos, nextTag_none hs, Res.unwrap_some, Res.bind_ok, Res.pure_eq, runToks]
  | @fail pos text s h1 h2 h3 =>
    obtain ⟨f, rfl⟩ : ∃ f, fuel = f + 1 := ⟨fuel - 1, by omega⟩
    have hn : tagLen s = none := by
      rcases h : tagLen s with _ | n
      · rfl
      · obtain ⟨t, ht, -⟩ := (tagLen_iff h2 n).1 h; exact absurd ht (h3 t)
    rw [elementLoop]
    have := nextTag_some (pre := pre) h1 h2
    rw [hn] at this
    rw [hb, hpos]
    simp only [this, Res.unwrap_some, Res.bind_ok, Option.map_none, runToks]
  | @tag pos text tag rest s toks e h1 h2 ht hs hl ih =>
    obtain ⟨f, rfl⟩ : ∃ f, fuel = f + 1 := ⟨fuel - 1, by omega⟩
    have hn : tagLen s = some (blen tag) := (tagLen_iff h2 _).2 ⟨tag, ht, rfl⟩
    rw [elementLoop]
    have hnt := nextTag_some (pre := pre) h1 h2
    rw [hn] at hnt
    simp only [Option.map_some] at hnt
    rw [runToks, hpos]
    have e1 : sliceB (blen pre) (blen pre + blen text) buffer = some text :=
      sliceB_eq_some.2 ⟨pre, s, by simp [hb], rfl, rfl⟩
    have e2 : sliceB (blen pre + blen text) (blen tag + (blen pre + blen text)) buffer = some tag :=
      sliceB_eq_some.2 ⟨pre ++ text, rest, by simp [hb, hs], by simp, by simp; omega⟩
    rw [← hb] at hnt
    simp only [hnt, Res.unwrap_some, Res.bind_ok, e1, e2]
    cases sc with
    | true => simp
    | false =>
      simp only [Bool.false_eq_true, if_false]
      have hih : ∀ st, elementLoop buffer false f (blen pre + blen text, blen tag + (blen pre + blen text)) st =
          runToks buffer false e (blen pre + blen text + blen tag) toks st := by
        intro st
        have hp : blen tag + (blen pre + blen text) = pos + blen text + blen tag := by omega
        rw [hp, ih (pre := pre ++ text ++ tag) (by simp; omega) (by simp [hb, hs]) f (by simpa using hf), hpos]
      unfold addText
      simp only [hih]
      cases realText text with
      | ok o =>
        cases o with
        | none => simp only [Res.bind_ok, Res.pure_eq]
        | some c => simp only [Res.bind_ok]
      | err e => rfl
      | panic => rfl
      | diverge => rfl

/-! ## prolog loop -/

/-- what the prolog does with one tag: `inl` = go on, `inr` = this is the root -/
def prologTag (buffer : Str) (pos : Nat) (text tag : Str) (st : Prolog) : R (Prolog × Bool) := do
  if (← realText text).isSome then .err (errAt .textOutsideRoot buffer pos)
  else
    let span := (pos + blen text, pos + blen text + blen tag)
    if startsWith tag c%"<?xml" then
      if st.tagSpan.1 ≠ 0 then .err (errAt .declNotAtStart buffer (pos + blen text))
      else
        let d ← Declaration.fromStr tag
        pure ({ st with decl := some d, tagSpan := span }, false)
    else if startsWith tag c%"<!--" then
      let _ ← (if st.noCommentWarn = 0 then Res.unwrap (abbreviate tag 32) else pure [] : R Str)
      pure ({ st with noCommentWarn := st.noCommentWarn + 1, tagSpan := span }, false)
    else if startsWith tag c%"<!DOCTYPE" then
      let d ← DTD.fromString tag
      pure ({ st with dtds := st.dtds ++ [d], tagSpan := span }, false)
    else if startsWith tag c%"<!" then
      pure ({ st with tagSpan := span }, false)
    else if startsWith tag c%"</" then .err (errAt .startsWithClosing buffer (pos + blen text))
    else
      let _ ← (checkElementTag tag).mapErr (fun _ => errAt .invalidSyntax buffer (pos + blen text))
      pure ({ st with tagSpan := span }, true)

/-- the prolog loop on tokens: state, root tag and remaining tokens -/
def runProlog (buffer : Str) (e : Option Nat) : Nat → List (Str × Str) → Prolog → R (Prolog × Str × List (Str × Str))
  | _, [], _ =>
    match e with
    | none => .err (.parsing .noXmlContent none)
    | some n => .err (errAt .unmatchedLt buffer n)
  | pos, (text, tag) :: toks, st => do
    match ← prologTag buffer pos text tag st with
    | (st, true) => pure (st, tag, toks)
    | (st, false) => runProlog buffer e (pos + blen text + blen tag) toks st

theorem bind_assoc' {α β γ : Type} (r : R α) (f : α → R β) (g : β → R γ) :
    ((r >>= f) >>= g) = (r >>= fun a => f a >>= g) := by
  cases r <;> rfl

theorem prologLoop_eq {pre r : Str} {toks : List (Str × Str)} {e : Option Nat} {pos : Nat} (hpos : pos = blen pre)
    (h : Lex pos r toks e) (buffer : Str) (hb : buffer = pre ++ r) (fuel : Nat) (hf : toks.length < fuel)
    (st : Prolog) (hst : st.tagSpan.2 = pos) :
    prologLoop buffer fuel st = (runProlog buffer e pos toks st >>= fun x => Res.ok x.1) := by
  induction h generalizing pre fuel st with
  | @done pos s hs =>
    obtain ⟨f, rfl⟩ : ∃ f, fuel = f + 1 := ⟨fuel - 1, by omega⟩
    rw [prologLoop]
    simp only [hst, hb, hpos, nextTag_none hs, Res.unwrap_some, Res.bind_ok, runProlog, Res.bind_err]
  | @fail pos text s h1 h2 h3 =>
    obtain ⟨f, rfl⟩ : ∃ f, fuel = f + 1 := ⟨fuel - 1, by omega⟩
    have hn : tagLen s = none := by
      rcases h : tagLen s with _ | n
      · rfl
      · obtain ⟨t, ht, -⟩ := (tagLen_iff h2 n).1 h; exact absurd ht (h3 t)
    rw [prologLoop]
    have := nextTag_some (pre := pre) h1 h2
    rw [hn] at this
    rw [hst, hb, hpos]
    simp only [this, Res.unwrap_some, Res.bind_ok, Option.map_none, runProlog, Res.bind_err]
  | @tag pos text tag rest s toks e h1 h2 ht hs hl ih =>
    obtain ⟨f, rfl⟩ : ∃ f, fuel = f + 1 := ⟨fuel - 1, by omega⟩
    have hn : tagLen s = some (blen tag) := (tagLen_iff h2 _).2 ⟨tag, ht, rfl⟩
    have hnt := nextTag_some (pre := pre) h1 h2
    rw [hn] at hnt
    simp only [Option.map_some] at hnt
    have e1 : sliceB (blen pre) (blen pre + blen text) buffer = some text :=
      sliceB_eq_some.2 ⟨pre, s, by simp [hb], rfl, rfl⟩
    have e2 : sliceB (blen pre + blen text) (blen tag + (blen pre + blen text)) buffer = some tag :=
      sliceB_eq_some.2 ⟨pre ++ text, rest, by simp [hb, hs], by simp, by simp; omega⟩
    rw [← hb] at hnt
    have hih : ∀ st : Prolog, st.tagSpan.2 = blen pre + blen text + blen tag → prologLoop buffer f st =
        (runProlog buffer e (blen pre + blen text + blen tag) toks st >>= fun x => Res.ok x.1) := by
      intro st hst
      have hp : pos + blen text + blen tag = blen pre + blen text + blen tag := by omega
      rw [← hp] at hst ⊢
      exact ih (pre := pre ++ text ++ tag) (by simp; omega) (by simp [hb, hs]) f (by simpa using hf) st hst
    rw [prologLoop, runProlog, hst, hpos]
    simp only [hnt, Res.unwrap_some, Res.bind_ok, e1, e2, bind_assoc']
    unfold prologTag
    have hcomm : blen tag + (blen pre + blen text) = blen pre + blen text + blen tag := by omega
    rw [hcomm]
    cases realText text with
    | err e => rfl
    | panic => rfl
    | diverge => rfl
    | ok o =>
      simp only [Res.bind_ok]
      split
      · rfl
      · split
        · split
          · rfl
          · cases Declaration.fromStr tag with
            | ok d => simp only [Res.bind_ok, Res.pure_eq]; rw [hih _ rfl]
            | err e => rfl
            | panic => rfl
            | diverge => rfl
        · split
          · generalize (if st.noCommentWarn = 0 then Res.unwrap (abbreviate tag 32) else pure [] : R Str) = w
            cases w with
            | ok d => simp only [Res.bind_ok, Res.pure_eq]; rw [hih _ rfl]
            | err e => rfl
            | panic => rfl
            | diverge => rfl
          · split
            · cases DTD.fromString tag with
              | ok d => simp only [Res.bind_ok, Res.pure_eq]; rw [hih _ rfl]
              | err e => rfl
              | panic => rfl
              | diverge => rfl
            · split
              · simp only [Res.bind_ok, Res.pure_eq]; rw [hih _ rfl]
              · split
                · rfl
                · cases (checkElementTag tag) with
                  | ok d => rfl
                  | err e => rfl
                  | panic => rfl
                  | diverge => rfl

/-! ## the whole parser -/

/-- a bind that succeeds -/
theorem bind_eq_ok {α β : Type} {r : R α} {f : α → R β} {b : β} :
    (r >>= f) = .ok b ↔ ∃ a, r = .ok a ∧ f a = .ok b := by
  cases r with
  | ok a => simp
  | err e => simp
  | panic => simp
  | diverge => simp

theorem prologTag_span {buffer : Str} {pos : Nat} {text tag : Str} {st st' : Prolog} {b : Bool}
    (h : prologTag buffer pos text tag st = .ok (st', b)) :
    st'.tagSpan = (pos + blen text, pos + blen text + blen tag) := by
  unfold prologTag at h
  obtain ⟨o, -, h⟩ := bind_eq_ok.1 h
  simp only at h
  split at h
  · cases h
  · split at h
    · split at h
      · cases h
      · obtain ⟨d, -, h⟩ := bind_eq_ok.1 h
        simp only [Res.pure_eq, Res.ok.injEq, Prod.mk.injEq] at h
        rw [← h.1]
    · split at h
      · obtain ⟨d, -, h⟩ := bind_eq_ok.1 h
        simp only [Res.pure_eq, Res.ok.injEq, Prod.mk.injEq] at h
        rw [← h.1]
      · split at h
        · obtain ⟨d, -, h⟩ := bind_eq_ok.1 h
          simp only [Res.pure_eq, Res.ok.injEq, Prod.mk.injEq] at h
          rw [← h.1]
        · split at h
          · simp only [Res.pure_eq, Res.ok.injEq, Prod.mk.injEq] at h
            rw [← h.1]
          · split at h
            · cases h
            · obtain ⟨d, -, h⟩ := bind_eq_ok.1 h
              simp only [Res.pure_eq, Res.ok.injEq, Prod.mk.injEq] at h
              rw [← h.1]

theorem runProlog_ok {pre r : Str} {toks : List (Str × Str)} {e : Option Nat} {pos : Nat} (hpos : pos = blen pre)
    (h : Lex pos r toks e) (buffer : Str) (hb : buffer = pre ++ r) (st : Prolog) {st' : Prolog} {tag : Str}
    {rest : List (Str × Str)} (hr : runProlog buffer e pos toks st = .ok (st', tag, rest)) :
    ∃ a b, buffer = a ++ tag ++ b ∧ st'.tagSpan = (blen a, blen a + blen tag) ∧ Lex (blen a + blen tag) b rest e ∧
      rest.length < toks.length ∧ TagAt (tag ++ b) tag := by
  induction h generalizing pre st with
  | done => simp [runProlog] at hr
  | fail => simp [runProlog] at hr
  | @tag pos text tag' rest' s toks e h1 h2 ht hs hl ih =>
    rw [runProlog] at hr
    obtain ⟨⟨st1, b⟩, h3, h4⟩ := bind_eq_ok.1 hr
    have hspan := prologTag_span h3
    cases b with
    | true =>
      simp only [Res.pure_eq, Res.ok.injEq, Prod.mk.injEq] at h4
      obtain ⟨rfl, rfl, rfl⟩ := h4
      subst hpos
      exact ⟨pre ++ text, rest', by simp [hb, hs], by simp [hspan], by simpa using hl, by simp, hs ▸ ht⟩
    | false =>
      simp only at h4
      obtain ⟨a, b, g1, g2, g3, g4, g5⟩ := ih (pre := pre ++ text ++ tag') (by simp; omega) (by simp [hb, hs]) st1 h4
      exact ⟨a, b, g1, g2, g3, by simp; omega, g5⟩

/-- `parse_str` on tokens -/
def parseToks (buffer : Str) (toks : List (Str × Str)) (e : Option Nat) : R Document := do
  let (pro, rootTag, rest) ← runProlog buffer e 0 toks ⟨none, [], 0, (0, 0)⟩
  let stripped ← Res.unwrap (stripTag rootTag)
  let root ← parseNewElement stripped buffer pro.tagSpan.1 none
  let stack ← ParseTree.new.push root
  let selfClosing := endsWith rootTag c%"/>"
  let stack ← (if selfClosing then stack.pop else pure stack : R ParseTree)
  let stack ← runToks buffer selfClosing e pro.tagSpan.2 rest stack
  if !stack.emptyStack then .err (.parsing .rootNotClosed none)
  else do
    let root ← stack.toDom
    pure (Document.newWithDeclDtd root pro.decl (some pro.dtds))

theorem parseStr_eq {x : Str} {toks : List (Str × Str)} {e : Option Nat} (h : Lex 0 x toks e) :
    parseStr x = parseToks x toks e := by
  have hlen := lex_length h
  unfold parseStr parseToks
  simp only
  rw [prologLoop_eq (pre := []) (pos := 0) rfl h x rfl _ (by omega) _ rfl, bind_assoc']
  cases hr : runProlog x e 0 toks ⟨none, [], 0, (0, 0)⟩ with
  | err e => rfl
  | panic => rfl
  | diverge => rfl
  | ok v =>
    obtain ⟨pro, tag, rest⟩ := v
    obtain ⟨a, b, g1, g2, g3, g4, -⟩ := runProlog_ok (pre := []) (pos := 0) rfl h x rfl _ hr
    have e2 : sliceB pro.tagSpan.1 pro.tagSpan.2 x = some tag := by
      rw [g2]; exact sliceB_eq_some.2 ⟨a, b, g1, rfl, rfl⟩
    simp only [Res.bind_ok, e2, Res.unwrap_some]
    have hloop : ∀ sc st, elementLoop x sc (blen x + 1) pro.tagSpan st = runToks x sc e pro.tagSpan.2 rest st := by
      intro sc st
      rw [g2]
      exact elementLoop_eq (pre := a ++ tag) (by simp) g3 x (by simp [g1]) sc _ (by omega) _ st
    simp only [hloop]

end KissXml
