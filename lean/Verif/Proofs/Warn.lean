import Verif.Proofs.Reject
import Verif.Spec.Warn
/-!
# Warnings
-/
namespace KissXml
open Spec Out

@[simp] theorem out_result_bind {α β : Type} (x : Out α) (f : α → Out β) : (x >>= f).result = (x.result >>= fun a => (f a).result) := by
  show (Out.bind x f).result = _
  unfold Out.bind
  cases x.result <;> rfl

@[simp] theorem out_result_pure {α : Type} (a : α) : (pure a : Out α).result = .ok a := rfl
@[simp] theorem out_result_quiet {α : Type} (r : R α) : (quiet r).result = r := rfl
@[simp] theorem out_result_warn (w : Warning) : (warn w).result = .ok () := rfl

theorem out_quiet_bind_ok {α β : Type} (a : α) (f : α → Out β) : (quiet (.ok a) >>= f) = f a := by
  show Out.bind _ f = _
  simp [Out.bind, quiet]

theorem out_quiet_err {α β : Type} (e : Err) (f : α → Out β) : (quiet (.err e : R α) >>= f) = quiet (.err e) := rfl
theorem out_quiet_panic {α β : Type} (f : α → Out β) : (quiet (.panic : R α) >>= f) = quiet .panic := rfl
theorem out_quiet_diverge {α β : Type} (f : α → Out β) : (quiet (.diverge : R α) >>= f) = quiet .diverge := rfl

theorem out_warn_bind {β : Type} (w : Warning) (f : Unit → Out β) : (warn w >>= f) = ⟨w :: (f ()).warned, (f ()).result⟩ := rfl

theorem prologLoopOut_result (b : Str) (fuel : Nat) (st : Prolog) : (prologLoopOut b fuel st).result = prologLoop b fuel st := by
  induction fuel generalizing st with
  | zero => rfl
  | succ fuel ih =>
    unfold prologLoopOut prologLoop
    simp only [out_result_bind, out_result_quiet]
    congr 1
    funext p
    rcases p with ⟨_ | s, _ | e⟩
    · rfl
    · rfl
    · rfl
    · simp only [out_result_bind, out_result_quiet]
      congr 1
      funext t
      congr 1
      funext o
      split
      · rfl
      · simp only [out_result_bind, out_result_quiet]
        congr 1
        funext slice
        split
        · split
          · rfl
          · simp only [out_result_bind, out_result_quiet, ih]
        · split
          · split
            · simp only [out_result_bind, out_result_quiet, out_result_warn, ih]
              cases Res.unwrap (ε := Err) (abbreviate slice 32) <;> rfl
            · simp only [ih]; rfl
          · split
            · simp only [out_result_bind, out_result_quiet, ih]
            · split
              · simp only [out_result_bind, out_result_warn, ih]; rfl
              · split
                · rfl
                · simp only [out_result_bind, out_result_quiet, out_result_pure]; rfl

theorem parseStrOut_result (x : Str) : (parseStrOut x).result = parseStr x := by
  unfold parseStrOut parseStr
  simp only [out_result_bind, out_result_quiet, prologLoopOut_result]
  congr 1; funext pro
  congr 1; funext rs
  congr 1; funext st
  congr 1; funext root
  congr 1; funext stack
  congr 1; funext stack
  congr 1; funext stack
  split
  · rfl
  · simp only [out_result_bind, out_result_quiet, out_result_pure]; rfl

/-! ## what is printed -/

/-- printed for one tag of the prolog -/
def warnTag (st : Prolog) (tag : Str) : List Warning :=
  if startsWith tag c%"<?xml" then []
  else if startsWith tag c%"<!--" then
    (if st.noCommentWarn = 0 then (match abbreviate tag 32 with | some s => [.comment s] | none => []) else [])
  else if startsWith tag c%"<!DOCTYPE" then []
  else if startsWith tag c%"<!" then [.ignored tag]
  else []

/-- printed for some tokens -/
def runWarn (b : Str) : Nat → List (Str × Str) → Prolog → List Warning
  | _, [], _ => []
  | pos, (text, tag) :: toks, st =>
    match prologTag b pos text tag st with
    | .ok (st', false) => warnTag st tag ++ runWarn b (pos + blen text + blen tag) toks st'
    | _ => []

theorem out_warned_quiet_bind {α β : Type} (r : R α) (f : α → Out β) :
    (quiet r >>= f).warned = (match r with | .ok a => (f a).warned | _ => []) := by
  cases r with
  | ok a => rw [out_quiet_bind_ok]
  | _ => rfl

theorem prologLoopOut_warned {pre r : Str} {toks : List (Str × Str)} {e : Option Nat} {pos : Nat} (hpos : pos = blen pre)
    (h : Lex pos r toks e) (buffer : Str) (hb : buffer = pre ++ r) (fuel : Nat) (hf : toks.length < fuel)
    (st : Prolog) (hst : st.tagSpan.2 = pos) :
    (prologLoopOut buffer fuel st).warned = runWarn buffer pos toks st := by
  induction h generalizing pre fuel st with
  | @done pos s hs =>
    obtain ⟨f, rfl⟩ : ∃ f, fuel = f + 1 := ⟨fuel - 1, by omega⟩
    rw [prologLoopOut]
    simp only [hst, hb, hpos, nextTag_none hs, Res.unwrap_some, out_quiet_bind_ok, runWarn]
    rfl
  | @fail pos text s h1 h2 h3 =>
    obtain ⟨f, rfl⟩ : ∃ f, fuel = f + 1 := ⟨fuel - 1, by omega⟩
    have hn : tagLen s = none := by
      rcases h : tagLen s with _ | n
      · rfl
      · obtain ⟨t, ht, -⟩ := (tagLen_iff h2 n).1 h; exact absurd ht (h3 t)
    rw [prologLoopOut]
    have := nextTag_some (pre := pre) h1 h2
    rw [hn] at this
    rw [hst, hb, hpos]
    simp only [this, Res.unwrap_some, out_quiet_bind_ok, Option.map_none, runWarn]
    rfl
  | @tag pos text tag rest s toks e h1 h2 ht hs hl ih =>
    obtain ⟨f, rfl⟩ : ∃ f, fuel = f + 1 := ⟨fuel - 1, by omega⟩
    have hn : tagLen s = some (blen tag) := (tagLen_iff h2 _).2 ⟨tag, ht, rfl⟩
    have hnt := nextTag_some (pre := pre) h1 h2
    rw [hn] at hnt
    simp only [Option.map_some] at hnt
    have e1 : sliceB (blen pre) (blen pre + blen text) buffer = some text :=
      sliceB_eq_some.2 ⟨pre, s, by simp [hb], rfl, rfl⟩
    have e2 : sliceB (blen pre + blen text) (blen tag + (blen pre + blen text)) buffer = some tag :=
      sliceB_eq_some.2 ⟨pre ++ text, rest, by simp [hb, hs], by simp, by simp; omega⟩
    rw [← hb] at hnt
    have hih : ∀ st : Prolog, st.tagSpan.2 = blen pre + blen text + blen tag → (prologLoopOut buffer f st).warned =
        runWarn buffer (blen pre + blen text + blen tag) toks st := by
      intro st hst
      have hp : pos + blen text + blen tag = blen pre + blen text + blen tag := by omega
      rw [← hp] at hst ⊢
      exact ih (pre := pre ++ text ++ tag) (by simp; omega) (by simp [hb, hs]) f (by simpa using hf) st hst
    rw [prologLoopOut, runWarn, hst, hpos]
    simp only [hnt, Res.unwrap_some, out_quiet_bind_ok, e1, e2]
    unfold prologTag warnTag
    have hcomm : blen tag + (blen pre + blen text) = blen pre + blen text + blen tag := by omega
    rw [hcomm]
    cases realText text with
    | err e => rfl
    | panic => rfl
    | diverge => rfl
    | ok o =>
      simp only [out_quiet_bind_ok, Res.bind_ok]
      split
      · rfl
      · split
        · split
          · rfl
          · rw [out_warned_quiet_bind]
            cases Declaration.fromStr tag with
            | ok d => simp only [Res.bind_ok, Res.pure_eq, List.nil_append]; exact hih _ rfl
            | _ => rfl
        · split
          · split
            · rename_i hz
              cases abbreviate tag 32 with
              | none => rfl
              | some s =>
                simp only [Res.unwrap_some, out_quiet_bind_ok, out_warn_bind, Res.bind_ok, Res.pure_eq, List.cons_append, List.nil_append]
                rw [hih _ rfl]
            · simp only [Res.pure_eq, Res.bind_ok, List.nil_append]
              rw [← hih _ rfl]
          · split
            · rw [out_warned_quiet_bind]
              cases DTD.fromString tag with
              | ok d => simp only [Res.bind_ok, Res.pure_eq, List.nil_append]; exact hih _ rfl
              | _ => rfl
            · split
              · simp only [out_warn_bind, Res.pure_eq, List.cons_append, List.nil_append]
                rw [hih _ rfl]
              · split
                · rfl
                · rw [out_warned_quiet_bind]
                  cases (checkElementTag tag).mapErr (fun _ => errAt .invalidSyntax buffer (blen pre + blen text)) with
                  | ok d => rfl
                  | _ => rfl

theorem out_warned_bind {α β : Type} (x : Out α) (f : α → Out β) (h : ∀ a, (f a).warned = []) : (x >>= f).warned = x.warned := by
  show (Out.bind x f).warned = _
  unfold Out.bind
  cases x.result <;> simp [h]

theorem parseStrOut_warned {x : Str} {toks : List (Str × Str)} {e : Option Nat} (h : Lex 0 x toks e) :
    (parseStrOut x).warned = runWarn x 0 toks ⟨none, [], 0, (0, 0)⟩ := by
  have hlen := lex_length h
  rw [← prologLoopOut_warned (pre := []) (pos := 0) rfl h x rfl (blen x + 1) (by omega) _ rfl]
  unfold parseStrOut
  rw [out_warned_bind]
  intro pro
  repeat (rw [out_warned_bind]; rfl; intro _)
  split
  · rfl
  · rw [out_warned_bind]
    · rfl
    · intro _; rfl

theorem warnTag_warns {x : Str} {pos : Nat} {text tag : Str} {st st' : Prolog} {b : Bool} (h : prologTag x pos text tag st = .ok (st', b))
    (hp : IsProlog tag) : b = false ∧ ∀ l w, Warns (decide (st'.noCommentWarn ≠ 0)) l w →
      Warns (decide (st.noCommentWarn ≠ 0)) (tag :: l) (warnTag st tag ++ w) := by
  unfold prologTag at h
  obtain ⟨ot, -, h⟩ := bind_eq_ok.1 h
  simp only at h
  unfold warnTag
  split at h
  · cases h
  · split at h
    · rename_i hd
      split at h
      · cases h
      · obtain ⟨d, -, h⟩ := bind_eq_ok.1 h
        cases h
        refine ⟨rfl, fun l w hw => ?_⟩
        rw [if_pos hd]
        exact .decl (startsWith_iff.1 hd) hw
    · rename_i hd
      rw [if_neg hd]
      split at h
      · rename_i hc
        obtain ⟨d, hd, h⟩ := bind_eq_ok.1 h
        cases h
        refine ⟨rfl, fun l w hw => ?_⟩
        rw [if_pos hc]
        rw [show decide (st.noCommentWarn + 1 ≠ 0) = true by simp] at hw
        by_cases hz : st.noCommentWarn = 0
        · rw [if_pos hz] at hd ⊢
          simp only [hz, ne_eq, not_true_eq_false, decide_false]
          cases ha : abbreviate tag 32 with
          | none => rw [ha] at hd; cases hd
          | some s => exact .comment (startsWith_iff.1 hc) (abbreviate_some.1 ha) hw
        · rw [if_neg hz]
          simp only [hz, ne_eq, not_false_eq_true, decide_true, List.nil_append]
          exact .again (startsWith_iff.1 hc) hw
      · rename_i hc
        rw [if_neg hc]
        split at h
        · rename_i ht
          obtain ⟨d, -, h⟩ := bind_eq_ok.1 h
          cases h
          refine ⟨rfl, fun l w hw => ?_⟩
          rw [if_pos ht]
          exact .doctype (startsWith_iff.1 ht) hw
        · rename_i ht
          rw [if_neg ht]
          split at h
          · rename_i hm
            cases h
            refine ⟨rfl, fun l w hw => ?_⟩
            rw [if_pos hm]
            exact .other (startsWith_iff.1 hm) (not_true_prefix hc) (not_true_prefix ht) hw
          · rename_i hm
            rcases hp with hp | hp
            · exact absurd (startsWith_iff.2 hp) hd
            · exact absurd (startsWith_iff.2 hp) hm

theorem runWarn_warns {x : Str} {pre : List (Str × Str)} {pos : Nat} {st : Prolog} {st2 : RState}
    (h : readToks x pos pre (.prolog st) = .ok st2) (hp : ∀ t ∈ pre, IsProlog t.2) :
    ∃ st' ws, st2 = .prolog st' ∧ Warns (decide (st.noCommentWarn ≠ 0)) (pre.map Prod.snd) ws ∧
      ∀ rest, runWarn x pos (pre ++ rest) st = ws ++ runWarn x (pos + blen (srcOf pre)) rest st' := by
  induction pre generalizing pos st with
  | nil =>
    cases h
    exact ⟨st, [], rfl, .nil, fun rest => rfl⟩
  | cons t pre ih =>
    obtain ⟨text, tag⟩ := t
    unfold readToks at h
    obtain ⟨st1, h1, h2⟩ := bind_eq_ok.1 h
    unfold readTag at h1
    obtain ⟨⟨s1, b⟩, h3, h4⟩ := bind_eq_ok.1 h1
    obtain ⟨rfl, hw⟩ := warnTag_warns h3 (hp (text, tag) (by simp))
    cases h4
    obtain ⟨st', ws, e1, e2, e3⟩ := ih h2 (fun t ht => hp t (by simp [ht]))
    refine ⟨st', warnTag st tag ++ ws, e1, hw _ _ e2, fun rest => ?_⟩
    rw [List.cons_append, runWarn, h3]
    simp only [e3, List.append_assoc, srcOf_cons, blen_append]
    congr 3
    omega

/-- what is printed -/
theorem warned {x : Str} {pre rest : List (Str × Str)} {text s : Str} (h : Split x pre rest text s) (h1 : First x pre rest)
    (h2 : rest ≠ [] ∨ Trouble pre rest text s) : Warns false (pre.map Prod.snd) (parseStrOut x).warned := by
  obtain ⟨hx, htext, hp, hr⟩ := h
  obtain ⟨toks, e, hl⟩ := exists_lex (0 + blen (srcOf (pre ++ rest))) (text ++ s)
  have hlx := lex_of_lexesTo hx 0 (toks' := toks) (e := e) hl
  rw [parseStrOut_warned hlx]
  obtain ⟨st, hst⟩ := (noFaultYet_iff hx).1 ((first_noFaultYet ⟨hx, htext, hp, hr⟩).2 h1)
  rw [readToks_append] at hst
  obtain ⟨st1, hs1, hs2⟩ := bind_eq_ok.1 hst
  obtain ⟨st', ws, rfl, e2, e3⟩ := runWarn_warns hs1 hp
  rw [List.append_assoc, e3]
  have hnil : runWarn x (0 + blen (srcOf pre)) (rest ++ toks) st' = [] := by
    cases rest with
    | cons t rest =>
      obtain ⟨t1, t2⟩ := t
      rw [List.cons_append, runWarn]
      unfold readToks at hs2
      obtain ⟨st2, k1, k2⟩ := bind_eq_ok.1 hs2
      unfold readTag at k1
      obtain ⟨⟨s1, b⟩, k3, k4⟩ := bind_eq_ok.1 k1
      obtain ⟨-, -, -, k5⟩ := prologTag_fine k3
      obtain ⟨-, rfl⟩ := k5 (hr _ _ rfl)
      rw [k3]
    | nil =>
      have htr := h2.resolve_left (by simp)
      cases toks with
      | nil => rfl
      | cons t toks =>
        obtain ⟨t1, t2⟩ := t
        rw [List.nil_append, runWarn]
        split
        · rename_i st2 hk
          exfalso
          have hpt : IsProlog t2 := by
            by_contra hn
            obtain ⟨-, -, -, k5⟩ := prologTag_fine hk
            cases (k5 hn).2
          obtain ⟨u, hu⟩ : ∃ u, LexesTo (text ++ s) [(t1, t2)] u := by
            generalize text ++ s = y at hl
            cases hl with
            | tag k1 _ k3 k4 _ => exact ⟨_, .tag k1 k3 k4 .done⟩
          have hxt := lexesTo_append hx hu
          have hread : readToks x 0 (pre ++ [] ++ [(t1, t2)]) .init = .ok (.prolog st2) := by
            rw [List.append_nil, readToks_append]
            rw [hs1, Res.bind_ok]
            simp only [readToks, readTag, hk, Res.bind_ok, Res.pure_eq]
          have hpre : ∀ t ∈ pre ++ [] ++ [(t1, t2)], IsProlog t.2 := by
            intro t ht
            simp only [List.append_nil, List.mem_append, List.mem_singleton] at ht
            rcases ht with ht | rfl
            · exact hp t ht
            · exact hpt
          have hsp : Split x (pre ++ [] ++ [(t1, t2)]) [] [] u := ⟨by simpa using hxt, by simp, hpre, by simp⟩
          have hf := (first_noFaultYet hsp).1 ((noFaultYet_iff hsp.1).2 ⟨_, by simpa using hread⟩)
          have := hf pre [] text s ⟨hx, htext, hp, hr⟩ htr
          simp at this
          omega
        · rfl
  rw [hnil, List.append_nil]
  simpa using e2

theorem shortened_unique {t a b : Str} (h : Shortened t a) (h' : Shortened t b) : a = b := by
  have h1 := abbreviate_some.2 h
  have h2 := abbreviate_some.2 h'
  rw [h1] at h2
  exact Option.some.inj h2

theorem warns_unique {b : Bool} {l : List Str} {w w' : List Warning} (h : Warns b l w) (h' : Warns b l w') : w = w' := by
  have clash : ∀ {p q t : Str}, p <+: t → q <+: t → p.length ≤ q.length → ¬ p <+: q → False := fun hp hq hl hn =>
    hn (List.prefix_of_prefix_length_le hp hq hl)
  induction h generalizing w' with
  | nil => cases h'; rfl
  | decl h1 _ ih =>
    cases h' with
    | decl _ h2 => exact ih h2
    | doctype k _ => exact (clash h1 k (by decide) (by decide)).elim
    | comment k _ _ => exact (clash k h1 (by decide) (by decide)).elim
    | again k _ => exact (clash k h1 (by decide) (by decide)).elim
    | other k _ _ _ => exact (clash k h1 (by decide) (by decide)).elim
  | doctype h1 _ ih =>
    cases h' with
    | decl k h2 => exact (clash k h1 (by decide) (by decide)).elim
    | doctype k h2 => exact ih h2
    | comment k _ _ => exact (clash k h1 (by decide) (by decide)).elim
    | again k _ => exact (clash k h1 (by decide) (by decide)).elim
    | other _ _ k _ => exact (k h1).elim
  | comment h1 h2 _ ih =>
    cases h' with
    | decl k h2 => exact (clash h1 k (by decide) (by decide)).elim
    | doctype k _ => exact (clash h1 k (by decide) (by decide)).elim
    | comment _ k1 k2 => rw [shortened_unique h2 k1, ih k2]
    | other _ k _ _ => exact (k h1).elim
  | again h1 _ ih =>
    cases h' with
    | decl k h2 => exact (clash h1 k (by decide) (by decide)).elim
    | doctype k _ => exact (clash h1 k (by decide) (by decide)).elim
    | again _ k => exact ih k
    | other _ k _ _ => exact (k h1).elim
  | other h1 h2 h3 _ ih =>
    cases h' with
    | decl k _ => exact (clash h1 k (by decide) (by decide)).elim
    | doctype k _ => exact (h3 k).elim
    | comment k _ _ => exact (h2 k).elim
    | again k _ => exact (h2 k).elim
    | other _ _ _ k => rw [ih k]

theorem warns_nil {l : List Str} : Warns false l [] ↔ ∀ t ∈ l, c%"<?xml" <+: t ∨ c%"<!DOCTYPE" <+: t := by
  induction l with
  | nil => exact ⟨fun _ _ h => by simp at h, fun _ => .nil⟩
  | cons t l ih =>
    constructor
    · intro h
      cases h with
      | decl k h => exact List.forall_mem_cons.2 ⟨.inl k, ih.1 h⟩
      | doctype k h => exact List.forall_mem_cons.2 ⟨.inr k, ih.1 h⟩
    · intro h
      obtain ⟨h1 | h1, h2⟩ := List.forall_mem_cons.1 h
      · exact .decl h1 (ih.2 h2)
      · exact .doctype h1 (ih.2 h2)

/-- what is printed about an accepted document -/
theorem warned_ok {x : Str} {d : Document} {pre rest : List (Str × Str)} (h : parseStr x = .ok d) (hp : Parts x pre rest) :
    Warns false (pre.map Prod.snd) (parseStrOut x).warned := by
  obtain ⟨tail, hl⟩ := hp.lexes
  obtain ⟨h1, h2⟩ := lexes_to hl
  obtain ⟨text, tag, rest', -, -, rfl, -⟩ := accepted_parts h hp
  refine warned (text := tail) (s := []) ⟨by simpa using h1, h2, hp.prolog, hp.root⟩ ?_ (.inl (by simp))
  intro p r t s hs ht
  exact (first_ok.1 ⟨d, h⟩ p r t s hs ht).elim

end KissXml
