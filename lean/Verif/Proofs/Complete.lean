import Verif.Proofs.Steps
import Verif.Proofs.Written
import Verif.Proofs.TokenCheck
/-!
# Unfinished inputs
-/
namespace KissXml
open Spec

theorem snoc_inj {l l' : List Str} {t t' : Str} (h : l ++ [t] = l' ++ [t']) : l = l' ∧ t = t' := by
  have := List.append_inj' h rfl
  exact ⟨this.1, by simpa using this.2⟩

theorem inner_unique {tag s s' : Str} (h : Inner tag s) (h' : Inner tag s') : s = s' := by
  have := (inner_iff.1 h).1
  rw [(inner_iff.1 h').1] at this
  simpa using this.symm

theorem openName_unique {tag n n' : Str} (h : OpenName tag n) (h' : OpenName tag n') : n = n' := by
  obtain ⟨s, h1, h2⟩ := h
  obtain ⟨s', h1', h2'⟩ := h'
  obtain rfl := inner_unique h1 h1'
  exact firstWord_unique h2 h2'

theorem openAfter_unique {l o o' : List Str} (h : OpenAfter l o) (h' : OpenAfter l o') : o = o' := by
  induction h generalizing o' with
  | nil =>
    generalize hl : ([] : List Str) = l at h'
    cases h' <;> simp at hl
    rfl
  | @mark l o tag _ hk ih =>
    generalize hl : l ++ [tag] = l' at h'
    cases h' with
    | nil => simp at hl
    | mark h1 h2 => obtain ⟨rfl, rfl⟩ := snoc_inj hl; exact ih h1
    | empty h1 h2 => obtain ⟨rfl, rfl⟩ := snoc_inj hl; exact ih h1
    | start h1 h2 h3 => obtain ⟨rfl, rfl⟩ := snoc_inj hl; rw [hk] at h2; cases h2
    | close h1 h2 h3 => obtain ⟨rfl, rfl⟩ := snoc_inj hl; rw [hk] at h2; cases h2
  | @empty l o tag _ hk ih =>
    generalize hl : l ++ [tag] = l' at h'
    cases h' with
    | nil => simp at hl
    | mark h1 h2 => obtain ⟨rfl, rfl⟩ := snoc_inj hl; exact ih h1
    | empty h1 h2 => obtain ⟨rfl, rfl⟩ := snoc_inj hl; exact ih h1
    | start h1 h2 h3 => obtain ⟨rfl, rfl⟩ := snoc_inj hl; rw [hk] at h2; cases h2
    | close h1 h2 h3 => obtain ⟨rfl, rfl⟩ := snoc_inj hl; rw [hk] at h2; cases h2
  | @start l o tag n _ hk hn ih =>
    generalize hl : l ++ [tag] = l' at h'
    cases h' with
    | nil => simp at hl
    | mark h1 h2 => obtain ⟨rfl, rfl⟩ := snoc_inj hl; rw [hk] at h2; cases h2
    | empty h1 h2 => obtain ⟨rfl, rfl⟩ := snoc_inj hl; rw [hk] at h2; cases h2
    | start h1 h2 h3 => obtain ⟨rfl, rfl⟩ := snoc_inj hl; rw [ih h1, openName_unique hn h3]
    | close h1 h2 h3 => obtain ⟨rfl, rfl⟩ := snoc_inj hl; rw [hk] at h2; cases h2
  | @close l o tag n _ hk hn ih =>
    generalize hl : l ++ [tag] = l' at h'
    cases h' with
    | nil => simp at hl
    | mark h1 h2 => obtain ⟨rfl, rfl⟩ := snoc_inj hl; rw [hk] at h2; cases h2
    | empty h1 h2 => obtain ⟨rfl, rfl⟩ := snoc_inj hl; rw [hk] at h2; cases h2
    | start h1 h2 h3 => obtain ⟨rfl, rfl⟩ := snoc_inj hl; rw [hk] at h2; cases h2
    | close h1 h2 h3 => obtain ⟨rfl, rfl⟩ := snoc_inj hl; have := ih h1; simp at this; exact this.2

/-! ## closing everything that is open -/

/-- a closing tag for the innermost element is accepted -/
theorem read_closing {st : ParseTree} {n : Str} {o : List Str} (hst : Opened st (n :: o)) (hq : StackQ (fun _ => True) st) (hn : XmlName n)
    {text : Str} (ht : TextFine (n :: o) text) (b : Str) (pos : Nat) (pro : Prolog) :
    ∃ st', readTag b pos text (closing n []) (.inside pro false st) = .ok (.inside pro false st') ∧ Opened st' o ∧ StackQ (fun _ => True) st' := by
  obtain ⟨st1, h1⟩ := (addText_ok_iff (b := b) (pos := pos + blen text) hq hst).2 ht
  have hst1 := opened_addText hst h1
  have hq1 := addText_stackQ freshOk_true hq h1
  rcases opened_top hst1 with ⟨h2, -⟩ | ⟨e, o', h2, h3⟩
  · cases h2
  · simp only [List.cons.injEq] at h2
    obtain ⟨rfl, rfl⟩ := h2
    rcases stackQ_pop hq1 with ⟨er, he⟩ | ⟨st2, he, hq2⟩
    · exfalso
      have hs := hst1.stack
      unfold ParseTree.pop at he
      cases hp : st1.pos with
      | none => rw [hp] at hs; cases hs
      | some p =>
        rw [hp] at hs he
        generalize e.tagName :: o = ns at hs
        cases hs with
        | cons h4 _ => simp only [h4, Res.unwrap_some, Res.bind_ok] at he; cases he
    · obtain ⟨n', o2, h5, h6⟩ := opened_pop hst1 he
      simp only [List.cons.injEq] at h5
      obtain ⟨-, rfl⟩ := h5
      have hstep : TagStep (closing e.tagName []) st1 st2 :=
        .close ⟨e.tagName ++ c%">", by simp [closing]⟩ (closing_re hn (by simp [AllWs])) h3 (closing_strip hn (by simp [AllWs])) he
      refine ⟨st2, ?_, h6, hq2⟩
      simp only [readTag, h1, Bool.false_eq_true, if_false, Res.bind_ok, handleTag_of hstep, Res.pure_eq]

theorem read_closings {st : ParseTree} {o : List Str} (hst : Opened st o) (hq : StackQ (fun _ => True) st) (hn : ∀ n ∈ o, XmlName n)
    (b : Str) (pos : Nat) (pro : Prolog) :
    ∃ st', readToks b pos (o.map (fun n => ([], closing n []))) (.inside pro false st) = .ok (.inside pro false st') ∧ Opened st' [] ∧
      StackQ (fun _ => True) st' := by
  induction o generalizing st pos with
  | nil => exact ⟨st, rfl, hst, hq⟩
  | cons n o ih =>
    obtain ⟨st1, h1, h2, h3⟩ := read_closing hst hq (hn n (by simp)) (text := []) (.inl (by simp [AllWs])) b pos pro
    obtain ⟨st2, h4, h5, h6⟩ := ih h2 h3 (fun m hm => hn m (by simp [hm])) (pos + blen [] + blen (closing n []))
    refine ⟨st2, ?_, h5, h6⟩
    rw [List.map_cons, readToks, h1, Res.bind_ok]
    exact h4

theorem lexesTo_closings {o : List Str} (hn : ∀ n ∈ o, XmlName n) :
    LexesTo (o.flatMap (fun n => closing n [])) (o.map (fun n => ([], closing n []))) [] := by
  induction o with
  | nil => exact .done
  | cons n o ih =>
    rw [List.flatMap_cons, List.map_cons]
    have := LexesTo.tag (text := []) (tag := closing n []) (rest := o.flatMap (fun n => closing n [])) (by simp)
      (tagAt_more (tagAt_closing (hn n (by simp)) (by simp [AllWs])) _) rfl (ih (fun m hm => hn m (by simp [hm])))
    simpa using this

theorem lexesTo_append {x y r : Str} {toks : List (Str × Str)} (h : LexesTo x toks y) {toks' : List (Str × Str)} (h' : LexesTo y toks' r) :
    LexesTo x (toks ++ toks') r := by
  induction h with
  | done => exact h'
  | tag h1 h2 h3 _ ih => exact .tag h1 h2 h3 (ih h')

theorem lexes_to {x tail : Str} {toks : List (Str × Str)} (h : Lexes x toks tail) : LexesTo x toks tail ∧ '<' ∉ tail := by
  induction h with
  | done h => exact ⟨.done, h⟩
  | tag h1 h2 h3 _ ih => exact ⟨.tag h1 h2 h3 ih.1, ih.2⟩

theorem parse_close {x tail : Str} {pre rest : List (Str × Str)} {o : List Str} (h : Lexes x (pre ++ rest) tail)
    (hp : parseStr x = .err (.parsing .rootNotClosed none)) (h1 : ∀ t ∈ pre, IsProlog t.2) (h2 : ∀ t r, rest = t :: r → ¬ IsProlog t.2)
    (ho : OpenAfter (rest.map Prod.snd) o) (hn : ∀ n ∈ o, XmlName n) (ht : Returns tail) :
    ∃ d, parseStr (x ++ o.flatMap (fun n => closing n [])) = .ok d := by
  obtain ⟨hx, htail⟩ := lexes_to h
  have hlex := lexes_lex h 0
  rw [parse_read hlex] at hp
  rcases read_cases hx with ⟨st, pre', rest', g1, g2, g3⟩ | ⟨pre, rest, text', tag', s', u, st, g1, g2, g3, g4, g5, g6, g7⟩
  · rw [g1, Res.bind_ok] at hp
    cases st with
    | prolog st => cases hp
    | inside pro sc st =>
      have hne : rest'.map Prod.snd ≠ [] ∧ ∃ n o', OpenAfter (rest'.map Prod.snd) (n :: o') := by
        rcases finish_none g3 x with ⟨d, h'⟩ | ⟨h', hr⟩ | ⟨h', hr, n, o, ho⟩
        · rw [h'] at hp; cases hp
        · rw [h'] at hp; cases hp
        · exact ⟨by simpa using hr, n, o, ho⟩
      obtain ⟨i1, i2, i3, ⟨o', ho', hst⟩, hq, hsc⟩ := g3
      obtain ⟨rfl, rfl⟩ := split_unique g2 i1 h1 i3 h2
      obtain rfl := openAfter_unique ho ho'
      obtain ⟨-, n, o', ho2⟩ := hne
      obtain rfl := openAfter_unique ho ho2
      have hsc : sc = false := by
        cases sc with
        | false => rfl
        | true =>
          obtain ⟨t, u, rfl, hk⟩ := hsc.1 rfl
          have := openAfter_depth ho
          simp [depth, delta, hk] at this
          omega
      subst hsc
      obtain ⟨st1, k1, k2, k3⟩ := read_closing hst hq (hn n (by simp)) (text := tail) (.inr ⟨by simp, ht⟩)
        (x ++ (n :: o').flatMap (fun n => closing n [])) (0 + blen (srcOf (pre' ++ rest'))) pro
      obtain ⟨st2, k4, k5, k6⟩ := read_closings k2 k3 (fun m hm => hn m (by simp [hm]))
        (x ++ (n :: o').flatMap (fun n => closing n [])) (0 + blen (srcOf (pre' ++ rest')) + blen tail + blen (closing n [])) pro
      have hend : LexesTo (tail ++ (n :: o').flatMap (fun n => closing n [])) ((tail, closing n []) :: o'.map (fun n => ([], closing n []))) [] := by
        rw [List.flatMap_cons]
        exact .tag htail (tagAt_more (tagAt_closing (hn n (by simp)) (by simp [AllWs])) _) rfl (lexesTo_closings (fun m hm => hn m (by simp [hm])))
      have hall := lexesTo_append (lexesTo_more hx ((n :: o').flatMap (fun n => closing n []))) hend
      have hl := lex_of_lexesTo hall 0 (toks' := []) (e := none) (.done (by simp))
      rw [List.append_nil] at hl
      rw [parse_read hl, readToks_append, readToks_more hx, g1, Res.bind_ok, readToks, k1, Res.bind_ok, k4, Res.bind_ok]
      unfold finish
      have hemp : st2.emptyStack = true := by
        have hs := k5.stack
        cases hpos : st2.pos with
        | none => simp [ParseTree.emptyStack, hpos]
        | some p => rw [hpos] at hs; cases hs
      simp only [hemp]
      obtain ⟨e, he, -⟩ := stackQ_toDom (by simp) (by simp) k6
      rw [he]
      exact ⟨_, rfl⟩
  · rcases g7 with ⟨e', k1, k2⟩ | ⟨k1, k2⟩
    · rw [k1] at hp
      cases hp
      exact absurd (.inr rfl) (fault_not_end k2 g4)
    · rw [k1] at hp; cases hp

theorem parse_root {x tail : Str} {toks : List (Str × Str)} (h : Lexes x toks tail) (hp : parseStr x = .err (.parsing .noXmlContent none))
    (ht : AllWs tail) : ∃ d, parseStr (x ++ c%"<r/>") = .ok d := by
  obtain ⟨hx, htail⟩ := lexes_to h
  have hlex := lexes_lex h 0
  rw [parse_read hlex] at hp
  rcases read_cases hx with ⟨st, pre', rest', g1, g2, g3⟩ | ⟨pre, rest, text', tag', s', u, st, g1, g2, g3, g4, g5, g6, g7⟩
  · rw [g1, Res.bind_ok] at hp
    cases st with
    | inside pro sc st =>
      rcases finish_none g3 x with ⟨d, h'⟩ | ⟨h', hr⟩ | ⟨h', hr, n, o, ho⟩
      · rw [h'] at hp; cases hp
      · exact absurd hr g3.2.1
      · rw [h'] at hp; cases hp
    | prolog st =>
      have hend : LexesTo (tail ++ c%"<r/>") [(tail, c%"<r/>")] [] :=
        .tag htail (by
          have := lexesB_sound (toks := [([], c%"<r/>")]) (tail := []) (by decide)
          obtain ⟨s, -, -, h, h'⟩ := lexesTo_unsnoc (toks := []) (lexes_to this).1
          rwa [h', List.append_nil] at h) (rest := []) rfl .done
      have hall := lexesTo_append (lexesTo_more hx c%"<r/>") hend
      have hl := lex_of_lexesTo hall 0 (toks' := []) (e := none) (.done (by simp))
      rw [List.append_nil] at hl
      rw [parse_read hl, readToks_append, readToks_more hx, g1, Res.bind_ok, readToks]
      simp only [readTag, prologTag, realText_ws ht]
      exact ⟨_, rfl⟩
  · rcases g7 with ⟨e', k1, k2⟩ | ⟨k1, k2⟩
    · rw [k1] at hp
      cases hp
      exact absurd (.inl rfl) (fault_not_end k2 g4)
    · rw [k1] at hp; cases hp

end KissXml
