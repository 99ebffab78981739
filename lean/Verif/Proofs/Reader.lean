import Verif.Proofs.Where
import Verif.Spec.Errors
/-!
# The parser as a machine that reads one tag after the other
-/
namespace KissXml
open Spec

/-- what is known between two tags -/
inductive RState where
  | prolog (st : Prolog)
  | inside (pro : Prolog) (sc : Bool) (stack : ParseTree)

/-- reading a piece of text and the tag after it -/
def readTag (b : Str) (pos : Nat) (text tag : Str) : RState → R RState
  | .prolog st => do
    match ← prologTag b pos text tag st with
    | (st, false) => pure (.prolog st)
    | (st, true) => do
      let stripped ← Res.unwrap (stripTag tag)
      let root ← parseNewElement stripped b (pos + blen text) none
      let stack ← ParseTree.new.push root
      let stack ← (if endsWith tag c%"/>" then stack.pop else pure stack : R ParseTree)
      pure (.inside st (endsWith tag c%"/>") stack)
  | .inside pro sc stack =>
    if sc then .err (errAt .onlyOneRoot b (pos + blen text))
    else do
      let stack ← addText b (pos + blen text) text stack
      let stack ← handleTag b (pos + blen text) tag stack
      pure (.inside pro sc stack)

/-- reading a list of tokens -/
def readToks (b : Str) : Nat → List (Str × Str) → RState → R RState
  | _, [], st => pure st
  | pos, (text, tag) :: toks, st => do
    let st ← readTag b pos text tag st
    readToks b (pos + blen text + blen tag) toks st

/-- the end of the input -/
def finish (b : Str) (e : Option Nat) : RState → R Document
  | .prolog _ =>
    match e with
    | none => .err (.parsing .noXmlContent none)
    | some n => .err (errAt .unmatchedLt b n)
  | .inside pro _ stack =>
    match e with
    | none =>
      if !stack.emptyStack then .err (.parsing .rootNotClosed none)
      else do
        let root ← stack.toDom
        pure (Document.newWithDeclDtd root pro.decl (some pro.dtds))
    | some n => .err (errAt .invalidSyntax b n)

/-- the state before the first tag -/
def RState.init : RState := .prolog ⟨none, [], 0, (0, 0)⟩

theorem readToks_inside (b : Str) (e : Option Nat) (pro : Prolog) (sc : Bool) (pos : Nat) (toks : List (Str × Str)) (st : ParseTree) :
    (readToks b pos toks (.inside pro sc st) >>= finish b e) =
      (runToks b sc e pos toks st >>= fun stack =>
        if !stack.emptyStack then .err (.parsing .rootNotClosed none)
        else do
          let root ← stack.toDom
          pure (Document.newWithDeclDtd root pro.decl (some pro.dtds))) := by
  induction toks generalizing pos st with
  | nil =>
    unfold readToks runToks
    cases e with
    | none => rfl
    | some n => rfl
  | cons t toks ih =>
    obtain ⟨text, tag⟩ := t
    simp only [readToks, runToks, readTag]
    cases sc with
    | true => rfl
    | false =>
      simp only [Bool.false_eq_true, if_false]
      cases addText b (pos + blen text) text st with
      | err e => rfl
      | panic => rfl
      | diverge => rfl
      | ok st1 =>
        simp only [Res.bind_ok]
        cases handleTag b (pos + blen text) tag st1 with
        | err e => rfl
        | panic => rfl
        | diverge => rfl
        | ok st2 => simp only [Res.bind_ok, Res.pure_eq]; exact ih _ _

theorem readToks_prolog (b : Str) (e : Option Nat) (pos : Nat) (toks : List (Str × Str)) (st : Prolog) :
    (readToks b pos toks (.prolog st) >>= finish b e) =
      (runProlog b e pos toks st >>= fun (pro, rootTag, rest) => do
        let stripped ← Res.unwrap (stripTag rootTag)
        let root ← parseNewElement stripped b pro.tagSpan.1 none
        let stack ← ParseTree.new.push root
        let selfClosing := endsWith rootTag c%"/>"
        let stack ← (if selfClosing then stack.pop else pure stack : R ParseTree)
        let stack ← runToks b selfClosing e pro.tagSpan.2 rest stack
        if !stack.emptyStack then .err (.parsing .rootNotClosed none)
        else do
          let root ← stack.toDom
          pure (Document.newWithDeclDtd root pro.decl (some pro.dtds))) := by
  induction toks generalizing pos st with
  | nil =>
    unfold readToks runProlog
    cases e with
    | none => rfl
    | some n => rfl
  | cons t toks ih =>
    obtain ⟨text, tag⟩ := t
    simp only [readToks, runProlog, readTag]
    cases hp : prologTag b pos text tag st with
    | err e => rfl
    | panic => rfl
    | diverge => rfl
    | ok v =>
      obtain ⟨st1, done⟩ := v
      have hspan := prologTag_span hp
      cases done with
      | false => simp only [Res.bind_ok, Res.pure_eq]; exact ih _ _
      | true =>
        simp only [Res.bind_ok, Res.pure_eq, hspan, bind_assoc']
        cases Res.unwrap (ε := Err) (stripTag tag) with
        | err e => rfl
        | panic => rfl
        | diverge => rfl
        | ok t =>
          simp only [Res.bind_ok]
          cases parseNewElement t b (pos + blen text) none with
          | err e => rfl
          | panic => rfl
          | diverge => rfl
          | ok root =>
            simp only [Res.bind_ok]
            cases ParseTree.new.push root with
            | err e => rfl
            | panic => rfl
            | diverge => rfl
            | ok stack =>
              simp only [Res.bind_ok]
              generalize (if endsWith tag c%"/>" then stack.pop else (Res.ok stack) : R ParseTree) = z
              cases z with
              | err e => rfl
              | panic => rfl
              | diverge => rfl
              | ok stack2 =>
                simp only [Res.bind_ok]
                exact readToks_inside b e st1 _ _ _ _

theorem parseToks_read (b : Str) (toks : List (Str × Str)) (e : Option Nat) :
    parseToks b toks e = (readToks b 0 toks .init >>= finish b e) := (readToks_prolog b e 0 toks _).symm

theorem parse_read {x : Str} {toks : List (Str × Str)} {e : Option Nat} (h : Lex 0 x toks e) :
    parseStr x = (readToks x 0 toks .init >>= finish x e) := by rw [parseStr_eq h, parseToks_read]

theorem srcOf_cons (a b : Str) (l : List (Str × Str)) : srcOf ((a, b) :: l) = a ++ b ++ srcOf l := by simp [srcOf]
theorem srcOf_append (l m : List (Str × Str)) : srcOf (l ++ m) = srcOf l ++ srcOf m := by simp [srcOf]
theorem srcOf_nil : srcOf [] = [] := rfl

theorem readToks_append (b : Str) (pos : Nat) (l m : List (Str × Str)) (st : RState) :
    readToks b pos (l ++ m) st = (readToks b pos l st >>= fun st => readToks b (pos + blen (srcOf l)) m st) := by
  induction l generalizing pos st with
  | nil => simp [readToks, srcOf_nil]
  | cons t l ih =>
    obtain ⟨text, tag⟩ := t
    simp only [List.cons_append, readToks, bind_assoc', srcOf_cons, blen_append]
    cases readTag b pos text tag st with
    | ok st => simp only [Res.bind_ok, ih]; congr 1; funext st; congr 1; omega
    | err e => rfl
    | panic => rfl
    | diverge => rfl

/-! ## the input is looked at for positions only -/

theorem lineColLoop_rest (pos i line col : Nat) (a : Str) (c : Char) (b b' : Str) (hi : pos = i + blen a) :
    lineColLoop pos i line col (a ++ c :: b) = lineColLoop pos i line col (a ++ c :: b') := by
  induction a generalizing i line col with
  | nil =>
    simp only [List.nil_append, lineColLoop]
    have : i ≥ pos := by simp at hi; omega
    simp [this]
  | cons d a ih =>
    simp only [List.cons_append, lineColLoop]
    have h : pos = i + d.utf8Size + blen a := by rw [hi]; simp [blen]; omega
    simp only [ih _ _ _ h]

theorem lineAndColumn_rest {x x' a u u' : Str} {c : Char} (h : x = a ++ c :: u) (h' : x' = a ++ c :: u') :
    lineAndColumn x (blen a) = lineAndColumn x' (blen a) := by
  subst h h'
  exact lineColLoop_rest _ 0 1 1 a c u u' (by simp)

theorem errAt_congr {b b' : Str} {p : Nat} (h : lineAndColumn b p = lineAndColumn b' p) (m : PMsg) : errAt m b p = errAt m b' p := by
  unfold errAt; rw [h]

theorem rewrap_congr {b b' : Str} {p : Nat} (h : lineAndColumn b p = lineAndColumn b' p) : rewrap b p = rewrap b' p := by
  funext e
  cases e <;> simp [rewrap, errAt_congr h]

theorem parseAttrs_congr {b b' : Str} {p : Nat} (h : lineAndColumn b p = lineAndColumn b' p) (l : List Str) (m : SMap) :
    parseAttrs b p l m = parseAttrs b' p l m := by
  induction l generalizing m with
  | nil => rfl
  | cons kv l ih => simp only [parseAttrs, errAt_congr h, ih]

theorem parseNewElement_congr {b b' : Str} {p : Nat} (h : lineAndColumn b p = lineAndColumn b' p) (t : Str) (parent : Option Element) :
    parseNewElement t b p parent = parseNewElement t b' p parent := by
  unfold parseNewElement
  cases quoteAwareSplit t with
  | nil => simp only [errAt_congr h]
  | cons c cs => simp only [errAt_congr h, parseAttrs_congr h]

theorem handleTag_congr {b b' : Str} {p : Nat} (h : lineAndColumn b p = lineAndColumn b' p) (t : Str) (st : ParseTree) :
    handleTag b p t st = handleTag b' p t st := by
  unfold handleTag
  simp only [errAt_congr h, rewrap_congr h, parseNewElement_congr h, h]

theorem addText_congr {b b' : Str} {p : Nat} (h : lineAndColumn b p = lineAndColumn b' p) (t : Str) (st : ParseTree) :
    addText b p t st = addText b' p t st := by
  unfold addText
  simp only [rewrap_congr h]

theorem prologTag_congr {b b' : Str} {p : Nat} {text : Str} (h0 : lineAndColumn b p = lineAndColumn b' p)
    (h : lineAndColumn b (p + blen text) = lineAndColumn b' (p + blen text)) (tag : Str) (st : Prolog) :
    prologTag b p text tag st = prologTag b' p text tag st := by
  unfold prologTag
  simp only [errAt_congr h, errAt_congr h0]

theorem readTag_congr {b b' : Str} {p : Nat} {text : Str} (h0 : lineAndColumn b p = lineAndColumn b' p)
    (h : lineAndColumn b (p + blen text) = lineAndColumn b' (p + blen text)) (tag : Str) (st : RState) :
    readTag b p text tag st = readTag b' p text tag st := by
  cases st with
  | prolog st => simp only [readTag, prologTag_congr h0 h, parseNewElement_congr h]
  | inside pro sc st => simp only [readTag, errAt_congr h, addText_congr h, handleTag_congr h]

/-- reading does not depend on what comes later -/
theorem readToks_rest {toks : List (Str × Str)} (hne : ∀ t ∈ toks, t.2 ≠ []) {pre u u' x x' : Str} {pos : Nat}
    (h : x = pre ++ srcOf toks ++ u) (h' : x' = pre ++ srcOf toks ++ u') (hp : pos = blen pre) (st : RState) :
    readToks x pos toks st = readToks x' pos toks st := by
  induction toks generalizing pre pos st with
  | nil => rfl
  | cons t toks ih =>
    obtain ⟨text, tag⟩ := t
    obtain ⟨c, w, hc⟩ := List.exists_cons_of_ne_nil (hne (text, tag) (by simp))
    simp only at hc
    subst hc
    subst hp
    rw [srcOf_cons] at h h'
    have e1 : lineAndColumn x (blen pre + blen text) = lineAndColumn x' (blen pre + blen text) := by
      rw [← blen_append]
      exact lineAndColumn_rest (c := c) (u := w ++ srcOf toks ++ u) (u' := w ++ srcOf toks ++ u') (by rw [h]; simp) (by rw [h']; simp)
    have e0 : lineAndColumn x (blen pre) = lineAndColumn x' (blen pre) := by
      cases text with
      | nil => simpa using e1
      | cons d v =>
        exact lineAndColumn_rest (c := d) (u := v ++ c :: w ++ srcOf toks ++ u) (u' := v ++ c :: w ++ srcOf toks ++ u')
          (by rw [h]; simp) (by rw [h']; simp)
    unfold readToks
    rw [readTag_congr e0 e1]
    congr 1
    funext st
    exact ih (fun t ht => hne t (by simp [ht])) (pre := pre ++ text ++ c :: w) (by rw [h]; simp) (by rw [h']; simp) (by simp; omega) st

/-! ## more input -/

theorem prefix_more {p s y : Str} (h : p <+: s ++ y) (h1 : '>' ∈ s) (h2 : '>' ∉ p) : p <+: s := by
  by_cases hl : p.length ≤ s.length
  · exact List.prefix_of_prefix_length_le h (List.prefix_append s y) hl
  · have := List.prefix_of_prefix_length_le (List.prefix_append s y) h (by omega)
    exact absurd (this.subset h1) h2

theorem shorter_prefix {pat a a' s y : Str} (h : a ++ pat <+: s) (h' : a' ++ pat <+: s ++ y) (hl : a'.length ≤ a.length) : a' ++ pat <+: s :=
  List.prefix_of_prefix_length_le h' (List.prefix_append s y) (by
    have := h.length_le
    simp only [List.length_append] at this ⊢
    omega)

theorem firstAt_more {pat a s : Str} (h : FirstAt pat a s) (y : Str) : FirstAt pat a (s ++ y) := by
  refine ⟨h.here.trans (List.prefix_append s y), fun a' h' => ?_⟩
  by_cases hl : a.length ≤ a'.length
  · exact hl
  · exact h.first a' (shorter_prefix h.here h' (by omega))

theorem firstUnquoted_more {q : Option Char} {pat a s : Str} (h : FirstUnquoted q pat a s) (y : Str) : FirstUnquoted q pat a (s ++ y) := by
  refine ⟨h.here.trans (List.prefix_append s y), h.outside, fun a' h' hq => ?_⟩
  by_cases hl : a.length ≤ a'.length
  · exact hl
  · exact h.first a' (shorter_prefix h.here h' (by omega)) hq

theorem firstClosing_more {a s : Str} (h : FirstClosing a s) (y : Str) : FirstClosing a (s ++ y) := by
  refine ⟨h.here.trans (List.prefix_append s y), h.outside, h.balanced, fun a' h' hq hl => ?_⟩
  exact h.first a' (shorter_prefix h.here h' (by omega)) hq hl

/-- a complete tag stays the same when more input comes -/
theorem tagAt_more {s t : Str} (h : TagAt s t) (y : Str) : TagAt (s ++ y) t := by
  cases h with
  | comment h1 h2 => exact .comment (h1.trans (List.prefix_append s y)) (firstAt_more h2 y)
  | @pi a u h1 h2 => exact .pi (u := u ++ y) (by rw [h1]; simp) (firstUnquoted_more h2 y)
  | cdata h1 h2 => exact .cdata (h1.trans (List.prefix_append s y)) (firstAt_more h2 y)
  | @decl a u h1 h2 h3 h4 =>
    have hm : '>' ∈ s := by rw [h1]; exact List.mem_append_right _ (h4.here.subset (by simp))
    exact .decl (u := u ++ y) (by rw [h1]; simp) (fun h => h2 (prefix_more h hm (by decide)))
      (fun h => h3 (prefix_more h hm (by decide))) (firstClosing_more h4 y)
  | @elem a u h1 h2 h3 h4 =>
    have hm : '>' ∈ u := h4.here.subset (by simp)
    exact .elem (u := u ++ y) (by rw [h1]; simp) (fun h => h2 (prefix_more h hm (by decide)))
      (fun h => h3 (prefix_more h hm (by decide))) (firstUnquoted_more h4 y)

theorem tagAt_lt {s t : Str} (h : TagAt s t) : c%"<" <+: s := by
  cases h with
  | comment h1 _ => exact List.IsPrefix.trans (by decide) h1
  | pi h1 _ => exact ⟨_, h1.symm⟩
  | cdata h1 _ => exact List.IsPrefix.trans (by decide) h1
  | decl h1 => exact ⟨_, h1.symm⟩
  | elem h1 => exact ⟨_, h1.symm⟩

theorem lexesTo_more {x r : Str} {toks : List (Str × Str)} (h : LexesTo x toks r) (y : Str) : LexesTo (x ++ y) toks (r ++ y) := by
  induction h with
  | done => exact .done
  | @tag text tag rest s r toks h1 h2 h3 _ ih =>
    rw [List.append_assoc]
    exact .tag h1 (tagAt_more h2 y) (by rw [h3]; simp) ih

theorem lexesTo_ne {x r : Str} {toks : List (Str × Str)} (h : LexesTo x toks r) : ∀ t ∈ toks, t.2 ≠ [] := by
  induction h with
  | done => simp
  | tag h1 h2 _ _ ih =>
    intro t ht
    rcases List.mem_cons.1 ht with rfl | ht
    · intro h
      have := tagAt_pos h2
      simp only at h
      rw [h] at this
      cases this
    · exact ih t ht

theorem lex_of_lexesTo {x r : Str} {toks toks' : List (Str × Str)} {e : Option Nat} (h : LexesTo x toks r) (pos : Nat)
    (h' : Lex (pos + blen (srcOf toks)) r toks' e) : Lex pos x (toks ++ toks') e := by
  induction h generalizing pos with
  | done => simpa [srcOf_nil] using h'
  | @tag text tag rest s r toks h1 h2 h3 _ ih =>
    refine .tag h1 (tagAt_lt h2) h2 h3 (ih _ ?_)
    rw [srcOf_cons] at h'
    rw [blen_append, blen_append] at h'
    rwa [show pos + blen text + blen tag + blen (srcOf toks) = pos + (blen text + blen tag + blen (srcOf toks)) by omega]

theorem lexesTo_of_lex {pos : Nat} {x : Str} {toks : List (Str × Str)} {e : Option Nat} (h : Lex pos x toks e) :
    ∃ r, LexesTo x toks r ∧ (e = none → '<' ∉ r) := by
  induction h with
  | done h => exact ⟨_, .done, fun _ => h⟩
  | fail => exact ⟨_, .done, fun h => by cases h⟩
  | tag h1 h2 h3 h4 _ ih =>
    obtain ⟨r, k1, k2⟩ := ih
    exact ⟨r, .tag h1 h3 h4 k1, k2⟩

end KissXml
