import Verif.Proofs.Safe
/-!
# Positions in errors
-/
namespace KissXml
open Spec

/-- the offset of a `<` that begins a tag (or would begin one, if the tag had an end) -/
def TagStart (x : Str) (pos : Nat) : Prop :=
  ∃ a text b toks, x = a ++ (text ++ '<' :: b) ∧ LexesTo x toks (text ++ '<' :: b) ∧ '<' ∉ text ∧ pos = blen (a ++ text)

theorem lexesTo_snoc {x text s tag rest : Str} {toks : List (Str × Str)} (h : LexesTo x toks (text ++ s)) (h1 : '<' ∉ text)
    (h2 : TagAt s tag) (h3 : s = tag ++ rest) : LexesTo x (toks ++ [(text, tag)]) rest := by
  generalize hy : text ++ s = y at h
  induction h with
  | done => subst hy; exact .tag h1 h2 h3 .done
  | tag k1 k2 k3 _ ih => exact .tag k1 k2 k3 (ih hy)

/-- errors with a position have that of a `<`, except for text outside of the root -/
def GoodErr (x : Str) : Err → Prop
  | .parsing m (some lc) => m = .textOutsideRoot ∨ ∃ pos, TagStart x pos ∧ lc = lineAndColumn x pos
  | .notSupported _ (some lc) => ∃ pos, TagStart x pos ∧ lc = lineAndColumn x pos
  | _ => True

/-- the result is no bad error -/
def LE {α : Type} (x : Str) (r : R α) : Prop := ∀ e, r = .err e → GoodErr x e

theorem le_ok {α : Type} {x : Str} (a : α) : LE x (.ok a : R α) := by intro e h; cases h
theorem le_panic {α : Type} {x : Str} : LE x (.panic : R α) := by intro e h; cases h
theorem le_unwrap {α : Type} {x : Str} (o : Option α) : LE x (Res.unwrap o : R α) := by
  cases o <;> intro e h <;> cases h
theorem le_err {α : Type} {x : Str} {e : Err} (h : GoodErr x e) : LE x (.err e : R α) := by
  rintro _ ⟨⟩; exact h
theorem le_errAt {α : Type} {x : Str} {m : PMsg} {pos : Nat} (h : TagStart x pos) : LE x (.err (errAt m x pos) : R α) :=
  le_err (.inr ⟨pos, h, rfl⟩)
theorem le_bind {α β : Type} {x : Str} {r : R α} {f : α → R β} (h : LE x r) (hf : ∀ a, r = .ok a → LE x (f a)) : LE x (r >>= f) := by
  cases r with
  | ok a => exact hf a rfl
  | err e => rintro e' ⟨⟩; exact h e rfl
  | panic => exact le_panic
  | diverge => intro e h; cases h
theorem le_rewrap {α : Type} {x : Str} {r : R α} {pos : Nat} (h : LE x r) (hp : TagStart x pos) : LE x (r.mapErr (rewrap x pos)) := by
  cases r with
  | ok a => exact le_ok a
  | panic => exact le_panic
  | diverge => intro e h; cases h
  | err e =>
    rintro e' ⟨⟩
    have := h e rfl
    cases e with
    | parsing m lc => exact .inr ⟨pos, hp, rfl⟩
    | _ => exact this
theorem le_unescape {x s : Str} : LE x (unescape s : R Str) := by
  intro e h
  exact absurd h ((unescapeLoop_bound _ _ _ (by omega) (by omega)).2.1 e)
theorem le_realText {x s : Str} : LE x (realText s) := by
  unfold realText
  split
  · exact le_ok _
  · exact le_bind le_unescape (fun _ _ => le_ok _)

theorem le_parseAttrs {x : Str} {pos : Nat} (hp : TagStart x pos) (l : List Str) (m : SMap) : LE x (parseAttrs x pos l m) := by
  induction l generalizing m with
  | nil => exact le_ok _
  | cons kv l ih =>
    unfold parseAttrs
    split
    · exact le_errAt hp
    · refine le_bind (le_unwrap _) ?_
      rintro ⟨k, v⟩ -
      simp only
      split
      · exact le_errAt hp
      · split
        · exact le_errAt hp
        · exact le_bind (le_unwrap _) (fun _ _ => le_bind le_unescape (fun _ _ => ih _))

theorem le_new {x : Str} (name : Str) (attrs : SMap) (xmlns pfx : Option Str) :
    LE x (ElementF.new name none (some attrs) xmlns pfx none) := by
  rw [new_plain]
  split
  · exact le_err trivial
  · split
    · exact le_err trivial
    · exact le_ok _

theorem le_parseNewElement {x : Str} {pos : Nat} (hp : TagStart x pos) (t : Str) (parent : Option Element) :
    LE x (parseNewElement t x pos parent) := by
  unfold parseNewElement
  split
  · exact le_errAt hp
  · refine le_bind (le_parseAttrs hp _ _) ?_
    intro attrs _
    refine le_bind (le_unwrap _) ?_
    intro name _
    have hsplit : ∀ (ic : Option SMap), LE x (if contains name c%":" then do
        let (a, b) ← Res.unwrap (splitOnce ':' name)
        let key := c%"xmlns:" ++ a
        if attrs.containsKey key then pure (b, attrs.get key, some a)
        else match ic with
          | none => .err (errAt (.undefinedPrefix a) x pos)
          | some ctx => pure (b, ctx.get key, some a)
      else pure (name, none, none) : R (Str × Option Str × Option Str)) := by
      intro ic
      split
      · refine le_bind (le_unwrap _) ?_
        rintro ⟨a, b⟩ -
        simp only
        split
        · exact le_ok _
        · cases ic with
          | none => exact le_errAt hp
          | some c => exact le_ok _
      · exact le_ok _
    cases parent with
    | none => exact le_bind (hsplit none) (fun y _ => le_bind (le_new _ _ _ _) (fun _ _ => le_ok _))
    | some p => exact le_bind (hsplit (some p.ctx)) (fun y _ => le_bind (le_new _ _ _ _) (fun _ _ => le_ok _))

theorem le_append {x : Str} (st : ParseTree) (n : Node) : LE x (st.append n) := by
  unfold ParseTree.append
  split
  · exact le_err trivial
  · exact le_bind (le_unwrap _) (fun _ _ => le_ok _)
theorem le_push {x : Str} (st : ParseTree) (e : Element) : LE x (st.push e) := by
  unfold ParseTree.push
  split
  · exact le_ok _
  · exact le_bind (le_unwrap _) (fun _ _ => le_ok _)
theorem le_pop {x : Str} (st : ParseTree) : LE x st.pop := by
  unfold ParseTree.pop
  split
  · exact le_err trivial
  · exact le_bind (le_unwrap _) (fun _ _ => le_ok _)
theorem le_expect {α : Type} {x : Str} (r : R α) : LE x (expect r) := by
  cases r <;> intro e h <;> cases h
theorem le_top {x : Str} (st : ParseTree) : LE x st.topElement := by
  unfold ParseTree.topElement
  split
  · exact le_ok _
  · exact le_bind (le_unwrap _) (fun _ _ => le_bind (le_expect _) (fun _ _ => le_ok _))
theorem le_toDomLoop {x : Str} (n : Nat) (d : List (Nat × PTNode)) : LE x (ParseTree.toDomLoop n d) := by
  induction n generalizing d with
  | zero => exact le_ok _
  | succ n ih =>
    unfold ParseTree.toDomLoop
    refine le_bind (le_unwrap _) (fun _ _ => le_bind (le_unwrap _) (fun _ _ => le_bind (le_unwrap _) (fun _ _ =>
      le_bind (le_expect _) (fun e _ => le_bind ?_ (fun _ _ => ih _)))))
    rw [append_eq]
    exact le_ok _
theorem le_toDom {x : Str} (st : ParseTree) : LE x st.toDom := by
  unfold ParseTree.toDom
  split
  · exact le_err trivial
  · exact le_bind (le_toDomLoop _ _) (fun _ _ => le_bind (le_unwrap _) (fun _ _ => le_bind (le_expect _) (fun _ _ => le_ok _)))
theorem le_commentNew {x : Str} (c : Str) : LE x (commentNew c) := by
  unfold commentNew
  split
  · exact le_err trivial
  · exact le_ok _
theorem le_cdataNew {x : Str} (c : Str) : LE x (cdataNew c) := by
  unfold cdataNew
  split
  · exact le_err trivial
  · exact le_ok _
theorem le_checkElementTag {x : Str} (t : Str) : LE x (checkElementTag t) := by
  unfold checkElementTag
  split
  · exact le_ok _
  · exact le_err trivial

theorem le_handleTag {x : Str} {pos : Nat} (hp : TagStart x pos) (tag : Str) (st : ParseTree) : LE x (handleTag x pos tag st) := by
  unfold handleTag
  split
  · simp only
    split
    · exact le_bind (le_unwrap _) (fun _ _ => le_bind (le_commentNew _) (fun _ _ => le_rewrap (le_append _ _) hp))
    · split
      · exact le_bind (le_commentNew _) (fun _ _ => le_append _ _)
      · exact le_errAt hp
  · split
    · split
      · exact le_errAt hp
      · exact le_bind (le_unwrap _) (fun _ _ => le_bind (le_cdataNew _) (fun _ _ => le_rewrap (le_append _ _) hp))
    · split
      · exact le_bind (le_unwrap _) (fun _ _ => le_err ⟨pos, hp, rfl⟩)
      · refine le_bind (le_unwrap _) (fun _ _ => le_bind (le_rewrap (le_checkElementTag _) hp) (fun _ _ => ?_))
        split
        · refine le_bind (le_top _) ?_
          intro o _
          cases o with
          | none => exact le_errAt hp
          | some e =>
            simp only
            split
            · exact le_errAt hp
            · exact le_pop _
        · refine le_bind (le_top _) (fun _ _ => le_bind (le_parseNewElement hp _ _) (fun _ _ => ?_))
          split
          · exact le_rewrap (le_append _ _) hp
          · exact le_push _ _

theorem le_addText {x : Str} {pos : Nat} (hp : TagStart x pos) (text : Str) (st : ParseTree) : LE x (addText x pos text st) := by
  unfold addText
  refine le_bind le_realText ?_
  intro o _
  cases o with
  | none => exact le_ok _
  | some c => exact le_rewrap (le_append _ _) hp

theorem le_runToks {x : Str} {pos : Nat} {r : Str} {toks : List (Str × Str)} {e : Option Nat} (h : Lex pos r toks e) (sc : Bool) :
    ∀ (pre : Str) (done : List (Str × Str)), x = pre ++ r → LexesTo x done r → pos = blen pre →
      ∀ st, LE x (runToks x sc e pos toks st) := by
  induction h with
  | done => intro pre _ _ _ _ st; exact le_ok _
  | @fail pos text s h1 h2 h3 =>
    intro pre done hx hd hpos st
    obtain ⟨u, rfl⟩ := h2
    exact le_errAt ⟨pre, text, u, done, hx, hd, h1, by simp [hpos]⟩
  | @tag pos text tag rest s toks e h1 h2 ht hs hl ih =>
    intro pre done hx hd hpos st
    have hst : TagStart x (pos + blen text) := by
      obtain ⟨u, rfl⟩ := h2
      exact ⟨pre, text, u, done, hx, hd, h1, by simp [hpos]⟩
    unfold runToks
    split
    · exact le_errAt hst
    · exact le_bind (le_addText hst _ _) (fun _ _ => le_bind (le_handleTag hst _ _) (fun _ _ =>
        ih (pre ++ text ++ tag) _ (by simp [hx, hs]) (lexesTo_snoc hd h1 ht hs) (by simp [hpos, Nat.add_assoc]) _))

theorem le_fromStr {x : Str} (s : Str) : LE x (Declaration.fromStr s) := by
  unfold Declaration.fromStr
  simp only
  split
  · exact le_bind (le_unwrap _) (fun _ _ => le_bind (le_unwrap _) (fun _ _ => le_ok _))
  · exact le_err trivial
theorem le_dtd {x : Str} (s : Str) : LE x (DTD.fromString s) := by
  unfold DTD.fromString
  simp only
  split
  · exact le_bind (le_unwrap _) (fun _ _ => le_bind (le_unwrap _) (fun _ _ => le_ok _))
  · exact le_err trivial

theorem le_prologTag {x : Str} {pos : Nat} {text : Str} (hp : TagStart x (pos + blen text)) (tag : Str) (st : Prolog) :
    LE x (prologTag x pos text tag st) ∧ ∀ st' b, prologTag x pos text tag st = .ok (st', b) →
      st'.tagSpan = (pos + blen text, pos + blen text + blen tag) := by
  unfold prologTag
  constructor
  · refine le_bind le_realText ?_
    intro o _
    simp only
    split
    · exact le_err (.inl rfl)
    · split
      · split
        · exact le_errAt hp
        · exact le_bind (le_fromStr _) (fun _ _ => le_ok _)
      · split
        · refine le_bind ?_ (fun _ _ => le_ok _)
          split
          · exact le_unwrap _
          · exact le_ok _
        · split
          · exact le_bind (le_dtd _) (fun _ _ => le_ok _)
          · split
            · exact le_ok _
            · split
              · exact le_errAt hp
              · refine le_bind ?_ (fun _ _ => le_ok _)
                cases hc : checkElementTag tag with
                | ok _ => exact le_ok _
                | err e => exact le_errAt hp
                | panic => exact le_panic
                | diverge => intro e h; cases h
  · intro st' b h
    obtain ⟨o, ho, h'⟩ := bind_eq_ok.1 h
    clear h
    simp only at h'
    split at h'
    · cases h'
    · split at h'
      · split at h'
        · cases h'
        · obtain ⟨d, -, h2⟩ := bind_eq_ok.1 h'
          cases h2; rfl
      · split at h'
        · obtain ⟨d, -, h2⟩ := bind_eq_ok.1 h'
          cases h2; rfl
        · split at h'
          · obtain ⟨d, -, h2⟩ := bind_eq_ok.1 h'
            cases h2; rfl
          · split at h'
            · cases h'; rfl
            · split at h'
              · cases h'
              · obtain ⟨d, -, h2⟩ := bind_eq_ok.1 h'
                cases h2; rfl

theorem le_runProlog {x : Str} {pos : Nat} {r : Str} {toks : List (Str × Str)} {e : Option Nat} (h : Lex pos r toks e) :
    ∀ (pre : Str) (done : List (Str × Str)), x = pre ++ r → LexesTo x done r → pos = blen pre →
      ∀ st, LE x (runProlog x e pos toks st) ∧
      ∀ st' tag rest, runProlog x e pos toks st = .ok (st', tag, rest) → TagStart x st'.tagSpan.1 ∧
        ∃ pre' r' done', Lex st'.tagSpan.2 r' rest e ∧ x = pre' ++ r' ∧ LexesTo x done' r' ∧ st'.tagSpan.2 = blen pre' := by
  induction h with
  | done => intro pre _ _ _ _ st; exact ⟨le_err trivial, by intro _ _ _ h; cases h⟩
  | @fail pos text s h1 h2 h3 =>
    intro pre done hx hd hpos st
    obtain ⟨u, rfl⟩ := h2
    exact ⟨le_errAt ⟨pre, text, u, done, hx, hd, h1, by simp [hpos]⟩, by intro _ _ _ h; cases h⟩
  | @tag pos text tag rest s toks e h1 h2 ht hs hl ih =>
    intro pre done hx hd hpos st
    have hst : TagStart x (pos + blen text) := by
      obtain ⟨u, rfl⟩ := h2
      exact ⟨pre, text, u, done, hx, hd, h1, by simp [hpos]⟩
    have hih := ih (pre ++ text ++ tag) _ (by simp [hx, hs]) (lexesTo_snoc hd h1 ht hs) (by simp [hpos, Nat.add_assoc])
    obtain ⟨g1, g2⟩ := le_prologTag hst tag st
    unfold runProlog
    constructor
    · refine le_bind g1 ?_
      rintro ⟨st', b⟩ -
      cases b with
      | true => exact le_ok _
      | false => exact (hih st').1
    · intro st' tag' rest' h
      obtain ⟨⟨st1, b⟩, h3, h4⟩ := bind_eq_ok.1 h
      cases b with
      | true =>
        cases h4
        have := g2 _ _ h3
        rw [this]
        exact ⟨hst, pre ++ text ++ tag, rest, _, hl, by simp [hx, hs], lexesTo_snoc hd h1 ht hs, by simp [hpos, Nat.add_assoc]⟩
      | false => exact (hih st1).2 _ _ _ h4

theorem le_parseStr (x : Str) : LE x (parseStr x) := by
  obtain ⟨toks, e, hl⟩ := exists_lex 0 x
  rw [parseStr_eq hl]
  unfold parseToks
  obtain ⟨h1, h2⟩ := le_runProlog hl [] [] rfl .done rfl ⟨none, [], 0, (0, 0)⟩
  refine le_bind h1 ?_
  rintro ⟨st, tag, rest⟩ hst
  obtain ⟨h3, pre', r', done', h4, h5, h5', h6⟩ := h2 _ _ _ hst
  simp only
  refine le_bind (le_unwrap _) (fun _ _ => le_bind (le_parseNewElement h3 _ _) (fun _ _ => le_bind (le_push _ _) (fun _ _ =>
    le_bind ?_ (fun _ _ => le_bind (le_runToks h4 _ pre' done' h5 h5' h6 _) (fun _ _ => ?_)))))
  · split
    · exact le_pop _
    · exact le_ok _
  · split
    · exact le_err trivial
    · exact le_bind (le_toDom _) (fun _ _ => le_ok _)

/-! ## lines and columns -/

/-- the part after the last newline -/
def lastLine : Str → Str
  | [] => []
  | c :: a => if '\n' ∈ a then lastLine a else if c = '\n' then a else c :: a

theorem lastLine_noln {a : Str} (h : '\n' ∉ a) : lastLine a = a := by
  cases a with
  | nil => rfl
  | cons c a =>
    simp only [List.mem_cons, not_or] at h
    simp [lastLine, h.2, Ne.symm h.1]

theorem lastLine_split (u v : Str) (hu : u = [] ∨ ∃ u', u = u' ++ ['\n']) (hv : '\n' ∉ v) : lastLine (u ++ v) = v := by
  rcases hu with rfl | ⟨u', rfl⟩
  · exact lastLine_noln hv
  · induction u' with
    | nil => simp [lastLine, hv]
    | cons c u' ih =>
      simp only [List.cons_append, lastLine]
      rw [if_pos (by simp), ih]

theorem lastLine_exists (a : Str) : ∃ u v, a = u ++ v ∧ (u = [] ∨ ∃ u', u = u' ++ ['\n']) ∧ '\n' ∉ v := by
  induction a with
  | nil => exact ⟨[], [], rfl, .inl rfl, by simp⟩
  | cons c a ih =>
    obtain ⟨u, v, rfl, hu, hv⟩ := ih
    rcases hu with rfl | ⟨u', rfl⟩
    · by_cases hc : c = '\n'
      · subst hc; exact ⟨['\n'], v, rfl, .inr ⟨[], rfl⟩, hv⟩
      · exact ⟨[], c :: v, rfl, .inl rfl, by simp [hv, Ne.symm hc]⟩
    · exact ⟨c :: (u' ++ ['\n']), v, rfl, .inr ⟨c :: u', rfl⟩, hv⟩

theorem lineColLoop_eq (pos i line col : Nat) (a : Str) (c : Char) (b : Str) (hc : c ≠ '\n') (hi : i + blen a = pos) :
    lineColLoop pos i line col (a ++ c :: b) =
      (line + a.count '\n', (if '\n' ∈ a then 1 else col) + (lastLine a).length + 1) := by
  induction a generalizing i line col with
  | nil =>
    simp only [List.nil_append, lineColLoop, if_neg hc]
    rw [if_pos (by simp at hi; omega)]
    simp [lastLine]
  | cons d a ih =>
    have hd : 0 < d.utf8Size := Char.utf8Size_pos d
    simp only [blen_cons] at hi
    rw [List.cons_append, lineColLoop]
    by_cases hn : d = '\n'
    · subst hn
      simp only [if_true]
      rw [if_neg (by omega), ih _ _ _ (by omega)]
      have hl : (lastLine ('\n' :: a)).length = (lastLine a).length := by
        simp only [lastLine]
        split
        · rfl
        · rename_i h; rw [lastLine_noln h]; simp
      rw [hl]
      simp only [List.count_cons_self, List.mem_cons, true_or, if_true, Prod.mk.injEq]
      constructor
      · omega
      · split <;> rfl
    · simp only [if_neg hn]
      rw [if_neg (by omega), ih _ _ _ (by omega)]
      have hm : ('\n' ∈ d :: a) ↔ '\n' ∈ a := by simp [Ne.symm hn]
      have hcnt : List.count '\n' (d :: a) = List.count '\n' a := by rw [List.count_cons_of_ne (by simpa using hn)]
      rw [hcnt]
      simp only [hm, Prod.mk.injEq, true_and, lastLine]
      split
      · rfl
      · rename_i h; rw [lastLine_noln h]; simp; omega

theorem lineAndColumn_eq (a : Str) (c : Char) (b : Str) (hc : c ≠ '\n') :
    lineAndColumn (a ++ c :: b) (blen a) = (1 + a.count '\n', (lastLine a).length + 2) := by
  unfold lineAndColumn
  rw [lineColLoop_eq (blen a) 0 1 1 a c b hc (by simp)]
  split <;> simp <;> omega

end KissXml
