import Verif.Spec.Tree
import Verif.Proofs.Shape
/-!
# Nesting of accepted documents
-/
namespace KissXml
open Spec

/-! ## the inside of a tag -/

theorem dropWhile_spec (s : Str) : ∃ w, s = w ++ s.dropWhile isWs ∧ (∀ c ∈ w, isWs c = true) ∧
    ∀ c, (s.dropWhile isWs).head? = some c → isWs c = false := by
  refine ⟨s.takeWhile isWs, by simp, ?_, ?_⟩
  · intro c hc
    exact List.all_eq_true.1 (List.all_takeWhile (p := isWs) (l := s)) c hc
  · intro c hc
    have := List.head?_dropWhile_not isWs s
    rw [hc] at this
    simpa using this

theorem trim_spec (s : Str) : ∃ w1 w2, s = w1 ++ trim s ++ w2 ∧ (∀ c ∈ w1, isWs c = true) ∧ (∀ c ∈ w2, isWs c = true) ∧
    Trimmed (trim s) := by
  obtain ⟨w1, h1, h2, h3⟩ := dropWhile_spec s
  obtain ⟨w2, g1, g2, g3⟩ := dropWhile_spec (s.dropWhile isWs).reverse
  have hs : s.dropWhile isWs = trim s ++ w2.reverse := by
    have := congrArg List.reverse g1
    simpa [trim] using this
  refine ⟨w1, w2.reverse, ?_, h2, by simpa using g2, ?_, ?_⟩
  · rw [List.append_assoc, ← hs]; exact h1
  · intro c hc
    apply h3
    rw [hs]
    cases ht : trim s with
    | nil => rw [ht] at hc; simp at hc
    | cons d t => rw [ht] at hc; simpa using hc
  · intro c hc
    apply g3
    simpa [trim] using hc

theorem all_iff {w : Str} : w.all isWs = true ↔ ∀ c ∈ w, isWs c = true := by simp

theorem inner_iff {tag s : Str} : Inner tag s ↔ stripTag tag = some s ∧ ∃ u, tag = c%"<" ++ u ++ c%">" := by
  have hsz : ∀ (c : Char) (u : Str), c.utf8Size = 1 → dropB 1 (c :: u) = some u := by
    intro c u hc
    exact dropB_eq_some.2 ⟨[c], rfl, by simp [hc]⟩
  have htk : ∀ (c : Char) (u : Str), c.utf8Size = 1 → takeB (blen (u ++ [c]) - 1) (u ++ [c]) = some u := by
    intro c u hc
    exact takeB_eq_some.2 ⟨[c], rfl, by simp [hc]⟩
  have key : ∀ (u rest m : Str), (c%"/" <+: u ++ c%">" ∧ u ++ c%">" = '/' :: rest ∨ ¬ c%"/" <+: u ++ c%">" ∧ rest = u ++ c%">") →
      rest = m ++ c%">" →
      stripTag (c%"<" ++ u ++ c%">") = (if endsWith m c%"/" then takeB (blen m - 1) m else some m).bind fun t => some (trim t) := by
    intro u rest m h hm
    unfold stripTag
    rw [if_pos (startsWith_iff.2 ⟨u ++ c%">", by simp⟩)]
    rw [List.append_assoc, List.singleton_append, hsz '<' _ (by decide)]
    simp only [Option.bind_some]
    have : (if startsWith (u ++ c%">") c%"/" = true then dropB 1 (u ++ c%">") else some (u ++ c%">")) = some rest := by
      rcases h with ⟨h1, h2⟩ | ⟨h1, h2⟩
      · rw [if_pos (startsWith_iff.2 h1), h2, hsz '/' _ (by decide)]
      · rw [if_neg (by rwa [startsWith_iff]), h2]
    rw [this, hm]
    simp only [Option.bind_some]
    rw [if_pos (endsWith_iff.2 ⟨m, rfl⟩), htk '>' m (by decide)]
    rfl
  constructor
  · rintro ⟨a, m, b, w1, w2, ht, ha, hb, hm, hw1, hw2, hT⟩
    have htrim : trim m = s := by rw [hm]; exact trim_eq (all_iff.2 hw1) (all_iff.2 hw2) hT.1 hT.2
    -- split off the last `>`
    obtain ⟨b', hb'⟩ : ∃ b', b = b' ++ c%">" := by
      rcases hb with rfl | ⟨rfl, -⟩
      · exact ⟨c%"/", rfl⟩
      · exact ⟨[], rfl⟩
    have hend : (if endsWith (m ++ b') c%"/" then takeB (blen (m ++ b') - 1) (m ++ b') else some (m ++ b')) = some m := by
      rcases hb with rfl | ⟨rfl, hns⟩
      · have : b' = c%"/" := by
          have : c%"/" ++ c%">" = b' ++ c%">" := hb'
          exact (List.append_cancel_right this).symm
        subst this
        rw [if_pos (endsWith_iff.2 ⟨m, rfl⟩), htk '/' m (by decide)]
      · have : b' = [] := by
          have : [] ++ c%">" = b' ++ c%">" := hb'
          exact (List.append_cancel_right this).symm
        subst this
        rw [List.append_nil, if_neg (by rwa [endsWith_iff])]
    rcases ha with rfl | ⟨rfl, hna⟩
    · refine ⟨?_, '/' :: m ++ b', by rw [ht, hb']; simp⟩
      have := key ('/' :: m ++ b') (m ++ b' ++ c%">") (m ++ b') (.inl ⟨⟨m ++ b' ++ c%">", by simp⟩, by simp⟩) rfl
      rw [show tag = c%"<" ++ ('/' :: m ++ b') ++ c%">" by rw [ht, hb']; simp, this, hend]
      simp [htrim]
    · have ht' : tag = c%"<" ++ (m ++ b') ++ c%">" := by rw [ht, hb']; simp
      refine ⟨?_, m ++ b', ht'⟩
      have := key (m ++ b') (m ++ b' ++ c%">") (m ++ b') (.inr ⟨?_, rfl⟩) rfl
      · rw [ht', this, hend]; simp [htrim]
      · rintro ⟨v, hv⟩
        apply hna
        rw [ht', List.append_assoc, ← hv]
        exact ⟨v, by simp⟩
  · rintro ⟨hs, u, rfl⟩
    obtain ⟨a, rest, ha, htag, hcase⟩ : ∃ a rest, (a = c%"</" ∨ (a = c%"<" ∧ ¬ c%"</" <+: c%"<" ++ u ++ c%">")) ∧
        c%"<" ++ u ++ c%">" = a ++ rest ∧
        (c%"/" <+: u ++ c%">" ∧ u ++ c%">" = '/' :: rest ∨ ¬ c%"/" <+: u ++ c%">" ∧ rest = u ++ c%">") := by
      by_cases h : c%"/" <+: u ++ c%">"
      · obtain ⟨v, hv⟩ := h
        refine ⟨c%"</", v, .inl rfl, ?_, .inl ⟨⟨v, hv⟩, hv.symm⟩⟩
        rw [List.append_assoc, ← hv]; simp
      · refine ⟨c%"<", u ++ c%">", .inr ⟨rfl, ?_⟩, by simp, .inr ⟨h, rfl⟩⟩
        rintro ⟨v, hv⟩
        apply h
        simp only [List.cons_append, List.nil_append, List.cons.injEq, true_and] at hv
        exact ⟨v, by simpa using hv⟩
    obtain ⟨m, hm⟩ : ∃ m, rest = m ++ c%">" := by
      rcases hcase with ⟨-, h⟩ | ⟨-, h⟩
      · cases u with
        | nil => simp at h
        | cons d u => simp at h; exact ⟨u, h.2.symm⟩
      · exact ⟨u, h⟩
    rw [key u rest m hcase hm] at hs
    by_cases he : c%"/" <:+ m
    · obtain ⟨m', rfl⟩ := he
      rw [if_pos (endsWith_iff.2 ⟨m', rfl⟩), htk '/' m' (by decide)] at hs
      simp only [Option.bind_some, Option.some.injEq] at hs
      obtain ⟨w1, w2, g1, g2, g3, g4⟩ := trim_spec m'
      exact ⟨a, m', c%"/>", w1, w2, by rw [htag, hm]; simp, ha, .inl rfl, by rw [← hs]; exact g1, g2, g3, hs ▸ g4⟩
    · rw [if_neg (by rwa [endsWith_iff])] at hs
      simp only [Option.bind_some, Option.some.injEq] at hs
      obtain ⟨w1, w2, g1, g2, g3, g4⟩ := trim_spec m
      exact ⟨a, m, c%">", w1, w2, by rw [htag, hm]; simp, ha, .inr ⟨rfl, he⟩, by rw [← hs]; exact g1, g2, g3, hs ▸ g4⟩

/-! ## words -/

theorem qstep_none {c : Char} : qstep none c = if c = '"' ∨ c = '\'' then some c else none := rfl

theorem noBreak_nil (q : Option Char) : NoBreak q [] := by
  intro a c b h; simp at h

theorem noBreak_cons {q : Option Char} {c : Char} {n : Str} :
    NoBreak q (c :: n) ↔ (q = none → isWs c = false) ∧ NoBreak (qstep q c) n := by
  constructor
  · intro h
    refine ⟨fun hq => h [] c n rfl hq, ?_⟩
    intro a d b hn hq
    exact h (c :: a) d b (by simp [hn]) hq
  · rintro ⟨h1, h2⟩ a d b hn hq
    cases a with
    | nil => simp at hn; rw [← hn.1]; exact h1 hq
    | cons x a => simp at hn; rw [← hn.1] at hq; exact h2 a d b hn.2 hq

/-- reading a word -/
theorem qas_word {q : Option Char} {n : Str} (h : NoBreak q n) (b r : Str) :
    qasLoop b q (n ++ r) = qasLoop (b ++ n) (qstate q n) r := by
  induction n generalizing q b with
  | nil => simp [qstate]
  | cons c n ih =>
    obtain ⟨h1, h2⟩ := noBreak_cons.1 h
    rw [List.cons_append, qstate_cons, show b ++ c :: n = (b ++ [c]) ++ n by simp]
    rw [← ih h2]
    cases q with
    | none =>
      rw [qasLoop, qstep_none]
      have hc : (c = '\'' ∨ c = '"') ↔ (c = '"' ∨ c = '\'') := or_comm
      by_cases hq : c = '"' ∨ c = '\''
      · rw [if_pos hq, if_pos (hc.2 hq)]
      · rw [if_neg hq, if_neg (fun h => hq (hc.1 h)), if_neg (by simp [h1 rfl])]
    | some d =>
      rw [qasLoop, qstep]
      split <;> rfl

theorem isWs_not_quote {c : Char} (h : isWs c = true) : ¬ (c = '\'' ∨ c = '"') := by
  rintro (rfl | rfl) <;> revert h <;> decide

theorem qas_ws {c : Char} (h : isWs c = true) (b r : Str) :
    qasLoop b none (c :: r) = if b.isEmpty then qasLoop [] none r else b :: qasLoop [] none r := by
  rw [qasLoop, if_neg (isWs_not_quote h), if_pos h]
  cases b <;> rfl

theorem first_word (q : Option Char) (s : Str) : ∃ n r, s = n ++ r ∧ NoBreak q n ∧
    (r = [] ∨ ∃ c r', r = c :: r' ∧ isWs c = true ∧ qstate q n = none) := by
  induction s generalizing q with
  | nil => exact ⟨[], [], rfl, noBreak_nil _, .inl rfl⟩
  | cons c s ih =>
    by_cases h : q = none ∧ isWs c = true
    · exact ⟨[], c :: s, rfl, noBreak_nil _, .inr ⟨c, s, rfl, h.2, h.1⟩⟩
    · obtain ⟨n, r, h1, h2, h3⟩ := ih (qstep q c)
      refine ⟨c :: n, r, by simp [h1], noBreak_cons.2 ⟨?_, h2⟩, h3⟩
      intro hq
      rw [Bool.eq_false_iff]
      exact fun hc => h ⟨hq, hc⟩

theorem split_firstWord {s n : Str} {comps : List Str} (ht : Trimmed s) (h : quoteAwareSplit s = n :: comps) : FirstWord s n := by
  obtain ⟨m, r, h1, h2, h3⟩ := first_word none s
  have hm : m ≠ [] := by
    rintro rfl
    rcases h3 with rfl | ⟨c, r', rfl, hc, -⟩
    · subst h1; simp [quoteAwareSplit, qasLoop] at h
    · have := ht.1 c (by rw [h1]; rfl)
      rw [hc] at this; cases this
  unfold quoteAwareSplit at h
  rw [h1, qas_word h2, List.nil_append] at h
  have hmn : m = n := by
    rcases h3 with rfl | ⟨c, r', rfl, hc, hq⟩
    · rw [qasLoop] at h
      rw [if_neg (by simpa using hm)] at h
      simp at h; exact h.1
    · rw [hq, qas_ws hc, if_neg (by simpa using hm)] at h
      simp at h; exact h.1
  subst hmn
  exact ⟨hm, h2, r, h1, h3⟩

/-! ## kinds and names of accepted tags -/

theorem kind_close {tag : Str} (h : c%"</" <+: tag) : kind tag = .close := by
  unfold kind
  rw [if_neg (by obtain ⟨u, rfl⟩ := h; rintro ⟨v, hv⟩; simp at hv), if_pos h]

theorem kind_mark {tag : Str} (h : c%"<!" <+: tag) : kind tag = .mark := by
  unfold kind; rw [if_pos h]

theorem kind_empty {parent : Option Element} {tag : Str} {e : Element} (h : Opens parent tag e) (hs : c%"/>" <:+ tag) :
    kind tag = .empty := by
  unfold kind; rw [if_neg h.not_decl, if_neg h.not_close, if_pos hs]

theorem kind_start {parent : Option Element} {tag : Str} {e : Element} (h : Opens parent tag e) (hs : ¬ c%"/>" <:+ tag) :
    kind tag = .start := by
  unfold kind; rw [if_neg h.not_decl, if_neg h.not_close, if_neg hs]

theorem tagName_eq {e : Element} {n : Str} : e.tagName = n ↔
    (e.pfx = none ∧ e.name = n) ∨ ∃ p, e.pfx = some p ∧ n = p ++ ':' :: e.name := by
  obtain ⟨m, cs, a, x, q, c⟩ := e
  cases q <;> simp [ElementF.tagName, eq_comm]

theorem newElem_tagName {t : Str} {parent : Option Element} {attrs : SMap} {n0 n : Str} {x q : Option Str} {e : Element}
    (h : NewElem t parent attrs n0 n x q e) : e.tagName = n0 := by
  have hf := setNamespaceContext_fields (⟨n, [], attrs, x.or (ownNs attrs q), q, ElementF.xmlnsContextFromAttributes attrs⟩ : Element)
    (parent.bind ElementF.defaultNamespace) (parent.map ElementF.ctx)
  rw [← h.eq] at hf
  rw [tagName_eq, hf.1, hf.2.2.2]
  cases h.name with
  | plain => exact .inl ⟨rfl, rfl⟩
  | own h1 => exact .inr ⟨_, rfl, h1⟩
  | inh h1 => exact .inr ⟨_, rfl, h1⟩

theorem tagAt_form {s t : Str} (h : TagAt s t) : ∃ u, t = c%"<" ++ u ++ c%">" := by
  have hend : c%">" <:+ t := by
    cases h with
    | comment h1 => exact ⟨_ ++ c%"--", by rw [List.append_assoc]; rfl⟩
    | pi => exact ⟨_ ++ c%"?", by rw [List.append_assoc]; rfl⟩
    | cdata h1 => exact ⟨_ ++ c%"]]", by rw [List.append_assoc]; rfl⟩
    | decl => exact ⟨_, rfl⟩
    | elem => exact ⟨_, rfl⟩
  have hstart : c%"<" <+: t := by
    cases h with
    | comment h1 h2 =>
      have h3 := h2.here
      obtain ⟨u, hu⟩ := h1
      obtain ⟨v, hv⟩ := h3
      cases ha : (_ : Str) ++ c%"-->" with
      | nil => simp at ha
      | cons d l =>
        rw [ha] at hv
        rw [← hu] at hv
        simp at hv
        exact ⟨l, by rw [hv.1]; rfl⟩
    | pi => exact ⟨_, by simp only [List.append_assoc]; rfl⟩
    | cdata h1 h2 =>
      have h3 := h2.here
      obtain ⟨u, hu⟩ := h1
      obtain ⟨v, hv⟩ := h3
      cases ha : (_ : Str) ++ c%"]]>" with
      | nil => simp at ha
      | cons d l =>
        rw [ha] at hv
        rw [← hu] at hv
        simp at hv
        exact ⟨l, by rw [hv.1]; rfl⟩
    | decl => exact ⟨_, by simp only [List.append_assoc]; rfl⟩
    | elem => exact ⟨_, by simp only [List.append_assoc]; rfl⟩
  exact prefix_suffix_head hstart hend (by decide)

/-- `<…>` -/
def Angled (t : Str) : Prop := ∃ u, t = c%"<" ++ u ++ c%">"

theorem lex_angled {pos : Nat} {r : Str} {toks : List (Str × Str)} {e : Option Nat} (h : Lex pos r toks e) :
    ∀ t ∈ toks, Angled t.2 := by
  induction h with
  | done => simp
  | fail => simp
  | @tag pos text tag rest s toks e h1 h2 ht hs hl ih =>
    intro t htm
    rcases List.mem_cons.1 htm with rfl | htm
    · exact tagAt_form ht
    · exact ih t htm

theorem opens_name {parent : Option Element} {tag : Str} {e : Element} (h : Opens parent tag e) (ha : Angled tag) :
    OpenName tag e.tagName := by
  obtain ⟨t, attrs, n0, n, x, q, h1, hN⟩ := h.elem
  have hi := inner_iff.2 ⟨h1, ha⟩
  obtain ⟨comps, -, -, h2, -⟩ := hN.attrs_ok
  rw [newElem_tagName hN]
  refine ⟨t, hi, split_firstWord ?_ h2⟩
  obtain ⟨_, _, _, _, _, _, _, _, _, _, _, hT⟩ := hi
  exact hT

/-! ## nesting -/

/-- the tags of a token list -/
abbrev tagsOf (toks : List (Str × Str)) : List Str := toks.map Prod.snd

theorem body_nested {e : Element} {toks : List (Str × Str)} {f : Forest} (h : Body e toks f) (ha : ∀ t ∈ toks, Angled t.2) :
    ∀ (o rest : List Str), WellNested o rest → WellNested (e.tagName :: o) (tagsOf toks ++ rest) := by
  induction h with
  | close hc _ =>
    intro o rest hr
    exact .close (kind_close hc.slash) (inner_iff.2 ⟨hc.name, ha (_, _) (List.mem_cons_self ..)⟩) hr
  | comment _ _ _ ih =>
    intro o rest hr
    exact .mark (kind_mark ⟨_, rfl⟩) (ih (fun t ht => ha t (by simp [ht])) o rest hr)
  | cdata _ _ _ ih =>
    intro o rest hr
    exact .mark (kind_mark ⟨_, rfl⟩) (ih (fun t ht => ha t (by simp [ht])) o rest hr)
  | empty hO hs _ _ ih =>
    intro o rest hr
    exact .empty (kind_empty hO hs) (ih (fun t ht => ha t (by simp [ht])) o rest hr)
  | @elem e c text tag toks1 toks2 k f f' hO hs _ _ _ ih1 ih2 =>
    intro o rest hr
    refine .start (kind_start hO hs) (opens_name hO (ha _ (by simp))) ?_
    have h12 : tagsOf toks1 ++ tagsOf toks2 ++ rest = tagsOf toks1 ++ (tagsOf toks2 ++ rest) := List.append_assoc _ _ _
    rw [List.map_append]
    show WellNested _ (tagsOf toks1 ++ tagsOf toks2 ++ rest)
    rw [h12]
    exact ih1 (fun t ht => ha t (by simp [ht])) _ _ (ih2 (fun t ht => ha t (by simp [ht])) o rest hr)

theorem tops_nested {toks : List (Str × Str)} {e E : Element} {f F : Forest} (h : Tops toks e f E F)
    (ha : ∀ t ∈ toks, Angled t.2) : WellNested [] (tagsOf toks) := by
  induction h with
  | nil => exact .done
  | more _ hO hs hB _ ih =>
    refine .start (kind_start hO hs) (opens_name hO (ha _ (by simp))) ?_
    simp only [List.map_append]
    exact body_nested hB (fun t ht => ha t (by simp [ht])) _ _ (ih (fun t ht => ha t (by simp [ht])))

theorem root_nested {tag : Str} {rest : List (Str × Str)} {E : Element} {F : Forest} (h : RootPart tag rest E F)
    (ht : Angled tag) (ha : ∀ t ∈ rest, Angled t.2) : WellNested [] (tag :: tagsOf rest) := by
  cases h with
  | empty hO hs hr => subst hr; exact .empty (kind_empty hO hs) .done
  | elem hO hs hr hB hT =>
    subst hr
    refine .start (kind_start hO hs) (opens_name hO ht) ?_
    simp only [List.map_append]
    exact body_nested hB (fun t ht => ha t (by simp [ht])) _ _ (tops_nested hT (fun t ht => ha t (by simp [ht])))

theorem body_depth {e : Element} {toks : List (Str × Str)} {f : Forest} (h : Body e toks f) : depth (tagsOf toks) = -1 := by
  induction h with
  | close hc _ => simp [depth, delta, kind_close hc.slash]
  | comment _ _ _ ih =>
    simp only [depth, tagsOf, List.map_cons, List.sum_cons] at ih ⊢
    rw [ih, delta, kind_mark (List.IsPrefix.trans (by decide) ⟨_, List.append_assoc _ _ _ |>.symm⟩)]; rfl
  | cdata _ _ _ ih =>
    simp only [depth, tagsOf, List.map_cons, List.sum_cons] at ih ⊢
    rw [ih, delta, kind_mark (List.IsPrefix.trans (by decide) ⟨_, List.append_assoc _ _ _ |>.symm⟩)]; rfl
  | empty hO hs _ _ ih =>
    simp only [depth, tagsOf, List.map_cons, List.sum_cons] at ih ⊢
    rw [ih, delta, kind_empty hO hs]; rfl
  | elem hO hs _ _ _ ih1 ih2 =>
    simp only [depth, tagsOf, List.map_cons, List.sum_cons, List.map_append, List.sum_append] at ih1 ih2 ⊢
    rw [ih1, ih2, delta, kind_start hO hs]; rfl

/-- a document with one root has nothing after it -/
theorem root_one {tag : Str} {rest : List (Str × Str)} {E : Element} {F : Forest} (h : RootPart tag rest E F)
    (h1 : OneRoot (tag :: tagsOf rest)) : Opens none tag E ∧
      ((c%"/>" <:+ tag ∧ rest = [] ∧ F = .nil) ∨ (¬ c%"/>" <:+ tag ∧ Body E rest F)) := by
  cases h with
  | empty hO hs hr => exact ⟨hO, .inl ⟨hs, hr, rfl⟩⟩
  | @elem e _ f _ t1 t2 hO hs hr hB hT =>
    subst hr
    cases hT with
    | nil => exact ⟨hO, .inr ⟨hs, by simpa using hB⟩⟩
    | @more text tag' toks rest _ _ _ _ _ _ _ _ _ _ =>
      exfalso
      have := h1 (tag :: tagsOf t1) (tag' :: tagsOf (toks ++ rest)) (by simp) (by simp) (by simp)
      have hd := body_depth hB
      simp only [depth, List.map_cons, List.sum_cons] at this hd
      rw [hd, delta, kind_start hO hs] at this
      simp at this

/-! ## content -/

/-- what the program decodes a piece of text to -/
def Unescapes (text t : Str) : Prop := (unescape text : R Str) = .ok t

theorem textBit_of {text : Str} {f f' : Forest} (h : WithText text f f') :
    ∃ l, TextBit Unescapes text l ∧ plain f' = l ++ plain f := by
  cases h with
  | blank hw => exact ⟨[], .inl ⟨all_iff.1 hw, rfl⟩, rfl⟩
  | @text t hw hu =>
    refine ⟨if Blank t then [] else [.text t], .inr ⟨by simpa using hw, t, hu, rfl⟩, ?_⟩
    rw [plain]
    by_cases hb : Blank t <;> simp [isBlankText, hb]

theorem opens_tagName_children (c : Element) (cs : List Node) : ({ c with children := cs } : Element).tagName = c.tagName := by
  obtain ⟨n, k, a, x, q, cc⟩ := c
  cases q <;> rfl

theorem body_content {e : Element} {toks : List (Str × Str)} {f : Forest} (h : Body e toks f)
    (ha : ∀ t ∈ toks, Angled t.2) : Content Unescapes e.tagName toks (plain f) := by
  induction h with
  | close hc hw =>
    obtain ⟨l, h1, h2⟩ := textBit_of hw
    rw [h2, plain, List.append_nil]
    exact .close (kind_close hc.slash) (inner_iff.2 ⟨hc.name, ha (_, _) (List.mem_cons_self ..)⟩) h1
  | comment _ _ hw ih =>
    obtain ⟨l, h1, h2⟩ := textBit_of hw
    rw [h2]
    exact .comment h1 (ih (fun t ht => ha t (by simp [ht])))
  | cdata _ _ hw ih =>
    obtain ⟨l, h1, h2⟩ := textBit_of hw
    rw [h2]
    exact .cdata h1 (ih (fun t ht => ha t (by simp [ht])))
  | empty hO hs _ hw ih =>
    obtain ⟨l, h1, h2⟩ := textBit_of hw
    rw [h2]
    exact .empty (kind_empty hO hs) (opens_name hO (ha (_, _) (List.mem_cons_self ..))) (opens_children hO) h1 (ih (fun t ht => ha t (by simp [ht])))
  | @elem e c text tag toks1 toks2 k f f' hO hs _ _ hw ih1 ih2 =>
    obtain ⟨l, h1, h2⟩ := textBit_of hw
    rw [h2]
    refine .elem (kind_start hO hs) ?_ ?_ h1 (ih2 (fun t ht => ha t (by simp [ht])))
    · rw [opens_tagName_children]; exact opens_name hO (ha (_, _) (List.mem_cons_self ..))
    · rw [opens_tagName_children]; exact ih1 (fun t ht => ha t (by simp [ht]))

/-! ## comments and CDATA sections -/

/-- sources of the comments and CDATA sections of a list of nodes, in document order -/
def marks (l : List Node) : List Str := (docOrderL l).filterMap markSource

theorem marks_nil : marks [] = [] := rfl

theorem marks_cons (n : Node) (l : List Node) : marks (n :: l) = (docOrder n).filterMap markSource ++ marks l := by
  unfold marks; rw [docOrderL, List.filterMap_append]

theorem marks_append (a b : List Node) : marks (a ++ b) = marks a ++ marks b := by
  induction a with
  | nil => rfl
  | cons n a ih => rw [List.cons_append, marks_cons, marks_cons, ih, List.append_assoc]

/-- not a text -/
def notText (n : Node) : Bool := !n.isText

theorem marks_filter (l : List Node) : marks (l.filter notText) = marks l := by
  induction l with
  | nil => rfl
  | cons n l ih =>
    cases n with
    | text t =>
      rw [marks_cons, docOrder]
      have : markSource (.text t) = none := rfl
      simpa [notText, Node.isText, List.filterMap_cons, this] using ih
    | element e => simp [notText, Node.isText, marks_cons, ih]
    | comment t => simp [notText, Node.isText, marks_cons, ih]
    | cdata t => simp [notText, Node.isText, marks_cons, ih]

theorem filter_consJoin (n : Node) (l : List Node) : (consJoin n l).filter notText = (n :: l).filter notText := by
  unfold consJoin
  split
  · simp [notText, Node.isText]
  · rfl

theorem filter_joinRuns (l : List Node) : (joinRuns l).filter notText = l.filter notText := by
  induction l with
  | nil => rfl
  | cons n l ih =>
    rw [joinRuns, filter_consJoin]
    simp only [List.filter_cons, ih]

theorem filter_normalText (l : List Node) : (normalText l).filter notText = l.filter notText := by
  unfold normalText
  rw [List.filter_filter, ← filter_joinRuns l]
  apply List.filter_congr
  intro n _
  cases n <;> simp [notText, Node.isText, isBlankText]

theorem marks_reverse_normalText (l : List Node) : marks (normalText l).reverse = marks l.reverse := by
  rw [← marks_filter, ← marks_filter l.reverse, List.filter_reverse, List.filter_reverse, filter_normalText]

theorem docOrder_marks_element (e : Element) : (docOrder (.element e)).filterMap markSource = marks e.children := by
  obtain ⟨n, cs, a, x, q, c⟩ := e
  rw [docOrder, List.filterMap_cons]
  rfl

theorem docOrder_marks_apply (d : Option Str) (c : SMap) (n : Node) :
    (docOrder (applyXmlnsContext d c n)).filterMap markSource = (docOrder n).filterMap markSource := by
  cases n with
  | element e =>
    rw [applyXmlnsContext, docOrder_marks_element, docOrder_marks_element, (setNamespaceContext_fields _ _ _).2.1]
  | text _ => rfl
  | comment _ => rfl
  | cdata _ => rfl

/-- marks of a forest -/
def fmarks : Forest → List Str
  | .nil => []
  | .leaf n r => (docOrder n).filterMap markSource ++ fmarks r
  | .elem _ k r => fmarks k ++ fmarks r

theorem fmarks_fappend (f g : Forest) : fmarks (fappend f g) = fmarks f ++ fmarks g := by
  induction f with
  | nil => rfl
  | leaf n r ih => simp [fappend, fmarks, ih]
  | elem e k r _ ih => simp [fappend, fmarks, ih]

/-- elements without content of their own -/
def Bare : Forest → Prop
  | .nil => True
  | .leaf n r => (∀ e, n = .element e → e.children = []) ∧ Bare r
  | .elem e k r => e.children = [] ∧ Bare k ∧ Bare r

theorem ok_bare {f : Forest} (h : f.Ok) : Bare f := by
  induction f with
  | nil => trivial
  | leaf n r ih => obtain ⟨h1, -, h3⟩ := leafOk h; exact ⟨h3, ih h1⟩
  | elem e k r ih1 ih2 => exact ⟨h.1, ih1 h.2.1, ih2 h.2.2⟩

theorem bare_fappend {f g : Forest} (hf : Bare f) (hg : Bare g) : Bare (fappend f g) := by
  induction f with
  | nil => exact hg
  | leaf n r ih => exact ⟨hf.1, ih hf.2⟩
  | elem e k r _ ih => exact ⟨hf.1, hf.2.1, ih hf.2.2⟩

theorem marks_addRev {f : Forest} (h : Bare f) (e : Element) (he : e.children = []) :
    marks (addRev e f).children.reverse = fmarks f := by
  induction f generalizing e with
  | nil => simp [addRev, he, marks_nil, fmarks]
  | leaf n r ih =>
    have hn : ParseTree.flipElement n = n := by
      cases n with
      | element e' =>
        obtain ⟨_, cs, _, _, _, _⟩ := e'
        have := h.1 _ rfl
        simp at this
        simp [ParseTree.flipElement, ElementF.reverseChildren, this]
      | text _ => rfl
      | comment _ => rfl
      | cdata _ => rfl
    rw [addRev, addOne, hn]
    simp only
    rw [marks_reverse_normalText, List.reverse_append, marks_append, List.reverse_singleton, marks_cons, marks_nil,
      docOrder_marks_apply, List.append_nil, ih h.2 e he, fmarks]
  | elem c k r ih1 ih2 =>
    rw [addRev, addOne]
    simp only
    rw [marks_reverse_normalText, List.reverse_append, marks_append, List.reverse_singleton, marks_cons, marks_nil,
      docOrder_marks_apply, List.append_nil, docOrder_marks_element, ih2 h.2.2 e he, fmarks]
    simp only [ElementF.reverseChildren, ih1 h.2.1 c h.1]

/-- comments and CDATA sections among tags -/
def markTags (tags : List Str) : List Str := tags.filter (fun t => kind t = .mark)

theorem fmarks_withText {text : Str} {f f' : Forest} (h : WithText text f f') : fmarks f' = fmarks f := by
  cases h with
  | blank => rfl
  | text => simp [fmarks, docOrder, markSource]

theorem markTags_cons (t : Str) (l : List Str) : markTags (t :: l) = (if kind t = .mark then [t] else []) ++ markTags l := by
  unfold markTags
  rw [List.filter_cons]
  by_cases h : kind t = .mark <;> simp [h]

theorem markTags_append (a b : List Str) : markTags (a ++ b) = markTags a ++ markTags b := by
  unfold markTags; rw [List.filter_append]

theorem body_marks {e : Element} {toks : List (Str × Str)} {f : Forest} (h : Body e toks f) :
    fmarks f = markTags (tagsOf toks) := by
  induction h with
  | close hc hw => rw [fmarks_withText hw]; simp [tagsOf, markTags, kind_close hc.slash, fmarks]
  | comment _ _ hw ih =>
    rw [fmarks_withText hw, fmarks, tagsOf, List.map_cons, markTags_cons, ih]
    rw [if_pos (kind_mark (List.IsPrefix.trans (by decide) ⟨_, List.append_assoc _ _ _ |>.symm⟩))]
    simp [docOrder, markSource]
  | cdata _ _ hw ih =>
    rw [fmarks_withText hw, fmarks, tagsOf, List.map_cons, markTags_cons, ih]
    rw [if_pos (kind_mark (List.IsPrefix.trans (by decide) ⟨_, List.append_assoc _ _ _ |>.symm⟩))]
    simp [docOrder, markSource]
  | empty hO hs _ hw ih =>
    rw [fmarks_withText hw, fmarks, tagsOf, List.map_cons, markTags_cons, ih, kind_empty hO hs, docOrder_marks_element,
      opens_children hO]
    rfl
  | elem hO hs _ _ hw ih1 ih2 =>
    rw [fmarks_withText hw, fmarks, tagsOf, List.map_cons, markTags_cons, ih1, ih2, kind_start hO hs, List.map_append,
      markTags_append]
    rfl

theorem body_bare {e : Element} {toks : List (Str × Str)} {f : Forest} (h : Body e toks f) : Bare f := ok_bare (body_ok h)

theorem tops_marks {toks : List (Str × Str)} {e E : Element} {f F : Forest} (h : Tops toks e f E F) (hf : Bare f)
    (he : e.children = []) : fmarks F = fmarks f ++ markTags (tagsOf toks) ∧ Bare F ∧ E.children = [] := by
  induction h with
  | nil => simp [markTags, hf, he]
  | more _ hO hs hB hT ih =>
    obtain ⟨h1, h2, h3⟩ := ih (bare_fappend hf (body_bare hB)) (opens_children hO)
    refine ⟨?_, h2, h3⟩
    rw [h1, fmarks_fappend, body_marks hB]
    simp only [tagsOf, List.map_cons, List.map_append]
    rw [markTags_cons, kind_start hO hs, markTags_append]
    simp

theorem root_marks {tag : Str} {rest : List (Str × Str)} {E : Element} {F : Forest} (h : RootPart tag rest E F) :
    marks (addRev E F).reverseChildren.children = markTags (tagsOf rest) := by
  cases h with
  | empty hO hs hr =>
    subst hr
    simp [addRev, ElementF.reverseChildren, opens_children hO, markTags, marks_nil]
  | elem hO hs hr hB hT =>
    obtain ⟨h1, h2, h3⟩ := tops_marks hT (body_bare hB) (opens_children hO)
    simp only [ElementF.reverseChildren]
    rw [marks_addRev h2 E h3, h1, body_marks hB, hr]
    simp only [tagsOf, List.map_append]
    rw [markTags_append]

/-! ## the root -/

theorem tops_opens {toks : List (Str × Str)} {e E : Element} {f F : Forest} (h : Tops toks e f E F) {tag : Str}
    (hO : Opens none tag e) : ∃ tag', Opens none tag' E := by
  induction h generalizing tag with
  | nil => exact ⟨tag, hO⟩
  | more _ hO' _ _ _ ih => exact ih hO'

theorem root_opens {tag : Str} {rest : List (Str × Str)} {E : Element} {F : Forest} (h : RootPart tag rest E F) :
    ∃ tag', Opens none tag' E := by
  cases h with
  | empty hO => exact ⟨tag, hO⟩
  | elem hO _ _ _ hT => exact tops_opens hT hO

end KissXml
