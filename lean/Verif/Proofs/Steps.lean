import Verif.Proofs.Faults
import Verif.Proofs.Reader
import Verif.Spec.Crash
/-!
# One step of the parser: how it fails, how it panics
-/
namespace KissXml
open Spec

/-! ## words are unique -/

theorem firstWord_unique {s n n' : Str} (h : FirstWord s n) (h' : FirstWord s n') : n = n' := by
  have key : ∀ {n n' : Str}, FirstWord s n → FirstWord s n' → n'.length ≤ n.length := by
    rintro n n' ⟨-, -, r, hr, hend⟩ ⟨-, hb', r', hr', -⟩
    by_contra hlt
    rcases List.append_eq_append_iff.1 (hr.symm.trans hr') with ⟨w, hw, hw2⟩ | ⟨w, hw, hw2⟩
    · cases w with
      | nil => simp at hw; subst hw; omega
      | cons c w =>
        rcases hend with rfl | ⟨d, r2, rfl, hd, hq⟩
        · simp at hw2
        · simp only [List.cons_append, List.cons.injEq] at hw2
          obtain ⟨rfl, -⟩ := hw2
          have := hb' n d w hw hq
          rw [hd] at this; cases this
    · have := congrArg List.length hw; simp at this; omega
  have h1 := key h h'
  have h2 := key h' h
  obtain ⟨-, -, r, hr, -⟩ := h
  obtain ⟨-, -, r', hr', -⟩ := h'
  exact (List.append_inj (hr.symm.trans hr') (by omega)).1

theorem firstWord_head {s n : Str} (h : FirstWord s n) : ∃ c t, n = c :: t ∧ isWs c = false := by
  obtain ⟨hne, hb, -⟩ := h
  cases n with
  | nil => exact absurd rfl hne
  | cons c t => exact ⟨c, t, rfl, hb [] c t rfl rfl⟩

theorem ws_word_unique {w w' s s' : Str} {c c' : Char} (h : w ++ c :: s = w' ++ c' :: s') (h1 : AllWs w) (h1' : AllWs w')
    (h2 : isWs c = false) (h2' : isWs c' = false) : w = w' ∧ c :: s = c' :: s' := by
  induction w generalizing w' with
  | nil =>
    cases w' with
    | nil => exact ⟨rfl, by simpa using h⟩
    | cons d w' =>
      simp only [List.nil_append, List.cons_append, List.cons.injEq] at h
      have := h1' d (by simp)
      rw [← h.1, h2] at this; cases this
  | cons d w ih =>
    cases w' with
    | nil =>
      simp only [List.nil_append, List.cons_append, List.cons.injEq] at h
      have := h1 d (by simp)
      rw [h.1, h2'] at this; cases this
    | cons d' w' =>
      simp only [List.cons_append, List.cons.injEq] at h
      obtain ⟨rfl, h⟩ := h
      obtain ⟨h3, h4⟩ := ih h (fun c hc => h1 c (by simp [hc])) (fun c hc => h1' c (by simp [hc]))
      exact ⟨by rw [h3], h4⟩

theorem words_unique {s : Str} {l l' : List Str} (h : Words s l) (h' : Words s l') : l = l' := by
  induction h generalizing l' with
  | done hw =>
    cases h' with
    | done _ => rfl
    | word _ h2 _ =>
      obtain ⟨c, t, rfl, hc⟩ := firstWord_head h2
      have := hw c (by simp)
      rw [hc] at this; cases this
  | @word w n r l h1 h2 _ ih =>
    generalize hs : w ++ n ++ r = s at h'
    cases h' with
    | done hw =>
      subst hs
      obtain ⟨c, t, rfl, hc⟩ := firstWord_head h2
      have := hw c (by simp)
      rw [hc] at this; cases this
    | @word w' n' r' l' h1' h2' h3' =>
      have heq : n ++ r = n' ++ r' := by
        obtain ⟨c, t, rfl, hc⟩ := firstWord_head h2
        obtain ⟨c', t', rfl, hc'⟩ := firstWord_head h2'
        simp only [List.append_assoc, List.cons_append] at hs ⊢
        exact (ws_word_unique hs h1 h1' hc hc').2
      have hn : n = n' := by rw [← heq] at h2'; exact firstWord_unique h2 h2'
      subst hn
      have := List.append_cancel_left heq
      subst this
      rw [ih h3']

theorem pieces_unique {tag n n' : Str} {ps ps' : List Str} (h : Pieces tag n ps) (h' : Pieces tag n' ps') : n = n' ∧ ps = ps' := by
  obtain ⟨s, ws, h1, h2, h3⟩ := h
  obtain ⟨s', ws', h1', h2', h3'⟩ := h'
  have := (inner_iff.1 h1).1
  rw [(inner_iff.1 h1').1] at this
  cases this
  have := words_unique h2 h2'
  simp only [List.cons.injEq] at this
  obtain ⟨rfl, rfl⟩ := this
  exact ⟨rfl, joined_unique h3 h3'⟩

/-! ## panics -/

theorem bind_eq_panic {α β : Type} {r : R α} {f : α → R β} : (r >>= f) = .panic ↔ r = .panic ∨ ∃ a, r = .ok a ∧ f a = .panic := by
  cases r <;> simp

theorem mapErr_eq_panic {α : Type} {r : R α} {f : Err → Err} : r.mapErr f = .panic ↔ r = .panic := by cases r <;> simp

theorem unwrap_eq_panic {α : Type} {o : Option α} : (Res.unwrap o : R α) = .panic ↔ o = none := by cases o <;> simp

theorem parseAttrs_quoted {kv k raw : Str} (h : Quoted k raw kv) (b : Str) (pos : Nat) (l : List Str) (m : SMap) :
    parseAttrs b pos (kv :: l) m = (unescape raw >>= fun u => parseAttrs b pos l (m.insert k u)) := by
  obtain ⟨hk, q, hq, rfl⟩ := h
  have hw : q.utf8Size = 1 := by rcases hq with rfl | rfl <;> decide
  have he : k ++ c%"=" ++ [q] ++ raw ++ [q] = k ++ '=' :: q :: (raw ++ [q]) := by simp
  rw [he]
  rw [parseAttrs]
  rw [if_neg (by
    have : contains (k ++ '=' :: q :: (raw ++ [q])) c%"=" = true :=
      contains_iff.2 ((List.singleton_infix_iff _ _).2 (by simp))
    simp [this])]
  rw [splitOnce_eq_some.2 ⟨rfl, hk⟩]
  simp only [Res.unwrap_some, Res.bind_ok]
  rw [if_neg (by simp [hw]), if_neg (by
    simp only [Bool.or_eq_true, decide_eq_true_eq, not_or, Bool.not_eq_true', Bool.not_eq_false]
    refine ⟨by simp [hw]; omega, ?_⟩
    simp only [Bool.and_eq_true, startsWith_iff, endsWith_iff]
    rcases hq with rfl | rfl
    · exact .inl ⟨⟨_, rfl⟩, ⟨'"' :: raw, by simp⟩⟩
    · exact .inr ⟨⟨_, rfl⟩, ⟨'\'' :: raw, by simp⟩⟩)]
  have hsl : sliceB 1 (blen (q :: (raw ++ [q])) - 1) (q :: (raw ++ [q])) = some raw :=
    sliceB_eq_some.2 ⟨[q], [q], by simp, by simp [hw], by simp [hw]; omega⟩
  rw [hsl]
  simp only [Res.unwrap_some, Res.bind_ok]

theorem parseAttrs_unquoted {kv : Str} (h : ¬ ∃ k raw, Quoted k raw kv) (b : Str) (pos : Nat) (l : List Str) (m : SMap) :
    ∃ e, parseAttrs b pos (kv :: l) m = .err e := by
  rw [parseAttrs]
  split
  · exact ⟨_, rfl⟩
  · rename_i hc
    have hm : '=' ∈ kv := (List.singleton_infix_iff _ _).1 (contains_iff.1 (by simpa using hc))
    cases hs : splitOnce '=' kv with
    | none => exact absurd hm (splitOnce_eq_none.1 hs)
    | some kv' =>
      obtain ⟨k, v⟩ := kv'
      obtain ⟨rfl, hk⟩ := splitOnce_eq_some.1 hs
      simp only [Res.unwrap_some, Res.bind_ok]
      split
      · exact ⟨_, rfl⟩
      · split
        · exact ⟨_, rfl⟩
        · rename_i h0 h2
          simp only [Bool.or_eq_true, decide_eq_true_eq, not_or] at h2
          obtain ⟨q, w, hq, hv, hsl⟩ := quoted_form h2.1 (by simpa only [Bool.not_eq_true', Bool.not_eq_false] using h2.2)
          exact absurd ⟨k, w, hk, q, hq, by rw [hv]; simp⟩ h

/-- the piece that makes `parseAttrs` panic -/
def AttrCrash (l : List Str) : Prop :=
  ∃ a p c k raw, l = a ++ p :: c ∧ GoodPieces a ∧ Quoted k raw p ∧ Panics raw

theorem parseAttrs_panic {b : Str} {pos : Nat} {l : List Str} {m : SMap} : parseAttrs b pos l m = .panic ↔ AttrCrash l := by
  induction l generalizing m with
  | nil => simp [parseAttrs, AttrCrash]
  | cons kv l ih =>
    by_cases hq : ∃ k raw, Quoted k raw kv
    · obtain ⟨k, raw, hq⟩ := hq
      rw [parseAttrs_quoted hq, bind_eq_panic]
      constructor
      · rintro (h | ⟨u, h1, h2⟩)
        · exact ⟨[], kv, l, k, raw, rfl, (by intro p hp; simp at hp), hq, panics_iff.2 h⟩
        · obtain ⟨a, p, c, k', raw', rfl, h3, h4⟩ := ih.1 h2
          refine ⟨kv :: a, p, c, k', raw', rfl, ?_, h4⟩
          intro q hm
          rcases List.mem_cons.1 hm with rfl | hm
          · exact ⟨k, raw, hq, u, unescape_ok_iff.1 h1⟩
          · exact h3 q hm
      · rintro ⟨a, p, c, k', raw', h2, h3, h4, h5⟩
        cases a with
        | nil =>
          simp only [List.nil_append, List.cons.injEq] at h2
          obtain ⟨rfl, rfl⟩ := h2
          obtain ⟨rfl, rfl⟩ := quoted_unique hq h4
          exact .inl (panics_iff.1 h5)
        | cons q a =>
          simp only [List.cons_append, List.cons.injEq] at h2
          obtain ⟨rfl, rfl⟩ := h2
          obtain ⟨k2, raw2, h6, u, h7⟩ := h3 kv (by simp)
          obtain ⟨rfl, rfl⟩ := quoted_unique hq h6
          exact .inr ⟨u, unescape_ok_iff.2 h7, ih.2 ⟨a, p, c, k', raw', rfl, fun q hm => h3 q (by simp [hm]), h4, h5⟩⟩
    · obtain ⟨e, he⟩ := parseAttrs_unquoted hq b pos l m
      rw [he]
      simp only [reduceCtorEq, false_iff]
      rintro ⟨a, p, c, k', raw', h2, h3, h4, h5⟩
      cases a with
      | nil =>
        simp only [List.nil_append, List.cons.injEq] at h2
        obtain ⟨rfl, rfl⟩ := h2
        exact hq ⟨_, _, h4⟩
      | cons q a =>
        simp only [List.cons_append, List.cons.injEq] at h2
        obtain ⟨rfl, rfl⟩ := h2
        obtain ⟨k2, raw2, h6, -⟩ := h3 kv (by simp)
        exact hq ⟨_, _, h6⟩

theorem parseAttrs_diverge {b : Str} {pos : Nat} {l : List Str} {m : SMap} : parseAttrs b pos l m ≠ .diverge := by
  exact (np_parseAttrs (x := l.flatten) b pos l (fun s hs => .whole (by obtain ⟨a, c, rfl⟩ := List.append_of_mem hs; exact ⟨a.flatten, c.flatten, by simp⟩)) m).1

theorem nameSplit_np {B : Prop} (b : Str) (pos : Nat) (parent : Option Element) (attrs : SMap) (n : Str) :
    NP B (nameSplit b pos parent attrs n) := by
  unfold nameSplit
  split
  · rename_i hc
    refine np_bind (np_unwrap (fun h => ?_)) ?_
    · exact absurd ((List.singleton_infix_iff _ _).1 (contains_iff.1 hc)) (splitOnce_eq_none.1 h)
    · rintro ⟨a, c⟩ -
      simp only
      split
      · exact np_ok _
      · split
        · exact np_err _
        · exact np_ok _
  · exact np_ok _

theorem new_np {B : Prop} (name : Str) (attrs : SMap) (xmlns pfx : Option Str) :
    NP B (ElementF.new name none (some attrs) xmlns pfx none : R Element) := by
  rw [new_plain]
  split
  · exact np_err _
  · split
    · exact np_err _
    · exact np_ok _

theorem parseNewElement_np {B : Prop} {tag t : Str} (hi : Inner tag t) (b : Str) (pos : Nat) (parent : Option Element)
    (hB : (∃ n ps, Pieces tag n ps ∧ AttrCrash ps) → B) : NP B (parseNewElement t b pos parent) := by
  rw [parseNewElement_eq]
  cases hq : quoteAwareSplit t with
  | nil => exact np_err _
  | cons n comps =>
    refine np_bind ⟨parseAttrs_diverge, fun h => hB ⟨n, _, pieces_split hi hq, parseAttrs_panic.1 h⟩⟩ (fun attrs _ => ?_)
    refine np_bind (nameSplit_np ..) ?_
    rintro ⟨n, x, q⟩ -
    exact np_bind (new_np ..) (fun _ _ => np_ok _)

theorem parseNewElement_panic {tag t n : Str} {ps : List Str} (hi : Inner tag t) (hp : Pieces tag n ps) (hc : AttrCrash ps) (b : Str) (pos : Nat)
    (parent : Option Element) : parseNewElement t b pos parent = .panic := by
  rw [parseNewElement_eq]
  cases hq : quoteAwareSplit t with
  | nil =>
    obtain ⟨s, ws, h1, h2, -⟩ := hp
    have h3 := (inner_iff.1 h1).1
    rw [(inner_iff.1 hi).1] at h3
    cases h3
    have := words_unique h2 (hq ▸ words_split _ t (le_refl _))
    cases this
  | cons n' comps =>
    obtain ⟨rfl, rfl⟩ := pieces_unique hp (pieces_split hi hq)
    simp only
    rw [parseAttrs_panic.2 hc]
    rfl

theorem tagCrash_iff {tag : Str} : TagCrash tag ↔ ¬ BadTag tag ∧ ∃ n ps, Pieces tag n ps ∧ AttrCrash ps := by
  unfold TagCrash AttrCrash
  constructor
  · rintro ⟨h0, n, a, p, b, k, raw, h1, h2⟩
    exact ⟨h0, n, _, h1, a, p, b, k, raw, rfl, h2⟩
  · rintro ⟨h0, n, ps, h1, a, p, b, k, raw, rfl, h2⟩
    exact ⟨h0, n, a, p, b, k, raw, h1, h2⟩

theorem opening_iff {tag : Str} : Opening tag ↔ ¬ c%"<!" <+: tag ∧ ¬ c%"</" <+: tag := by
  unfold Opening kind
  by_cases h1 : c%"<!" <+: tag
  · simp [h1]
  · by_cases h2 : c%"</" <+: tag
    · simp [h1, h2]
    · by_cases h3 : c%"/>" <:+ tag <;> simp [h1, h2, h3]

theorem handleTag_np {B : Prop} {s tag : Str} {st : ParseTree} {Q : Node → Prop} (hst : StackQ Q st) (hT : TagAt s tag) (b : Str) (pos : Nat)
    (h1 : c%"<!" <+: tag → ¬ c%"<!--" <+: tag → ¬ c%"<![CDATA[" <+: tag → NoCut tag → B) (h2 : Opening tag → TagCrash tag → B) :
    NP B (handleTag b pos tag st) := by
  refine np_handleTag_gen b pos tag st hst (fun g1 g2 g3 g4 => h1 g1 (fun h => g2 ⟨h, comment_ends hT h⟩) g3 (abbreviate_none.1 g4)) ?_
  intro t parent ht hm g1 g2
  exact parseNewElement_np (inner_iff.2 ⟨ht, tagAt_angled hT⟩) b pos parent (fun hc =>
    h2 (opening_iff.2 ⟨g1, g2⟩) (tagCrash_iff.2 ⟨fun hb => (by rw [badTag_iff.1 hb] at hm; cases hm), hc⟩))

theorem handleTag_decl {tag : Str} (h1 : c%"<!" <+: tag) (h2 : ¬ c%"<!--" <+: tag) (h3 : ¬ c%"<![CDATA[" <+: tag) (h4 : NoCut tag)
    (b : Str) (pos : Nat) (st : ParseTree) : handleTag b pos tag st = .panic := by
  unfold handleTag
  rw [if_neg (by simp [startsWith_iff, h2]), if_neg (by simp [startsWith_iff, h3]), if_pos (startsWith_iff.2 h1),
    abbreviate_none.2 h4]
  rfl

theorem handleTag_elem {s tag : Str} {st : ParseTree} {Q : Node → Prop} (hst : StackQ Q st) (hT : TagAt s tag) (h1 : Opening tag)
    (h2 : TagCrash tag) (b : Str) (pos : Nat) : handleTag b pos tag st = .panic := by
  obtain ⟨g1, g2⟩ := opening_iff.1 h1
  obtain ⟨hb, n, ps, hp, hc⟩ := tagCrash_iff.1 h2
  obtain ⟨t, ht, -⟩ := stripTag_infix tag
  have hi : Inner tag t := inner_iff.2 ⟨ht, tagAt_angled hT⟩
  have hm : Re.isMatch elemRe tag = true := by
    by_contra h
    exact hb (badTag_iff.2 (by simpa using h))
  obtain ⟨o, ho, -⟩ := stackQ_top hst
  unfold handleTag
  rw [if_neg (by
      simp only [Bool.and_eq_true, startsWith_iff, not_and]
      intro h; exact absurd (List.IsPrefix.trans (by decide) h) g1),
    if_neg (by rw [startsWith_iff]; intro h; exact absurd (List.IsPrefix.trans (by decide) h) g1),
    if_neg (by rw [startsWith_iff]; exact g1), ht, checkElementTag_ok.2 hm]
  simp only [Res.unwrap_some, Res.bind_ok, Res.mapErr_ok]
  rw [if_neg (by rw [startsWith_iff]; exact g2), ho]
  simp only [Res.bind_ok]
  rw [parseNewElement_panic hi hp hc]
  rfl

theorem addText_panic {Q : Node → Prop} {st : ParseTree} (hst : StackQ Q st) {b : Str} {pos : Nat} {text : Str} :
    addText b pos text st = .panic ↔ ¬ AllWs text ∧ Panics text := by
  unfold addText
  by_cases hw : AllWs text
  · rw [realText_ws hw]
    simp [hw]
  · rw [realText_not_ws hw]
    rcases unescape_cases' text with ⟨t, ht⟩ | ht
    · have h1 : (stack : ParseTree) → stack = st → NP False ((stack.append (.text t)).mapErr (rewrap b pos)) := by
        rintro _ rfl; exact np_mapErr (np_append hst _)
      rw [ht]
      simp only [Res.bind_ok, Res.pure_eq, panics_iff, ht, reduceCtorEq, and_false, iff_false]
      exact fun h => (h1 st rfl).2 h
    · rw [panics_iff] at ht
      simp [ht, hw, panics_iff]

theorem addText_ok_iff {Q : Node → Prop} {st : ParseTree} (hst : StackQ Q st) {o : List Str} (ho : Opened st o) {b : Str} {pos : Nat} {text : Str} :
    (∃ st', addText b pos text st = .ok st') ↔ TextFine o text := by
  unfold addText TextFine
  by_cases hw : AllWs text
  · rw [realText_ws hw]
    simp [hw]
  · rw [realText_not_ws hw]
    rcases unescape_cases' text with ⟨t, ht⟩ | ht
    · rw [ht]
      simp only [Res.bind_ok, Res.pure_eq, hw, false_or, mapErr_eq_ok]
      constructor
      · rintro ⟨st', h⟩
        exact ⟨(opened_append ho h).2, t, unescape_ok_iff.1 ht⟩
      · rintro ⟨h, -⟩
        have hst' : StackQ (fun _ => True) st := by
          obtain ⟨A, pos, h0, h1, h2, h3⟩ := hst; exact ⟨A, pos, h0, h1, h2, by simp⟩
        rcases stackQ_append (n := .text t) hst' trivial with ⟨e, he⟩ | ⟨st', he, -⟩
        · exact absurd (ep_append (P := fun _ => o = []) ho (fun h => h) e he) h
        · exact ⟨st', he⟩
    · have : ¬ Returns text := by rintro ⟨t, h⟩; rw [panics_iff] at ht; rw [← unescape_ok_iff (ε := Err), ht] at h; cases h
      rw [panics_iff] at ht
      simp [ht, hw, this]

theorem openAfter_depth {l o : List Str} (h : OpenAfter l o) : depth l = o.length := by
  induction h with
  | nil => rfl
  | mark _ hk ih => rw [depth_append, ih]; simp [depth, delta, hk]
  | empty _ hk ih => rw [depth_append, ih]; simp [depth, delta, hk]
  | start _ hk _ ih => rw [depth_append, ih]; simp [depth, delta, hk]
  | close _ hk _ ih => rw [depth_append, ih]; simp [depth, delta, hk]; omega

theorem textFine_unique {l o o' : List Str} (h : OpenAfter l o) (h' : OpenAfter l o') {text : Str} (ht : TextFine o text) : TextFine o' text := by
  have h1 := openAfter_depth h
  rw [openAfter_depth h'] at h1
  rcases ht with ht | ⟨h2, h3⟩
  · exact .inl ht
  · refine .inr ⟨?_, h3⟩
    rintro rfl
    cases o with
    | nil => exact h2 rfl
    | cons a o => simp at h1; omega

theorem prologTag_panic {s tag : Str} (hT : TagAt s tag) {b : Str} {pos : Nat} {text : Str} {st : Prolog} :
    prologTag b pos text tag st = .panic ↔
      (¬ AllWs text ∧ Panics text) ∨ (AllWs text ∧ c%"<!--" <+: tag ∧ st.noCommentWarn = 0 ∧ NoCut tag) := by
  by_cases hw : AllWs text
  · unfold prologTag
    rw [realText_ws hw]
    simp only [Res.bind_ok, Option.isSome_none, Bool.false_eq_true, if_false, hw, not_true_eq_false, false_and, true_and, false_or]
    by_cases h1 : c%"<?xml" <+: tag
    · rw [if_pos (startsWith_iff.2 h1)]
      have h2 : ¬ c%"<!--" <+: tag := by
        obtain ⟨u, rfl⟩ := h1
        rintro ⟨v, hv⟩
        simp at hv
      simp only [h2, false_and, iff_false]
      split
      · simp
      · obtain ⟨m, rfl⟩ := tagAt_pi_form hT (List.IsPrefix.trans (by decide) h1)
        rw [fromStr_tag]
        simp
    · rw [if_neg (by rwa [startsWith_iff])]
      by_cases h2 : c%"<!--" <+: tag
      · rw [if_pos (startsWith_iff.2 h2)]
        by_cases h3 : st.noCommentWarn = 0
        · rw [if_pos h3, bind_eq_panic, unwrap_eq_panic, abbreviate_none]
          simp [h2, h3]
        · rw [if_neg h3]
          simp [h3]
      · rw [if_neg (by rwa [startsWith_iff])]
        simp only [h2, false_and, iff_false]
        split
        · rename_i h4
          obtain ⟨m, rfl⟩ := tagAt_doctype_form hT (startsWith_iff.1 h4)
          rw [dtd_tag]
          simp
        · split
          · simp
          · split
            · simp
            · unfold checkElementTag
              split <;> simp
  · unfold prologTag
    rw [realText_not_ws hw]
    rcases unescape_cases' text with ⟨t, ht⟩ | ht
    · simp [ht, panics_iff, hw]
    · rw [panics_iff] at ht
      simp [ht, panics_iff, hw]

theorem prologTag_warn {b : Str} {pos : Nat} {text tag : Str} {st st' : Prolog} (h : prologTag b pos text tag st = .ok (st', false)) :
    st'.noCommentWarn = 0 ↔ st.noCommentWarn = 0 ∧ ¬ c%"<!--" <+: tag := by
  unfold prologTag at h
  obtain ⟨ot, -, h⟩ := bind_eq_ok.1 h
  simp only at h
  split at h
  · cases h
  · split at h
    · rename_i hd
      split at h
      · cases h
      · obtain ⟨d, -, h⟩ := bind_eq_ok.1 h
        cases h
        have h2 : ¬ c%"<!--" <+: tag := by
          obtain ⟨u, rfl⟩ := startsWith_iff.1 hd
          rintro ⟨v, hv⟩
          simp at hv
        simp [h2]
    · split at h
      · rename_i hc
        obtain ⟨d, -, h⟩ := bind_eq_ok.1 h
        cases h
        simp [startsWith_iff.1 hc]
      · rename_i hc
        have h2 := not_true_prefix hc
        split at h
        · obtain ⟨d, -, h⟩ := bind_eq_ok.1 h
          cases h
          simp [h2]
        · split at h
          · cases h
            simp [h2]
          · split at h
            · cases h
            · obtain ⟨d, -, h⟩ := bind_eq_ok.1 h
              cases h

theorem prologTag_diverge {s tag : Str} (hT : TagAt s tag) {b : Str} {pos : Nat} {text : Str} {st : Prolog} :
    prologTag b pos text tag st ≠ .diverge :=
  (np_prologTag (x := text ++ tag) (List.prefix_append _ _).isInfix (List.suffix_append _ _).isInfix hT).1

theorem badTag_no_match {tag : Str} (h : BadTag tag) (hm : Re.isMatch elemRe tag = true) : False := by
  rw [badTag_iff.1 h] at hm; cases hm

/-- what a tag of the prolog must be like to be accepted -/
theorem prologTag_fine {x : Str} {pos : Nat} {text tag : Str} {st st' : Prolog} {b : Bool} (h : prologTag x pos text tag st = .ok (st', b)) :
    AllWs text ∧ (c%"<?xml" <+: tag → st.tagSpan.1 = 0) ∧ ¬ c%"</" <+: tag ∧ (¬ IsProlog tag → Re.isMatch elemRe tag = true ∧ b = true) := by
  unfold prologTag at h
  obtain ⟨ot, hot, h⟩ := bind_eq_ok.1 h
  simp only at h
  split at h
  · cases h
  · rename_i hn
    have hws : AllWs text := by
      by_contra hws
      rw [realText_not_ws hws] at hot
      obtain ⟨u, -, hot⟩ := bind_eq_ok.1 hot
      cases hot
      simp at hn
    refine ⟨hws, ?_⟩
    have hcl : ∀ {p : Str}, p <+: tag → ¬ p <+: c%"</" → ¬ c%"</" <+: p → ¬ c%"</" <+: tag := by
      intro p hp h1 h2 h
      rcases List.prefix_or_prefix_of_prefix hp h with h | h
      · exact h1 h
      · exact h2 h
    split at h
    · rename_i hd
      have hd := startsWith_iff.1 hd
      split at h
      · cases h
      · rename_i h0
        exact ⟨fun _ => by simpa using h0, hcl hd (by decide) (by decide), fun g => absurd (.inl hd) g⟩
    · rename_i hd
      have hd := not_true_prefix hd
      refine ⟨fun g => absurd g hd, ?_⟩
      split at h
      · rename_i hc
        have hc := startsWith_iff.1 hc
        exact ⟨hcl hc (by decide) (by decide), fun g => absurd (.inr (List.IsPrefix.trans (by decide) hc)) g⟩
      · split at h
        · rename_i hc
          have hc := startsWith_iff.1 hc
          exact ⟨hcl hc (by decide) (by decide), fun g => absurd (.inr (List.IsPrefix.trans (by decide) hc)) g⟩
        · split at h
          · rename_i hc
            have hc := startsWith_iff.1 hc
            exact ⟨hcl hc (by decide) (by decide), fun g => absurd (.inr hc) g⟩
          · split at h
            · cases h
            · rename_i hn
              obtain ⟨_, h1, h2⟩ := bind_eq_ok.1 h
              cases h2
              exact ⟨not_true_prefix hn, fun _ => ⟨checkElementTag_ok.1 (mapErr_eq_ok.1 h1), rfl⟩⟩

theorem late_pos {toks : List (Str × Str)} (h : ∀ t ∈ toks, t.2 ≠ []) (hne : toks ≠ []) : blen (srcOf toks) ≠ 0 := by
  cases toks with
  | nil => exact absurd rfl hne
  | cons t toks =>
    intro h0
    have := blen_eq_zero.1 h0
    simp only [srcOf, List.flatMap_cons, List.append_eq_nil_iff] at this
    exact h t (by simp) this.1.2

/-- what is known between two tags: `pre` is the prolog, `rest` begins with the root tag -/
def RInv (pre rest : List (Str × Str)) : RState → Prop
  | .prolog st => (∀ t ∈ pre, IsProlog t.2) ∧ rest = [] ∧ (st.tagSpan.1 = 0 ↔ ¬ Late pre) ∧
      (st.noCommentWarn = 0 ↔ ∀ t ∈ pre, ¬ c%"<!--" <+: t.2)
  | .inside _ sc st => (∀ t ∈ pre, IsProlog t.2) ∧ rest ≠ [] ∧ (∀ t u, rest = t :: u → ¬ IsProlog t.2) ∧
      (∃ o, OpenAfter (rest.map Prod.snd) o ∧ Opened st o) ∧ StackQ (fun _ => True) st ∧
      (sc = true ↔ ∃ t u, rest = [(t, u)] ∧ kind u = .empty)

theorem rinv_init : RInv [] [] .init := ⟨by simp, rfl, iff_of_true rfl (by rintro ⟨p, t, r, h, -⟩; simp at h), by simp⟩

section
variable {x : Str} {pre rest : List (Str × Str)} {text tag s : Str} {pos : Nat} {st : RState}

theorem tag_located (hx : LexesTo x (pre ++ rest) (text ++ s)) (hT : TagAt s tag) (hpos : pos = blen (srcOf (pre ++ rest))) :
    Located (srcOf (pre ++ rest) ++ text) (lineAndColumn x (pos + blen text)) := by
  obtain ⟨u, hu⟩ := tagAt_lt hT
  have := located (x := x) (a := srcOf (pre ++ rest) ++ text) (b := u) (c := '<') (by rw [lexesTo_src hx, ← hu]; simp) (by decide)
  rwa [hpos, ← blen_append]

theorem step_err (hx : LexesTo x (pre ++ rest) (text ++ s)) (hT : TagAt s tag) (hpos : pos = blen (srcOf (pre ++ rest)))
    (hi : RInv pre rest st) : EP (Fault pre rest text s) (readTag x pos text tag st) := by
  have hloc := tag_located hx hT hpos
  cases st with
  | prolog st =>
    obtain ⟨hpre, rfl, h0, hw⟩ := hi
    simp only [List.append_nil] at hx hpos hloc
    obtain ⟨g1, g2⟩ := ep_prologTag hx (tagAt_lt hT) hT hpos st h0.2
    simp only [readTag]
    refine ep_bind g1 ?_
    rintro ⟨st', b⟩ hst
    obtain ⟨-, g2⟩ := g2 _ _ hst
    cases b with
    | false => exact ep_ok _
    | true =>
      obtain ⟨k1, k2⟩ := g2
      have hop : Opening tag := opening_iff.2 ⟨fun h => k1 (.inr h), k2⟩
      refine ep_bind (ep_unwrap _) (fun t ht => ep_bind ?_ (fun e he => ep_bind (ep_push _ _) (fun st1 hst1 => ?_)))
      · intro e he
        obtain ⟨f1, -, -, f4⟩ := prologTag_fine hst
        exact .root rfl hT f1 k1 hop (fun hb => badTag_no_match hb (f4 k1).1) hloc
          (ep_parseNewElement (inner_iff.2 ⟨unwrap_eq_ok.1 ht, tagAt_angled hT⟩) x _ none (by simp) e he)
      · have hpop : ∃ st2, (if endsWith tag c%"/>" then st1.pop else pure st1 : R ParseTree) = .ok st2 := by
          split
          · cases hst1; exact ⟨_, rfl⟩
          · exact ⟨_, rfl⟩
        obtain ⟨st2, h2⟩ := hpop
        rw [h2]
        exact ep_ok _
  | inside pro sc st =>
    obtain ⟨hpre, hne, hroot, ⟨o, ho, hst⟩, hq, hsc⟩ := hi
    simp only [readTag]
    cases sc with
    | true =>
      obtain ⟨t, u, hr, hk⟩ := hsc.1 rfl
      rw [if_pos rfl]
      exact ep_err (.second hr hk hT hloc)
    | false =>
      rw [if_neg (by simp)]
      have hsc' : ∀ t r, rest = [(t, r)] → kind r ≠ .empty := by
        intro t r hr hk
        have := hsc.2 ⟨t, r, hr, hk⟩
        cases this
      refine ep_bind ?_ (fun st1 g1 => ep_bind ?_ (fun _ _ => ep_ok _))
      · unfold addText
        refine ep_bind ep_realText ?_
        intro ot hot
        cases ot with
        | none => exact ep_ok _
        | some c =>
          refine ep_mapErr (ep_append hst (fun hn => ?_))
          subst hn
          have hws : ¬ AllWs text := by
            intro hall
            rw [realText_ws hall] at hot
            cases hot
          refine .text2 hne hsc' ho hT hws ?_ hloc
          rw [realText_not_ws hws] at hot
          obtain ⟨u, hu, -⟩ := bind_eq_ok.1 hot
          exact ⟨u, unescape_ok_iff.1 hu⟩
      · intro e he
        have htf : TextFine o text := (addText_ok_iff hq hst).1 ⟨st1, g1⟩
        exact .inner hne hsc' ho htf hT hloc (ep_handleTag (opened_addText hst g1) hT _ _ e he)

theorem root_step (hT : TagAt s tag) (k1 : ¬ IsProlog tag) (k2 : ¬ c%"</" <+: tag) {t : Str} {e : Element} {p : Nat}
    (ht : stripTag tag = some t) (he : parseNewElement t x p none = .ok e) :
    ∃ st1 st2, ParseTree.new.push e = .ok st1 ∧ (if endsWith tag c%"/>" then st1.pop else pure st1 : R ParseTree) = .ok st2 ∧
      (∃ o, OpenAfter [tag] o ∧ Opened st2 o) ∧ StackQ (fun _ => True) st2 ∧ (endsWith tag c%"/>" = true ↔ kind tag = .empty) := by
  obtain ⟨st1, h1, h2⟩ := stackQ_new (Q := fun _ => True) (e := e) trivial
  have hi := inner_iff.2 ⟨ht, tagAt_angled hT⟩
  have hname : OpenName tag e.tagName := by
    obtain ⟨attrs, n0, n, y, q, hN⟩ := parseNewElement_ok he
    obtain ⟨comps, -, -, h2, -⟩ := hN.attrs_ok
    rw [newElem_tagName hN]
    refine ⟨t, hi, split_firstWord ?_ h2⟩
    obtain ⟨_, _, _, _, _, _, _, _, _, _, _, hT⟩ := hi
    exact hT
  have hnew : Opened ParseTree.new [] := ⟨fun p => by simp [ParseTree.new, LMap.get], .nil⟩
  have hop1 := opened_push hnew h1
  have hk : kind tag = if c%"/>" <:+ tag then .empty else .start := by
    unfold kind
    rw [if_neg (fun h => k1 (.inr h)), if_neg k2]
  by_cases hs : endsWith tag c%"/>" = true
  · rw [if_pos (endsWith_iff.1 hs)] at hk
    have hpop : ∃ st2, st1.pop = .ok st2 := by cases h1; exact ⟨_, rfl⟩
    obtain ⟨st2, hp⟩ := hpop
    obtain ⟨n, ns', h3, h4⟩ := opened_pop hop1 hp
    cases h3
    have hq2 : StackQ (fun _ => True) st2 := by
      rcases stackQ_pop h2 with ⟨e, he⟩ | ⟨st2, he, hq⟩ <;> rw [he] at hp <;> cases hp
      exact hq
    exact ⟨st1, st2, h1, by rw [if_pos hs, hp], ⟨[], .empty (l := []) .nil hk, h4⟩, hq2, by simp [hs, hk]⟩
  · rw [if_neg (fun h => hs (endsWith_iff.2 h))] at hk
    exact ⟨st1, st1, h1, by rw [if_neg hs]; rfl, ⟨_, .start (l := []) .nil hk hname, hop1⟩, h2, by simp [hs, hk]⟩

theorem step_ok (hx : LexesTo x (pre ++ rest) (text ++ s)) (hT : TagAt s tag) (hpos : pos = blen (srcOf (pre ++ rest)))
    (hi : RInv pre rest st) {st' : RState} (h : readTag x pos text tag st = .ok st') :
    ∃ pre' rest', pre' ++ rest' = pre ++ rest ++ [(text, tag)] ∧ RInv pre' rest' st' := by
  cases st with
  | prolog st =>
    obtain ⟨hpre, rfl, h0, hw⟩ := hi
    simp only [List.append_nil] at hx hpos ⊢
    obtain ⟨-, g2⟩ := ep_prologTag hx (tagAt_lt hT) hT hpos st h0.2
    simp only [readTag] at h
    obtain ⟨⟨st1, b⟩, h1, h⟩ := bind_eq_ok.1 h
    obtain ⟨hspan, g2⟩ := g2 _ _ h1
    cases b with
    | false =>
      cases h
      refine ⟨pre ++ [(text, tag)], [], by simp, ?_, rfl, ?_, ?_⟩
      · intro t hm
        rcases List.mem_append.1 hm with hm | hm
        · exact hpre t hm
        · simp at hm; subst hm; simpa using g2
      · rw [hspan, hpos]
        have hne := lexesTo_ne hx
        constructor
        · rintro h ⟨p, t, r, h1, h2⟩
          obtain ⟨rfl, h3⟩ := List.append_inj' h1 rfl
          cases h3
          have h3 : blen (srcOf pre) = 0 ∧ blen text = 0 := by simpa using h
          rcases h2 with h2 | h2
          · exact late_pos hne h2 h3.1
          · exact h2 (blen_eq_zero.1 h3.2)
        · intro h
          by_cases hp : pre = []
          · by_cases ht : text = []
            · subst hp ht; rfl
            · exact absurd ⟨_, _, _, rfl, .inr ht⟩ h
          · exact absurd ⟨_, _, _, rfl, .inl hp⟩ h
      · rw [prologTag_warn h1, hw]
        simp [or_imp, forall_and]
    | true =>
      obtain ⟨k1, k2⟩ := g2
      simp only at h
      obtain ⟨t, ht, h⟩ := bind_eq_ok.1 h
      obtain ⟨e, he, h⟩ := bind_eq_ok.1 h
      obtain ⟨st1, st2, h3, h4, h5, h6, h7⟩ := root_step hT k1 k2 (unwrap_eq_ok.1 ht) he
      rw [h3, Res.bind_ok, h4] at h
      cases h
      refine ⟨pre, [(text, tag)], rfl, hpre, by simp, by intro t u h; cases h; exact k1, h5, h6, ?_⟩
      rw [h7]
      simp
  | inside pro sc st =>
    obtain ⟨hpre, hne, hroot, ⟨o, ho, hst⟩, hq, hsc⟩ := hi
    simp only [readTag] at h
    cases sc with
    | true => rw [if_pos rfl] at h; cases h
    | false =>
      rw [if_neg (by simp)] at h
      obtain ⟨st1, g1, h⟩ := bind_eq_ok.1 h
      obtain ⟨st2, g2, h⟩ := bind_eq_ok.1 h
      cases h
      obtain ⟨o', k1, k2⟩ := opened_step (opened_addText hst g1) (handleTag_ok g2) (tagAt_angled hT)
      refine ⟨pre, rest ++ [(text, tag)], by simp, hpre, by simp, ?_, ⟨o', ?_, k1⟩, ?_, ?_⟩
      · intro t u htu
        cases rest with
        | nil => exact absurd rfl hne
        | cons t' rest =>
          simp only [List.cons_append, List.cons.injEq] at htu
          exact htu.1 ▸ hroot t' rest rfl
      · rw [List.map_append]; exact k2 _ ho
      · exact tagStep_stackQ freshOk_true (addText_stackQ freshOk_true hq g1) (handleTag_ok g2)
      · constructor
        · intro h; cases h
        · rintro ⟨t, u, h, -⟩
          have := congrArg List.length h
          cases rest with
          | nil => exact absurd rfl hne
          | cons => simp at this

theorem step_np (hx : LexesTo x (pre ++ rest) (text ++ s)) (hT : TagAt s tag) (hpos : pos = blen (srcOf (pre ++ rest)))
    (hi : RInv pre rest st) : NP (Crash pre rest text s) (readTag x pos text tag st) := by
  cases st with
  | prolog st =>
    obtain ⟨hpre, rfl, h0, hw⟩ := hi
    simp only [List.append_nil] at hx hpos
    obtain ⟨-, g2⟩ := ep_prologTag hx (tagAt_lt hT) hT hpos st h0.2
    simp only [readTag]
    refine np_bind ⟨prologTag_diverge hT, fun hp => ?_⟩ ?_
    · rcases (prologTag_panic hT).1 hp with ⟨h1, h2⟩ | ⟨h1, h2, h3, h4⟩
      · exact .text hT h1 h2 (by simp)
      · exact .comment rfl hT h1 h2 (hw.1 h3) h4
    · rintro ⟨st1, b⟩ h1
      obtain ⟨-, g2⟩ := g2 _ _ h1
      cases b with
      | false => exact np_ok _
      | true =>
        obtain ⟨k1, k2⟩ := g2
        obtain ⟨t, ht, -⟩ := stripTag_infix tag
        have hin := inner_iff.2 ⟨ht, tagAt_angled hT⟩
        simp only [ht, Res.unwrap_some, Res.bind_ok]
        obtain ⟨hws, -, -, f4⟩ := prologTag_fine h1
        have hm := (f4 k1).1
        refine np_bind (parseNewElement_np hin x _ none (fun hc => ?_)) (fun e he => ?_)
        · exact .root rfl hT hws k1 (opening_iff.2 ⟨fun h => k1 (.inr h), k2⟩)
            (tagCrash_iff.2 ⟨fun hb => (by rw [badTag_iff.1 hb] at hm; cases hm), hc⟩)
        · obtain ⟨st1, st2, h3, h4, -⟩ := root_step hT k1 k2 ht he
          rw [h3, Res.bind_ok, h4]
          exact np_ok _
  | inside pro sc st =>
    obtain ⟨hpre, hne, hroot, ⟨o, ho, hst⟩, hq, hsc⟩ := hi
    simp only [readTag]
    cases sc with
    | true => rw [if_pos rfl]; exact np_err _
    | false =>
      rw [if_neg (by simp)]
      have hsc' : ∀ t r, rest = [(t, r)] → kind r ≠ .empty := by
        intro t r hr hk
        have := hsc.2 ⟨t, r, hr, hk⟩
        cases this
      refine np_bind ?_ (fun st1 g1 => np_bind ?_ (fun _ _ => np_ok _))
      · refine ⟨?_, fun hp => ?_⟩
        · unfold addText
          refine (np_bind (B := True) ?_ ?_).1
          · unfold realText
            split
            · exact np_ok _
            · refine np_bind ⟨?_, fun _ => trivial⟩ (fun _ _ => np_ok _)
              exact (unescapeLoop_bound _ _ _ (by omega) (by omega)).1
          · intro ot _
            cases ot with
            | none => exact np_ok _
            | some c => exact np_mapErr (np_append hq _)
        · obtain ⟨h1, h2⟩ := (addText_panic hq).1 hp
          exact .text hT h1 h2 hsc'
      · have htf : TextFine o text := (addText_ok_iff hq hst).1 ⟨st1, g1⟩
        exact handleTag_np (addText_stackQ freshOk_true hq g1) hT x _
          (fun h1 h2 h3 h4 => .decl hne hsc' ho htf hT h1 h2 h3 h4) (fun h1 h2 => .elem hne hsc' ho htf hT h1 h2)

theorem step_panic (hT : TagAt s tag) (hi : RInv pre rest st) (h : Crash pre rest text s) (x : Str) (pos : Nat) :
    readTag x pos text tag st = .panic := by
  cases st with
  | prolog st =>
    obtain ⟨hpre, rfl, h0, hw⟩ := hi
    simp only [readTag]
    cases h with
    | text hT' h1 h2 h3 =>
      rw [(prologTag_panic hT).2 (.inl ⟨h1, h2⟩)]; rfl
    | comment _ hT' h1 h2 h3 h4 =>
      obtain rfl := tagAt_unique (tagAt_lt hT) hT hT'
      rw [(prologTag_panic hT).2 (.inr ⟨h1, h2, hw.2 h3, h4⟩)]; rfl
    | root _ hT' h1 h2 h3 h4 =>
      obtain rfl := tagAt_unique (tagAt_lt hT) hT hT'
      obtain ⟨k1, k2⟩ := opening_iff.1 h3
      obtain ⟨hb, n, ps, hp, hc⟩ := tagCrash_iff.1 h4
      obtain ⟨t, ht, -⟩ := stripTag_infix tag
      have hin := inner_iff.2 ⟨ht, tagAt_angled hT⟩
      have hm : Re.isMatch elemRe tag = true := by
        by_contra h
        exact hb (badTag_iff.2 (by simpa using h))
      have hpt : prologTag x pos text tag st = .ok ({ st with tagSpan := (pos + blen text, pos + blen text + blen tag) }, true) := by
        unfold prologTag
        rw [realText_ws h1]
        simp only [Res.bind_ok, Option.isSome_none, Bool.false_eq_true, if_false]
        rw [if_neg (by rw [startsWith_iff]; exact fun h => h2 (.inl h)),
                if_neg (by rw [startsWith_iff]; exact fun h => k1 ((List.IsPrefix.trans (by decide) h))),
                if_neg (by rw [startsWith_iff]; exact fun h => k1 ((List.IsPrefix.trans (by decide) h))),
                if_neg (by rw [startsWith_iff]; exact fun h => k1 h),
                if_neg (by rw [startsWith_iff]; exact k2), checkElementTag_ok.2 hm]
        rfl
      rw [hpt]
      simp only [ht, Res.unwrap_some, Res.bind_ok]
      rw [parseNewElement_panic hin hp hc]
      rfl
    | decl h => exact absurd rfl h
    | elem h => exact absurd rfl h
  | inside pro sc st =>
    obtain ⟨hpre, hne, hroot, ⟨o, ho, hst⟩, hq, hsc⟩ := hi
    simp only [readTag]
    have hs : (∀ t r, rest = [(t, r)] → kind r ≠ .empty) → sc = false := by
      intro h
      cases sc with
      | false => rfl
      | true =>
        obtain ⟨t, u, h1, h2⟩ := hsc.1 rfl
        exact absurd h2 (h t u h1)
    cases h with
    | text hT' h1 h2 h3 =>
      rw [hs h3, if_neg (by simp), (addText_panic hq).2 ⟨h1, h2⟩]; rfl
    | comment h => exact absurd h hne
    | root h => exact absurd h hne
    | decl _ h3 ho' htf hT' k1 k2 k3 k4 =>
      obtain rfl := tagAt_unique (tagAt_lt hT) hT hT'
      obtain ⟨st1, h1⟩ := (addText_ok_iff (b := x) (pos := pos + blen text) hq hst).2 (textFine_unique ho' ho htf)
      rw [hs h3, if_neg (by simp), h1, Res.bind_ok, handleTag_decl k1 k2 k3 k4]; rfl
    | elem _ h3 ho' htf hT' k1 k2 =>
      obtain rfl := tagAt_unique (tagAt_lt hT) hT hT'
      obtain ⟨st1, h1⟩ := (addText_ok_iff (b := x) (pos := pos + blen text) hq hst).2 (textFine_unique ho' ho htf)
      rw [hs h3, if_neg (by simp), h1, Res.bind_ok, handleTag_elem (addText_stackQ freshOk_true hq h1) hT k1 k2]; rfl

end

/-! ## all the tags -/

theorem lexesTo_unsnoc {x r : Str} {toks : List (Str × Str)} {text tag : Str} (h : LexesTo x (toks ++ [(text, tag)]) r) :
    ∃ s, LexesTo x toks (text ++ s) ∧ '<' ∉ text ∧ TagAt s tag ∧ s = tag ++ r := by
  generalize hl : toks ++ [(text, tag)] = l at h
  induction h generalizing toks with
  | done => simp at hl
  | @tag text' tag' rest s r l h1 h2 h3 h4 ih =>
    cases toks with
    | nil =>
      simp only [List.nil_append, List.cons.injEq, Prod.mk.injEq] at hl
      obtain ⟨⟨rfl, rfl⟩, rfl⟩ := hl
      cases h4
      exact ⟨s, .done, h1, h2, h3⟩
    | cons t toks =>
      simp only [List.cons_append, List.cons.injEq] at hl
      obtain ⟨rfl, rfl⟩ := hl
      obtain ⟨s', g1, g2, g3, g4⟩ := ih rfl
      exact ⟨s', .tag h1 h2 h3 g1, g2, g3, g4⟩

theorem firstAt_self {pat a s : Str} (h : FirstAt pat a s) : FirstAt pat a (a ++ pat) :=
  ⟨List.prefix_rfl, fun a' h' => h.first a' (h'.trans h.here)⟩

theorem firstUnquoted_self {q : Option Char} {pat a s : Str} (h : FirstUnquoted q pat a s) : FirstUnquoted q pat a (a ++ pat) :=
  ⟨List.prefix_rfl, h.outside, fun a' h' => h.first a' (h'.trans h.here)⟩

theorem firstClosing_self {a s : Str} (h : FirstClosing a s) : FirstClosing a (a ++ c%">") :=
  ⟨List.prefix_rfl, h.outside, h.balanced, fun a' h' => h.first a' (h'.trans h.here)⟩

theorem tagAt_alone {s t : Str} (h : TagAt s t) : TagAt t t := by
  have hp := tagAt_prefix h
  obtain ⟨v, hv⟩ := hp
  cases h with
  | comment h1 h2 => exact .comment (prefix_more (hv ▸ h1) (by simp) (by decide)) (firstAt_self h2)
  | @pi a u h1 h2 => exact .pi (u := a ++ c%"?>") (by simp) (firstUnquoted_self h2)
  | cdata h1 h2 => exact .cdata (prefix_more (hv ▸ h1) (by simp) (by decide)) (firstAt_self h2)
  | @decl a u h1 h2 h3 h4 =>
    exact .decl (u := a ++ c%">") (by simp) (fun h => h2 (h.trans ⟨v, hv⟩)) (fun h => h3 (h.trans ⟨v, hv⟩)) (firstClosing_self h4)
  | @elem a u h1 h2 h3 h4 =>
    exact .elem (u := a ++ c%">") (by simp) (fun h => h2 (h.trans h4.here)) (fun h => h3 (h.trans h4.here)) (firstUnquoted_self h4)

theorem lexesTo_self {x r : Str} {toks : List (Str × Str)} (h : LexesTo x toks r) : LexesTo (srcOf toks) toks [] := by
  induction h with
  | done => exact .done
  | @tag text tag rest s r toks h1 h2 h3 _ ih =>
    rw [srcOf_cons, List.append_assoc]
    exact .tag h1 (tagAt_more (tagAt_alone h2) _) rfl ih

/-- the end of the tokens -/
theorem lex_end {pos : Nat} {x : Str} {toks : List (Str × Str)} {e : Option Nat} (h : Lex pos x toks e) :
    ∃ text s, LexesTo x toks (text ++ s) ∧ '<' ∉ text ∧ ((e = none ∧ s = []) ∨
      (c%"<" <+: s ∧ (∀ t, ¬ TagAt s t) ∧ e = some (pos + blen (srcOf toks) + blen text))) := by
  induction h with
  | @done pos s h => exact ⟨s, [], by rw [List.append_nil]; exact .done, h, .inl ⟨rfl, rfl⟩⟩
  | @fail pos text s h1 h2 h3 => exact ⟨text, s, .done, h1, .inr ⟨h2, h3, by simp [srcOf_nil]⟩⟩
  | @tag pos text tag rest s toks e h1 h2 h3 h4 _ ih =>
    obtain ⟨t, u, g1, g2, g3⟩ := ih
    refine ⟨t, u, .tag h1 h3 h4 g1, g2, ?_⟩
    rcases g3 with g3 | ⟨g3, g4, g5⟩
    · exact .inl g3
    · refine .inr ⟨g3, g4, ?_⟩
      rw [g5, srcOf_cons]
      simp only [blen_append, Option.some.injEq]
      omega

/-- how reading some tokens ends -/
theorem read_cases {x r : Str} {toks : List (Str × Str)} (hx : LexesTo x toks r) :
    (∃ st pre rest, readToks x 0 toks .init = .ok st ∧ pre ++ rest = toks ∧ RInv pre rest st) ∨
    (∃ pre rest text tag s u st, toks = pre ++ rest ++ (text, tag) :: u ∧ LexesTo x (pre ++ rest) (text ++ s) ∧ '<' ∉ text ∧ TagAt s tag ∧
      readToks x 0 (pre ++ rest) .init = .ok st ∧ RInv pre rest st ∧
      ((∃ e, readToks x 0 toks .init = .err e ∧ Fault pre rest text s e) ∨ (readToks x 0 toks .init = .panic ∧ Crash pre rest text s))) := by
  induction toks using List.reverseRecOn generalizing r with
  | nil => exact .inl ⟨_, [], [], rfl, rfl, rinv_init⟩
  | append_singleton toks t ih =>
    obtain ⟨text, tag⟩ := t
    obtain ⟨s, h1, h2, h3, h4⟩ := lexesTo_unsnoc hx
    rcases ih h1 with ⟨st, pre, rest, g1, rfl, g3⟩ | ⟨pre, rest, text', tag', s', u, st, g1, g2, g3, g4, g5, g6, g7⟩
    · have hstep : readToks x 0 (pre ++ rest ++ [(text, tag)]) .init = readTag x (blen (srcOf (pre ++ rest))) text tag st := by
        rw [readToks_append, g1]
        simp only [Res.bind_ok, Nat.zero_add, readToks]
        cases readTag x (blen (srcOf (pre ++ rest))) text tag st <;> rfl
      have k1 := step_err h1 h3 rfl g3
      have k2 := step_np h1 h3 rfl g3
      cases hr : readTag x (blen (srcOf (pre ++ rest))) text tag st with
      | ok st' =>
        obtain ⟨pre', rest', k3, k4⟩ := step_ok h1 h3 rfl g3 hr
        exact .inl ⟨st', pre', rest', hstep.trans hr, k3, k4⟩
      | err e => exact .inr ⟨pre, rest, text, tag, s, [], st, rfl, h1, h2, h3, g1, g3, .inl ⟨e, hstep.trans hr, k1 e hr⟩⟩
      | panic => exact .inr ⟨pre, rest, text, tag, s, [], st, rfl, h1, h2, h3, g1, g3, .inr ⟨hstep.trans hr, k2.2 hr⟩⟩
      | diverge => exact absurd hr k2.1
    · refine .inr ⟨pre, rest, text', tag', s', u ++ [(text, tag)], st, by rw [g1]; simp, g2, g3, g4, g5, g6, ?_⟩
      rw [readToks_append]
      rcases g7 with ⟨e, k1, k2⟩ | ⟨k1, k2⟩
      · exact .inl ⟨e, by rw [k1]; rfl, k2⟩
      · exact .inr ⟨by rw [k1]; rfl, k2⟩

/-- the errors at the end of the input -/
def EndErr (e : Err) : Prop := e = .parsing .noXmlContent none ∨ e = .parsing .rootNotClosed none

theorem fault_not_end {pre rest : List (Str × Str)} {text s tag : Str} {e : Err} (h : Fault pre rest text s e) (hT : TagAt s tag) : ¬ EndErr e := by
  have hne : s ≠ [] := by
    rintro rfl
    obtain ⟨u, hu⟩ := tagAt_lt hT
    simp at hu
  have key : ∀ {o : List Str} {tag : Str} {lc : Nat × Nat} {e : Err}, TagFault o tag lc e → ¬ EndErr e := by
    rintro o tag lc e h (rfl | rfl) <;> cases h
  rintro (rfl | rfl)
  · cases h with
    | noRoot _ h => exact hne h
    | root _ _ _ _ _ _ _ h => exact key h (.inl rfl)
    | inner _ _ _ _ _ _ h =>
      cases h with
      | elem _ _ h => exact key h (.inl rfl)
  · cases h with
    | notClosed _ _ h => exact hne h
    | root _ _ _ _ _ _ _ h => exact key h (.inr rfl)
    | inner _ _ _ _ _ _ h =>
      cases h with
      | elem _ _ h => exact key h (.inr rfl)

theorem finish_none {pre rest : List (Str × Str)} {st : RState} (h : RInv pre rest st) (b : Str) :
    (∃ d, finish b none st = .ok d) ∨ (finish b none st = .err (.parsing .noXmlContent none) ∧ rest = []) ∨
      (finish b none st = .err (.parsing .rootNotClosed none) ∧ rest ≠ [] ∧ ∃ n o, OpenAfter (rest.map Prod.snd) (n :: o)) := by
  cases st with
  | prolog st => exact .inr (.inl ⟨rfl, h.2.1⟩)
  | inside pro sc st =>
    obtain ⟨hpre, hne, hroot, ⟨o, ho, hst⟩, hq, hsc⟩ := h
    unfold finish
    simp only
    split
    · rename_i hes
      refine .inr (.inr ⟨rfl, hne, ?_⟩)
      have hstk := hst.stack
      cases hp : st.pos with
      | none => simp [ParseTree.emptyStack, hp] at hes
      | some p =>
        rw [hp] at hstk
        cases hstk with
        | cons _ _ => exact ⟨_, _, ho⟩
    · obtain ⟨e, he, -⟩ := stackQ_toDom (by simp) (by simp) hq
      rw [he]
      exact .inl ⟨_, rfl⟩

theorem noFaultYet_iff {x r : Str} {toks : List (Str × Str)} (hx : LexesTo x toks r) :
    NoFaultYet (parseStr (srcOf toks)) ↔ ∃ st, readToks x 0 toks .init = .ok st := by
  have hself := lexesTo_self hx
  have hlex : Lex 0 (srcOf toks) toks none := by
    have := lex_of_lexesTo hself 0 (toks' := []) (e := none) (.done (by simp))
    simpa using this
  have heq : readToks x 0 toks .init = readToks (srcOf toks) 0 toks .init :=
    readToks_rest (lexesTo_ne hx) (pre := []) (u := r) (u' := []) (by simpa using lexesTo_src hx) (by simp) rfl _
  rw [parse_read hlex, heq]
  rcases read_cases hself with ⟨st, pre, rest, g1, g2, g3⟩ | ⟨pre, rest, text', tag', s', u, st, g1, g2, g3, g4, g5, g6, g7⟩
  · rw [g1, Res.bind_ok]
    refine iff_of_true ?_ ⟨st, rfl⟩
    rcases finish_none g3 (srcOf toks) with h | h | h
    · exact .inl h
    · exact .inr (.inl h.1)
    · exact .inr (.inr h.1)
  · rcases g7 with ⟨e, k1, k2⟩ | ⟨k1, k2⟩
    · rw [k1]
      refine iff_of_false ?_ (by simp)
      rintro (⟨d, h⟩ | h | h)
      · cases h
      · exact fault_not_end k2 g4 (.inl (by simpa using h))
      · exact fault_not_end k2 g4 (.inr (by simpa using h))
    · rw [k1]
      refine iff_of_false ?_ (by simp)
      rintro (⟨d, h⟩ | h | h) <;> cases h

/-- an error names the first fault -/
theorem parse_err {x : Str} {e : Err} (h : parseStr x = .err e) :
    ∃ pre rest text s, LexesTo x (pre ++ rest) (text ++ s) ∧ '<' ∉ text ∧ (∀ t ∈ pre, IsProlog t.2) ∧
      (∀ t r, rest = t :: r → ¬ IsProlog t.2) ∧ NoFaultYet (parseStr (srcOf (pre ++ rest))) ∧ Fault pre rest text s e := by
  obtain ⟨toks, er, hl⟩ := exists_lex 0 x
  rw [parse_read hl] at h
  obtain ⟨text, s, hx, htext, hend⟩ := lex_end hl
  have hinv : ∀ {pre rest st}, RInv pre rest st → (∀ t ∈ pre, IsProlog t.2) ∧ (∀ t r, rest = t :: r → ¬ IsProlog t.2) := by
    intro pre rest st hi
    cases st with
    | prolog st => exact ⟨hi.1, by rw [hi.2.1]; simp⟩
    | inside pro sc st => exact ⟨hi.1, hi.2.2.1⟩
  rcases read_cases hx with ⟨st, pre, rest, g1, rfl, g3⟩ | ⟨pre, rest, text', tag', s', u, st, g1, g2, g3, g4, g5, g6, g7⟩
  · obtain ⟨i1, i2⟩ := hinv g3
    refine ⟨pre, rest, text, s, hx, htext, i1, i2, (noFaultYet_iff hx).2 ⟨st, g1⟩, ?_⟩
    rw [g1, Res.bind_ok] at h
    rcases hend with ⟨rfl, rfl⟩ | ⟨h1, h2, rfl⟩
    · rcases finish_none g3 x with ⟨d, h'⟩ | ⟨h', hr⟩ | ⟨h', hr, n, o, ho⟩
      · rw [h'] at h; cases h
      · rw [h'] at h; cases h; exact .noRoot hr rfl
      · rw [h'] at h; cases h; exact .notClosed hr ho rfl
    · have hloc : Located (srcOf (pre ++ rest) ++ text) (lineAndColumn x (0 + blen (srcOf (pre ++ rest)) + blen text)) := by
        obtain ⟨u, rfl⟩ := h1
        have := located (x := x) (a := srcOf (pre ++ rest) ++ text) (b := u) (c := '<') (by rw [lexesTo_src hx]; simp) (by decide)
        rwa [Nat.zero_add, ← blen_append]
      cases st with
      | prolog st =>
        obtain ⟨-, rfl, -⟩ := g3
        cases h
        rw [List.append_nil] at hloc
        exact .noTag rfl h1 h2 (by simpa using hloc)
      | inside pro sc st =>
        obtain ⟨-, hne, -⟩ := g3
        cases h
        exact .noTag2 hne h1 h2 hloc
  · obtain ⟨i1, i2⟩ := hinv g6
    refine ⟨pre, rest, text', s', g2, g3, i1, i2, (noFaultYet_iff g2).2 ⟨st, g5⟩, ?_⟩
    rcases g7 with ⟨e', k1, k2⟩ | ⟨k1, k2⟩
    · rw [k1] at h; cases h; exact k2
    · rw [k1] at h; cases h

theorem split_unique {pre rest pre' rest' : List (Str × Str)} (h : pre ++ rest = pre' ++ rest') (h1 : ∀ t ∈ pre, IsProlog t.2)
    (h1' : ∀ t ∈ pre', IsProlog t.2) (h2 : ∀ t r, rest = t :: r → ¬ IsProlog t.2) (h2' : ∀ t r, rest' = t :: r → ¬ IsProlog t.2) :
    pre = pre' ∧ rest = rest' := by
  induction pre generalizing pre' with
  | nil =>
    cases pre' with
    | nil => exact ⟨rfl, by simpa using h⟩
    | cons t pre' => exact absurd (h1' t (by simp)) (h2 t _ (by simpa using h))
  | cons t pre ih =>
    cases pre' with
    | nil => exact absurd (h1 t (by simp)) (h2' t _ (by simpa using h.symm))
    | cons t' pre' =>
      simp only [List.cons_append, List.cons.injEq] at h
      obtain ⟨rfl, h⟩ := h
      obtain ⟨rfl, rfl⟩ := ih h (fun t ht => h1 t (by simp [ht])) (fun t ht => h1' t (by simp [ht]))
      exact ⟨rfl, rfl⟩

theorem parse_panic {x : Str} : parseStr x = .panic ↔
    ∃ pre rest text s, LexesTo x (pre ++ rest) (text ++ s) ∧ '<' ∉ text ∧ (∀ t ∈ pre, IsProlog t.2) ∧
      (∀ t r, rest = t :: r → ¬ IsProlog t.2) ∧ NoFaultYet (parseStr (srcOf (pre ++ rest))) ∧ Crash pre rest text s := by
  have hinv : ∀ {pre rest st}, RInv pre rest st → (∀ t ∈ pre, IsProlog t.2) ∧ (∀ t r, rest = t :: r → ¬ IsProlog t.2) := by
    intro pre rest st hi
    cases st with
    | prolog st => exact ⟨hi.1, by rw [hi.2.1]; simp⟩
    | inside pro sc st => exact ⟨hi.1, hi.2.2.1⟩
  constructor
  · intro h
    obtain ⟨toks, er, hl⟩ := exists_lex 0 x
    rw [parse_read hl] at h
    obtain ⟨text, s, hx, htext, hend⟩ := lex_end hl
    rcases read_cases hx with ⟨st, pre, rest, g1, rfl, g3⟩ | ⟨pre, rest, text', tag', s', u, st, g1, g2, g3, g4, g5, g6, g7⟩
    · exfalso
      rw [g1, Res.bind_ok] at h
      rcases hend with ⟨rfl, rfl⟩ | ⟨h1, h2, rfl⟩
      · rcases finish_none g3 x with ⟨d, h'⟩ | ⟨h', hr⟩ | ⟨h', hr, n, o, ho⟩ <;> rw [h'] at h <;> cases h
      · cases st <;> cases h
    · obtain ⟨i1, i2⟩ := hinv g6
      refine ⟨pre, rest, text', s', g2, g3, i1, i2, (noFaultYet_iff g2).2 ⟨st, g5⟩, ?_⟩
      rcases g7 with ⟨e', k1, k2⟩ | ⟨k1, k2⟩
      · rw [k1] at h; cases h
      · exact k2
  · rintro ⟨pre, rest, text, s, hx, htext, h1, h2, h3, h4⟩
    obtain ⟨st, hst⟩ := (noFaultYet_iff hx).1 h3
    obtain ⟨tag, hT⟩ : ∃ tag, TagAt s tag := by cases h4 <;> exact ⟨_, ‹_›⟩
    obtain ⟨r, hr⟩ := tagAt_prefix hT
    have hx' := lexesTo_snoc hx htext hT hr.symm
    rcases read_cases hx with ⟨st', pre', rest', g1, g2, g3⟩ | ⟨pre, rest, text', tag', s', u, st, g1, g2, g3, g4, g5, g6, g7⟩
    · rw [hst] at g1
      cases g1
      obtain ⟨i1, i2⟩ := hinv g3
      obtain ⟨rfl, rfl⟩ := split_unique g2 i1 h1 i2 h2
      obtain ⟨toks', er, hl⟩ := exists_lex (0 + blen (srcOf (pre' ++ rest' ++ [(text, tag)]))) r
      have hlex := lex_of_lexesTo hx' 0 hl
      rw [parse_read hlex, readToks_append, readToks_append, hst]
      simp only [Res.bind_ok, readToks, step_panic hT g3 h4]
      rfl
    · rcases g7 with ⟨e', k1, k2⟩ | ⟨k1, k2⟩ <;> rw [k1] at hst <;> cases hst

/-! ## more input -/

theorem readToks_more {x r : Str} {toks : List (Str × Str)} (hx : LexesTo x toks r) (y : Str) :
    readToks (x ++ y) 0 toks .init = readToks x 0 toks .init :=
  readToks_rest (lexesTo_ne hx) (pre := []) (u := r ++ y) (u' := r) (by simpa using lexesTo_src (lexesTo_more hx y))
    (by simpa using lexesTo_src hx) rfl _

theorem parse_more {x r : Str} {toks : List (Str × Str)} (hx : LexesTo x toks r) (y : Str) :
    (∀ e, readToks x 0 toks .init = .err e → parseStr (x ++ y) = .err e) ∧
      (readToks x 0 toks .init = .panic → parseStr (x ++ y) = .panic) := by
  have hx' := lexesTo_more hx y
  obtain ⟨toks', er, hl⟩ := exists_lex (0 + blen (srcOf toks)) (r ++ y)
  rw [parse_read (lex_of_lexesTo hx' 0 hl), readToks_append, readToks_more hx]
  exact ⟨fun e h => by rw [h]; rfl, fun h => by rw [h]; rfl⟩

/-- the errors about a `<` that is not the beginning of a tag -/
def OpenErr (e : Err) : Prop := EndErr e ∨ ∃ lc, e = .parsing .unmatchedLt lc ∨ e = .parsing .invalidSyntax lc

theorem finish_err {b : Str} {n : Option Nat} {pre rest : List (Str × Str)} {st : RState} (hi : RInv pre rest st) {e : Err}
    (h : finish b n st = .err e) : OpenErr e ∧ (n = none → EndErr e) := by
  cases n with
  | none =>
    have : EndErr e := by
      rcases finish_none hi b with ⟨d, h'⟩ | ⟨h', -⟩ | ⟨h', -⟩ <;> rw [h'] at h <;> cases h
      · exact .inl rfl
      · exact .inr rfl
    exact ⟨.inl this, fun _ => this⟩
  | some n =>
    refine ⟨.inr ?_, by simp⟩
    cases st <;> cases h
    · exact ⟨_, .inl rfl⟩
    · exact ⟨_, .inr rfl⟩

theorem parse_err_more {x : Str} {e : Err} (h : parseStr x = .err e) (y : Str) :
    (¬ OpenErr e → parseStr (x ++ y) = .err e) ∧
      (∀ toks tail, Lexes x toks tail → ¬ EndErr e → parseStr (x ++ y) = .err e) := by
  obtain ⟨toks, er, hl⟩ := exists_lex 0 x
  rw [parse_read hl] at h
  obtain ⟨r, hx, hr⟩ := lexesTo_of_lex hl
  have key : (∀ st, readToks x 0 toks .init = .ok st → finish x er st ≠ .err e) → parseStr (x ++ y) = .err e := by
    intro hn
    cases hr : readToks x 0 toks .init with
    | ok st => rw [hr] at h; exact absurd h (hn st hr)
    | err e' => rw [hr] at h; cases h; exact (parse_more hx y).1 _ hr
    | panic => rw [hr] at h; cases h
    | diverge => rw [hr] at h; cases h
  have hinv : ∀ st, readToks x 0 toks .init = .ok st → ∃ pre rest, RInv pre rest st := by
    intro st hst
    rcases read_cases hx with ⟨st', pre, rest, g1, g2, g3⟩ | ⟨pre, rest, text', tag', s', u, st, g1, g2, g3, g4, g5, g6, g7⟩
    · rw [hst] at g1; cases g1; exact ⟨_, _, g3⟩
    · rcases g7 with ⟨e', k1, k2⟩ | ⟨k1, k2⟩ <;> rw [k1] at hst <;> cases hst
  refine ⟨fun he => key (fun st hst hf => ?_), fun toks' tail hlx he => key (fun st hst hf => ?_)⟩
  · obtain ⟨_, _, hi⟩ := hinv st hst
    exact he (finish_err hi hf).1
  · obtain ⟨_, _, hi⟩ := hinv st hst
    have : er = none := by
      have h1 := lexes_lex hlx 0
      exact (lex_unique hl h1).2
    exact he ((finish_err hi hf).2 this)

theorem parse_panic_more {x : Str} (h : parseStr x = .panic) (y : Str) : parseStr (x ++ y) = .panic := by
  obtain ⟨toks, er, hl⟩ := exists_lex 0 x
  rw [parse_read hl] at h
  obtain ⟨r, hx, hr⟩ := lexesTo_of_lex hl
  rcases read_cases hx with ⟨st, pre, rest, g1, rfl, g3⟩ | ⟨pre, rest, text', tag', s', u, st, g1, g2, g3, g4, g5, g6, g7⟩
  · exfalso
    rw [g1, Res.bind_ok] at h
    cases er with
    | none => rcases finish_none g3 x with ⟨d, h'⟩ | ⟨h', hr⟩ | ⟨h', hr, n, o, ho⟩ <;> rw [h'] at h <;> cases h
    | some n => cases st <;> cases h
  · rcases g7 with ⟨e', k1, k2⟩ | ⟨k1, k2⟩
    · rw [k1] at h; cases h
    · exact (parse_more hx y).2 k1

/-- whether a result is a panic can be decided -/
instance decEqPanic {α : Type} (r : R α) : Decidable (r = .panic) :=
  match r with
  | .panic => isTrue rfl
  | .ok _ => isFalse nofun
  | .err _ => isFalse nofun
  | .diverge => isFalse nofun

end KissXml
