import Verif.Spec.Syntax
import Verif.Proofs.Outer
import Verif.Proofs.Edit
import Verif.Proofs.Panic
/-!
# How the parser reads the tags of concrete documents
-/
namespace KissXml
open Spec

variable {P : Str → Prop} {L : CTag → Prop}

/-! ## characters of names -/

theorem codeIn_iff {l : List (Nat × Nat)} {c : Char} : CodeIn l c ↔ inRanges l c = true := by
  simp [CodeIn, inRanges]

theorem nameStart_iff {c : Char} : CodeIn startCodes c ↔ inRanges nameStartRanges c = true := codeIn_iff

theorem nameChar_iff {c : Char} : CodeIn startCodes c ∨ CodeIn moreCodes c ↔ inRanges nameCharRanges c = true := by
  rw [codeIn_iff, codeIn_iff]
  simp only [inRanges, startCodes, moreCodes, nameCharRanges, nameStartRanges, List.any_append, List.any_cons, List.any_nil,
    Bool.or_false, Bool.or_eq_true]
  tauto

/-- characters that no name contains -/
theorem nameChar_ne {c d : Char} (h : CodeIn startCodes c ∨ CodeIn moreCodes c) (hd : ¬ (CodeIn startCodes d ∨ CodeIn moreCodes d)) :
    c ≠ d := by
  rintro rfl; exact hd h

theorem xmlName_chars {n : Str} (h : XmlName n) : ∀ x ∈ n, CodeIn startCodes x ∨ CodeIn moreCodes x := by
  obtain ⟨c, t, rfl, h1, h2, -⟩ := h
  intro x hx
  rcases List.mem_cons.1 hx with rfl | hx
  · exact .inl h1
  · exact h2 x hx

theorem xmlName_ws {n : Str} (h : XmlName n) : ∀ x ∈ n, isWs x = false := by
  obtain ⟨c, t, rfl, -, -, h2⟩ := h
  exact h2

theorem xmlName_ne {n : Str} (h : XmlName n) : n ≠ [] := by
  obtain ⟨c, t, rfl, -⟩ := h; simp

theorem xmlName_not_mem {n : Str} (h : XmlName n) (d : Char) (hd : ¬ (CodeIn startCodes d ∨ CodeIn moreCodes d) := by decide) :
    d ∉ n := fun hm => hd (xmlName_chars h d hm)

theorem xmlName_re {n : Str} (h : XmlName n) : Re.Matches nameRe n := by
  obtain ⟨c, t, rfl, h1, h2, -⟩ := h
  exact .seq (s := [c]) (.cls (nameStart_iff.1 h1)) (Re.matches_star_cls.2 (by
    rw [List.all_eq_true]; exact fun x hx => nameChar_iff.1 (h2 x hx)))

theorem elemName_of_nc {n : Str} (h : (NcName n ∧ ApiName n) ∨ ∃ p l, n = p ++ ':' :: l ∧ NcName p ∧ NcName l ∧ ApiName l) : ElemName n := by
  rcases h with ⟨h, ha⟩ | ⟨p, l, rfl, h1, h2, ha⟩
  · exact ⟨h.1, .inl ⟨h.2, ha⟩⟩
  · refine ⟨?_, .inr ⟨p, l, rfl, h1.2, ha⟩⟩
    obtain ⟨c, t, rfl, g1, g2, g3⟩ := h1.1
    refine ⟨c, t ++ ':' :: l, by simp, g1, ?_, ?_⟩
    · intro x hx
      simp only [List.mem_append, List.mem_cons] at hx
      rcases hx with hx | rfl | hx
      · exact g2 x hx
      · exact .inl (by decide)
      · exact xmlName_chars h2.1 x hx
    · intro x hx
      simp only [List.mem_append, List.mem_cons] at hx
      rcases hx with (rfl | hx) | rfl | hx
      · exact g3 _ (by simp)
      · exact g3 _ (by simp [hx])
      · decide
      · exact xmlName_ws h2.1 x hx

/-! ## quotes -/

/-- no quotes -/
def NoQuote (s : Str) : Prop := ∀ c ∈ s, c ≠ '"' ∧ c ≠ '\''

theorem noQuote_state {s : Str} (h : NoQuote s) : qstate none s = none := by
  induction s with
  | nil => rfl
  | cons c s ih =>
    rw [qstate_cons, qstep_none, if_neg (by have := h c (by simp); tauto)]
    exact ih fun d hd => h d (by simp [hd])

theorem quoted_state {q : Char} {s : Str} (h : q ∉ s) : qstate (some q) s = some q := by
  induction s with
  | nil => rfl
  | cons c s ih =>
    simp only [List.mem_cons, not_or] at h
    rw [qstate_cons, qstep, if_neg (fun hc => h.1 hc.symm)]
    exact ih h.2

/-- quotes are closed and `>` is only inside quotes -/
def Quiet (s : Str) : Prop := qstate none s = none ∧ ∀ a b, s = a ++ '>' :: b → qstate none a ≠ none

theorem quiet_nil : Quiet [] := ⟨rfl, by simp⟩

theorem quiet_append {s t : Str} (hs : Quiet s) (ht : Quiet t) : Quiet (s ++ t) := by
  refine ⟨by rw [qstate_append, hs.1, ht.1], ?_⟩
  intro a b h
  rcases List.append_eq_append_iff.1 h with ⟨u, rfl, hu⟩ | ⟨u, hu1, hu2⟩
  · rw [qstate_append, hs.1]
    exact ht.2 u b hu
  · cases u with
    | nil =>
      simp at hu1 hu2
      subst hu1
      rw [hs.1]
      have := ht.2 [] b (by simpa using hu2.symm)
      simp at this
    | cons x u =>
      simp only [List.cons_append, List.cons.injEq] at hu2
      obtain ⟨rfl, -⟩ := hu2
      exact hs.2 a u hu1

theorem quiet_of {s : Str} (h : ∀ c ∈ s, c ≠ '"' ∧ c ≠ '\'' ∧ c ≠ '>') : Quiet s := by
  refine ⟨noQuote_state fun c hc => ⟨(h c hc).1, (h c hc).2.1⟩, ?_⟩
  rintro a b rfl
  exact absurd rfl (h '>' (by simp)).2.2

theorem quiet_ws {s : Str} (h : AllWs s) : Quiet s := quiet_of fun c hc => by
  have := h c hc
  refine ⟨?_, ?_, ?_⟩ <;> (rintro rfl; revert this; decide)

theorem quiet_name {n : Str} (h : XmlName n) : Quiet n := quiet_of fun c hc => by
  have := xmlName_chars h c hc
  refine ⟨?_, ?_, ?_⟩ <;> (rintro rfl; revert this; decide)

theorem qstep_open {q : Char} (hq : q = '"' ∨ q = '\'') : qstep none q = some q := by
  rw [qstep_none, if_pos hq]

theorem qstep_close (q : Char) : qstep (some q) q = none := by simp [qstep]

theorem quoted_closes {q : Char} {raw : Str} (hq : q = '"' ∨ q = '\'') (h : q ∉ raw) : qstate none (q :: (raw ++ [q])) = none := by
  rw [qstate_cons, qstep_open hq, qstate_append, quoted_state h, qstate_cons, qstep_close]; rfl

theorem inside_quotes {q : Char} {raw a b : Str} {x : Char} (hq : q = '"' ∨ q = '\'') (h : q ∉ raw)
    (he : q :: (raw ++ [q]) = a ++ x :: b) : qstate none a ≠ none ∨ (a = [] ∧ x = q) := by
  cases a with
  | nil => simp at he; exact .inr ⟨rfl, he.1.symm⟩
  | cons y a =>
    left
    simp only [List.cons_append, List.cons.injEq] at he
    obtain ⟨rfl, he⟩ := he
    have ha : q ∉ a := by
      intro hm
      apply h
      have hp : a <+: raw := by
        have h1 : a <+: raw ++ [q] := ⟨x :: b, he.symm⟩
        refine List.prefix_of_prefix_length_le h1 (List.prefix_append raw [q]) ?_
        have := congrArg List.length he
        simp at this; omega
      exact hp.subset hm
    rw [qstate_cons, qstep_open hq, quoted_state ha]
    simp

theorem quiet_quoted {q : Char} {raw : Str} (hq : q = '"' ∨ q = '\'') (h : q ∉ raw) : Quiet (q :: (raw ++ [q])) := by
  refine ⟨quoted_closes hq h, ?_⟩
  intro a b he
  rcases inside_quotes hq h he with h | ⟨-, h⟩
  · exact h
  · rcases hq with rfl | rfl <;> simp at h

/-- the value with its quotes -/
def Spec.CAttr.q (a : CAttr) : Str := a.quote :: (a.raw ++ [a.quote])

theorem attr_src (a : CAttr) : a.src = a.sp ++ (a.name ++ (a.sp1 ++ ('=' :: (a.sp2 ++ a.q)))) := by
  simp [CAttr.src, CAttr.q]

theorem quiet_attr {a : CAttr} (h : a.OkFor P) : Quiet a.src := by
  rw [attr_src]
  refine quiet_append (quiet_ws h.sp.1) (quiet_append (quiet_name h.name) (quiet_append (quiet_ws h.sp1) ?_))
  exact quiet_append (s := c%"=") (quiet_of (by decide)) (quiet_append (quiet_ws h.sp2) (quiet_quoted h.quote h.raw))

theorem quiet_attrs {l : List CAttr} (h : ∀ a ∈ l, a.OkFor P) : Quiet (l.flatMap CAttr.src) := by
  induction l with
  | nil => exact quiet_nil
  | cons a l ih =>
    rw [List.flatMap_cons]
    exact quiet_append (quiet_attr (h a (by simp))) (ih fun b hb => h b (by simp [hb]))

theorem quiet_body {t : CTag} (h : t.OkFor P L) : Quiet t.body :=
  quiet_append (quiet_append (quiet_name h.name) (quiet_attrs h.attrs)) (quiet_ws h.sp)

theorem tagAt_quiet {s : Str} (h : Quiet s) (h1 : ¬ c%"!" <+: s ++ c%">") (h2 : ¬ c%"?" <+: s ++ c%">") :
    TagAt (c%"<" ++ s ++ c%">") (c%"<" ++ s ++ c%">") := by
  refine .elem (a := s) (u := s ++ c%">") (by simp) h1 h2 ⟨List.prefix_rfl, h.1, ?_⟩
  rintro a' ⟨b, hb⟩ hq
  by_contra hlt
  rw [not_le] at hlt
  have hp : a' ++ c%">" <+: s := by
    refine List.prefix_of_prefix_length_le ⟨b, hb⟩ (List.prefix_append s c%">") ?_
    simp; omega
  obtain ⟨b', hb'⟩ := hp
  exact h.2 a' b' (by rw [← hb']; simp) hq

theorem name_head {n : Str} (h : XmlName n) {d : Char} (s : Str) (hd : ¬ (CodeIn startCodes d ∨ CodeIn moreCodes d) := by decide) :
    ¬ [d] <+: n ++ s := by
  obtain ⟨c, t, rfl, h1, -⟩ := h
  rintro ⟨u, hu⟩
  simp at hu
  exact hd (.inl (hu.1 ▸ h1))

theorem tagAt_start {t : CTag} (h : t.OkFor P L) : TagAt t.start t.start := by
  refine tagAt_quiet (quiet_body h) ?_ ?_ <;>
  · rw [CTag.body, List.append_assoc, List.append_assoc]
    exact name_head h.name _

theorem tagAt_empty {t : CTag} (h : t.OkFor P L) : TagAt t.empty t.empty := by
  have : t.empty = c%"<" ++ (t.body ++ c%"/") ++ c%">" := by simp [CTag.empty]
  rw [this]
  refine tagAt_quiet (quiet_append (quiet_body h) (quiet_of (by decide))) ?_ ?_ <;>
  · rw [CTag.body, List.append_assoc, List.append_assoc, List.append_assoc]
    exact name_head h.name _

theorem tagAt_closing {n sp : Str} (h : XmlName n) (hs : AllWs sp) : TagAt (closing n sp) (closing n sp) := by
  have : closing n sp = c%"<" ++ (c%"/" ++ n ++ sp) ++ c%">" := by simp [closing]
  rw [this]
  refine tagAt_quiet (quiet_append (quiet_append (quiet_of (by decide)) (quiet_name h)) (quiet_ws hs)) ?_ ?_ <;>
    (rintro ⟨u, hu⟩; simp at hu)

/-! ## comments and CDATA sections -/

theorem early {a s p : Str} {z : Char} (hz : z ∉ p) (h : a ++ (p ++ [z]) <+: s ++ (p ++ [z])) (hl : a.length < s.length) :
    a ++ (p ++ [z]) <+: s := by
  have h1 : a ++ (p ++ [z]) <+: s ++ p := by
    rw [← List.append_assoc s] at h
    refine List.prefix_of_prefix_length_le h (List.prefix_append _ _) ?_
    simp; omega
  rcases Nat.le_total (a ++ (p ++ [z])).length s.length with h2 | h2
  · exact List.prefix_of_prefix_length_le h1 (List.prefix_append _ _) h2
  · obtain ⟨u, hu⟩ := List.prefix_of_prefix_length_le (List.prefix_append s p) h1 h2
    rcases List.eq_nil_or_concat u with rfl | ⟨u', y, rfl⟩
    · rw [List.append_nil] at hu; rw [hu]
    · rw [List.concat_eq_append, ← List.append_assoc, ← List.append_assoc] at hu
      have hy := List.append_inj' hu rfl
      obtain ⟨w, hw⟩ := h1
      have : z ∈ p := by
        rw [← List.append_assoc a, ← hu, List.append_assoc, List.append_assoc] at hw
        have := List.append_cancel_left hw
        rw [← this]
        simp at hy
        simp [hy.2]
      exact absurd this hz

theorem tagAt_cdata {c : Str} (h : CDataOk c) : TagAt (c%"<![CDATA[" ++ c ++ c%"]]>") (c%"<![CDATA[" ++ c ++ c%"]]>") := by
  refine .cdata ⟨c ++ c%"]]>", by simp⟩ ⟨List.prefix_rfl, ?_⟩
  intro a' hp
  by_contra hlt
  rw [not_le] at hlt
  obtain ⟨u, hu⟩ := early (p := c%"]]") (z := '>') (by decide) hp hlt
  match a' with
  | [] | [_] | [_, _] | [_, _, _] | [_, _, _, _] | [_, _, _, _, _] | [_, _, _, _, _, _] | [_, _, _, _, _, _, _]
  | [_, _, _, _, _, _, _, _] => simp at hu
  | _ :: _ :: _ :: _ :: _ :: _ :: _ :: _ :: _ :: w =>
    simp at hu
    exact h ⟨w, u, by simp [hu]⟩

theorem tagAt_comment {c : Str} (h : CommentOk c) : TagAt (c%"<!--" ++ c ++ c%"-->") (c%"<!--" ++ c ++ c%"-->") := by
  refine .comment ⟨c ++ c%"-->", by simp⟩ ⟨List.prefix_rfl, ?_⟩
  intro a' hp
  by_contra hlt
  rw [not_le] at hlt
  obtain ⟨u, hu⟩ := early (p := c%"--") (z := '>') (by decide) hp hlt
  match a' with
  | [] | [_] => simp at hu
  | [_, _] => simp at hu; exact h.2.1 ⟨u, by simp [hu]⟩
  | [_, _, _] => simp at hu; exact h.2.2 ⟨u, by simp [hu]⟩
  | _ :: _ :: _ :: _ :: w =>
    simp at hu
    exact h.1 ⟨w, u, by simp [hu]⟩

/-! ## words -/

/-- a word: not empty, quotes closed, white space only in quotes -/
def Word (w : Str) : Prop := w ≠ [] ∧ NoBreak none w ∧ qstate none w = none

theorem noBreak_append {q : Option Char} {s t : Str} (hs : NoBreak q s) (ht : NoBreak (qstate q s) t) : NoBreak q (s ++ t) := by
  induction s generalizing q with
  | nil => exact ht
  | cons c s ih =>
    rw [noBreak_cons] at hs
    rw [List.cons_append, noBreak_cons]
    exact ⟨hs.1, ih hs.2 ht⟩

theorem word_append {s t : Str} (hs : Word s) (ht : Word t) : Word (s ++ t) :=
  ⟨by simp [hs.1], noBreak_append hs.2.1 (by rw [hs.2.2]; exact ht.2.1), by rw [qstate_append, hs.2.2, ht.2.2]⟩

theorem word_of {s : Str} (hne : s ≠ []) (h : ∀ c ∈ s, isWs c = false) (hq : NoQuote s) : Word s := by
  refine ⟨hne, ?_, noQuote_state hq⟩
  rintro a c b rfl -
  exact h c (by simp)

theorem word_name {n : Str} (h : XmlName n) : Word n :=
  word_of (xmlName_ne h) (xmlName_ws h) fun c hc => by
    have := xmlName_chars h c hc
    refine ⟨?_, ?_⟩ <;> (rintro rfl; revert this; decide)

theorem word_eq : Word c%"=" := word_of (by simp) (by decide) (by intro c hc; simp at hc; subst hc; decide)

theorem word_quoted {q : Char} {raw : Str} (hq : q = '"' ∨ q = '\'') (h : q ∉ raw) : Word (q :: (raw ++ [q])) := by
  refine ⟨by simp, ?_, quoted_closes hq h⟩
  intro a c b he hn
  rcases inside_quotes hq h he with h | ⟨-, rfl⟩
  · exact absurd hn h
  · rcases hq with rfl | rfl <;> decide

/-- words, each after some white space -/
theorem qas_words (l : List (Str × Str)) (h : ∀ x ∈ l, AllWs x.1 ∧ x.1 ≠ [] ∧ Word x.2) (b : Str) :
    qasLoop b none (l.flatMap fun x => x.1 ++ x.2) = (if b.isEmpty then [] else [b]) ++ l.map Prod.snd := by
  induction l generalizing b with
  | nil => rw [List.flatMap_nil, qasLoop]; simp
  | cons x l ih =>
    obtain ⟨sp, w⟩ := x
    obtain ⟨h1, h2, h3, h4, h5⟩ := h _ (List.mem_cons_self ..)
    have key : ∀ (s : Str), AllWs s → qasLoop [] none (s ++ (w ++ l.flatMap fun x => x.1 ++ x.2)) = w :: l.map Prod.snd := by
      intro s hs
      induction s with
      | nil =>
        rw [List.nil_append, qas_word h4, h5, List.nil_append, ih fun x hx => h x (by simp [hx])]
        cases w with
        | nil => exact absurd rfl h3
        | cons => rfl
      | cons c s ih' =>
        rw [List.cons_append, qas_ws (hs c (by simp))]
        exact ih' fun d hd => hs d (by simp [hd])
    cases sp with
    | nil => exact absurd rfl h2
    | cons c sp =>
      simp only [List.flatMap_cons, List.append_assoc, List.cons_append]
      rw [qas_ws (h1 c (by simp)), key sp fun d hd => h1 d (by simp [hd])]
      cases b <;> rfl

/-! ## attributes as words -/

/-- the words of an attribute with the white space before them -/
def pieces (a : CAttr) : List (Str × Str) :=
  if a.sp1 = [] then
    if a.sp2 = [] then [(a.sp, a.name ++ c%"=" ++ a.q)] else [(a.sp, a.name ++ c%"="), (a.sp2, a.q)]
  else
    if a.sp2 = [] then [(a.sp, a.name), (a.sp1, c%"=" ++ a.q)] else [(a.sp, a.name), (a.sp1, c%"="), (a.sp2, a.q)]

theorem pieces_src (a : CAttr) : (pieces a).flatMap (fun x => x.1 ++ x.2) = a.src := by
  rw [attr_src]
  unfold pieces
  split <;> split <;> simp_all

theorem pieces_ok {a : CAttr} (h : a.OkFor P) : ∀ x ∈ pieces a, AllWs x.1 ∧ x.1 ≠ [] ∧ Word x.2 := by
  have h1 := word_name h.name
  have h2 : Word a.q := word_quoted h.quote h.raw
  unfold pieces
  split <;> split <;> simp only [List.mem_cons, List.not_mem_nil, or_false, forall_eq_or_imp, forall_eq]
  · exact ⟨h.sp.1, h.sp.2, word_append (word_append h1 word_eq) h2⟩
  · exact ⟨⟨h.sp.1, h.sp.2, word_append h1 word_eq⟩, h.sp2, by assumption, h2⟩
  · exact ⟨⟨h.sp.1, h.sp.2, h1⟩, h.sp1, by assumption, word_append word_eq h2⟩
  · exact ⟨⟨h.sp.1, h.sp.2, h1⟩, ⟨h.sp1, by assumption, word_eq⟩, h.sp2, by assumption, h2⟩

theorem split_attrs {n : Str} {l : List CAttr} (hn : XmlName n) (h : ∀ a ∈ l, a.OkFor P) :
    quoteAwareSplit (n ++ l.flatMap CAttr.src) = n :: (l.flatMap pieces).map Prod.snd := by
  have hw := word_name hn
  unfold quoteAwareSplit
  rw [qas_word hw.2.1, hw.2.2, List.nil_append]
  have : l.flatMap CAttr.src = (l.flatMap pieces).flatMap fun x => x.1 ++ x.2 := by
    rw [List.flatMap_assoc]
    congr 1
    funext a
    exact (pieces_src a).symm
  rw [this, qas_words]
  · cases n with
    | nil => exact absurd rfl hw.1
    | cons => rfl
  · intro x hx
    obtain ⟨a, ha, hx⟩ := List.mem_flatMap.1 hx
    exact pieces_ok (h a ha) x hx

/-- what the words of an attribute are joined to -/
def kvOf (a : CAttr) : Str := a.name ++ '=' :: a.q

theorem not_endsWith_eq {s : Str} (h : '=' ∉ s.getLast?.toList) : endsWith s c%"=" = false := by
  rw [Bool.eq_false_iff, Ne, endsWith_iff]
  rintro ⟨u, rfl⟩
  simp at h

theorem q_end {a : CAttr} (h : a.OkFor P) (s : Str) : endsWith (s ++ a.q) c%"=" = false := by
  apply not_endsWith_eq
  have : (s ++ a.q).getLast? = some a.quote := by
    rw [CAttr.q, ← List.cons_append, ← List.append_assoc, List.getLast?_concat]
  rw [this]
  rcases h.quote with hq | hq <;> simp [hq]

theorem name_end {n : Str} (h : XmlName n) : endsWith n c%"=" = false := by
  rw [Bool.eq_false_iff, Ne, endsWith_iff]
  rintro ⟨u, rfl⟩
  exact xmlName_not_mem h '=' (by decide) (by simp)

/-- the list does not begin with `=` -/
def HeadOk (l : List Str) : Prop := ∀ w ∈ l.head?, startsWith w c%"=" = false

theorem needsMerge_no {s : Str} {l : List Str} (hs : endsWith s c%"=" = false) (hl : HeadOk l) : needsMerge s l = false := by
  cases l with
  | nil => rfl
  | cons w l => simp [needsMerge, hs, hl w (by simp)]

theorem joinLoop_no {s : Str} {l : List Str} (h : needsMerge s l = false) : joinLoop (s :: l) = s :: joinLoop l := by
  match l with
  | [] => simp [joinLoop]
  | [a] => unfold joinLoop; simp [h, joinLoop]
  | a :: b :: r => rw [joinLoop, if_neg (by simp [h])]

theorem joinLoop_one {s a : Str} {l : List Str} (h : needsMerge s (a :: l) = true) (h2 : needsMerge (s ++ a) l = false) :
    joinLoop (s :: a :: l) = (s ++ a) :: joinLoop l := by
  match l with
  | [] => unfold joinLoop; simp [h]
  | b :: r => rw [joinLoop, if_pos h, if_neg (by simp [h2])]

theorem joinLoop_two {s a b : Str} {l : List Str} (h : needsMerge s (a :: b :: l) = true)
    (h2 : needsMerge (s ++ a) (b :: l) = true) : joinLoop (s :: a :: b :: l) = (s ++ a ++ b) :: joinLoop l := by
  rw [joinLoop, if_pos h, if_pos h2]

theorem pieces_head {a : CAttr} (h : a.OkFor P) (l : List Str) : HeadOk ((pieces a).map Prod.snd ++ l) := by
  have key : ∀ s, startsWith (a.name ++ s) c%"=" = false := by
    intro s
    rw [Bool.eq_false_iff, Ne, startsWith_iff]
    exact name_head h.name s
  unfold pieces HeadOk
  intro w
  split <;> split <;> simp only [List.map_cons, List.cons_append, List.head?_cons, Option.mem_def, Option.some.injEq] <;> rintro rfl
  · rw [List.append_assoc]; exact key _
  · exact key _
  · simpa using key []
  · simpa using key []

theorem join_pieces {a : CAttr} (h : a.OkFor P) {l : List Str} (hl : HeadOk l) :
    joinLoop ((pieces a).map Prod.snd ++ l) = kvOf a :: joinLoop l := by
  have hkv : ∀ s, s ++ a.q = kvOf a → needsMerge (kvOf a) l = false := by
    intro s hs
    rw [← hs]
    exact needsMerge_no (q_end h s) hl
  have e1 : a.name ++ c%"=" ++ a.q = kvOf a := by simp [kvOf]
  have e2 : a.name ++ (c%"=" ++ a.q) = kvOf a := by simp [kvOf]
  have m1 : ∀ r, needsMerge (a.name ++ c%"=") (a.q :: r) = true := by
    intro r
    rw [needsMerge, endsWith_iff.2 ⟨a.name, rfl⟩]; rfl
  unfold pieces
  split <;> split <;> simp only [List.map_cons, List.map_nil, List.cons_append, List.nil_append]
  · rw [e1]; exact joinLoop_no (hkv _ e1)
  · rw [joinLoop_one (m1 _) (by rw [e1]; exact hkv _ e1), e1]
  · rw [joinLoop_one]
    · rfl
    · simp [needsMerge, startsWith]
    · exact hkv _ e1
  · rw [joinLoop_two _ (m1 _), e1]
    simp [needsMerge, startsWith]

theorem join_attrs {l : List CAttr} (h : ∀ a ∈ l, a.OkFor P) : joinLoop ((l.flatMap pieces).map Prod.snd) = l.map kvOf := by
  induction l with
  | nil => rfl
  | cons a l ih =>
    rw [List.flatMap_cons, List.map_append, join_pieces (h a (by simp)), ih fun b hb => h b (by simp [hb])]
    · rfl
    · cases l with
      | nil => intro w hw; simp at hw
      | cons b l =>
        rw [List.flatMap_cons, List.map_append]
        exact pieces_head (h b (by simp)) _

/-! ## the regular expression -/

theorem ws_re {s : Str} (h : AllWs s) : Re.Matches (.star (.cls wsRanges)) s := by
  rw [Re.matches_star_cls, List.all_eq_true]; exact h

theorem ws_plus_re {s : Str} (h : AllWs s) (hne : s ≠ []) : Re.Matches (Re.plus (.cls wsRanges)) s := by
  rw [Re.matches_plus_cls]
  refine ⟨hne, ?_⟩
  rw [List.all_eq_true]; exact h

theorem quoted_re {q : Char} (hq : q = '"' ∨ q = '\'') (s : Str) : Re.Matches quotedRe (q :: (s ++ [q])) := by
  have : Re.Matches (.seq (Re.lit q) (.seq (.star Re.anyChar) (Re.lit q))) (q :: (s ++ [q])) :=
    .seq (s := [q]) (Re.matches_lit.2 rfl) (.seq (Re.matches_star_any s) (Re.matches_lit.2 rfl))
  rcases hq with rfl | rfl
  · exact .altL this
  · exact .altR this

theorem attr_re {a : CAttr} (h : a.OkFor P) (s : Str) :
    Re.Matches attrRe (a.sp ++ (a.name ++ ('=' :: (a.quote :: (s ++ [a.quote]))))) :=
  .seq (ws_plus_re h.sp.1 h.sp.2) (.seq (xmlName_re h.name) (.seq (s := c%"=") (Re.matches_lit.2 rfl) (quoted_re h.quote s)))

theorem attrs_re {l : List CAttr} (h : ∀ a ∈ l, a.OkFor P) (hl : Layout l) : Re.Matches (.star attrRe) (l.flatMap CAttr.src) := by
  induction hl with
  | nil => exact .starNil
  | @one a l ht _ ih =>
    rw [List.flatMap_cons]
    refine .starCons ?_ (ih fun b hb => h b (by simp [hb]))
    have := attr_re (h a (by simp)) a.raw
    rw [attr_src, ht.1, ht.2]
    exact this
  | @span a b m l ht hq _ ih =>
    have e : (a :: (m ++ b :: l)).flatMap CAttr.src = (a.src ++ m.flatMap CAttr.src ++ b.src) ++ l.flatMap CAttr.src := by
      simp
    rw [e]
    refine .starCons ?_ (ih fun b hb => h b (by simp [hb]))
    have := attr_re (h a (by simp)) (a.raw ++ [a.quote] ++ m.flatMap CAttr.src ++
      (b.sp ++ (b.name ++ (b.sp1 ++ ('=' :: (b.sp2 ++ (b.quote :: b.raw)))))))
    rw [attr_src, ht.1, ht.2, attr_src b]
    refine cast (congrArg _ ?_) this
    simp [CAttr.q, hq]

theorem tag_re {o c : Str} {n A w : Str} (ho : o = [] ∨ o = c%"/") (hc : c = [] ∨ c = c%"/") (hn : XmlName n)
    (hA : Re.Matches (.star attrRe) A) (hw : AllWs w) : Re.Matches elemRe (c%"<" ++ (o ++ (n ++ (A ++ (w ++ (c ++ c%">")))))) := by
  have hopt : ∀ {x : Str}, (x = [] ∨ x = c%"/") → Re.Matches (Re.opt (Re.lit '/')) x := by
    intro x hx
    rw [Re.matches_opt, Re.matches_lit]; exact hx
  refine .seq (Re.matches_lit.2 rfl) (.seq (hopt ho) (.seq (xmlName_re hn) (.seq (s := []) (Re.matches_opt.2 (.inl rfl))
    (.seq hA (.seq (ws_re hw) (.seq (hopt hc) (Re.matches_lit.2 rfl)))))))

theorem start_re {t : CTag} (h : t.OkFor P L) (hl : Layout t.attrs) : Re.isMatch elemRe t.start = true := by
  refine Re.isMatch_iff.2 ⟨t.start, List.infix_rfl, ?_⟩
  have := tag_re (.inl rfl) (.inl rfl) h.name (attrs_re h.attrs hl) h.sp
  simpa [CTag.start, CTag.body] using this

theorem empty_re {t : CTag} (h : t.OkFor P L) (hl : Layout t.attrs) : Re.isMatch elemRe t.empty = true := by
  refine Re.isMatch_iff.2 ⟨t.empty, List.infix_rfl, ?_⟩
  have := tag_re (.inl rfl) (.inr rfl) h.name (attrs_re h.attrs hl) h.sp
  simpa [CTag.empty, CTag.body] using this

theorem closing_re {n sp : Str} (h : XmlName n) (hs : AllWs sp) : Re.isMatch elemRe (closing n sp) = true := by
  refine Re.isMatch_iff.2 ⟨closing n sp, List.infix_rfl, ?_⟩
  have := tag_re (.inr rfl) (.inl rfl) h (A := []) .starNil hs
  simpa [closing] using this

/-! ## the inside of tags -/

theorem src_end {a : CAttr} (s : Str) : (s ++ a.src).getLast? = some a.quote := by
  rw [attr_src, CAttr.q]
  have : s ++ (a.sp ++ (a.name ++ (a.sp1 ++ '=' :: (a.sp2 ++ a.quote :: (a.raw ++ [a.quote]))))) =
    (s ++ (a.sp ++ (a.name ++ (a.sp1 ++ '=' :: (a.sp2 ++ a.quote :: a.raw))))) ++ [a.quote] := by simp
  rw [this, List.getLast?_concat]

theorem inside_trimmed {n : Str} {l : List CAttr} (hn : XmlName n) (h : ∀ a ∈ l, a.OkFor P) :
    Trimmed (n ++ l.flatMap CAttr.src) ∧ ∀ c, (n ++ l.flatMap CAttr.src).getLast? = some c → c ≠ '/' := by
  have key : ∀ c, (n ++ l.flatMap CAttr.src).getLast? = some c → isWs c = false ∧ c ≠ '/' := by
    intro c hc
    rcases List.eq_nil_or_concat l with rfl | ⟨l', a, rfl⟩
    · simp at hc
      have hm := List.mem_of_getLast? hc
      exact ⟨xmlName_ws hn c hm, fun he => xmlName_not_mem hn '/' (by decide) (he ▸ hm)⟩
    · rw [List.concat_eq_append, List.flatMap_append, List.flatMap_cons, List.flatMap_nil, List.append_nil,
        ← List.append_assoc, src_end] at hc
      cases hc
      rcases (h a (by simp)).quote with hq | hq <;> rw [hq] <;> decide
  refine ⟨⟨?_, fun c hc => (key c hc).1⟩, fun c hc => (key c hc).2⟩
  intro c hc
  obtain ⟨d, t, rfl, -⟩ := id hn
  simp at hc
  subst hc
  exact xmlName_ws hn _ (by simp)

theorem not_slash {m w : Str} (hm : ∀ c, m.getLast? = some c → c ≠ '/') (hw : AllWs w) : ¬ c%"/" <:+ m ++ w := by
  rintro ⟨u, hu⟩
  have : (m ++ w).getLast? = some '/' := by rw [← hu, List.getLast?_concat]
  rcases List.eq_nil_or_concat w with rfl | ⟨w', c, rfl⟩
  · rw [List.append_nil] at this
    exact hm _ this rfl
  · rw [List.concat_eq_append, ← List.append_assoc, List.getLast?_concat] at this
    cases this
    have := hw '/' (by simp)
    revert this; decide

theorem start_strip {t : CTag} (h : t.OkFor P L) : stripTag t.start = some (t.name ++ t.attrs.flatMap CAttr.src) := by
  obtain ⟨h1, h2⟩ := inside_trimmed h.name h.attrs
  refine (inner_iff.1 ⟨c%"<", t.body, c%">", [], t.sp, rfl, .inr ⟨rfl, ?_⟩, .inr ⟨rfl, ?_⟩, rfl, by simp, h.sp, h1⟩).1
  · rintro ⟨u, hu⟩
    refine name_head h.name (d := '/') (t.attrs.flatMap CAttr.src ++ t.sp ++ c%">") (by decide) ⟨u, ?_⟩
    simpa [CTag.body] using hu
  · exact not_slash h2 h.sp

theorem empty_strip {t : CTag} (h : t.OkFor P L) : stripTag t.empty = some (t.name ++ t.attrs.flatMap CAttr.src) := by
  obtain ⟨h1, h2⟩ := inside_trimmed h.name h.attrs
  refine (inner_iff.1 ⟨c%"<", t.body, c%"/>", [], t.sp, rfl, .inr ⟨rfl, ?_⟩, .inl rfl, rfl, by simp, h.sp, h1⟩).1
  rintro ⟨u, hu⟩
  refine name_head h.name (d := '/') (t.attrs.flatMap CAttr.src ++ t.sp ++ c%"/>") (by decide) ⟨u, ?_⟩
  simpa [CTag.body] using hu

theorem closing_strip {n sp : Str} (h : XmlName n) (hs : AllWs sp) : stripTag (closing n sp) = some n := by
  obtain ⟨h1, h2⟩ := inside_trimmed (P := fun _ => True) (l := []) h (by simp)
  simp only [List.flatMap_nil, List.append_nil] at h1 h2
  refine (inner_iff.1 ⟨c%"</", n ++ sp, c%">", [], sp, by simp [closing], .inl rfl, .inr ⟨rfl, ?_⟩, rfl, by simp, hs, h1⟩).1
  exact not_slash h2 hs

/-! ## values -/

/-- what `unescape` gives (the text itself if it does not return) -/
def dec (s : Str) : Str := match (unescape s : R Str) with | .ok t => t | _ => s

theorem unescape_dec {s : Str} (h : Legible s) : (unescape s : R Str) = .ok (dec s) ∧ Decodes s (dec s) := by
  obtain ⟨t, ht⟩ := decodes_total s
  have h1 : (unescape s : R Str) = .ok t := unescape_ok_iff.2 (h t ht)
  have : dec s = t := by unfold dec; rw [h1]
  rw [this]; exact ⟨h1, ht⟩

theorem unescape_given {s : Str} (h : Given s) : (unescape s : R Str) = .ok (dec s) ∧ Unesc s (some (dec s)) := by
  obtain ⟨t, ht⟩ := h
  have h1 : (unescape s : R Str) = .ok t := unescape_ok_iff.2 ht
  have : dec s = t := by unfold dec; rw [h1]
  rw [this]; exact ⟨h1, ht⟩

theorem legible_given {s : Str} (h : Legible s) : Given s := by
  obtain ⟨t, ht⟩ := decodes_total s
  exact ⟨t, h t ht⟩

theorem legible_readable {s : Str} (h : Readable s) : Legible s := by
  rcases h with h | ⟨h1, h2⟩
  · exact legible_noamp h
  · obtain ⟨t, ht⟩ := decodes_total s
    exact legible_of ((Props.C07_partial s h1 h2 t).2 ht) ht

theorem legible_text {t : Str} (h : ClearAfter ['&', '<', '>'] (lastExtra t) t) : Legible (textEscape t) := by
  rcases List.eq_nil_or_concat t with rfl | ⟨t, z, rfl⟩
  · exact legible_of (t := []) rfl .nil
  · rw [List.concat_eq_append] at *
    refine legible_of ((Props.C01_partial t z).2 (by simpa [lastExtra] using h)) ?_
    rw [textEscape_eq]; exact Props.decodes_esc isEsc_text _

theorem legible_attr {t : Str} (h : ClearAfter ['&', '<', '>', '\'', '"'] (lastExtra t) t) : Legible (escape t) := by
  rcases List.eq_nil_or_concat t with rfl | ⟨t, z, rfl⟩
  · exact legible_of (t := []) rfl .nil
  · rw [List.concat_eq_append] at *
    refine legible_of ((Props.C02_partial t z).1.2 (by simpa [lastExtra] using h)) ?_
    rw [escape_eq]; exact Props.decodes_esc isEsc_attr _

/-- the attributes of a tag -/
def attrMap (l : List CAttr) : SMap := l.foldl (fun m a => m.insert a.name (dec a.raw)) SMap.empty

theorem parse_attrs {l : List CAttr} (h : ∀ a ∈ l, a.OkFor Given) (buffer : Str) (pos : Nat) (m : SMap) :
    parseAttrs buffer pos (l.map kvOf) m = .ok (l.foldl (fun m a => m.insert a.name (dec a.raw)) m) := by
  induction l generalizing m with
  | nil => rfl
  | cons a l ih =>
    have ha := h a (by simp)
    rw [List.map_cons, parseAttrs_cons, List.foldl_cons]
    refine ⟨a.name, dec a.raw, ⟨a.quote, a.raw, ha.quote, xmlName_not_mem ha.name '=' (by decide), rfl, (unescape_given ha.value).1⟩,
      ih (fun b hb => h b (by simp [hb])) _⟩

/-! ## abbreviated comments -/

theorem abbreviate_none {t : Str} : abbreviate t 32 = none ↔ NoCut t := by
  unfold abbreviate NoCut
  rw [show (32 / 2 - 1 : Nat) = 15 from rfl, show (32 / 2 : Nat) = 16 from rfl]
  have h1 : sliceB 0 15 t = none ↔ ¬ ∃ a b, t = a ++ b ∧ blen a = 15 := by
    rw [← not_iff_not, not_not, ← Ne, Option.ne_none_iff_exists']
    constructor
    · rintro ⟨u, hu⟩
      obtain ⟨a, b, rfl, h2, h3⟩ := sliceB_eq_some.1 hu
      exact ⟨a ++ u, b, rfl, by simp; omega⟩
    · rintro ⟨a, b, rfl, h⟩
      exact ⟨a, sliceB_eq_some.2 ⟨[], b, rfl, rfl, by simpa using h⟩⟩
  have h2 : 32 < blen t → (dropB (blen t - 16) t = none ↔ ¬ ∃ a b, t = a ++ b ∧ blen b = 16) := by
    intro hl
    rw [← not_iff_not, not_not, ← Ne, Option.ne_none_iff_exists']
    constructor
    · rintro ⟨u, hu⟩
      obtain ⟨a, h2, h3⟩ := dropB_eq_some.1 hu
      exact ⟨a, u, h2, by rw [h2] at h3 hl; simp at h3 hl; omega⟩
    · rintro ⟨a, b, h, hb⟩
      exact ⟨b, dropB_eq_some.2 ⟨a, h, by rw [h]; simp; omega⟩⟩
  by_cases hl : 32 < blen t
  · rw [if_neg (by omega)]
    specialize h2 hl
    simp only [hl, true_and]
    cases hs : sliceB 0 15 t with
    | none => simp only [Option.bind_none, true_iff]; exact fun h => h1.1 hs h.1
    | some u =>
      have h1 : ∃ a b, t = a ++ b ∧ blen a = 15 := by
        by_contra hn
        rw [h1.2 hn] at hs; cases hs
      simp only [Option.bind_some, Option.map_eq_none_iff, h2, h1, true_and]
  · rw [if_pos (by omega)]
    simp [hl]

theorem noCut_short {c : Str} (h : blen c ≤ 25) : ¬ NoCut (c%"<!--" ++ c ++ c%"-->") := by
  rintro ⟨hl, -⟩
  have h7 : blen c%"<!--" = 4 := rfl
  have h8 : blen c%"-->" = 3 := rfl
  rw [blen_append, blen_append, h7, h8] at hl
  omega

theorem noCut_ascii {c : Str} (h : ∀ x ∈ c, x.utf8Size = 1) : ¬ NoCut (c%"<!--" ++ c ++ c%"-->") := by
  rw [← abbreviate_none]
  apply abbreviate_ascii
  intro y hy
  simp only [List.mem_append] at hy
  rcases hy with (hy | hy) | hy
  · revert y; decide
  · exact h y hy
  · revert y; decide

end KissXml
