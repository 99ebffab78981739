import Verif.Proofs.Source
import Verif.Proofs.Written
/-!
# The names in accepted tags
-/
namespace KissXml
open Spec

theorem nameChar_ws {c : Char} (h : CodeIn startCodes c ∨ CodeIn moreCodes c) (hc : c ≠ '\u1680') : isWs c = false := by
  have hc' : c.toNat ≠ 0x1680 := fun h => hc (Char.toNat_inj.1 (by rw [h]; rfl))
  simp only [CodeIn, startCodes, moreCodes, List.mem_cons, List.not_mem_nil, or_false, exists_eq_or_imp, exists_eq_left] at h
  simp only [isWs, inRanges, wsRanges, List.any_cons, List.any_nil, Bool.or_false, Bool.or_eq_false_iff, Bool.and_eq_false_iff,
    decide_eq_false_iff_not]
  omega

theorem re_xmlName {n : Str} (h : Re.Matches nameRe n) (hu : '\u1680' ∉ n) : XmlName n := by
  obtain ⟨a, t, rfl, h1, h2⟩ := Re.matches_seq.1 h
  obtain ⟨c, rfl, hc⟩ := Re.matches_cls.1 h1
  have ht := Re.matches_star_cls.1 h2
  rw [List.all_eq_true] at ht
  have h3 : ∀ x ∈ t, CodeIn startCodes x ∨ CodeIn moreCodes x := fun x hx => nameChar_iff.2 (ht x hx)
  refine ⟨c, t, rfl, nameStart_iff.2 hc, h3, ?_⟩
  intro x hx
  have hne : x ≠ '\u1680' := by rintro rfl; exact hu hx
  rcases List.mem_cons.1 hx with rfl | hx
  · exact nameChar_ws (.inl (nameStart_iff.2 hc)) hne
  · exact nameChar_ws (h3 x hx) hne

theorem xmlName_append {a b : Str} (ha : XmlName a) (hb : XmlName b) : XmlName (a ++ ':' :: b) := by
  obtain ⟨c, t, rfl, g1, g2, g3⟩ := ha
  refine ⟨c, t ++ ':' :: b, by simp, g1, ?_, ?_⟩
  · intro x hx
    simp only [List.mem_append, List.mem_cons] at hx
    rcases hx with hx | rfl | hx
    · exact g2 x hx
    · exact .inl (by decide)
    · exact xmlName_chars hb x hx
  · intro x hx
    simp only [List.mem_append, List.mem_cons] at hx
    rcases hx with hx | rfl | hx
    · exact g3 x (by simpa using hx)
    · decide
    · exact xmlName_ws hb x hx

theorem re_ws {s : Str} (h : Re.Matches (.star (.cls wsRanges)) s) : AllWs s := by
  have := Re.matches_star_cls.1 h
  rw [List.all_eq_true] at this
  exact this

theorem re_ws_plus {s : Str} (h : Re.Matches (Re.plus (.cls wsRanges)) s) : AllWs s ∧ s ≠ [] := by
  obtain ⟨h1, h2⟩ := Re.matches_plus_cls.1 h
  rw [List.all_eq_true] at h2
  exact ⟨h2, h1⟩

/-- what comes after the name in a match of the pattern -/
def AfterMatch (R : Str) : Prop :=
  (∃ w e r, AllWs w ∧ (e = c%"/>" ∨ e = c%">") ∧ R = w ++ e ++ r) ∨
  ∃ w k q r, AllWs w ∧ w ≠ [] ∧ XmlName k ∧ (q = '"' ∨ q = '\'') ∧ R = w ++ k ++ '=' :: q :: r

theorem re_noQuote {n : Str} (h : Re.Matches nameRe n) : ∀ c ∈ n, (c ≠ '"' && c ≠ '\'') = true := by
  obtain ⟨a, t, rfl, h1, h2⟩ := Re.matches_seq.1 h
  obtain ⟨c, rfl, hc⟩ := Re.matches_cls.1 h1
  have ht := Re.matches_star_cls.1 h2
  rw [List.all_eq_true] at ht
  intro x hx
  have hx' : CodeIn startCodes x ∨ CodeIn moreCodes x := by
    rcases List.mem_cons.1 hx with rfl | hx
    · exact .inl (nameStart_iff.2 hc)
    · exact nameChar_iff.2 (ht x hx)
  simp only [ne_eq, Bool.and_eq_true, decide_eq_true_eq]
  constructor <;> rintro rfl <;> revert hx' <;> decide

theorem ws_noQuote {w : Str} (h : AllWs w) : ∀ c ∈ w, (c ≠ '"' && c ≠ '\'') = true := by
  intro x hx
  have := h x hx
  simp only [ne_eq, Bool.and_eq_true, decide_eq_true_eq]
  constructor <;> rintro rfl <;> revert this <;> decide

theorem mem_beforeQuotes {a b : Str} (h : ∀ c ∈ a, (c ≠ '"' && c ≠ '\'') = true) {x : Char} (hx : x ∈ a) :
    x ∈ beforeQuotes (a ++ b) := by
  rw [beforeQuotes, List.takeWhile_append_of_pos h]
  exact List.mem_append_left _ hx

theorem beforeQuotes_prefix {a b : Str} (h : a <+: b) {x : Char} (hx : x ∈ beforeQuotes a) : x ∈ beforeQuotes b := by
  obtain ⟨r, rfl⟩ := h
  rw [beforeQuotes, List.takeWhile_append]
  split
  · rename_i h
    exact List.mem_append_left _ ((List.takeWhile_prefix _).mem hx)
  · exact hx

theorem elemRe_parts {t : Str} (h : Re.Matches elemRe t) (hc : ¬ c%"</" <+: t) (hu : '\u1680' ∉ beforeQuotes t) :
    ∃ n R, t = '<' :: n ++ R ∧ XmlName n ∧ AfterMatch R := by
  obtain ⟨a, t1, rfl, h1, h2⟩ := Re.matches_seq.1 h
  rw [Re.matches_lit] at h1
  subst h1
  obtain ⟨a, t2, rfl, h3, h4⟩ := Re.matches_seq.1 h2
  have ha : a = [] := by
    rcases Re.matches_opt.1 h3 with h | h
    · exact h
    · rw [Re.matches_lit] at h
      subst h
      exact absurd ⟨t2, rfl⟩ hc
  subst ha
  obtain ⟨n1, t3, rfl, h5, h6⟩ := Re.matches_seq.1 h4
  obtain ⟨n2, t4, rfl, h7, h8⟩ := Re.matches_seq.1 h6
  obtain ⟨A, t5, rfl, h9, h10⟩ := Re.matches_seq.1 h8
  obtain ⟨w, t6, rfl, h11, h12⟩ := Re.matches_seq.1 h10
  obtain ⟨s, t7, rfl, h13, h14⟩ := Re.matches_seq.1 h12
  rw [Re.matches_lit] at h14
  subst h14
  have hnq : ∀ c ∈ c%"<" ++ (n1 ++ n2), (c ≠ '"' && c ≠ '\'') = true := by
    intro c hc
    simp only [List.mem_append, List.mem_singleton] at hc
    rcases hc with rfl | hc | hc
    · decide
    · exact re_noQuote h5 c hc
    · rcases Re.matches_opt.1 h7 with rfl | h
      · cases hc
      · obtain ⟨a, b, rfl, hl, hb⟩ := Re.matches_seq.1 h
        rw [Re.matches_lit] at hl
        subst hl
        rcases List.mem_cons.1 hc with rfl | hc
        · decide
        · exact re_noQuote hb c hc
  have hu' : ∀ (r : Str), c%"<" ++ ([] ++ (n1 ++ (n2 ++ r))) = c%"<" ++ (n1 ++ n2) ++ r := by simp
  have hn1 : XmlName n1 := re_xmlName h5 (fun h => hu (by
    rw [hu']; exact mem_beforeQuotes hnq (by simp [h])))
  have hn : XmlName (n1 ++ n2) := by
    rcases Re.matches_opt.1 h7 with rfl | h
    · simpa using hn1
    · obtain ⟨a, b, rfl, hl, hb⟩ := Re.matches_seq.1 h
      rw [Re.matches_lit] at hl
      subst hl
      exact xmlName_append hn1 (re_xmlName hb (fun h => hu (by
        have h : '\u1680' ∈ b := h
        rw [hu']; exact mem_beforeQuotes hnq (by simp [h]))))
  refine ⟨n1 ++ n2, A ++ (w ++ (s ++ ['>'])), by simp, hn, ?_⟩
  generalize hr : Re.star attrRe = r at h9
  cases h9 with
  | starNil =>
    refine .inl ⟨w, s ++ c%">", [], re_ws h11, ?_, by simp⟩
    rcases Re.matches_opt.1 h13 with rfl | h
    · exact .inr rfl
    · rw [Re.matches_lit] at h
      subst h
      exact .inl rfl
  | @starCons a s1 s2 ha hb =>
    cases hr
    obtain ⟨w1, u, rfl, k1, k2⟩ := Re.matches_seq.1 ha
    obtain ⟨k, u, rfl, k3, k4⟩ := Re.matches_seq.1 k2
    obtain ⟨e, v, rfl, k5, k6⟩ := Re.matches_seq.1 k4
    rw [Re.matches_lit] at k5
    subst k5
    have hq : ∃ q r, (q = '"' ∨ q = '\'') ∧ v = q :: r := by
      rcases Re.matches_alt.1 k6 with h | h
      · obtain ⟨a, b, rfl, h1, -⟩ := Re.matches_seq.1 h
        rw [Re.matches_lit] at h1
        exact ⟨'"', b, .inl rfl, by simp [h1]⟩
      · obtain ⟨a, b, rfl, h1, -⟩ := Re.matches_seq.1 h
        rw [Re.matches_lit] at h1
        exact ⟨'\'', b, .inr rfl, by simp [h1]⟩
    obtain ⟨q, r, hq, rfl⟩ := hq
    obtain ⟨g1, g2⟩ := re_ws_plus k1
    exact .inr ⟨w1, k, q, r ++ s2 ++ (w ++ (s ++ c%">")), g1, g2, re_xmlName k3 (fun h => hu (by
      have e : ∀ x y z : Str, c%"<" ++ ([] ++ (n1 ++ (n2 ++ (w1 ++ (k ++ (c%"=" ++ x)) ++ y ++ z)))) = c%"<" ++ (n1 ++ n2) ++ (w1 ++ k) ++ (c%"=" ++ (x ++ (y ++ z))) := by simp
      rw [e]
      refine mem_beforeQuotes (fun c hc => ?_) (by simp [h])
      simp only [List.mem_append] at hc
      rcases hc with hc | hc | hc
      · exact hnq c (by simpa using hc)
      · exact ws_noQuote g1 c hc
      · exact re_noQuote k3 c hc)), hq, by simp⟩
  | _ => cases hr

theorem infix_prefix {t s : Str} {c : Char} {u : Str} (h : t <:+: s) (ht : t = c :: u) (hs : c ∉ s.tail) : t <+: s := by
  obtain ⟨a, b, rfl⟩ := h
  cases a with
  | nil => exact ⟨b, by simp⟩
  | cons x a => subst ht; simp at hs

theorem tagAt_short {tag s a' : Str} (hT : TagAt s tag) (hd : ¬ c%"<!" <+: tag) (ha : c%"<" ++ a' ++ c%">" <+: tag)
    (hq : qstate none a' = none) (hp : ¬ c%"?" <+: a') : tag.length ≤ a'.length + 2 := by
  cases hT with
  | comment h1 h2 =>
    exact absurd (List.prefix_of_prefix_length_le (List.IsPrefix.trans (by decide) h1) h2.here (by simp)) hd
  | cdata h1 h2 =>
    exact absurd (List.prefix_of_prefix_length_le (List.IsPrefix.trans (by decide) h1) h2.here (by simp)) hd
  | decl => exact absurd ⟨_, by simp only [List.append_assoc]; rfl⟩ hd
  | @pi a u =>
    exfalso
    cases a' with
    | nil => simp at ha
    | cons c a' =>
      simp at ha
      exact hp ⟨a', by rw [ha.1]; rfl⟩
  | @elem a u hs h1 h2 hF =>
    have h3 : a' ++ c%">" <+: a ++ c%">" := by simpa using ha
    have := hF.first a' (h3.trans hF.here) hq
    simp; omega

/-- The name and what comes after it in a tag that the pattern accepts. -/
theorem tag_parts {tag s : Str} (hT : TagAt s tag) (hre : Re.isMatch elemRe tag = true) (hc : ¬ c%"</" <+: tag)
    (hd : ¬ c%"<!" <+: tag) (h1 : '<' ∉ tag.tail) (hu : '\u1680' ∉ beforeQuotes tag) :
    ∃ n R, tag = '<' :: n ++ R ∧ XmlName n ∧ AfterName R := by
  obtain ⟨t, ht, hm⟩ := Re.isMatch_iff.1 hre
  obtain ⟨a, u, ha, hl, -⟩ := Re.matches_seq.1 hm
  rw [Re.matches_lit] at hl
  have hp : t <+: tag := infix_prefix (c := '<') (u := u) ht (by rw [ha, hl]; rfl) h1
  obtain ⟨n, R, rfl, hn, hR⟩ := elemRe_parts hm (fun h => hc (h.trans hp)) (fun h => hu (beforeQuotes_prefix hp h))
  obtain ⟨z, rfl⟩ := hp
  rcases hR with ⟨w, e, r, g1, g2, rfl⟩ | ⟨w, k, q, r, g1, g2, g3, g4, rfl⟩
  · refine ⟨n, w ++ e, ?_, hn, .inl ⟨w, e, g1, g2, rfl⟩⟩
    obtain ⟨b, hb, he⟩ : ∃ b, (b = [] ∨ b = c%"/") ∧ e = b ++ c%">" := by
      rcases g2 with rfl | rfl
      · exact ⟨c%"/", .inr rfl, rfl⟩
      · exact ⟨[], .inl rfl, rfl⟩
    have hq : Quiet (n ++ (w ++ b)) := by
      refine quiet_append (quiet_name hn) (quiet_append (quiet_ws g1) ?_)
      rcases hb with rfl | rfl
      · exact quiet_nil
      · exact quiet_of (by decide)
    have hlen := tagAt_short hT hd (a' := n ++ (w ++ b)) (by subst he; exact ⟨r ++ z, by simp⟩) hq.1 (by
      obtain ⟨c, t, rfl, hc, -⟩ := hn
      rintro ⟨u, hu⟩
      simp at hu
      rw [← hu.1] at hc
      revert hc; decide)
    have hz : r ++ z = [] := by
      apply List.length_eq_zero_iff.1
      subst he
      simp only [List.length_append, List.length_cons, List.length_nil] at hlen ⊢
      omega
    have : r = [] ∧ z = [] := by simpa using hz
    simp [this]
  · exact ⟨n, w ++ k ++ '=' :: q :: (r ++ z), by simp, hn, .inr ⟨w, k, q, r ++ z, g1, g2, g3, g4, rfl⟩⟩

theorem openName_parts {tag n R m : Str} (ht : tag = '<' :: n ++ R) (hn : XmlName n)
    (hR : (∃ w e, AllWs w ∧ (e = c%"/>" ∨ e = c%">") ∧ R = w ++ e) ∨ ∃ w r, AllWs w ∧ w ≠ [] ∧ R = w ++ r)
    (h : OpenName tag m) : m = n := by
  obtain ⟨s, ⟨a, mm, b, w1, w2, h1, h2, h3, h4, h5, h6, h7⟩, hm1, hm2, r, rfl, hr⟩ := h
  subst h4
  have hbad : ∀ c ∈ n, isWs c = false ∧ c ≠ '/' ∧ c ≠ '>' := fun c hc =>
    ⟨xmlName_ws hn c hc, fun h => xmlName_not_mem hn '/' (by decide) (h ▸ hc), fun h => xmlName_not_mem hn '>' (by decide) (h ▸ hc)⟩
  obtain ⟨c0, n', hn'⟩ : ∃ c0 n', n = c0 :: n' := by obtain ⟨c, t, rfl, -⟩ := hn; exact ⟨c, t, rfl⟩
  have hc0 := hbad c0 (by simp [hn'])
  have ha : a = c%"<" := by
    rcases h2 with rfl | h2
    · rw [ht, hn'] at h1
      simp at h1
      exact absurd h1.1 hc0.2.1
    · exact h2.1
  subst ha
  have hw1 : w1 = [] := by
    cases w1 with
    | nil => rfl
    | cons x w1 =>
      rw [ht, hn'] at h1
      simp at h1
      have := h5 x (by simp)
      rw [← h1.1, hc0.1] at this
      cases this
  subst hw1
  have hE : m ++ (r ++ w2 ++ b) = n ++ R := by
    rw [ht] at h1
    simpa using h1.symm
  have hb : ∃ y b', b = y :: b' ∧ (y = '/' ∨ y = '>') := by
    rcases h3 with rfl | ⟨rfl, -⟩
    · exact ⟨'/', _, rfl, .inl rfl⟩
    · exact ⟨'>', _, rfl, .inr rfl⟩
  rcases List.append_eq_append_iff.1 hE with ⟨u, rfl, hu⟩ | ⟨u, rfl, hu⟩
  · cases u with
    | nil => simp
    | cons d u =>
      exfalso
      have hd := hbad d (by simp)
      rcases hr with rfl | ⟨c, r', rfl, hc, -⟩
      · cases w2 with
        | nil =>
          obtain ⟨y, b', rfl, hy⟩ := hb
          simp at hu
          rcases hy with rfl | rfl
          · exact hd.2.1 hu.1.symm
          · exact hd.2.2 hu.1.symm
        | cons y w2 =>
          simp at hu
          have := h6 y (by simp)
          rw [hu.1, hd.1] at this
          cases this
      · simp at hu
        rw [hu.1, hd.1] at hc
        cases hc
  · cases u with
    | nil => simp
    | cons d u =>
      exfalso
      have hd := hm2 n d u rfl (quiet_name hn).1
      have hws : ∀ w r : Str, AllWs w → w ≠ [] → R = w ++ r → False := by
        intro w r' hw hne hR'
        cases w with
        | nil => exact hne rfl
        | cons y w =>
          rw [hu] at hR'
          simp at hR'
          have := hw y (by simp)
          rw [← hR'.1, hd] at this
          cases this
      rcases hR with ⟨w, e, g1, g2, g3⟩ | ⟨w, r', g1, g2, g3⟩
      · by_cases hw : w = []
        · subst hw
          rw [hu] at g3
          simp only [List.nil_append] at g3
          have hl := congrArg List.length g3
          obtain ⟨y, b', rfl, hy⟩ := hb
          rcases g2 with rfl | rfl
          · simp at hl
            have : u = [] ∧ r = [] ∧ w2 = [] ∧ b' = [] := by
              refine ⟨?_, ?_, ?_, ?_⟩ <;> apply List.length_eq_zero_iff.1 <;> omega
            obtain ⟨rfl, rfl, rfl, rfl⟩ := this
            simp at g3
            obtain ⟨rfl, rfl⟩ := g3
            rcases h3 with h3 | ⟨-, h3⟩
            · simp at h3
            · exact h3 ⟨n, by simp⟩
          · simp at hl
        · exact hws w e g1 hw g3
      · exact hws w r' g1 g2 g3

/-! ## all tags of an accepted document -/

theorem body_opening {e : Element} {toks : List (Str × Str)} {f : Forest} (h : Body e toks f) :
    ∀ t ∈ toks, Opening t.2 → ∃ p c, Opens p t.2 c := by
  induction h with
  | close hc hw =>
    intro t ht ho
    rw [List.mem_singleton.1 ht] at ho
    rcases ho with ho | ho <;> rw [kind_close hc.slash] at ho <;> cases ho
  | comment _ _ hw ih =>
    intro t ht ho
    rcases List.mem_cons.1 ht with rfl | ht
    · exact absurd ho (not_opening_mark (List.IsPrefix.trans (by decide : c%"<!" <+: c%"<!--") ⟨_, List.append_assoc _ _ _ |>.symm⟩))
    · exact ih t ht ho
  | cdata _ _ hw ih =>
    intro t ht ho
    rcases List.mem_cons.1 ht with rfl | ht
    · exact absurd ho (not_opening_mark (List.IsPrefix.trans (by decide : c%"<!" <+: c%"<![CDATA[") ⟨_, List.append_assoc _ _ _ |>.symm⟩))
    · exact ih t ht ho
  | empty hO hs _ hw ih =>
    intro t ht ho
    rcases List.mem_cons.1 ht with rfl | ht
    · exact ⟨_, _, hO⟩
    · exact ih t ht ho
  | elem hO hs _ _ hw ih1 ih2 =>
    intro t ht ho
    rcases List.mem_cons.1 ht with rfl | ht
    · exact ⟨_, _, hO⟩
    · rcases List.mem_append.1 ht with ht | ht
      · exact ih1 t ht ho
      · exact ih2 t ht ho

theorem tops_opening {toks : List (Str × Str)} {e E : Element} {f F : Forest} (h : Tops toks e f E F) :
    ∀ t ∈ toks, Opening t.2 → ∃ p c, Opens p t.2 c := by
  induction h with
  | nil => simp
  | more _ hO hs hB hT ih =>
    intro t ht ho
    rcases List.mem_cons.1 ht with rfl | ht
    · exact ⟨_, _, hO⟩
    · rcases List.mem_append.1 ht with ht | ht
      · exact body_opening hB t ht ho
      · exact ih t ht ho

theorem accepted_opening {x : Str} {d : Document} {pre rest : List (Str × Str)} (h : parseStr x = .ok d) (hp : Parts x pre rest) :
    ∀ t ∈ rest, Opening t.2 → ∃ p c, Opens p t.2 c := by
  obtain ⟨text, tag, rest', E, F, rfl, -, hR, -, -⟩ := accepted_parts h hp
  intro t ht ho
  cases hR with
  | empty hO hs hr =>
    subst hr
    rw [List.mem_singleton.1 ht]
    exact ⟨_, _, hO⟩
  | elem hO hs hr hB hT =>
    subst hr
    rcases List.mem_cons.1 ht with rfl | ht
    · exact ⟨_, _, hO⟩
    · rcases List.mem_append.1 ht with ht | ht
      · exact body_opening hB t ht ho
      · exact tops_opening hT t ht ho

theorem lexes_tags {x : Str} {toks : List (Str × Str)} {tail : Str} (h : Lexes x toks tail) : ∀ t ∈ toks, ∃ s, TagAt s t.2 := by
  induction h with
  | done => simp
  | tag _ hT _ _ ih =>
    intro t ht
    rcases List.mem_cons.1 ht with rfl | ht
    · exact ⟨_, hT⟩
    · exact ih t ht

theorem accepted_names {x : Str} {d : Document} {pre rest : List (Str × Str)} (h : parseStr x = .ok d) (hp : Parts x pre rest)
    {tag : Str} (ht : tag ∈ tagsOf rest) (ho : Opening tag) (hpl : PlainTag tag) :
    ∃ n R, tag = '<' :: n ++ R ∧ XmlName n ∧ AfterName R ∧ ∀ m, OpenName tag m ↔ m = n := by
  obtain ⟨t, ht', rfl⟩ := List.mem_map.1 ht
  obtain ⟨p, c, hO⟩ := accepted_opening h hp t ht' ho
  obtain ⟨tail, hl⟩ := hp.lexes
  obtain ⟨s, hT⟩ := lexes_tags hl t (List.mem_append_right _ ht')
  obtain ⟨n, R, h1, h2, h3⟩ := tag_parts hT hO.regex hO.not_close hO.not_decl hpl.1 hpl.2
  have huniq : ∀ m, OpenName t.2 m → m = n := fun m hm => openName_parts h1 h2 (by
    rcases h3 with h | ⟨w, k, q, r, g1, g2, -, -, g3⟩
    · exact .inl h
    · exact .inr ⟨w, k ++ '=' :: q :: r, g1, g2, by simp [g3]⟩) hm
  refine ⟨n, R, h1, h2, h3, fun m => ⟨huniq m, ?_⟩⟩
  rintro rfl
  obtain ⟨-, -, -, -, -, -, -, -, -, ha⟩ := accepted_parts h hp
  have := opens_name hO (ha t (List.mem_append_right _ ht'))
  rwa [huniq _ this] at this

theorem words_first {s n : Str} {l : List Str} (h : Words s (n :: l)) (ht : Trimmed s) : FirstWord s n := by
  cases h with
  | @word w n r l h1 h2 h3 =>
    cases w with
    | nil => exact h2
    | cons c w =>
      have h4 := ht.1 c rfl
      rw [h1 c (by simp)] at h4
      cases h4

theorem tagWrites_name {D : Str → Str → Prop} {tag : Str} {e : Element} (h : TagWrites D tag e) : OpenName tag e.tagName := by
  obtain ⟨ps, ⟨s, ws, h1, h2, -⟩, -⟩ := h
  refine ⟨s, h1, words_first h2 ?_⟩
  obtain ⟨_, _, _, _, _, _, _, _, _, _, _, hT⟩ := h1
  exact hT

theorem forall₂_right {α β : Type} {R : α → β → Prop} {l : List α} {m : List β} (h : List.Forall₂ R l m) {b : β} (hb : b ∈ m) :
    ∃ a ∈ l, R a b := by
  induction h with
  | nil => simp at hb
  | cons h1 _ ih =>
    rcases List.mem_cons.1 hb with rfl | hb
    · exact ⟨_, by simp, h1⟩
    · obtain ⟨a, ha, hr⟩ := ih hb
      exact ⟨a, by simp [ha], hr⟩

end KissXml
