import Verif.Model.Io
import Verif.Proofs.Outer
import Verif.Proofs.Where
/-!
# I/O, declarations, error messages
-/
namespace KissXml
open Spec

theorem readToString_encode (s : Str) : readToString s.utf8Encode = .ok s := by
  unfold readToString
  rw [List.utf8Decode?_utf8Encode]

theorem readToString_eq_ok {b : ByteArray} {s : Str} : readToString b = .ok s ↔ b = s.utf8Encode := by
  constructor
  · intro h
    unfold readToString at h
    cases hb : b.utf8Decode? with
    | none => rw [hb] at h; cases h
    | some a =>
      rw [hb] at h
      simp only [Res.ok.injEq] at h
      subst h
      have := @ByteArray.utf8Encode_get_utf8Decode? b (by simp [hb])
      simp only [hb, Option.get_some] at this
      exact this.symm
  · rintro rfl; exact readToString_encode s

theorem readToString_cases (b : ByteArray) : (∃ s : Str, b = s.utf8Encode) ∨ readToString b = .err .io := by
  cases h : readToString b with
  | ok s => exact .inl ⟨s, readToString_eq_ok.1 h⟩
  | err e => right; unfold readToString at h; split at h <;> cases h; rfl
  | panic => unfold readToString at h; split at h <;> cases h
  | diverge => unfold readToString at h; split at h <;> cases h

theorem utf8Encode_size (s : Str) : s.utf8Encode.size = blen s := by
  induction s with
  | nil => rfl
  | cons c s ih =>
    rw [← List.singleton_append, List.utf8Encode_append, ByteArray.size_append, ih, blen_append]
    congr 1
    simp [List.utf8Encode, blen]

theorem io_not_bind (r : R Str) (e : Err) (h : r = .err e) : (r >>= parseStr) = .err e := by subst h; rfl

/-! ## declarations -/

theorem fromStr_cases (s : Str) :
    (∃ w1 w2 m, s = w1 ++ (c%"<?" ++ m ++ c%"?>") ++ w2 ∧ w1.all isWs = true ∧ w2.all isWs = true ∧ Declaration.fromStr s = .ok ⟨m⟩) ∨
    (∃ w1 w2, s = w1 ++ c%"<?>" ++ w2 ∧ w1.all isWs = true ∧ w2.all isWs = true ∧ Declaration.fromStr s = .panic) ∨
    ((∃ e, Declaration.fromStr s = .err e) ∧ ¬ (c%"<?" <+: trim s ∧ c%"?>" <:+ trim s)) := by
  obtain ⟨w1, w2, hs, h1, h2, -⟩ := trim_spec s
  by_cases h : c%"<?" <+: trim s ∧ c%"?>" <:+ trim s
  · have hb : (startsWith (trim s) c%"<?" && endsWith (trim s) c%"?>") = true := by
      rw [Bool.and_eq_true, startsWith_iff, endsWith_iff]; exact h
    by_cases hl : 4 ≤ (trim s).length
    · obtain ⟨m, hm⟩ := prefix_suffix_len h.1 h.2 hl
      refine .inl ⟨w1, w2, m, by rw [← hm]; exact hs, by simpa using h1, by simpa using h2, ?_⟩
      have := fromStr_tag m
      unfold Declaration.fromStr at this ⊢
      rw [show trim (c%"<?" ++ m ++ c%"?>") = trim s by
        rw [hm]; exact trim_ends (a := '<') (b := '>') ⟨_, rfl⟩ ⟨c%"<?" ++ m ++ c%"?", by simp⟩ (by decide) (by decide)] at this
      exact this
    · refine .inr (.inl ⟨w1, w2, ?_, by simpa using h1, by simpa using h2, ?_⟩)
      all_goals
        have ht : trim s = c%"<?>" := by
          obtain ⟨⟨u, hu⟩, ⟨v, hv⟩⟩ := h
          rw [← hu] at hl hv ⊢
          match u, hl with
          | [], _ => have := congrArg List.getLast? hv; simp at this
          | [c], _ =>
            have := congrArg List.getLast? hv
            simp at this
            subst this; rfl
          | c :: c' :: u, hl => simp at hl
      · rw [← ht]; exact hs
      · unfold Declaration.fromStr
        rw [ht]; rfl
  · refine .inr (.inr ⟨?_, h⟩)
    unfold Declaration.fromStr
    simp only
    rw [if_neg]
    · exact ⟨_, rfl⟩
    · rw [Bool.and_eq_true, startsWith_iff, endsWith_iff]; exact h

theorem trim_mid {w1 w2 s : Str} (h1 : w1.all isWs = true) (h2 : w2.all isWs = true) (hp : [a] <+: s) (hq : [b] <:+ s)
    (ha : isWs a = false) (hb : isWs b = false) : trim (w1 ++ s ++ w2) = s := by
  apply trim_eq h1 h2
  · intro c hc
    obtain ⟨u, rfl⟩ := hp
    simp at hc; subst hc; exact ha
  · intro c hc
    obtain ⟨u, rfl⟩ := hq
    simp at hc; subst hc; exact hb

theorem fromStr_ok_iff {s m : Str} : Declaration.fromStr s = .ok ⟨m⟩ ↔
    ∃ w1 w2, s = w1 ++ (c%"<?" ++ m ++ c%"?>") ++ w2 ∧ w1.all isWs = true ∧ w2.all isWs = true := by
  constructor
  · intro h
    rcases fromStr_cases s with ⟨w1, w2, m', h1, h2, h3, h4⟩ | ⟨w1, w2, h1, h2, h3, h4⟩ | ⟨⟨e, h4⟩, -⟩
    · rw [h4] at h; cases h; exact ⟨w1, w2, h1, h2, h3⟩
    · rw [h4] at h; cases h
    · rw [h4] at h; cases h
  · rintro ⟨w1, w2, rfl, h1, h2⟩
    have := fromStr_tag m
    unfold Declaration.fromStr at this ⊢
    rw [trim_mid (s := c%"<?" ++ m ++ c%"?>") (a := '<') (b := '>') h1 h2 ⟨_, rfl⟩ ⟨c%"<?" ++ m ++ c%"?", by simp⟩ (by decide) (by decide)]
    rw [trim_ends (s := c%"<?" ++ m ++ c%"?>") (a := '<') (b := '>') ⟨_, rfl⟩ ⟨c%"<?" ++ m ++ c%"?", by simp⟩ (by decide) (by decide)] at this
    exact this

theorem fromStr_panic_iff {s : Str} : Declaration.fromStr s = .panic ↔
    ∃ w1 w2, s = w1 ++ c%"<?>" ++ w2 ∧ w1.all isWs = true ∧ w2.all isWs = true := by
  constructor
  · intro h
    rcases fromStr_cases s with ⟨w1, w2, m', h1, h2, h3, h4⟩ | ⟨w1, w2, h1, h2, h3, h4⟩ | ⟨⟨e, h4⟩, -⟩
    · rw [h4] at h; cases h
    · exact ⟨w1, w2, h1, h2, h3⟩
    · rw [h4] at h; cases h
  · rintro ⟨w1, w2, rfl, h1, h2⟩
    unfold Declaration.fromStr
    rw [trim_mid (s := c%"<?>") (a := '<') (b := '>') h1 h2 ⟨_, rfl⟩ ⟨c%"<?", by simp⟩ (by decide) (by decide)]
    rfl

/-! ## doctypes -/

/-- a text with a character other than white space before its first `<` -/
def Junk (x : Str) : Prop := ∃ u c v, x = u ++ c :: v ∧ '<' ∉ u ∧ c ≠ '<' ∧ isWs c = false

theorem junk_append {x y : Str} (h : Junk x) : Junk (x ++ y) := by
  obtain ⟨u, c, v, rfl, h1, h2, h3⟩ := h
  exact ⟨u, c, v ++ y, by simp, h1, h2, h3⟩

theorem junk_blank {w x : Str} (hw : '<' ∉ w) (h : Junk x) : Junk (w ++ x) := by
  obtain ⟨u, c, v, rfl, h1, h2, h3⟩ := h
  exact ⟨w ++ u, c, v, by simp, by simp [hw, h1], h2, h3⟩

theorem junk_text {x tail text tag : Str} {toks : List (Str × Str)} (h : Lexes x ((text, tag) :: toks) tail) (hj : Junk x) :
    ¬ ∀ c ∈ text, isWs c = true := by
  intro hb
  cases h with
  | @tag _ _ rest s _ _ ht hs he hl =>
    obtain ⟨u, c, v, hx, h1, h2, h3⟩ := hj
    obtain ⟨s', hs'⟩ := tagAt_lt hs
    rw [← hs'] at hx
    rcases List.append_eq_append_iff.1 hx with ⟨w, rfl, hw⟩ | ⟨w, rfl, hw⟩
    · cases w with
      | nil => simp at hw; exact h2 hw.1.symm
      | cons b w => simp at hw; exact h1 (by simp [← hw.1])
    · cases w with
      | nil => simp at hw; exact h2 hw.1
      | cons b w =>
        simp at hw
        have := hb b (by simp)
        rw [← hw.1, h3] at this
        cases this

theorem lexes_first {x tail : Str} {toks : List (Str × Str)} (h : Lexes x toks tail) {t y : Str} (hx : x = t ++ y) (ht : TagAt t t) :
    ∃ toks', toks = ([], t) :: toks' ∧ Lexes y toks' tail := by
  have h2 := tagAt_append y ht
  obtain ⟨u, hu⟩ := tagAt_lt h2
  cases h with
  | done h => exact absurd (by rw [hx, ← hu]; simp) h
  | @tag text tag rest s _ toks h1 h3 h4 h5 =>
    obtain ⟨s', hs'⟩ := tagAt_lt h3
    have ht0 : text = [] := by
      cases text with
      | nil => rfl
      | cons b w =>
        rw [← hu] at hx
        simp only [List.cons_append, List.cons.injEq] at hx
        exact absurd (by simp [hx.1]) h1
    subst ht0
    simp only [List.nil_append] at hx
    rw [hx] at h3 h4
    have := tagAt_unique ⟨u, hu⟩ h3 h2
    subst this
    have := List.append_cancel_left h4
    subst this
    exact ⟨toks, rfl, h5⟩

theorem tagAt_self {t : Str} (h0 : c%"<" <+: t) (h : tagLen t = some (blen t)) : TagAt t t := by
  obtain ⟨t', h1, h2⟩ := (tagLen_iff h0 _).1 h
  obtain ⟨u, hu⟩ := tagAt_prefix h1
  have := congrArg blen hu
  rw [blen_append] at this
  have hu0 : u = [] := blen_eq_zero.1 (by omega)
  rw [hu0, List.append_nil] at hu
  exact hu ▸ h1

/-- a document with junk after the declaration is not accepted -/
theorem junk_reject {d : Document} {x : Str} (hj : Junk x) : parseStr x ≠ .ok d := by
  intro h
  obtain ⟨pre, text, tag, rest, E, F, ⟨⟨tail, h1⟩, -, -⟩, h2, -⟩ := accepted h
  cases pre with
  | nil => exact junk_text h1 hj h2.blank
  | cons t pre => exact junk_text h1 hj (h2.prolog t (by simp)).2

theorem junk_reject_decl {d : Document} {x t : Str} (ht : TagAt t t) (hd : c%"<?xml" <+: t) (hj : Junk x) : parseStr (t ++ x) ≠ .ok d := by
  intro h
  obtain ⟨pre, text, tag, rest, E, F, ⟨⟨tail, h1⟩, -, -⟩, h2, -⟩ := accepted h
  obtain ⟨toks', h3, h4⟩ := lexes_first h1 rfl ht
  cases pre with
  | nil =>
    simp only [List.nil_append, List.cons.injEq, Prod.mk.injEq] at h3
    exact h2.root (.inl (h3.1.2 ▸ hd))
  | cons t pre =>
    simp only [List.cons_append, List.cons.injEq] at h3
    obtain ⟨-, rfl⟩ := h3
    cases pre with
    | nil => exact junk_text h4 hj h2.blank
    | cons t pre => exact junk_text h4 hj (h2.prolog t (by simp)).2

/-! ## error messages -/

theorem trimStartMatchesF_fix (pat : Str) (hp : pat ≠ []) (n : Nat) (s : Str) (h : s.length ≤ n) :
    startsWith (trimStartMatchesF n pat s) pat = false := by
  have h0 : 0 < pat.length := List.length_pos_iff.2 hp
  induction n generalizing s with
  | zero =>
    have : s = [] := List.length_eq_zero_iff.1 (by omega)
    subst this
    rw [Bool.eq_false_iff]
    intro hc
    exact hp (List.prefix_nil.1 (startsWith_iff.1 hc))
  | succ n ih =>
    unfold trimStartMatchesF
    split
    · exact ih _ (by simp; omega)
    · rename_i hs
      rw [Bool.eq_false_iff]
      intro hc
      exact hs (by simp [hc, hp])

theorem trimStartMatchesF_form (pat : Str) (n : Nat) (s : Str) :
    ∃ k, s = (List.replicate k pat).flatten ++ trimStartMatchesF n pat s := by
  induction n generalizing s with
  | zero => exact ⟨0, rfl⟩
  | succ n ih =>
    unfold trimStartMatchesF
    split
    · rename_i hs
      simp only [Bool.and_eq_true, startsWith_iff] at hs
      obtain ⟨⟨u, rfl⟩, -⟩ := hs
      obtain ⟨k, hk⟩ := ih u
      refine ⟨k + 1, ?_⟩
      simp only [List.drop_left, List.replicate_succ, List.flatten_cons, List.append_assoc]
      rw [← hk]
    · exact ⟨0, rfl⟩

theorem trimStartMatchesF_stop {pat : Str} {n : Nat} {s : Str} (h : startsWith s pat = false) : trimStartMatchesF n pat s = s := by
  cases n with
  | zero => rfl
  | succ n => unfold trimStartMatchesF; rw [if_neg (by simp [h])]

theorem trimStartMatchesF_step {pat : Str} {n : Nat} {r : Str} (hp : pat ≠ []) :
    trimStartMatchesF (n + 1) pat (pat ++ r) = trimStartMatchesF n pat r := by
  rw [trimStartMatchesF, if_pos, List.drop_left]
  simp only [Bool.and_eq_true, startsWith_iff]
  exact ⟨⟨r, rfl⟩, by cases pat <;> simp_all⟩

theorem trimStartMatches_again {pat s : Str} (hp : pat ≠ []) :
    trimStartMatches pat (pat ++ trimStartMatches pat s) = trimStartMatches pat s := by
  have h := trimStartMatchesF_fix pat hp s.length s (le_refl _)
  obtain ⟨n, hn⟩ : ∃ n, (pat ++ trimStartMatches pat s).length = n + 1 := by
    cases pat with
    | nil => exact absurd rfl hp
    | cons a l => exact ⟨_, rfl⟩
  rw [trimStartMatches, hn, trimStartMatchesF_step hp]
  exact trimStartMatchesF_stop h

end KissXml
