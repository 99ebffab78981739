import Verif.Model.Parse
import Verif.Proofs.Str
/-!
# The regex matcher is correct with respect to the language semantics
-/
namespace KissXml
namespace Re

theorem matches_eps {s : Str} : Matches .eps s ↔ s = [] := by
  constructor
  · intro h; cases h; rfl
  · rintro rfl; exact .eps

theorem matches_cls {rs} {s : Str} : Matches (.cls rs) s ↔ ∃ c, s = [c] ∧ inRanges rs c = true := by
  constructor
  · intro h; cases h with | cls h => exact ⟨_, rfl, h⟩
  · rintro ⟨c, rfl, h⟩; exact .cls h

theorem matches_seq {a b} {s : Str} : Matches (.seq a b) s ↔ ∃ t u, s = t ++ u ∧ Matches a t ∧ Matches b u := by
  constructor
  · intro h; cases h with | seq h1 h2 => exact ⟨_, _, rfl, h1, h2⟩
  · rintro ⟨t, u, rfl, h1, h2⟩; exact .seq h1 h2

theorem matches_alt {a b} {s : Str} : Matches (.alt a b) s ↔ Matches a s ∨ Matches b s := by
  constructor
  · intro h
    cases h with
    | altL h => exact .inl h
    | altR h => exact .inr h
  · rintro (h | h)
    · exact .altL h
    · exact .altR h

theorem nullable_iff {r : Re} : r.nullable = true ↔ Matches r [] := by
  induction r with
  | eps => simp [nullable, matches_eps]
  | cls rs => simp [nullable, matches_cls]
  | seq a b iha ihb =>
    simp only [nullable, Bool.and_eq_true, iha, ihb, matches_seq]
    constructor
    · rintro ⟨h1, h2⟩; exact ⟨[], [], rfl, h1, h2⟩
    · rintro ⟨t, u, h, h1, h2⟩
      have h := h.symm
      simp at h
      obtain ⟨rfl, rfl⟩ := h
      exact ⟨h1, h2⟩
  | alt a b iha ihb => simp [nullable, iha, ihb, matches_alt]
  | star a _ => simp [nullable]; exact .starNil

theorem matches_star_cons {a : Re} {c : Char} {s : Str} :
    Matches (.star a) (c :: s) ↔ ∃ t u, s = t ++ u ∧ Matches a (c :: t) ∧ Matches (.star a) u := by
  constructor
  · intro h
    generalize hr : Re.star a = r at h
    generalize hx : c :: s = x at h
    induction h with
    | eps => cases hr
    | cls _ => cases hr
    | seq => cases hr
    | altL => cases hr
    | altR => cases hr
    | starNil => cases hx
    | @starCons a' s' t' h1 h2 _ ih2 =>
      cases hr
      cases s' with
      | nil => exact ih2 rfl (by simpa using hx)
      | cons d s' =>
        simp at hx
        obtain ⟨rfl, rfl⟩ := hx
        exact ⟨s', t', rfl, h1, h2⟩
  · rintro ⟨t, u, rfl, h1, h2⟩
    exact .starCons h1 h2

theorem pderiv_iff {c : Char} {r : Re} {s : Str} :
    (∃ r' ∈ pderiv c r, Matches r' s) ↔ Matches r (c :: s) := by
  induction r generalizing s with
  | eps => simp [pderiv, matches_eps]
  | cls rs =>
    rw [matches_cls]
    unfold pderiv
    split
    · rename_i h
      constructor
      · rintro ⟨r', hr, hm⟩
        simp at hr; subst hr
        exact ⟨c, by simp [matches_eps.1 hm], h⟩
      · rintro ⟨d, hd, -⟩
        simp at hd
        exact ⟨.eps, by simp, by rw [hd.2]; exact .eps⟩
    · rename_i h
      constructor
      · rintro ⟨r', hr, -⟩; simp at hr
      · rintro ⟨d, hd, hin⟩
        simp at hd; rw [hd.1] at h; exact absurd hin h
  | seq a b iha ihb =>
    rw [matches_seq]
    simp only [pderiv, List.mem_append, List.mem_map]
    constructor
    · rintro ⟨r', (⟨r0, h0, rfl⟩ | hb), hm⟩
      · obtain ⟨t, u, rfl, h1, h2⟩ := matches_seq.1 hm
        exact ⟨c :: t, u, rfl, iha.1 ⟨r0, h0, h1⟩, h2⟩
      · by_cases hn : a.nullable = true
        · simp only [hn, if_true] at hb
          exact ⟨[], c :: s, rfl, nullable_iff.1 hn, ihb.1 ⟨r', hb, hm⟩⟩
        · have hn' : a.nullable = false := by simpa using hn
          simp [hn'] at hb
    · rintro ⟨t, u, h, h1, h2⟩
      cases t with
      | nil =>
        have hn := nullable_iff.2 h1
        simp at h; subst h
        obtain ⟨r', hr, hm⟩ := ihb.2 h2
        exact ⟨r', .inr (by simpa [hn] using hr), hm⟩
      | cons d t =>
        simp at h
        obtain ⟨rfl, rfl⟩ := h
        obtain ⟨r0, h0, hm⟩ := iha.2 h1
        exact ⟨.seq r0 b, .inl ⟨r0, h0, rfl⟩, .seq hm h2⟩
  | alt a b iha ihb =>
    rw [matches_alt]
    simp only [pderiv, List.mem_append]
    constructor
    · rintro ⟨r', (h | h), hm⟩
      · exact .inl (iha.1 ⟨r', h, hm⟩)
      · exact .inr (ihb.1 ⟨r', h, hm⟩)
    · rintro (h | h)
      · obtain ⟨r', hr, hm⟩ := iha.2 h; exact ⟨r', .inl hr, hm⟩
      · obtain ⟨r', hr, hm⟩ := ihb.2 h; exact ⟨r', .inr hr, hm⟩
  | star a iha =>
    rw [matches_star_cons]
    simp only [pderiv, List.mem_map]
    constructor
    · rintro ⟨r', ⟨r0, h0, rfl⟩, hm⟩
      obtain ⟨t, u, rfl, h1, h2⟩ := matches_seq.1 hm
      exact ⟨t, u, rfl, iha.1 ⟨r0, h0, h1⟩, h2⟩
    · rintro ⟨t, u, rfl, h1, h2⟩
      obtain ⟨r0, h0, hm⟩ := iha.2 h1
      exact ⟨.seq r0 (.star a), ⟨r0, h0, rfl⟩, .seq hm h2⟩

theorem mem_addNew {l : List Re} {r x : Re} : x ∈ addNew l r ↔ x = r ∨ x ∈ l := by
  unfold addNew
  split
  · rename_i h
    constructor
    · exact .inr
    · rintro (rfl | h') <;> assumption
  · simp

theorem mem_foldl_addNew {l acc : List Re} {x : Re} : x ∈ l.foldl addNew acc ↔ x ∈ l ∨ x ∈ acc := by
  induction l generalizing acc with
  | nil => simp
  | cons a l ih =>
    simp only [List.foldl_cons, ih, mem_addNew, List.mem_cons]
    tauto

theorem mem_step {c : Char} {rs : List Re} {x : Re} : x ∈ step c rs ↔ ∃ r ∈ rs, x ∈ pderiv c r := by
  simp [step, mem_foldl_addNew]

theorem any_nullable {rs : List Re} : rs.any nullable = true ↔ ∃ r ∈ rs, Matches r [] := by
  simp [nullable_iff]

theorem prefixMatch_nil {s : Str} : prefixMatch [] s = false := by
  cases s with
  | nil => rfl
  | cons c s => rfl

theorem prefixMatch_cons {rs : List Re} {c : Char} {s : Str} :
    prefixMatch rs (c :: s) = (rs.any nullable || prefixMatch (step c rs) s) := by
  show (_ || _) = _
  split
  · rename_i h; rw [h, prefixMatch_nil]
  · rfl

theorem prefixMatch_iff {rs : List Re} {s : Str} :
    prefixMatch rs s = true ↔ ∃ r ∈ rs, ∃ t, t <+: s ∧ Matches r t := by
  induction s generalizing rs with
  | nil => simp [prefixMatch, nullable_iff]
  | cons c s ih =>
    rw [prefixMatch_cons, Bool.or_eq_true, any_nullable, ih]
    constructor
    · rintro (⟨r, hr, hm⟩ | ⟨r', hr', t, ht, hm⟩)
      · exact ⟨r, hr, [], by simp, hm⟩
      · obtain ⟨r, hr, hp⟩ := mem_step.1 hr'
        exact ⟨r, hr, c :: t, by simpa using ht, pderiv_iff.1 ⟨r', hp, hm⟩⟩
    · rintro ⟨r, hr, t, ht, hm⟩
      cases t with
      | nil => exact .inl ⟨r, hr, hm⟩
      | cons d t =>
        rw [List.cons_prefix_cons] at ht
        obtain ⟨rfl, ht⟩ := ht
        obtain ⟨r', hp, hm'⟩ := pderiv_iff.2 hm
        exact .inr ⟨r', mem_step.2 ⟨r, hr, hp⟩, t, ht, hm'⟩

/-- `isMatch` finds a match exactly when some substring is in the language. -/
theorem isMatch_iff {r : Re} {s : Str} : isMatch r s = true ↔ ∃ t, t <:+: s ∧ Matches r t := by
  induction s with
  | nil =>
    simp only [isMatch, prefixMatch_iff, List.mem_singleton, exists_eq_left]
    constructor
    · rintro ⟨t, ht, hm⟩; exact ⟨t, ht.isInfix, hm⟩
    · rintro ⟨t, ht, hm⟩; exact ⟨t, by simpa using ht, hm⟩
  | cons c s ih =>
    simp only [isMatch, Bool.or_eq_true, prefixMatch_iff, List.mem_singleton, exists_eq_left, ih,
      List.infix_cons_iff]
    constructor
    · rintro (⟨t, ht, hm⟩ | ⟨t, ht, hm⟩)
      · exact ⟨t, .inl ht, hm⟩
      · exact ⟨t, .inr ht, hm⟩
    · rintro ⟨t, (ht | ht), hm⟩
      · exact .inl ⟨t, ht, hm⟩
      · exact .inr ⟨t, ht, hm⟩

theorem fullStates_iff {rs : List Re} {s : Str} : fullStates rs s = true ↔ ∃ r ∈ rs, Matches r s := by
  induction s generalizing rs with
  | nil => simp [fullStates, nullable_iff]
  | cons c s ih =>
    simp only [fullStates, ih, mem_step]
    constructor
    · rintro ⟨r', ⟨r, hr, hp⟩, hm⟩; exact ⟨r, hr, pderiv_iff.1 ⟨r', hp, hm⟩⟩
    · rintro ⟨r, hr, hm⟩
      obtain ⟨r', hp, hm'⟩ := pderiv_iff.2 hm
      exact ⟨r', ⟨r, hr, hp⟩, hm'⟩

/-- `fullMatch` holds exactly when the whole string is in the language. -/
theorem fullMatch_iff {r : Re} {s : Str} : fullMatch r s = true ↔ Matches r s := by
  simp [fullMatch, fullStates_iff]

theorem matches_lit {c : Char} {s : Str} : Matches (lit c) s ↔ s = [c] := by
  unfold lit
  rw [matches_cls]
  constructor
  · rintro ⟨d, rfl, h⟩
    simp [inRanges] at h
    have : d.toNat = c.toNat := by omega
    simp [Char.toNat_inj.1 this]
  · rintro rfl; exact ⟨c, rfl, by simp [inRanges]⟩

theorem matches_opt {r : Re} {s : Str} : Matches (opt r) s ↔ s = [] ∨ Matches r s := by
  simp [opt, matches_alt, matches_eps]

theorem matches_star_cls {rs} {s : Str} : Matches (.star (.cls rs)) s ↔ s.all (inRanges rs) = true := by
  induction s with
  | nil => simp; exact .starNil
  | cons c s ih =>
    rw [matches_star_cons]
    simp only [List.all_cons, Bool.and_eq_true]
    constructor
    · rintro ⟨t, u, rfl, h1, h2⟩
      obtain ⟨d, hd, hin⟩ := matches_cls.1 h1
      simp at hd
      obtain ⟨rfl, rfl⟩ := hd
      exact ⟨hin, ih.1 (by simpa using h2)⟩
    · rintro ⟨h1, h2⟩
      exact ⟨[], s, rfl, .cls h1, ih.2 h2⟩

theorem matches_plus_cls {rs} {s : Str} :
    Matches (plus (.cls rs)) s ↔ s ≠ [] ∧ s.all (inRanges rs) = true := by
  unfold plus
  rw [matches_seq]
  constructor
  · rintro ⟨t, u, rfl, h1, h2⟩
    obtain ⟨c, rfl, hc⟩ := matches_cls.1 h1
    have := matches_star_cls.1 h2
    simp [hc]
    simpa using this
  · rintro ⟨h1, h2⟩
    cases s with
    | nil => exact absurd rfl h1
    | cons c s =>
      simp at h2
      exact ⟨[c], s, rfl, .cls h2.1, matches_star_cls.2 (by simpa using h2.2)⟩

theorem inRanges_any (c : Char) : inRanges [(0, 0x10FFFF)] c = true := by
  have := c.valid
  simp [inRanges]
  have h := c.valid
  unfold UInt32.isValidChar Nat.isValidChar at h
  show c.val.toNat ≤ _
  omega

theorem matches_star_any (s : Str) : Matches (.star anyChar) s := by
  unfold anyChar
  rw [matches_star_cls]
  simp [inRanges_any]

/-- complement of the white space class (`\S`) -/
def nonWsRanges : List (Nat × Nat) :=
  [(0, 8), (0xE, 0x1F), (0x21, 0x84), (0x86, 0x9F), (0xA1, 0x167F), (0x1681, 0x1FFF), (0x200B, 0x2027),
   (0x202A, 0x202E), (0x2030, 0x205E), (0x2060, 0x2FFF), (0x3001, 0x10FFFF)]

theorem inRanges_nonWs (c : Char) : inRanges nonWsRanges c = !isWs c := by
  have h := inRanges_any c
  simp only [inRanges, List.any_cons, List.any_nil, Bool.or_false, Nat.zero_le, decide_true, Bool.true_and,
    decide_eq_true_eq] at h
  rw [Bool.eq_iff_iff]
  simp only [inRanges, nonWsRanges, isWs, wsRanges, List.any_cons, List.any_nil, Bool.or_false, Bool.or_eq_true,
    Bool.and_eq_true, decide_eq_true_eq, Bool.not_eq_true', Bool.or_eq_false_iff, Bool.and_eq_false_iff,
    decide_eq_false_iff_not]
  omega

/-- `[_a-zA-Z]\S*` -/
def nameCheckRe : Re := .seq (.cls [(0x5F, 0x5F), (0x61, 0x7A), (0x41, 0x5A)]) (.star (.cls nonWsRanges))

/-- `validName` is `is_match` of `^[_a-zA-Z]\S*$`, dom.rs:985, 999. -/
theorem validName_eq (s : Str) : validName s = fullMatch nameCheckRe s := by
  rw [Bool.eq_iff_iff, fullMatch_iff, nameCheckRe, matches_seq]
  cases s with
  | nil =>
    simp only [validName, Bool.false_eq_true, false_iff]
    rintro ⟨t, u, h, h1, -⟩
    obtain ⟨c, rfl, -⟩ := matches_cls.1 h1
    simp at h
  | cons c s =>
    simp only [validName, Bool.and_eq_true]
    have hall : (s.all fun x => !isWs x) = s.all (inRanges nonWsRanges) := by
      congr 1; funext x; rw [inRanges_nonWs]
    rw [hall]
    constructor
    · rintro ⟨h1, h2⟩
      exact ⟨[c], s, rfl, .cls h1, matches_star_cls.2 h2⟩
    · rintro ⟨t, u, h, h1, h2⟩
      obtain ⟨d, rfl, hd⟩ := matches_cls.1 h1
      simp at h
      obtain ⟨rfl, rfl⟩ := h
      exact ⟨hd, matches_star_cls.1 h2⟩

/-- `textIsWhitespace` is `is_match` of `^\s+$`, dom.rs:1659. -/
theorem textIsWhitespace_eq (s : Str) : textIsWhitespace s = fullMatch (plus (.cls wsRanges)) s := by
  rw [Bool.eq_iff_iff, fullMatch_iff, matches_plus_cls]
  simp [textIsWhitespace, isWs]

/-- the test of `realText` is `is_match` of `^\s*$`, lib.rs:872. -/
theorem allWs_eq (s : Str) : s.all isWs = fullMatch (.star (.cls wsRanges)) s := by
  rw [Bool.eq_iff_iff, fullMatch_iff, matches_star_cls]
  simp [isWs]

end Re
end KissXml
