import Verif.Proofs.Escape
/-!
# `unescape`: termination, agreement with the one-pass decoder, exact inverse conditions
-/
namespace KissXml
open Spec

/-! ## hexadecimal numbers -/

theorem hexDigit_iff {c : Char} {d : Nat} : hexDigit c = some d ↔ HexDigit c d := by
  unfold hexDigit
  constructor
  · intro h
    simp only at h
    split at h
    · rename_i h1
      simp at h; subst h
      exact .dec h1.1 h1.2
    · split at h
      · rename_i h1
        simp at h; subst h
        rw [show c.toNat - 0x61 + 10 = 10 + (c.toNat - 'a'.toNat) by simp [Nat.add_comm]]
        exact .lower h1.1 h1.2
      · split at h
        · rename_i h1
          simp at h; subst h
          rw [show c.toNat - 0x41 + 10 = 10 + (c.toNat - 'A'.toNat) by simp [Nat.add_comm]]
          exact .upper h1.1 h1.2
        · simp at h
  · intro h
    cases h with
    | dec h1 h2 =>
      have h1' : 0x30 ≤ c.toNat := h1
      have h2' : c.toNat ≤ 0x39 := h2
      simp [h1', h2']
    | lower h1 h2 =>
      have h1' : 0x61 ≤ c.toNat := h1
      have h2' : c.toNat ≤ 0x66 := h2
      have : ¬ c.toNat ≤ 0x39 := by omega
      simp [h1', h2', this, Nat.add_comm]
    | upper h1 h2 =>
      have h1' : 0x41 ≤ c.toNat := h1
      have h2' : c.toNat ≤ 0x46 := h2
      have : ¬ c.toNat ≤ 0x39 := by omega
      have : ¬ 0x61 ≤ c.toNat := by omega
      simp [*, Nat.add_comm]

theorem hexLoop_snoc {acc : Nat} {s : Str} {c : Char} :
    hexLoop acc (s ++ [c]) = (hexLoop acc s).bind (fun n =>
      (hexDigit c).bind (fun d => if n * 16 + d < 4294967296 then some (n * 16 + d) else none)) := by
  induction s generalizing acc with
  | nil =>
    simp only [List.nil_append, hexLoop, Option.bind_some]
    cases hexDigit c <;> rfl
  | cons x s ih =>
    simp only [List.cons_append, hexLoop]
    cases hexDigit x with
    | none => rfl
    | some d =>
      simp only
      split
      · exact ih
      · rfl

theorem hexLoop_sound {acc n : Nat} {pre s : Str} (hp : HexValue pre acc) (h : hexLoop acc s = some n) :
    HexValue (pre ++ s) n := by
  induction s generalizing acc pre with
  | nil => simp [hexLoop] at h; subst h; simpa using hp
  | cons c s ih =>
    unfold hexLoop at h
    cases hd : hexDigit c with
    | none => simp [hd] at h
    | some d =>
      simp only [hd] at h
      split at h
      · have := ih (HexValue.snoc hp (hexDigit_iff.1 hd)) h
        simpa using this
      · simp at h

theorem hexLoop_zero_sound {n : Nat} {s : Str} (hs : s ≠ []) (h : hexLoop 0 s = some n) : HexValue s n := by
  cases s with
  | nil => exact absurd rfl hs
  | cons c s =>
    unfold hexLoop at h
    cases hd : hexDigit c with
    | none => simp [hd] at h
    | some d =>
      simp only [hd, Nat.zero_mul, Nat.zero_add] at h
      split at h
      · exact hexLoop_sound (.one (hexDigit_iff.1 hd)) h
      · simp at h

theorem hexValue_ne_nil {s : Str} {n : Nat} (h : HexValue s n) : s ≠ [] := by
  cases h <;> simp

theorem hexLoop_complete {n : Nat} {s : Str} (h : HexValue s n) (hn : n < 4294967296) :
    hexLoop 0 s = some n := by
  induction h with
  | one hd => simp [hexLoop, hexDigit_iff.2 hd, hn]
  | snoc hs hd ih =>
    rw [hexLoop_snoc, ih (by omega), hexDigit_iff.2 hd]
    simp [hn]

theorem hexValue_head {s : Str} {n : Nat} (h : HexValue s n) : ∃ c t, s = c :: t ∧ c ≠ '+' := by
  induction h with
  | @one c d hd => exact ⟨c, [], rfl, by rintro rfl; have := hexDigit_iff.2 hd; revert this; simp [show hexDigit '+' = none by decide]⟩
  | @snoc s n c d hs hd ih =>
    obtain ⟨x, t, rfl, hx⟩ := ih
    exact ⟨x, t ++ [c], by simp, hx⟩

theorem hexValue_no_semi {s : Str} {n : Nat} (h : HexValue s n) : ';' ∉ s := by
  have key : ∀ c d, HexDigit c d → c ≠ ';' := by
    intro c d hd h
    subst h
    have := hexDigit_iff.2 hd
    simp [show hexDigit ';' = none by decide] at this
  induction h with
  | one hd => simpa using (key _ _ hd).symm
  | snoc hs hd ih => simp [ih]; exact (key _ _ hd).symm

theorem charFromU32_iff {n : Nat} {c : Char} : charFromU32 n = some c ↔ n = c.toNat := by
  unfold charFromU32
  constructor
  · intro h
    split at h
    · rename_i hv
      simp at h; subst h
      simp [Char.ofNat, hv, Char.toNat, Char.ofNatAux]
    · simp at h
  · rintro rfl
    have : c.toNat.isValidChar := c.valid
    simp [this]

theorem char_toNat_lt (c : Char) : c.toNat < 4294967296 := c.val.toNat_lt

theorem numRef_iff {d : Str} {c : Char} :
    (parseHexU32 d).bind charFromU32 = some c ↔
      HexValue d c.toNat ∨ ∃ h, d = '+' :: h ∧ HexValue h c.toNat := by
  constructor
  · intro h
    obtain ⟨n, h1, h2⟩ := Option.bind_eq_some_iff.1 h
    obtain rfl := charFromU32_iff.1 h2
    unfold parseHexU32 at h1
    cases d with
    | nil => simp at h1
    | cons x s =>
      simp only at h1
      split at h1
      · rename_i hx; subst hx
        split at h1
        · simp at h1
        · rename_i hs
          exact .inr ⟨s, rfl, hexLoop_zero_sound (by simpa using hs) h1⟩
      · exact .inl (hexLoop_zero_sound (by simp) h1)
  · intro h
    apply Option.bind_eq_some_iff.2
    refine ⟨c.toNat, ?_, charFromU32_iff.2 rfl⟩
    rcases h with h | ⟨h, rfl, hh⟩
    · obtain ⟨x, t, rfl, hx⟩ := hexValue_head h
      simp [parseHexU32, hx, hexLoop_complete h (char_toNat_lt c)]
    · have := hexValue_ne_nil hh
      simp [parseHexU32, this, hexLoop_complete hh (char_toNat_lt c)]

/-! ## references -/

theorem refChar_sound {m : Str} {c : Char} (h : refChar m = some c) : Ref (m ++ [';']) c := by
  unfold refChar at h
  split at h
  · rename_i h'; simp at h; subst h h'; exact .entity .amp
  split at h
  · rename_i h'; simp at h; subst h h'; exact .entity .lt
  split at h
  · rename_i h'; simp at h; subst h h'; exact .entity .gt
  split at h
  · rename_i h'; simp at h; subst h h'; exact .entity .apos
  split at h
  · rename_i h'; simp at h; subst h h'; exact .entity .quot
  split at h
  · rename_i h'
    obtain ⟨t, rfl⟩ := startsWith_iff.1 h'
    rcases numRef_iff.1 h with h | ⟨d, hd, hv⟩
    · exact .hex h
    · have hd : t = '+' :: d := by simpa using hd
      subst hd
      exact .hexPlus hv
  · simp at h

/-- a reference is `&m;` with no `;` in `m`, and the code decodes `&m` -/
theorem ref_cases {r : Str} {c : Char} (h : Ref r c) :
    ∃ m, r = '&' :: m ++ [';'] ∧ ';' ∉ m ∧ refChar ('&' :: m) = some c := by
  cases h with
  | entity h =>
    cases h with
    | amp => exact ⟨c%"amp", rfl, by decide, by decide⟩
    | lt => exact ⟨c%"lt", rfl, by decide, by decide⟩
    | gt => exact ⟨c%"gt", rfl, by decide, by decide⟩
    | apos => exact ⟨c%"apos", rfl, by decide, by decide⟩
    | quot => exact ⟨c%"quot", rfl, by decide, by decide⟩
  | @hex h _ hv =>
    refine ⟨'#' :: h, by simp, ?_, ?_⟩
    · simp; exact hexValue_no_semi hv
    · have := numRef_iff.2 (.inl hv)
      simp [refChar, startsWith, this]
  | @hexPlus h _ hv =>
    refine ⟨'#' :: '+' :: h, by simp, ?_, ?_⟩
    · simp; exact hexValue_no_semi hv
    · have := numRef_iff.2 (.inr ⟨h, rfl, hv⟩)
      simp [refChar, startsWith, this]

theorem decode1_some {b rest : Str} {u : Char} {num : Bool} (h : decode1 b = some (u, rest, num)) :
    ∃ m, b = m ++ ';' :: rest ∧ ';' ∉ m ∧ refChar ('&' :: m) = some u ∧ isNumRef ('&' :: m) = num := by
  unfold decode1 at h
  cases hs : splitSemi b with
  | none => simp [hs] at h
  | some p =>
    obtain ⟨m, r2⟩ := p
    obtain ⟨rfl, hm⟩ := splitOnce_eq_some.1 hs
    simp [hs] at h
    obtain ⟨hr, rfl, rfl⟩ := h
    exact ⟨m, rfl, hm, hr, rfl⟩

theorem decode1_of {m rest : Str} {u : Char} (hm : ';' ∉ m) (hr : refChar ('&' :: m) = some u) :
    decode1 (m ++ ';' :: rest) = some (u, rest, isNumRef ('&' :: m)) := by
  have hs : splitSemi (m ++ ';' :: rest) = some (m, rest) := splitOnce_eq_some.2 ⟨rfl, hm⟩
  simp [decode1, hs, hr]

theorem decode1_ref {b rest : Str} {u : Char} {num : Bool} (h : decode1 b = some (u, rest, num)) :
    ∃ r, Ref r u ∧ '&' :: b = r ++ rest := by
  obtain ⟨m, rfl, hm, hr, -⟩ := decode1_some h
  exact ⟨_, refChar_sound hr, by simp⟩

theorem decode1_none {b : Str} (h : decode1 b = none) (r : Str) (c : Char) (hr : Ref r c) :
    ¬ r <+: '&' :: b := by
  rintro ⟨t, ht⟩
  obtain ⟨m, rfl, hm, hc⟩ := ref_cases hr
  simp at ht
  rw [← ht, decode1_of hm hc] at h
  simp at h

/-! ## widths -/

theorem utf8Size_le_four (c : Char) : c.utf8Size ≤ 4 := Char.utf8Size_le_four c

theorem entity_ascii {r : Str} {c : Char} (h : Entity r c) : c.utf8Size = 1 := by
  cases h <;> decide

theorem refChar_width {m : Str} {u : Char} (h : refChar m = some u) :
    (isNumRef m = false → u.utf8Size = 1) ∧ u.utf8Size ≤ blen m + 1 := by
  have h4 := utf8Size_le_four u
  unfold refChar at h
  split at h
  · rename_i h'; simp at h; subst h h'; decide
  split at h
  · rename_i h'; simp at h; subst h h'; decide
  split at h
  · rename_i h'; simp at h; subst h h'; decide
  split at h
  · rename_i h'; simp at h; subst h h'; decide
  split at h
  · rename_i h'; simp at h; subst h h'; decide
  split at h
  · rename_i h'
    refine ⟨by simp [isNumRef, h'], ?_⟩
    obtain ⟨t, rfl⟩ := startsWith_iff.1 h'
    have hd : (parseHexU32 t).bind charFromU32 = some u := h
    have ht : t ≠ [] := by
      rintro rfl
      simp [parseHexU32] at hd
    have : 0 < blen t := by
      rcases Nat.eq_zero_or_pos (blen t) with h | h
      · exact absurd (blen_eq_zero.1 h) ht
      · exact h
    have h2 : blen c%"&#" = 2 := by decide
    rw [blen_append, h2]
    omega
  · simp at h

theorem blen_after_le (b : Str) : blen (after b) ≤ blen ('&' :: b) := by
  unfold after
  split
  · exact Nat.le_refl _
  · rename_i u rest num h
    obtain ⟨m, rfl, -, hr, -⟩ := decode1_some h
    have := (refChar_width hr).2
    have h1 : (';').utf8Size = 1 := by decide
    simp [h1] at *
    omega

/-! ## termination and size -/

theorem mem_split_first {c : Char} {s : Str} (h : c ∈ s) : ∃ a b, s = a ++ c :: b ∧ c ∉ a := by
  cases hf : splitOnce c s with
  | none => exact absurd h (splitOnce_eq_none.1 hf)
  | some p => exact ⟨p.1, p.2, splitOnce_eq_some.1 hf⟩

theorem unescapeLoop_bound {ε : Type} (fuel : Nat) (B : Str) (n : Nat) (h : blen B < n + fuel) (h0 : 0 < fuel) :
    (unescapeLoop fuel B n : Res ε Str) ≠ .diverge ∧
    (∀ e, (unescapeLoop fuel B n : Res ε Str) ≠ .err e) ∧
    ∀ t, (unescapeLoop fuel B n : Res ε Str) = .ok t → blen t ≤ blen B := by
  induction fuel generalizing B n with
  | zero =>
    omega
  | succ fuel ih =>
    by_cases hn : blen B ≤ n
    · rw [unescapeLoop_over _ _ _ hn]
      refine ⟨by simp, by simp, ?_⟩
      intro t ht; simp at ht; subst ht; exact Nat.le_refl _
    · cases hd : dropB n B with
      | none =>
        rw [unescapeLoop_split _ _ _ (by omega) hd]
        exact ⟨by simp, by simp, by simp⟩
      | some S =>
        obtain ⟨P, rfl, rfl⟩ := dropB_eq_some.1 hd
        by_cases hs : '&' ∈ S
        · obtain ⟨a, b, rfl, ha⟩ := mem_split_first hs
          rw [unescapeLoop_step _ _ _ _ ha]
          have hle := blen_after_le b
          have hj := jump_pos b
          have := ih (P ++ (a ++ after b)) (blen P + blen a + jump b) (by
            simp only [blen_append] at *
            omega) (by omega)
          refine ⟨this.1, this.2.1, ?_⟩
          intro t ht
          have := this.2.2 t ht
          simp only [blen_append] at *
          omega
        · rw [unescapeLoop_done _ _ _ hs]
          refine ⟨by simp, by simp, ?_⟩
          intro t ht; simp at ht; subst ht; exact Nat.le_refl _

/-! ## agreement with the one-pass decoder -/

theorem decodes_append_noamp {a s t : Str} (ha : '&' ∉ a) (h : Decodes s t) : Decodes (a ++ s) (a ++ t) := by
  induction a with
  | nil => exact h
  | cons c a ih =>
    simp at ha
    exact .char (fun hc => ha.1 hc.symm) (ih ha.2)

theorem decodes_noamp {a : Str} (ha : '&' ∉ a) : Decodes a a := by
  simpa using decodes_append_noamp ha Decodes.nil

theorem asciiEnd_suffix {a b : Str} (h : AsciiEnd (a ++ b)) : AsciiEnd b := by
  intro c hc
  apply h c
  cases b with
  | nil => simp at hc
  | cons x b => rw [List.getLast?_append, hc]; rfl

theorem wideRefsLast_suffix {a b : Str} (h : WideRefsLast (a ++ b)) : WideRefsLast b := by
  intro a' r c b' hs hr hw
  exact h (a ++ a') r c b' (by simp [hs]) hr hw

theorem lastW_ascii {s : Str} (h : AsciiEnd s) : lastW 1 s = 1 := by
  unfold lastW
  split
  · rfl
  · rename_i c hc; exact h c hc

theorem unescapeLoop_decodes {ε : Type} (fuel : Nat) (P S : Str) (hf : blen S < fuel)
    (h1 : AsciiEnd S) (h2 : WideRefsLast S) :
    ∃ t, Decodes S t ∧ (unescapeLoop fuel (P ++ S) (blen P) : Res ε Str) = .ok (P ++ t) := by
  induction fuel generalizing P S with
  | zero => omega
  | succ fuel ih =>
    by_cases hs : '&' ∈ S
    · obtain ⟨a, b, rfl, ha⟩ := mem_split_first hs
      rw [unescapeLoop_step _ _ _ _ ha]
      cases hd : decode1 b with
      | none =>
        have hb : AsciiEnd b := by
          have : AsciiEnd ((a ++ ['&']) ++ b) := by simpa using h1
          exact asciiEnd_suffix this
        have hb2 : WideRefsLast b := by
          have : WideRefsLast ((a ++ ['&']) ++ b) := by simpa using h2
          exact wideRefsLast_suffix this
        have hfuel : blen b < fuel := by
          have := utf8Size_pos '&'
          simp at hf; omega
        obtain ⟨t, ht, hl⟩ := ih (P ++ a ++ ['&']) b hfuel hb hb2
        refine ⟨a ++ '&' :: t, decodes_append_noamp ha (.amp (decode1_none hd) ht), ?_⟩
        have hj : jump b = 1 := by
          simp only [jump, hd]
          exact lastW_ascii hb
        have hafter : after b = '&' :: b := by simp [after, hd]
        rw [hj, hafter]
        have h1 : ('&').utf8Size = 1 := by decide
        simpa [h1, Nat.add_assoc] using hl
      | some p =>
        obtain ⟨u, rest, num⟩ := p
        obtain ⟨r, hr, hrr⟩ := decode1_ref hd
        obtain ⟨m, rfl, hm, hrc, hnum⟩ := decode1_some hd
        have hb : AsciiEnd rest := by
          have : AsciiEnd ((a ++ '&' :: m ++ [';']) ++ rest) := by simpa using h1
          exact asciiEnd_suffix this
        have hb2 : WideRefsLast rest := by
          have : WideRefsLast ((a ++ '&' :: m ++ [';']) ++ rest) := by simpa using h2
          exact wideRefsLast_suffix this
        have hfuel : blen rest < fuel := by
          have := utf8Size_pos '&'
          simp at hf; omega
        obtain ⟨t, ht, hl⟩ := ih (P ++ a ++ [u]) rest hfuel hb hb2
        refine ⟨a ++ u :: t, ?_, ?_⟩
        · apply decodes_append_noamp ha
          rw [hrr]
          exact .ref hr ht
        · have hj : jump (m ++ ';' :: rest) = u.utf8Size := by
            simp only [jump, hd]
            by_cases hw : u.utf8Size = 1
            · rw [hw]; simp only [ite_self]; exact lastW_ascii hb
            · have : rest = [] := h2 a r u rest (by simp [hrr]) hr hw
              subst this
              have hn : num = true := by
                by_contra hn
                have hn : num = false := by simpa using hn
                rw [hn] at hnum
                exact hw ((refChar_width hrc).1 hnum)
              simp [hn]
          have hafter : after (m ++ ';' :: rest) = u :: rest := by simp [after, hd]
          rw [hj, hafter]
          simpa [Nat.add_assoc] using hl
    · exact ⟨S, decodes_noamp hs, unescapeLoop_done _ _ _ hs⟩

/-- the decoder is functional -/
theorem ref_unique {r r' : Str} {c c' : Char} {s s' : Str} (h : Ref r c) (h' : Ref r' c') (e : r ++ s = r' ++ s') :
    r = r' ∧ c = c' ∧ s = s' := by
  obtain ⟨m, rfl, hm, hc⟩ := ref_cases h
  obtain ⟨m', rfl, hm', hc'⟩ := ref_cases h'
  have h1 : splitOnce ';' (m ++ ';' :: s) = some (m, s) := splitOnce_eq_some.2 ⟨rfl, hm⟩
  have e' : m ++ ';' :: s = m' ++ ';' :: s' := by simpa using e
  rw [e', splitOnce_eq_some.2 ⟨rfl, hm'⟩] at h1
  simp at h1
  obtain ⟨rfl, rfl⟩ := h1
  rw [hc] at hc'
  simp at hc'
  exact ⟨rfl, hc', rfl⟩

theorem ref_head {r : Str} {c : Char} (h : Ref r c) : ∃ t, r = '&' :: t := by
  obtain ⟨m, rfl, -, -⟩ := ref_cases h
  exact ⟨m ++ [';'], by simp⟩

theorem decodes_unique {s t t' : Str} (h : Decodes s t) (h' : Decodes s t') : t = t' := by
  induction h generalizing t' with
  | nil =>
    generalize hs : ([] : Str) = s at h'
    cases h' with
    | nil => rfl
    | char => simp at hs
    | ref hr _ => obtain ⟨x, rfl⟩ := ref_head hr; simp at hs
    | amp => simp at hs
  | @char c s t hc h ih =>
    generalize hs : c :: s = s0 at h'
    cases h' with
    | nil => simp at hs
    | char hc' h' => simp at hs; obtain ⟨rfl, rfl⟩ := hs; rw [ih h']
    | ref hr _ => obtain ⟨x, rfl⟩ := ref_head hr; simp at hs; exact absurd hs.1 hc
    | amp => simp at hs; exact absurd hs.1 hc
  | @ref r c s t hr h ih =>
    generalize hs : r ++ s = s0 at h'
    cases h' with
    | nil => obtain ⟨x, rfl⟩ := ref_head hr; simp at hs
    | char hc' h' => obtain ⟨x, rfl⟩ := ref_head hr; simp at hs; exact absurd hs.1.symm hc'
    | ref hr' h' =>
      obtain ⟨-, rfl, rfl⟩ := ref_unique hr hr' hs
      rw [ih h']
    | amp hn _ => exact absurd ⟨s, hs⟩ (hn r c hr)
  | @amp s t hn h ih =>
    generalize hs : '&' :: s = s0 at h'
    cases h' with
    | nil => simp at hs
    | char hc' h' => simp at hs; exact absurd hs.1.symm hc'
    | @ref r c s' t' hr h' => exact absurd ⟨s', hs.symm⟩ (hn r c hr)
    | amp _ h' => simp at hs; subst hs; rw [ih h']

/-- the specification is total -/
theorem decodes_total (s : Str) : ∃ t, Decodes s t := by
  induction h : s.length using Nat.strong_induction_on generalizing s with
  | _ n ih =>
    cases s with
    | nil => exact ⟨[], .nil⟩
    | cons c s =>
      by_cases hc : c = '&'
      · subst hc
        by_cases hr : ∃ r c, Ref r c ∧ r <+: '&' :: s
        · obtain ⟨r, c, hr, u, hu⟩ := hr
          obtain ⟨x, rfl⟩ := ref_head hr
          obtain ⟨t, ht⟩ := ih u.length (by have := congrArg List.length hu; simp at this h; omega) u rfl
          exact ⟨c :: t, hu ▸ .ref hr ht⟩
        · obtain ⟨t, ht⟩ := ih s.length (by simp at h; omega) s rfl
          exact ⟨'&' :: t, .amp (fun r c h1 h2 => hr ⟨r, c, h1, h2⟩) ht⟩
      · obtain ⟨t, ht⟩ := ih s.length (by simp at h; omega) s rfl
        exact ⟨c :: t, .char hc ht⟩

/-- executable form of `WideRefsLast` -/
def wideRefsLastB (s : Str) : Bool := s.tails.all fun x =>
  match x with
  | [] => true
  | c :: b => c ≠ '&' || match decode1 b with
    | none => true
    | some (u, rest, _) => u.utf8Size = 1 || rest.isEmpty

theorem wideRefsLast_of {s : Str} (h : wideRefsLastB s = true) : WideRefsLast s := by
  intro a r c b hs hr hw
  obtain ⟨m, rfl, hm, hc⟩ := ref_cases hr
  have := List.all_eq_true.1 h ('&' :: (m ++ ';' :: b)) (by
    rw [List.mem_tails]; exact ⟨a, by simp [hs]⟩)
  simp only [decode1_of hm hc] at this
  simpa [hw] using this

end KissXml
