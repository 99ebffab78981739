import Verif.Proofs.Complete
import Verif.Proofs.Reject
/-!
# Inputs that are cut off
-/
namespace KissXml
open Spec

theorem lexesTo_split {x r : Str} {P Q : List (Str × Str)} (h : LexesTo x (P ++ Q) r) : ∃ y, LexesTo x P y ∧ LexesTo y Q r := by
  induction P generalizing x with
  | nil => exact ⟨x, .done, h⟩
  | cons p P ih =>
    cases h with
    | tag h1 h2 h3 h4 =>
      obtain ⟨y, k1, k2⟩ := ih h4
      exact ⟨y, .tag h1 h2 h3 k1, k2⟩

theorem lexesTo_rest {x r : Str} {P : List (Str × Str)} (h : LexesTo x P r) (u : Str) : LexesTo (srcOf P ++ u) P u := by
  have := lexesTo_more (lexesTo_self h) u
  simpa using this

/-- the state of the parser at some place of an accepted input -/
theorem state_at {x : Str} {d : Document} {P Q : List (Str × Str)} {tail : Str} (h : parseStr x = .ok d) (hl : Lexes x (P ++ Q) tail) :
    ∃ st pre rest, P = pre ++ rest ∧ RInv pre rest st ∧ ∀ y, readToks (srcOf P ++ y) 0 P .init = .ok st := by
  obtain ⟨hx, htail⟩ := lexes_to hl
  rw [parse_read (lexes_lex hl 0)] at h
  obtain ⟨st, hst, -⟩ := bind_eq_ok.1 h
  rw [readToks_append] at hst
  obtain ⟨s1, hs1, -⟩ := bind_eq_ok.1 hst
  obtain ⟨r, hr, -⟩ := lexesTo_split hx
  have hy : ∀ y, readToks (srcOf P ++ y) 0 P .init = .ok s1 := by
    intro y
    rw [← hs1]
    exact readToks_rest (lexesTo_ne hr) (pre := []) (u := y) (u' := r) (by simp) (by simpa using lexesTo_src hr) rfl _
  rcases read_cases hr with ⟨st', pre, rest, g1, g2, g3⟩ | ⟨pre, rest, text', tag', s', u, st, g1, g2, g3, g4, g5, g6, g7⟩
  · rw [hs1] at g1
    cases g1
    exact ⟨s1, pre, rest, g2.symm, g3, hy⟩
  · rcases g7 with ⟨e, k1, k2⟩ | ⟨k1, k2⟩ <;> rw [hs1] at k1 <;> cases k1

/-- text at the end -/
theorem cut_text {x : Str} {d : Document} {pre rest Q : List (Str × Str)} {tail : Str} (h : parseStr x = .ok d)
    (hl : Lexes x (pre ++ rest ++ Q) tail) (h1 : ∀ t ∈ pre, IsProlog t.2) (h2 : ∀ t r, rest = t :: r → ¬ IsProlog t.2) {u : Str} (hu : '<' ∉ u) :
    (rest = [] → parseStr (srcOf (pre ++ rest) ++ u) = .err (.parsing .noXmlContent none)) ∧
    (rest ≠ [] → depth (rest.map Prod.snd) ≠ 0 → parseStr (srcOf (pre ++ rest) ++ u) = .err (.parsing .rootNotClosed none)) ∧
    (rest ≠ [] → depth (rest.map Prod.snd) = 0 → ∃ d', ∀ u', '<' ∉ u' → parseStr (srcOf (pre ++ rest) ++ u') = .ok d') := by
  obtain ⟨st, pre', rest', he, hi, hy⟩ := state_at h hl
  obtain ⟨i1, i2⟩ := rinv_split hi
  obtain ⟨rfl, rfl⟩ := split_unique he h1 i1 h2 i2
  obtain ⟨r, hr, -⟩ := lexesTo_split (lexes_to hl).1
  have hp : ∀ u, '<' ∉ u → parseStr (srcOf (pre ++ rest) ++ u) = finish (srcOf (pre ++ rest) ++ u) none st := by
    intro u hu
    have hlex := lex_of_lexesTo (lexesTo_rest hr u) 0 (toks' := []) (e := none) (.done hu)
    rw [List.append_nil] at hlex
    rw [parse_read hlex, hy, Res.bind_ok]
  refine ⟨fun hn => ?_, fun hn hd => ?_, fun hn hd => ?_⟩
  · rw [hp u hu]
    cases st with
    | prolog st => rfl
    | inside pro sc st => exact absurd hn hi.2.1
  · rw [hp u hu]
    rcases finish_none hi (srcOf (pre ++ rest) ++ u) with ⟨d', hf⟩ | ⟨hf, hr⟩ | ⟨hf, -⟩
    · exfalso
      cases st with
      | prolog st => cases hf
      | inside pro sc st =>
        obtain ⟨j1, j2, j3, ⟨o, ho, hst⟩, j5, j6⟩ := hi
        have := openAfter_depth ho
        cases o with
        | nil => exact hd (by simpa using this)
        | cons n o =>
          have hne : st.emptyStack = false := by
            have hs := hst.stack
            cases hpos : st.pos with
            | none => rw [hpos] at hs; cases hs
            | some p => simp [ParseTree.emptyStack, hpos]
          simp [finish, hne] at hf
    · exact absurd hr hn
    · exact hf
  · rcases finish_none hi (srcOf (pre ++ rest)) with ⟨d', hf⟩ | ⟨hf, hr⟩ | ⟨hf, -, n, o, ho⟩
    · refine ⟨d', fun u' hu' => ?_⟩
      rw [hp u' hu', ← hf]
      cases st <;> rfl
    · exact absurd hr hn
    · have := openAfter_depth ho
      rw [hd] at this
      simp at this
      omega

/-- a piece of a tag at the end -/
theorem cut_tag {x : Str} {d : Document} {pre rest Q : List (Str × Str)} {tail : Str} (h : parseStr x = .ok d)
    (hl : Lexes x (pre ++ rest ++ Q) tail) (h1 : ∀ t ∈ pre, IsProlog t.2) (h2 : ∀ t r, rest = t :: r → ¬ IsProlog t.2) {u s : Str} (hu : '<' ∉ u)
    (hs : c%"<" <+: s) (hT : ∀ t, ¬ TagAt s t) : ∃ lc, Located (srcOf (pre ++ rest) ++ u) lc ∧
      parseStr (srcOf (pre ++ rest) ++ u ++ s) = .err (.parsing (if rest = [] then .unmatchedLt else .invalidSyntax) (some lc)) := by
  obtain ⟨st, pre', rest', he, hi, hy⟩ := state_at h hl
  obtain ⟨i1, i2⟩ := rinv_split hi
  obtain ⟨rfl, rfl⟩ := split_unique he h1 i1 h2 i2
  obtain ⟨r, hr, -⟩ := lexesTo_split (lexes_to hl).1
  have hlex := lex_of_lexesTo (lexesTo_rest hr (u ++ s)) 0 (toks' := []) (.fail hu hs hT)
  rw [List.append_nil] at hlex
  obtain ⟨v, rfl⟩ := hs
  refine ⟨_, located (x := srcOf (pre ++ rest) ++ u ++ (c%"<" ++ v)) (b := v) (c := '<') (by simp) (by decide), ?_⟩
  rw [List.append_assoc, parse_read hlex, hy, Res.bind_ok]
  cases st with
  | prolog st => simp [finish, errAt, hi.2.1, blen_append]
  | inside pro sc st => simp [finish, errAt, hi.2.1, blen_append]

theorem cut_place (toks : List (Str × Str)) (tail y : Str) (h : y <+: srcOf toks ++ tail) : srcOf toks <+: y ∨
    ∃ P t r Q u, toks = P ++ (t, r) :: Q ∧ y = srcOf P ++ u ∧ (u <+: t ∨ ∃ v, u = t ++ v ∧ v <+: r ∧ v ≠ [] ∧ v ≠ r) := by
  induction toks generalizing y with
  | nil => exact .inl (List.nil_prefix)
  | cons p toks ih =>
    obtain ⟨t, r⟩ := p
    rw [srcOf_cons] at h ⊢
    by_cases h1 : t ++ r <+: y
    · obtain ⟨y', rfl⟩ := h1
      rw [List.append_assoc (t ++ r), List.prefix_append_right_inj] at h
      rcases ih y' h with hc | ⟨P, t', r', Q, u, rfl, rfl, hc⟩
      · exact .inl (by rw [List.prefix_append_right_inj]; exact hc)
      · exact .inr ⟨(t, r) :: P, t', r', Q, u, rfl, by rw [srcOf_cons]; simp, hc⟩
    · right
      have hy : y <+: t ++ r := by
        rcases List.prefix_or_prefix_of_prefix h (List.prefix_append (t ++ r) (srcOf toks ++ tail) |>.trans (by simp)) with k | k
        · exact k
        · exact absurd k h1
      refine ⟨[], t, r, toks, y, rfl, by simp [srcOf_nil], ?_⟩
      by_cases h2 : y <+: t
      · exact .inl h2
      · right
        have ht : t <+: y := by
          rcases List.prefix_or_prefix_of_prefix hy (List.prefix_append t r) with k | k
          · exact absurd k h2
          · exact k
        obtain ⟨v, rfl⟩ := ht
        refine ⟨v, rfl, (List.prefix_append_right_inj t).1 hy, ?_, ?_⟩
        · rintro rfl; exact h2 (by simp)
        · rintro rfl; exact h1 (List.prefix_refl _)

/-- a piece of a tag is not a tag -/
theorem piece_no_tag {r v : Str} (hr : TagAt r r) (hv : v <+: r) (hn : v ≠ []) (hne : v ≠ r) : c%"<" <+: v ∧ ∀ t, ¬ TagAt v t := by
  have hlt : c%"<" <+: v := by
    obtain ⟨w, hw⟩ := tagAt_lt hr
    obtain ⟨w', hw'⟩ := hv
    cases v with
    | nil => exact absurd rfl hn
    | cons c v =>
      rw [← hw'] at hw
      simp at hw
      exact ⟨v, by rw [← hw.1]; rfl⟩
  refine ⟨hlt, fun t ht => ?_⟩
  obtain ⟨w, hw⟩ := hv
  have h1 := tagAt_more ht w
  rw [hw] at h1
  obtain rfl := tagAt_unique (tagAt_lt hr) hr h1
  obtain ⟨w', hw'⟩ := tagAt_prefix ht
  have := congrArg List.length hw
  have h2 := congrArg List.length hw'
  simp at this h2
  have : w = [] := List.eq_nil_of_length_eq_zero (by omega)
  subst this
  exact hne (by simpa using hw)

end KissXml
