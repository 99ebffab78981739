import Verif.Spec.Pattern
import Verif.Model.Pattern
import Verif.Model.Dom
import Verif.Proofs.Regex
/-!
# Lemmas for C109: the regular expressions of the code
-/
namespace KissXml
open Spec

/-! ## patterns without `^` and `$` -/

/-- a pattern without `^` and `$` as a regular expression -/
def Spec.Pat.toRe : Pat → Option Re
  | .eps => some .eps
  | .cls false rs => some (.cls rs)
  | .cls true [] => some Re.anyChar
  | .cls true _ => none
  | .start => none
  | .finish => none
  | .lineStart => none
  | .lineEnd => none
  | .seq a b => a.toRe.bind fun x => b.toRe.map fun y => .seq x y
  | .alt a b => a.toRe.bind fun x => b.toRe.map fun y => .alt x y
  | .star a => a.toRe.map .star
  | .plus a => a.toRe.map Re.plus
  | .opt a => a.toRe.map Re.opt

theorem matches_of_pat {p : Pat} {a s b : Str} (h : p.Matches a s b) : ∀ r, p.toRe = some r → r.Matches s := by
  induction h with
  | eps => rintro r ⟨⟩; exact .eps
  | @cls neg rs a b c h =>
    intro r hr
    cases neg with
    | false => cases hr; exact .cls (by simpa using h)
    | true =>
      cases rs with
      | nil =>
        cases hr
        exact .cls (by simp [inRanges]; have := c.valid; simp only [UInt32.isValidChar, Nat.isValidChar] at this; simp only [Char.toNat]; omega)
      | cons => cases hr
  | start => rintro r ⟨⟩
  | finish => rintro r ⟨⟩
  | lineStart => rintro r ⟨⟩
  | lineEnd => rintro r ⟨⟩
  | @seq p q a s t b _ _ ih1 ih2 =>
    intro r hr
    simp only [Pat.toRe, Option.bind_eq_some_iff, Option.map_eq_some_iff] at hr
    obtain ⟨x, hx, y, hy, rfl⟩ := hr
    exact .seq (ih1 x hx) (ih2 y hy)
  | altL _ ih =>
    intro r hr
    simp only [Pat.toRe, Option.bind_eq_some_iff, Option.map_eq_some_iff] at hr
    obtain ⟨x, hx, y, hy, rfl⟩ := hr
    exact .altL (ih x hx)
  | altR _ ih =>
    intro r hr
    simp only [Pat.toRe, Option.bind_eq_some_iff, Option.map_eq_some_iff] at hr
    obtain ⟨x, hx, y, hy, rfl⟩ := hr
    exact .altR (ih y hy)
  | starNil =>
    intro r hr
    simp only [Pat.toRe, Option.map_eq_some_iff] at hr
    obtain ⟨x, hx, rfl⟩ := hr
    exact .starNil
  | starCons _ _ ih1 ih2 =>
    intro r hr
    have hr' := hr
    simp only [Pat.toRe, Option.map_eq_some_iff] at hr
    obtain ⟨x, hx, rfl⟩ := hr
    exact .starCons (ih1 x hx) (ih2 _ hr')
  | @plus p a s t b _ _ ih1 ih2 =>
    intro r hr
    simp only [Pat.toRe, Option.map_eq_some_iff] at hr
    obtain ⟨x, hx, rfl⟩ := hr
    exact .seq (ih1 x hx) (ih2 (.star x) (by simp [Pat.toRe, hx]))
  | optNone =>
    intro r hr
    simp only [Pat.toRe, Option.map_eq_some_iff] at hr
    obtain ⟨x, hx, rfl⟩ := hr
    exact .altL .eps
  | optSome _ ih =>
    intro r hr
    simp only [Pat.toRe, Option.map_eq_some_iff] at hr
    obtain ⟨x, hx, rfl⟩ := hr
    exact .altR (ih x hx)

theorem star_of_matches {p : Pat} {x : Re} (ih : ∀ {s}, x.Matches s → ∀ a b, p.Matches a s b) {s : Str} (h : (Re.star x).Matches s) :
    ∀ a b, (Pat.star p).Matches a s b := by
  generalize hr : Re.star x = r at h
  induction h with
  | eps => cases hr
  | cls => cases hr
  | seq => cases hr
  | altL => cases hr
  | altR => cases hr
  | starNil => intro a b; exact .starNil
  | @starCons x' s t h1 h2 _ ih2 =>
    cases hr
    intro a b
    exact .starCons (ih h1 a _) (ih2 rfl _ _)

theorem pat_of_matches {p : Pat} : ∀ {r : Re}, p.toRe = some r → ∀ {s : Str}, r.Matches s → ∀ a b, p.Matches a s b := by
  induction p with
  | eps =>
    rintro r ⟨⟩ s h a b
    rw [Re.matches_eps.1 h]; exact .eps
  | cls neg rs =>
    intro r hr s h a b
    cases neg with
    | false =>
      cases hr
      obtain ⟨c, rfl, hc⟩ := Re.matches_cls.1 h
      exact .cls (by simpa using hc)
    | true =>
      cases rs with
      | nil =>
        cases hr
        obtain ⟨c, rfl, -⟩ := Re.matches_cls.1 h
        exact .cls (by simp [inRanges])
      | cons => cases hr
  | start => rintro r ⟨⟩
  | finish => rintro r ⟨⟩
  | lineStart => rintro r ⟨⟩
  | lineEnd => rintro r ⟨⟩
  | seq p q ih1 ih2 =>
    intro r hr s h a b
    simp only [Pat.toRe, Option.bind_eq_some_iff, Option.map_eq_some_iff] at hr
    obtain ⟨x, hx, y, hy, rfl⟩ := hr
    obtain ⟨t, u, rfl, h1, h2⟩ := Re.matches_seq.1 h
    exact .seq (ih1 hx h1 _ _) (ih2 hy h2 _ _)
  | alt p q ih1 ih2 =>
    intro r hr s h a b
    simp only [Pat.toRe, Option.bind_eq_some_iff, Option.map_eq_some_iff] at hr
    obtain ⟨x, hx, y, hy, rfl⟩ := hr
    rcases Re.matches_alt.1 h with h | h
    · exact .altL (ih1 hx h _ _)
    · exact .altR (ih2 hy h _ _)
  | star p ih =>
    intro r hr s h a b
    simp only [Pat.toRe, Option.map_eq_some_iff] at hr
    obtain ⟨x, hx, rfl⟩ := hr
    exact star_of_matches (fun h => ih hx h) h a b
  | plus p ih =>
    intro r hr s h a b
    simp only [Pat.toRe, Option.map_eq_some_iff] at hr
    obtain ⟨x, hx, rfl⟩ := hr
    obtain ⟨t, u, rfl, h1, h2⟩ := Re.matches_seq.1 h
    exact .plus (ih hx h1 _ _) (star_of_matches (fun h => ih hx h) h2 _ _)
  | opt p ih =>
    intro r hr s h a b
    simp only [Pat.toRe, Option.map_eq_some_iff] at hr
    obtain ⟨x, hx, rfl⟩ := hr
    rcases Re.matches_alt.1 h with h | h
    · rw [Re.matches_eps.1 h]; exact .optNone
    · exact .optSome (ih hx h _ _)

/-! ## nesting of sequences -/

namespace Re

/-- sequences nested to the right, followed by `k` -/
def flatSeq : Re → Re → Re
  | .seq a b, k => flatSeq a (flatSeq b k)
  | r, k => .seq r k

/-- sequences nested to the right, everywhere -/
def flat : Re → Re
  | .eps => .eps
  | .cls rs => .cls rs
  | .seq a b => flatSeq a.flat b.flat
  | .alt a b => .alt a.flat b.flat
  | .star a => .star a.flat

theorem flatSeq_matches {r k : Re} {s : Str} : (flatSeq r k).Matches s ↔ (Re.seq r k).Matches s := by
  induction r generalizing k s with
  | seq a b ih1 ih2 =>
    rw [flatSeq, ih1, matches_seq, matches_seq]
    constructor
    · rintro ⟨t, u, rfl, h1, h2⟩
      obtain ⟨v, w, rfl, h3, h4⟩ := matches_seq.1 (ih2.1 h2)
      exact ⟨t ++ v, w, by simp, .seq h1 h3, h4⟩
    · rintro ⟨t, u, rfl, h1, h2⟩
      obtain ⟨v, w, rfl, h3, h4⟩ := matches_seq.1 h1
      exact ⟨v, w ++ u, by simp, h3, ih2.2 (.seq h4 h2)⟩
  | _ => rfl

theorem star_mono {a b : Re} (h : ∀ s, a.Matches s → b.Matches s) {s : Str} (hs : (Re.star a).Matches s) : (Re.star b).Matches s := by
  generalize hr : Re.star a = r at hs
  induction hs with
  | eps => cases hr
  | cls => cases hr
  | seq => cases hr
  | altL => cases hr
  | altR => cases hr
  | starNil => exact .starNil
  | starCons h1 _ _ ih2 => cases hr; exact .starCons (h _ h1) (ih2 rfl)

theorem flat_matches {r : Re} {s : Str} : r.flat.Matches s ↔ r.Matches s := by
  induction r generalizing s with
  | eps => rfl
  | cls rs => rfl
  | seq a b ih1 ih2 => rw [flat, flatSeq_matches, matches_seq, matches_seq]; simp only [ih1, ih2]
  | alt a b ih1 ih2 => rw [flat, matches_alt, matches_alt, ih1, ih2]
  | star a ih => exact ⟨star_mono fun _ => ih.1, star_mono fun _ => ih.2⟩

theorem matches_of_flat {r r' : Re} (h : r.flat = r'.flat) {s : Str} : r.Matches s ↔ r'.Matches s := by
  rw [← flat_matches, h, flat_matches]

end Re

/-! ## patterns with `^` and `$` -/

theorem pat_seq {p q : Pat} {a s b : Str} : (Pat.seq p q).Matches a s b ↔ ∃ t u, s = t ++ u ∧ p.Matches a t (u ++ b) ∧ q.Matches (a ++ t) u b := by
  constructor
  · intro h; cases h with | seq h1 h2 => exact ⟨_, _, rfl, h1, h2⟩
  · rintro ⟨t, u, rfl, h1, h2⟩; exact .seq h1 h2

theorem pat_start {a s b : Str} : Pat.start.Matches a s b ↔ a = [] ∧ s = [] := by
  constructor
  · intro h; cases h; exact ⟨rfl, rfl⟩
  · rintro ⟨rfl, rfl⟩; exact .start

theorem pat_finish {a s b : Str} : Pat.finish.Matches a s b ↔ b = [] ∧ s = [] := by
  constructor
  · intro h; cases h; exact ⟨rfl, rfl⟩
  · rintro ⟨rfl, rfl⟩; exact .finish

theorem pat_cls {neg : Bool} {rs : List (Nat × Nat)} {a s b : Str} : (Pat.cls neg rs).Matches a s b ↔ ∃ c, s = [c] ∧ inRanges rs c = !neg := by
  constructor
  · intro h; cases h with | cls h => exact ⟨_, rfl, h⟩
  · rintro ⟨c, rfl, h⟩; exact .cls h

theorem pat_star_cls {neg : Bool} {rs : List (Nat × Nat)} {s : Str} : ∀ {a b : Str},
    (Pat.star (.cls neg rs)).Matches a s b ↔ ∀ c ∈ s, inRanges rs c = !neg := by
  have h1 : ∀ {p : Pat} {a s b : Str}, p.Matches a s b → p = .star (.cls neg rs) → ∀ c ∈ s, inRanges rs c = !neg := by
    intro p a s b h
    induction h with
    | starNil => simp
    | starCons h1 _ _ ih2 =>
      intro he c hc
      cases he
      obtain ⟨d, rfl, hd⟩ := pat_cls.1 h1
      rcases List.mem_append.1 hc with hc | hc
      · rw [List.mem_singleton.1 hc]; exact hd
      · exact ih2 rfl c hc
    | _ => rintro ⟨⟩
  intro a b
  refine ⟨fun h => h1 h rfl, fun h => ?_⟩
  induction s generalizing a with
  | nil => exact .starNil
  | cons c s ih =>
    have := Pat.Matches.starCons (a := a) (b := b) (Pat.Matches.cls (h c (by simp))) (ih (a := a ++ [c]) fun d hd => h d (by simp [hd]))
    exact this

theorem pat_plus_cls {neg : Bool} {rs : List (Nat × Nat)} {a s b : Str} :
    (Pat.plus (.cls neg rs)).Matches a s b ↔ s ≠ [] ∧ ∀ c ∈ s, inRanges rs c = !neg := by
  constructor
  · intro h
    cases h with
    | plus h1 h2 =>
      obtain ⟨d, rfl, hd⟩ := pat_cls.1 h1
      have := pat_star_cls.1 h2
      simp only [List.cons_append, List.nil_append, ne_eq, reduceCtorEq, not_false_eq_true, List.mem_cons, forall_eq_or_imp, true_and]
      exact ⟨hd, this⟩
  · rintro ⟨h1, h2⟩
    cases s with
    | nil => exact absurd rfl h1
    | cons c s => exact Pat.Matches.plus (s := [c]) (.cls (h2 c (by simp))) (pat_star_cls.2 fun d hd => h2 d (by simp [hd]))

theorem isMatch_start {p : Pat} {text : Str} : (Pat.seq .start p).IsMatch text ↔ ∃ s b, text = s ++ b ∧ p.Matches [] s b := by
  constructor
  · rintro ⟨a, s, b, rfl, h⟩
    obtain ⟨t, u, rfl, h1, h2⟩ := pat_seq.1 h
    obtain ⟨rfl, rfl⟩ := pat_start.1 h1
    exact ⟨u, b, by simp, h2⟩
  · rintro ⟨s, b, rfl, h⟩
    exact ⟨[], s, b, by simp, pat_seq.2 ⟨[], s, by simp, .start, h⟩⟩

theorem seq_finish {p : Pat} {a s b : Str} : (Pat.seq p .finish).Matches a s b ↔ b = [] ∧ p.Matches a s [] := by
  rw [pat_seq]
  constructor
  · rintro ⟨t, u, rfl, h1, h2⟩
    obtain ⟨rfl, rfl⟩ := pat_finish.1 h2
    simp at h1 ⊢
    exact h1
  · rintro ⟨rfl, h⟩
    exact ⟨s, [], by simp, by simpa using h, .finish⟩

/-- `^p$`, without the flag `m` -/
theorem isMatch_anchored {p : Pat} {text : Str} : (Pat.seq .start (.seq p .finish)).IsMatch text ↔ p.Matches [] text [] := by
  rw [isMatch_start]
  constructor
  · rintro ⟨s, b, rfl, h⟩
    obtain ⟨rfl, h3⟩ := seq_finish.1 h
    simpa using h3
  · intro h
    exact ⟨text, [], by simp, seq_finish.2 ⟨rfl, h⟩⟩

theorem isMatch_name {rs ws : List (Nat × Nat)} {text : Str} :
    (Pat.seq .start (.seq (.cls false rs) (.seq (.star (.cls true ws)) .finish))).IsMatch text ↔
      ∃ c s, text = c :: s ∧ inRanges rs c = true ∧ ∀ d ∈ s, inRanges ws d = false := by
  rw [isMatch_start]
  constructor
  · rintro ⟨s, b, rfl, h⟩
    obtain ⟨t, u, rfl, h1, h2⟩ := pat_seq.1 h
    obtain ⟨rfl, h3⟩ := seq_finish.1 h2
    obtain ⟨c, rfl, hc⟩ := pat_cls.1 h1
    exact ⟨c, u, by simp, hc, pat_star_cls.1 h3⟩
  · rintro ⟨c, s, rfl, h1, h2⟩
    exact ⟨c :: s, [], by simp, pat_seq.2 ⟨[c], s, rfl, .cls h1, seq_finish.2 ⟨rfl, pat_star_cls.2 h2⟩⟩⟩

/-- a pattern without `^` and `$` -/
theorem isMatch_toRe {p : Pat} {r : Re} (h : p.toRe = some r) {text : Str} : p.IsMatch text ↔ Re.isMatch r text = true := by
  rw [Re.isMatch_iff]
  constructor
  · rintro ⟨a, s, b, rfl, hm⟩
    exact ⟨s, ⟨a, b, rfl⟩, matches_of_pat hm r h⟩
  · rintro ⟨s, ⟨a, b, rfl⟩, hm⟩
    exact ⟨a, s, b, rfl, pat_of_matches h hm a b⟩

theorem isMatch_flat {r r' : Re} (h : r.flat = r'.flat) (text : Str) : Re.isMatch r text = Re.isMatch r' text := by
  rw [Bool.eq_iff_iff, Re.isMatch_iff, Re.isMatch_iff]
  simp only [Re.matches_of_flat h]

end KissXml
