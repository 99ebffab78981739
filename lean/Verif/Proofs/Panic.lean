import Verif.Proofs.Safe
import Verif.Props.Escape
/-!
# When the parser can panic
-/
namespace KissXml
open Spec

theorem infix_append_sep {x : Char} {a b t : Str} (hx : x ∉ t) (h : t <:+: a ++ b) (hab : [x] <:+ a ∨ [x] <+: b) :
    t <:+: a ∨ t <:+: b := by
  obtain ⟨u, v, h⟩ := h
  rw [List.append_assoc] at h
  rcases List.append_eq_append_iff.1 h with ⟨w, h1, h2⟩ | ⟨w, h1, h2⟩
  · -- a = u ++ w, t ++ v = w ++ b
    rcases List.append_eq_append_iff.1 h2 with ⟨z, h3, h4⟩ | ⟨z, h3, h4⟩
    · exact .inl ⟨u, z, by rw [h1, h3, List.append_assoc]⟩
    · -- t = w ++ z, b = z ++ v
      cases w with
      | nil => exact .inr ⟨[], v, by simpa [h4] using congrArg (· ++ v) h3⟩
      | cons c w =>
        cases z with
        | nil => exact .inl ⟨u, [], by simp [h1, h3]⟩
        | cons d z =>
          exfalso
          rcases hab with ⟨y, hy⟩ | ⟨y, hy⟩
          · rw [h1] at hy
            have : (y ++ [x]).getLast? = (u ++ c :: w).getLast? := by rw [hy]
            have hm : x ∈ c :: w := by
              have e : (u ++ c :: w).getLast? = (c :: w).getLast? := List.getLast?_append_of_ne_nil _ (by simp)
              rw [e] at this
              simp only [List.getLast?_append, List.getLast?_singleton, Option.some_or] at this
              exact List.mem_of_getLast? this.symm
            exact hx (by rw [h3]; simp only [List.mem_append]; exact .inl hm)
          · rw [h4] at hy
            simp at hy
            exact hx (by rw [h3]; simp [hy.1])
  · exact .inr ⟨w, v, by rw [h2, List.append_assoc]⟩

theorem piece_infix {x s t : Str} (hx : '=' ∉ t) (h : Piece x s) (ht : t <:+: s) : t <:+: x := by
  induction h with
  | whole h => exact ht.trans h
  | join _ _ hab iha ihb =>
    rcases infix_append_sep hx ht hab with h | h
    · exact iha h
    · exact ihb h
  | part _ hp ih => exact ih (ht.trans hp)

theorem piece_mem {x s : Str} (h : Piece x s) {c : Char} (hc : c ∈ s) : c ∈ x := by
  induction h with
  | whole h => exact h.mem hc
  | join _ _ _ iha ihb => rcases List.mem_append.1 hc with h | h; exacts [iha h, ihb h]
  | part _ hp ih => exact ih (hp.mem hc)

theorem hexDigit_ne_eq {c : Char} {d : Nat} (h : HexDigit c d) : c ≠ '=' := by
  rintro rfl
  generalize hc : '=' = c at h
  cases h <;> subst hc <;> rename_i h1 h2 <;> revert h1 h2 <;> decide

theorem ref_no_eq {r : Str} {c : Char} (h : Ref r c) : '=' ∉ r := by
  have hv : ∀ {s : Str} {n : Nat}, HexValue s n → '=' ∉ s := by
    intro s n h
    induction h with
    | one h => simpa using (hexDigit_ne_eq h).symm
    | snoc _ h ih => simp only [List.mem_append, List.mem_singleton, not_or]; exact ⟨ih, (hexDigit_ne_eq h).symm⟩
  cases h with
  | entity h => cases h <;> decide
  | hex h => simp [hv h]
  | hexPlus h => simp [hv h]

theorem ascii_blen {s : Str} (h : ∀ c ∈ s, c.utf8Size = 1) : blen s = s.length := by
  induction s with
  | nil => rfl
  | cons c s ih => rw [blen_cons, h c (by simp), ih (fun d hd => h d (by simp [hd])), List.length_cons, Nat.add_comm]

theorem abbreviate_ascii {s : Str} (h : ∀ c ∈ s, c.utf8Size = 1) (n : Nat) : abbreviate s n ≠ none := by
  unfold abbreviate
  split
  · simp
  · rename_i hn
    rw [not_or] at hn
    have hb := ascii_blen h
    have e1 : sliceB 0 (n / 2 - 1) s = some (s.take (n / 2 - 1)) :=
      sliceB_eq_some.2 ⟨[], s.drop (n / 2 - 1), by simp, rfl, by
        rw [ascii_blen (fun c hc => h c (List.mem_of_mem_take hc))]; simp; omega⟩
    have e2 : dropB (blen s - n / 2) s = some (s.drop (blen s - n / 2)) :=
      dropB_eq_some.2 ⟨s.take (blen s - n / 2), by simp, by
        rw [ascii_blen (fun c hc => h c (List.mem_of_mem_take hc))]; simp; omega⟩
    rw [e1, e2]
    simp

theorem panic_cause {x : Str} (h : parseStr x = .panic) :
    ((∃ c ∈ x, c.utf8Size ≠ 1) ∧ ('&' ∈ x ∨ c%"<!" <:+: x)) ∨
    (∃ r c, r <:+: x ∧ Ref r c ∧ c.utf8Size ≠ 1) := by
  rcases (np_parseStr x).2 h with ⟨s, hp, hs⟩ | ⟨s, hi, hpre, hs⟩
  · have hamp : '&' ∈ s := by
      by_contra hno
      rw [Props.C07_no_amp_partial s hno] at hs
      cases hs
    by_cases ha : ∀ c ∈ x, c.utf8Size = 1
    · right
      by_contra hno
      have hw : WideRefsLast s := by
        intro a r c b hab hr hc
        exact absurd ⟨r, c, piece_infix (ref_no_eq hr) hp ⟨a, b, hab.symm⟩, hr, hc⟩ hno
      have he : AsciiEnd s := fun c hc => ha c (piece_mem hp (List.mem_of_getLast? hc))
      obtain ⟨t, ht⟩ := decodes_total s
      rw [(Props.C07_partial s he hw t).2 ht] at hs
      cases hs
    · left
      simp only [not_forall] at ha
      obtain ⟨c, hc, hc'⟩ := ha
      exact ⟨⟨c, hc, hc'⟩, .inl (piece_mem hp hamp)⟩
  · left
    refine ⟨?_, .inr (hpre.isInfix.trans hi)⟩
    by_contra hno
    simp only [not_exists, not_and, not_not] at hno
    exact abbreviate_ascii (fun c hc => hno c (hi.mem hc)) 32 hs

end KissXml
