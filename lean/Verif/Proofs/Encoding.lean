import Verif.Spec.Encoding
import Verif.Proofs.Misc
import Verif.Proofs.Respace
import Verif.Props.Verdict
/-!
# Character encodings
-/
namespace KissXml
open Spec

/-- no byte of UTF-8 is 248 or more -/
theorem utf8_bytes (c : Char) : ∀ b ∈ String.utf8EncodeChar c, b.toNat < 248 := by
  intro b hb
  unfold String.utf8EncodeChar at hb
  simp only at hb
  split at hb
  · simp only [List.mem_singleton] at hb
    subst hb
    rw [UInt8.toNat_ofNat']; omega
  · split at hb
    · simp only [List.mem_cons, List.not_mem_nil, or_false] at hb
      rcases hb with rfl | rfl <;> rw [UInt8.toNat_ofNat'] <;> omega
    · split at hb
      · simp only [List.mem_cons, List.not_mem_nil, or_false] at hb
        rcases hb with rfl | rfl | rfl <;> rw [UInt8.toNat_ofNat'] <;> omega
      · simp only [List.mem_cons, List.not_mem_nil, or_false] at hb
        rcases hb with rfl | rfl | rfl | rfl <;> rw [UInt8.toNat_ofNat'] <;> omega

theorem utf8_small {s : Str} {l : List UInt8} (h : l.toByteArray = s.utf8Encode) : ∀ b ∈ l, b.toNat < 248 := by
  unfold List.utf8Encode at h
  have := congrArg (fun a => a.data.toList) h
  simp only [List.data_toByteArray, List.toList_toArray] at this
  subst this
  intro b hb
  obtain ⟨c, -, hc⟩ := List.mem_flatMap.1 hb
  exact utf8_bytes c b hc

/-- bytes with one that UTF-8 does not use -/
theorem not_utf8 {l : List UInt8} {b : UInt8} (hb : b ∈ l) (h : 248 ≤ b.toNat) : parseStream l.toByteArray = .err .io := by
  unfold parseStream
  rcases readToString_cases l.toByteArray with ⟨s, hs⟩ | h1
  · have := utf8_small hs b hb
    omega
  · rw [h1]; rfl

/-- text in front of an accepted document -/
theorem text_first {x text : Str} {d : Document} (h : parseStr x = .ok d) (hw : ¬ AllWs text) (h1 : '<' ∉ text) (h2 : '&' ∉ text) :
    ∃ lc, LocatedText [] text lc ∧ parseStr (text ++ x) = .err (.parsing .textOutsideRoot (some lc)) := by
  obtain ⟨pre, tx, tag, rest, E, F, hp, hF, -⟩ := accepted h
  obtain ⟨tail, hl⟩ := hp.lexes
  have key : ∀ a g toks, Lexes x ((a, g) :: toks) tail → AllWs a → ∃ lc, LocatedText [] text lc ∧
      parseStr (text ++ x) = .err (.parsing .textOutsideRoot (some lc)) := by
    intro a g toks hl ha
    cases hl with
    | @tag _ _ r s _ _ k1 k2 k3 k4 =>
      have ha2 : '&' ∉ a := fun hm => absurd (ha _ hm) (by decide)
      have hlc : ∃ lc, LocatedText [] text lc ∧ LocatedText [] (text ++ a) lc := by
        cases text with
        | nil => exact absurd (by simp [AllWs]) hw
        | cons c t =>
          by_cases hc : c = '\n'
          · subst hc
            exact ⟨(2, 1), .inr ⟨⟨t, rfl⟩, rfl⟩, .inr ⟨⟨t ++ a, rfl⟩, rfl⟩⟩
          · have hn : ∀ u, ¬ c%"\n" <+: c :: u := by
              rintro u ⟨v, hv⟩
              simp at hv
              exact hc hv.1.symm
            exact ⟨(1, 2), .inl ⟨hn _, [], [], rfl, .inl rfl, by simp, rfl⟩, .inl ⟨hn _, [], [], rfl, .inl rfl, by simp, rfl⟩⟩
      obtain ⟨lc, l1, l2⟩ := hlc
      refine ⟨lc, l1, ?_⟩
      obtain ⟨e', g1, g2⟩ := first_fault (x := text ++ (a ++ s)) (pre := []) (rest := []) (text := text ++ a) (s := s)
        (e := .parsing .textOutsideRoot (some lc)) ⟨by rw [← List.append_assoc]; exact .done, by simp [h1, k1], by simp, by simp⟩
        (fun _ _ _ _ _ _ => Nat.zero_le _) (.text rfl k2 (fun hh => hw fun c hc => hh c (List.mem_append_left _ hc))
          ⟨_, unesc_noamp (by simp [h2, ha2])⟩ (by simpa [srcOf] using l2))
      rcases g2 with rfl | ⟨k, k', hk, -⟩
      · exact g1
      · cases hk
  cases pre with
  | nil => exact key _ _ _ hl hF.blank
  | cons t pre => exact key t.1 t.2 _ hl (hF.prolog t (List.mem_cons_self ..)).2

end KissXml
