import Verif.Spec.Xml
import Verif.Proofs.UnescapeExact
/-!
# Character references: XML and the library
-/
namespace KissXml
open KissXml.Spec

/-- decimal digits are hexadecimal digits too; the two values are equal below ten only -/
theorem decValue_hex {d : Str} {m : Nat} (h : DecValue d m) : ∃ n, HexValue d n ∧ m ≤ n ∧ (n = m ↔ m < 10) := by
  have h0 : '0'.toNat = 48 := rfl
  have h9 : '9'.toNat = 57 := rfl
  induction h with
  | one h1 h2 => exact ⟨_, .one (.dec h1 h2), Nat.le_refl _, by omega⟩
  | snoc _ h1 h2 ih =>
    obtain ⟨n, g1, g2, g3⟩ := ih
    refine ⟨_, .snoc g1 (.dec h1 h2), by omega, ?_⟩
    omega

theorem unescape_ref {ε : Type} {r : Str} {c : Char} (h : Ref r c) : (unescape r : Res ε Str) = .ok [c] := by
  refine unescape_ok_iff.2 ?_
  have hr : r ≠ [] := by
    obtain ⟨t, rfl⟩ := ref_head h
    simp
  refine ⟨(r.getLast hr).utf8Size, ?_, by simpa using Reads.last (a := []) (by simp) h⟩
  intro c hc
  rw [List.getLast?_eq_some_getLast hr] at hc
  cases hc; rfl

theorem unescape_noref {ε : Type} {t : Str} (ha : '&' ∉ t) (h : ∀ r c, Ref r c → ¬ r <+: '&' :: (t ++ c%";")) :
    (unescape ('&' :: (t ++ c%";")) : Res ε Str) = .ok ('&' :: (t ++ c%";")) := by
  refine unescape_ok_iff.2 ⟨1, ?_, ?_⟩
  · intro c hc
    rw [← List.cons_append, List.getLast?_append] at hc
    simp at hc
    subst hc; rfl
  · have := Reads.go (w := 1) (a := []) (u := c%"&") (v := t ++ c%";") (s := '&' :: (t ++ c%";")) (by simp)
      (.inr ⟨⟨_, rfl⟩, h, rfl⟩) rfl (.plain (by simp [ha]))
    simpa using this

theorem decValue_no_amp {d : Str} {m : Nat} (h : DecValue d m) : '&' ∉ d := by
  have h0 : '0'.toNat = 48 := rfl
  have h9 : '&'.toNat = 38 := rfl
  induction h with
  | one h1 h2 => intro hm; simp at hm; subst hm; omega
  | snoc _ h1 h2 ih =>
    intro hm
    rcases List.mem_append.1 hm with hm | hm
    · exact ih hm
    · simp at hm; subst hm; omega

theorem hexDigit_no {c : Char} {d : Nat} (h : HexDigit c d) : c ≠ 'x' ∧ c ≠ '&' ∧ c ≠ '#' ∧ c ≠ ';' := by
  refine ⟨?_, ?_, ?_, ?_⟩ <;> (rintro rfl; have := hexDigit_iff.2 h; revert this; simp [hexDigit])

theorem hexValue_all {h : Str} {n : Nat} (hv : HexValue h n) : ∀ c ∈ h, ∃ d, HexDigit c d := by
  induction hv with
  | one h => intro c hc; simp at hc; subst hc; exact ⟨_, h⟩
  | snoc _ h ih =>
    intro c hc
    rcases List.mem_append.1 hc with hc | hc
    · exact ih c hc
    · simp at hc; subst hc; exact ⟨_, h⟩

/-- `&#x` never begins a reference of the library -/
theorem ref_not_x {r s : Str} {c : Char} (h : Ref r c) : ¬ r <+: c%"&#x" ++ s := by
  rintro ⟨u, hu⟩
  cases h with
  | entity h => cases h <;> simp at hu
  | @hex h c hv =>
    obtain ⟨a, t, rfl, -⟩ := hexValue_head hv
    obtain ⟨d, hd⟩ := hexValue_all hv a (by simp)
    simp at hu
    exact (hexDigit_no hd).1 hu.1
  | hexPlus h => simp at hu

/-- a numeric reference of the library that a text with decimal digits and `;` begins with -/
theorem ref_dec {d : Str} {n : Nat} (hv : HexValue d n) {r : Str} {c : Char} (h : Ref r c) (hp : r <+: c%"&#" ++ d ++ c%";") :
    n = c.toNat := by
  obtain ⟨u, hu⟩ := hp
  have key : ∀ {h : Str}, HexValue h c.toNat → h ++ c%";" ++ u = d ++ c%";" → n = c.toNat := by
    intro h hh e
    have e' : h ++ ';' :: u = d ++ ';' :: [] := by simpa using e
    have : h = d := by
      have hs := hexValue_no_semi hh
      have hs' := hexValue_no_semi hv
      rcases List.append_eq_append_iff.1 e' with ⟨x, h1, h2⟩ | ⟨x, h1, h2⟩
      · cases x with
        | nil => simpa using h1.symm
        | cons y x => exact absurd (by rw [h1, ← (List.cons.inj h2).1]; simp) hs'
      · cases x with
        | nil => simpa using h1
        | cons y x => exact absurd (by rw [h1, ← (List.cons.inj h2).1]; simp) hs
    subst this
    have h1 := hexLoop_complete hh (char_toNat_lt c)
    clear e e' u hu
    have : ∀ m, HexValue h m → m = c.toNat := by
      have : ∀ {s : Str} {a : Nat}, HexValue s a → ∀ {b : Nat}, HexValue s b → a = b := by
        intro s a ha
        induction ha with
        | one g =>
          intro b hb
          generalize hs : [_] = s at hb
          cases hb with
          | one g' => cases hs; exact Option.some.inj ((hexDigit_iff.2 g).symm.trans (hexDigit_iff.2 g'))
          | snoc g1 g2 =>
            have h1 := congrArg List.length hs
            have h2 := List.length_pos_of_ne_nil (hexValue_ne_nil g1)
            simp only [List.length_append, List.length_cons, List.length_nil] at h1; omega
        | snoc g1 g2 ih =>
          intro b hb
          generalize hs : _ ++ [_] = s at hb
          cases hb with
          | one g' =>
            have h1 := congrArg List.length hs
            have h2 := List.length_pos_of_ne_nil (hexValue_ne_nil g1)
            simp only [List.length_append, List.length_cons, List.length_nil] at h1; omega
          | snoc g1' g2' =>
            have := List.append_inj' hs rfl
            cases this.1
            cases this.2
            rw [ih g1', Option.some.inj ((hexDigit_iff.2 g2).symm.trans (hexDigit_iff.2 g2'))]
      intro m hm
      exact this hm hh
    exact this n hv
  cases h with
  | entity h => cases h <;> simp at hu
  | hex hh => exact key hh (by simpa using hu)
  | @hexPlus h c hh =>
    exfalso
    obtain ⟨a, t, rfl, hne⟩ := hexValue_head hv
    simp at hu
    exact hne hu.1.symm

/-- XML texts without numeric references are decoded as the library decodes -/
theorem xtext_decodes {s t : Str} (h : XText s t) : ¬ c%"&#" <:+: s → Decodes s t := by
  induction h with
  | nil => exact fun _ => .nil
  | char _ _ h _ ih => exact fun hn => .char h (ih fun hi => hn (hi.trans (List.infix_cons (List.infix_refl _))))
  | @ref r s t c h _ ih =>
    intro hn
    refine .ref ?_ (ih fun hi => hn (hi.trans ⟨r, [], by simp⟩))
    cases h with
    | entity h => exact .entity h
    | dec h _ => exact absurd ⟨[], _, by simp; rfl⟩ hn
    | hex h _ => exact absurd ⟨[], _, by simp; rfl⟩ hn

end KissXml
