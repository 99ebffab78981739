import Verif.Proofs.Unescape
/-!
# When `unescape` inverts an escaping: exact condition
-/
namespace KissXml
open Spec

/-- an escaping: special characters become their entity, the others stay -/
structure IsEsc (f : Char → Str) (sp : Char → Bool) : Prop where
  keep : ∀ c, sp c = false → f c = [c] ∧ c ≠ '&'
  ent : ∀ c, sp c = true → Entity (f c) c

/-- the characters changed by `text_escape` -/
def spText (c : Char) : Bool := c = '&' || c = '<' || c = '>'
/-- the characters changed by `escape` -/
def spAttr (c : Char) : Bool := c = '&' || c = '<' || c = '>' || c = '\'' || c = '"'

theorem isEsc_text : IsEsc escText spText where
  keep c h := by
    simp only [spText, Bool.or_eq_false_iff, decide_eq_false_iff_not, and_assoc] at h
    refine ⟨?_, h.1⟩
    unfold escText
    split <;> simp_all
  ent c h := by
    simp only [spText, Bool.or_eq_true, decide_eq_true_eq, or_assoc] at h
    rcases h with rfl | rfl | rfl
    · exact .amp
    · exact .lt
    · exact .gt

theorem isEsc_attr : IsEsc escAttr spAttr where
  keep c h := by
    simp only [spAttr, Bool.or_eq_false_iff, decide_eq_false_iff_not, and_assoc] at h
    refine ⟨?_, h.1⟩
    unfold escAttr
    split <;> simp_all
  ent c h := by
    simp only [spAttr, Bool.or_eq_true, decide_eq_true_eq, or_assoc] at h
    rcases h with rfl | rfl | rfl | rfl | rfl
    · exact .amp
    · exact .lt
    · exact .gt
    · exact .apos
    · exact .quot

theorem entity_form {r : Str} {c : Char} (h : Entity r c) :
    ∃ m, r = '&' :: (m ++ [';']) ∧ 2 ≤ m.length ∧ '&' ∉ m ∧ ';' ∉ m ∧
      refChar ('&' :: m) = some c ∧ isNumRef ('&' :: m) = false ∧ c.utf8Size = 1 := by
  cases h
  · exact ⟨c%"amp", by decide⟩
  · exact ⟨c%"lt", by decide⟩
  · exact ⟨c%"gt", by decide⟩
  · exact ⟨c%"apos", by decide⟩
  · exact ⟨c%"quot", by decide⟩

theorem lastW_le {d : Nat} (s : Str) (h : s ≠ []) : lastW d s ≤ blen s := by
  induction s generalizing d with
  | nil => exact absurd rfl h
  | cons c s ih =>
    rw [lastW_cons]
    cases s with
    | nil => simp
    | cons x s => have := ih (d := c.utf8Size) (by simp); rw [blen_cons]; omega

section
variable {f : Char → Str} {sp : Char → Bool} (H : IsEsc f sp)
include H

theorem esc_keep {a : Str} (h : ∀ c ∈ a, sp c = false) : a.flatMap f = a ∧ '&' ∉ a := by
  induction a with
  | nil => simp
  | cons c a ih =>
    have hc := H.keep c (h c (by simp))
    have := ih (fun x hx => h x (by simp [hx]))
    simp [hc.1, this.1, this.2]
    exact hc.2.symm

theorem esc_ne_nil (c : Char) : f c ≠ [] := by
  cases h : sp c with
  | false => simp [(H.keep c h).1]
  | true =>
    obtain ⟨m, hm, -⟩ := entity_form (H.ent c h)
    simp [hm]

theorem esc_flatMap_nil {s : Str} (h : s.flatMap f = []) : s = [] := by
  cases s with
  | nil => rfl
  | cons c s => simp at h; exact absurd h.1 (esc_ne_nil H c)

theorem esc_length (s : Str) : s.length ≤ (s.flatMap f).length := by
  induction s with
  | nil => simp
  | cons c s ih =>
    have : 0 < (f c).length := List.length_pos_of_ne_nil (esc_ne_nil H c)
    simp only [List.flatMap_cons, List.length_append, List.length_cons]
    omega

/-- every `&` of an escaped string is the start of the entity of some special character -/
theorem esc_amp {s w rest : Str} (h : s.flatMap f = w ++ '&' :: rest) :
    ∃ b1 c b2, s = b1 ++ c :: b2 ∧ sp c = true ∧ w = b1.flatMap f ∧ '&' :: rest = f c ++ b2.flatMap f := by
  induction s generalizing w with
  | nil => simp at h
  | cons x s ih =>
    cases hx : sp x with
    | false =>
      obtain ⟨h1, h2⟩ := H.keep x hx
      cases w with
      | nil => simp [h1] at h; exact absurd h.1 h2
      | cons y w =>
        simp [h1] at h
        obtain ⟨rfl, h⟩ := h
        obtain ⟨b1, c, b2, rfl, hc, rfl, hr⟩ := ih h
        exact ⟨x :: b1, c, b2, by simp, hc, by simp [h1], hr⟩
    | true =>
      obtain ⟨m, hm, -, hamp, -⟩ := entity_form (H.ent x hx)
      cases w with
      | nil => exact ⟨[], x, s, by simp, hx, by simp, by simpa using h.symm⟩
      | cons y w =>
        simp [hm] at h
        obtain ⟨rfl, h⟩ := h
        have h : (m ++ [';']) ++ s.flatMap f = w ++ '&' :: rest := by simpa using h
        rcases List.append_eq_append_iff.1 h with ⟨w', rfl, h'⟩ | ⟨c', hc', h'⟩
        · obtain ⟨b1, c, b2, rfl, hc, rfl, hr⟩ := ih h'
          exact ⟨x :: b1, c, b2, by simp, hc, by simp [hm], hr⟩
        · cases c' with
          | nil =>
            simp at h' hc'
            obtain ⟨b1, c, b2, rfl, hc, hb1, hr⟩ := ih (w := []) (by simpa using h'.symm)
            have : b1 = [] := esc_flatMap_nil H hb1.symm
            subst this
            exact ⟨[x], c, b2, by simp, hc, by simp [hm, hc'], hr⟩
          | cons z c' =>
            simp at h'
            obtain ⟨rfl, -⟩ := h'
            have : '&' ∈ m ++ [';'] := by rw [hc']; simp
            simp [hamp] at this

/-- decoding at the first special character -/
theorem esc_decode {c : Char} (hc : sp c = true) (b : Str) :
    ∃ m, f c ++ b = '&' :: m ∧ after m = c :: b ∧ jump m = lastW 1 b := by
  obtain ⟨m, hm, -, -, hs, hr, hn, hw⟩ := entity_form (H.ent c hc)
  have hd : decode1 (m ++ ';' :: b) = some (c, b, false) := by rw [decode1_of hs hr, hn]
  refine ⟨m ++ ';' :: b, by simp [hm], by simp [after, hd], ?_⟩
  simp [jump, hd]

/-- lower bound for the length of the result of the loop -/
theorem esc_lower {ε : Type} (fuel : Nat) (P x b : Str) (n : Nat) (Z : Str) (hx : '&' ∉ x) (hn : blen P ≤ n)
    (h : (unescapeLoop fuel (P ++ (x ++ b.flatMap f)) n : Res ε Str) = .ok Z) :
    P.length + x.length + b.length ≤ Z.length := by
  induction fuel generalizing P x b n with
  | zero => simp [unescapeLoop] at h
  | succ fuel ih =>
    have hlen := esc_length H b
    by_cases ho : blen (P ++ (x ++ b.flatMap f)) ≤ n
    · rw [unescapeLoop_over _ _ _ ho] at h
      simp at h; subst h
      simp only [List.length_append]; omega
    cases hd : dropB n (P ++ (x ++ b.flatMap f)) with
    | none => rw [unescapeLoop_split _ _ _ (by omega) hd] at h; simp at h
    | some S =>
      obtain ⟨V, hV, hVn⟩ := dropB_eq_some.1 hd
      rw [hV, ← hVn] at h
      by_cases hs : '&' ∈ S
      · obtain ⟨a, r, rfl, ha⟩ := mem_split_first hs
        rw [unescapeLoop_step _ _ _ _ ha] at h
        have hV' : P ++ (x ++ b.flatMap f) = (V ++ a) ++ '&' :: r := by simpa using hV
        -- `V ++ a` extends `P`
        have : ∃ w, V ++ a = P ++ w ∧ x ++ b.flatMap f = w ++ '&' :: r := by
          rcases List.append_eq_append_iff.1 hV' with ⟨w, h1, h2⟩ | ⟨w, h1, h2⟩
          · exact ⟨w, h1, h2⟩
          · have : blen w = 0 := by
              have h3 : blen P = blen V + blen a + blen w := by rw [h1]; simp [Nat.add_assoc]
              omega
            have := blen_eq_zero.1 this
            subst this
            exact ⟨[], by simpa using h1.symm, by simpa using h2.symm⟩
        obtain ⟨w, hw1, hw2⟩ := this
        have : ∃ w', w = x ++ w' ∧ b.flatMap f = w' ++ '&' :: r := by
          rcases List.append_eq_append_iff.1 hw2 with ⟨w', h1, h2⟩ | ⟨w', h1, h2⟩
          · exact ⟨w', h1, h2⟩
          · cases w' with
            | nil => exact ⟨[], by simpa using h1.symm, by simpa using h2.symm⟩
            | cons z w' =>
              simp at h2
              obtain ⟨rfl, -⟩ := h2
              exact absurd (by rw [h1]; simp) hx
        obtain ⟨w', rfl, hb⟩ := this
        obtain ⟨b1, c, b2, rfl, hc, rfl, hr⟩ := esc_amp H hb
        obtain ⟨m, hm, haf, -⟩ := esc_decode H hc (b2.flatMap f)
        rw [hm] at hr
        simp at hr; subst hr
        rw [haf] at h
        have hw := (entity_form (H.ent c hc)).choose_spec.2.2.2.2.2.2
        have hj := jump_pos r
        have h' : (unescapeLoop fuel ((V ++ a ++ [c]) ++ ([] ++ b2.flatMap f)) (blen V + blen a + jump r) : Res ε Str) = .ok Z := by
          simpa using h
        have := ih _ _ _ _ (by simp) (by simp only [blen_append, blen_cons, blen_nil, hw]; omega) h'
        have hl := esc_length H b1
        have h3 := congrArg List.length hw1
        simp only [List.length_append, List.length_cons, List.length_nil] at *
        omega
      · rw [unescapeLoop_done _ _ _ hs, ← hV] at h
        simp at h; subst h
        simp only [List.length_append]; omega

/-- the positions the loop skips are free of special characters -/
def SkipsOk (sp : Char → Bool) (k : Nat) (s : Str) : Prop :=
  ∀ a c b, s = a ++ c :: b → sp c = true →
    ∃ t b', b = t ++ b' ∧ blen t = k - 1 ∧ ∀ x ∈ t, sp x = false

omit H in
theorem split_first_sp {s : Str} (h : ¬ ∀ c ∈ s, sp c = false) :
    ∃ a c b, s = a ++ c :: b ∧ sp c = true ∧ ∀ x ∈ a, sp x = false := by
  induction s with
  | nil => simp at h
  | cons x s ih =>
    cases hx : sp x with
    | true => exact ⟨[], x, s, rfl, hx, by simp⟩
    | false =>
      have : ¬ ∀ c ∈ s, sp c = false := by
        intro h'; apply h; simpa [hx] using h'
      obtain ⟨a, c, b, rfl, hc, ha⟩ := ih this
      exact ⟨x :: a, c, b, rfl, hc, by simpa [hx] using ha⟩

theorem lastW_esc_suffix {a b : Str} (hb : b ≠ []) :
    lastW 1 ((a ++ b).flatMap f) = lastW 1 (b.flatMap f) := by
  have : b.flatMap f ≠ [] := fun h => hb (esc_flatMap_nil H h)
  rw [List.flatMap_append, lastW_append _ this]

theorem esc_iff {ε : Type} (k : Nat) (fuel : Nat) (P s : Str) (hf : blen (s.flatMap f) < fuel)
    (hk : s ≠ [] → k = lastW 1 (s.flatMap f)) :
    (unescapeLoop fuel (P ++ s.flatMap f) (blen P) : Res ε Str) = .ok (P ++ s) ↔ SkipsOk sp k s := by
  induction fuel generalizing P s with
  | zero => omega
  | succ fuel ih =>
    by_cases hs : ∀ c ∈ s, sp c = false
    · obtain ⟨h1, h2⟩ := esc_keep H hs
      rw [h1, unescapeLoop_done _ _ _ h2]
      simp only [true_iff]
      intro a c b e hc
      rw [hs c (by rw [e]; simp)] at hc
      simp at hc
    · obtain ⟨a, c, b, rfl, hc, ha⟩ := split_first_sp hs
      obtain ⟨ha1, ha2⟩ := esc_keep H ha
      obtain ⟨m, hm, haf, hj⟩ := esc_decode H hc (b.flatMap f)
      have hE : (a ++ c :: b).flatMap f = a ++ '&' :: m := by
        simp [ha1, hm]
      have hw := (entity_form (H.ent c hc)).choose_spec.2.2.2.2.2.2
      obtain ⟨em, hem, hem2, -⟩ := entity_form (H.ent c hc)
      rw [hE, unescapeLoop_step _ _ _ _ ha2, haf, hj]
      -- one step brings us to `Q ++ E b` at `blen Q + (k-1)`
      have hkb : lastW 1 (b.flatMap f) = if b = [] then 1 else k := by
        by_cases hb : b = []
        · subst hb; simp
        · rw [hk (by simp), if_neg hb]
          have := lastW_esc_suffix H (a := a ++ [c]) hb
          simpa using this.symm
      have hk1 : b = [] → k = 1 := by
        rintro rfl
        rw [hk (by simp), lastW_esc_suffix H (by simp : [c] ≠ [])]
        simp only [List.flatMap_cons, List.flatMap_nil, List.append_nil, hem]
        rw [show '&' :: (em ++ [';']) = ('&' :: em) ++ [';'] by simp, lastW_append _ (by simp)]
        decide
      have hkb' : lastW 1 (b.flatMap f) = k := by
        rw [hkb]; split
        · rename_i hb; exact (hk1 hb).symm
        · rfl
      have hkpos : 0 < k := by rw [← hkb']; exact lastW_pos (by decide) _
      rw [hkb']
      have hbuf : P ++ (a ++ c :: b.flatMap f) = (P ++ a ++ [c]) ++ b.flatMap f := by simp
      have hpos : blen P + blen a + k = blen (P ++ a ++ [c]) + (k - 1) := by
        simp only [blen_append, blen_cons, blen_nil, hw]; omega
      have hres : P ++ (a ++ c :: b) = (P ++ a ++ [c]) ++ b := by simp
      have hfb : blen (b.flatMap f) < fuel := by
        have := utf8Size_pos '&'
        have h3 := congrArg blen hm
        rw [hE] at hf
        simp only [blen_append, blen_cons, hem] at *
        omega
      rw [hbuf, hpos, hres]
      generalize P ++ a ++ [c] = Q
      by_cases hT : ∃ t b', b = t ++ b' ∧ blen t = k - 1 ∧ ∀ x ∈ t, sp x = false
      · obtain ⟨t, b', rfl, htk, ht⟩ := hT
        obtain ⟨ht1, ht2⟩ := esc_keep H ht
        have h1 : Q ++ (t ++ b').flatMap f = (Q ++ t) ++ b'.flatMap f := by simp [ht1]
        have h2 : blen Q + (k - 1) = blen (Q ++ t) := by simp [htk]
        have h3 : Q ++ (t ++ b') = (Q ++ t) ++ b' := by simp
        rw [h1, h2, h3, ih]
        · constructor
          · intro hb' a1 c1 b1 e hc1
            by_cases hlen : a1.length ≤ a.length
            · -- c1 is c
              rcases List.append_eq_append_iff.1 e with ⟨x, h4, h5⟩ | ⟨x, h4, h5⟩
              · have : x = [] := by
                  have := congrArg List.length h4
                  simp at this
                  exact List.length_eq_zero_iff.1 (by omega)
                subst this
                simp at h5
                obtain ⟨rfl, rfl⟩ := h5
                exact ⟨t, b', rfl, htk, ht⟩
              · cases x with
                | nil =>
                  simp at h5
                  obtain ⟨rfl, rfl⟩ := h5
                  exact ⟨t, b', rfl, htk, ht⟩
                | cons y x =>
                  simp at h5
                  obtain ⟨rfl, -⟩ := h5
                  have := ha c1 (by rw [h4]; simp)
                  rw [this] at hc1; simp at hc1
            · rcases List.append_eq_append_iff.1 e with ⟨x, h4, h5⟩ | ⟨x, h4, h5⟩
              · cases x with
                | nil => simp at h4; subst h4; simp at hlen
                | cons y x =>
                  simp at h5
                  obtain ⟨rfl, h5⟩ := h5
                  rcases List.append_eq_append_iff.1 h5 with ⟨z, h6, h7⟩ | ⟨z, h6, h7⟩
                  · exact hb' z c1 b1 h7 hc1
                  · cases z with
                    | nil => simp at h7; exact hb' [] c1 b1 (by simpa using h7.symm) hc1
                    | cons y z =>
                      simp at h7
                      obtain ⟨rfl, -⟩ := h7
                      have := ht c1 (by rw [h6]; simp)
                      rw [this] at hc1; simp at hc1
              · have := congrArg List.length h4
                simp at this
                omega
          · intro hS a1 c1 b1 e hc1
            exact hS (a ++ c :: t ++ a1) c1 b1 (by simp [e]) hc1
        · simp only [List.flatMap_append, blen_append] at hfb
          omega
        · intro hb'
          rw [← hkb', lastW_esc_suffix H hb']
      · constructor
        · intro hrun
          exfalso
          have hbne : b ≠ [] := by
            rintro rfl
            exact hT ⟨[], [], rfl, by simp [hk1 rfl], by simp⟩
          have hbE : b.flatMap f ≠ [] := fun h => hbne (esc_flatMap_nil H h)
          -- not past the end
          have hin : k ≤ blen (b.flatMap f) := by
            rw [← hkb']; exact lastW_le _ hbE
          have hfuel : ∃ fuel', fuel = fuel' + 1 := ⟨fuel - 1, by omega⟩
          obtain ⟨fuel', rfl⟩ := hfuel
          cases hd : dropB (blen Q + (k - 1)) (Q ++ b.flatMap f) with
          | none => rw [unescapeLoop_split _ _ _ (by simp only [blen_append]; omega) hd] at hrun; simp at hrun
          | some T =>
            obtain ⟨V, hV, hVk⟩ := dropB_eq_some.1 hd
            obtain ⟨v, rfl, hvT⟩ : ∃ v, V = Q ++ v ∧ b.flatMap f = v ++ T := by
              rcases List.append_eq_append_iff.1 hV with ⟨w, h1, h2⟩ | ⟨w, h1, h2⟩
              · exact ⟨w, h1, h2⟩
              · have : blen w = 0 := by
                  have h3 : blen Q = blen V + blen w := by rw [h1]; simp
                  omega
                have := blen_eq_zero.1 this
                subst this
                exact ⟨[], by simpa using h1.symm, by simpa using h2.symm⟩
            have hvk : blen v = k - 1 := by simp at hVk; omega
            by_cases hbs : ∀ x ∈ b, sp x = false
            · obtain ⟨h1, -⟩ := esc_keep H hbs
              rw [h1] at hvT
              exact hT ⟨v, T, hvT, hvk, fun x hx => hbs x (by rw [hvT]; simp [hx])⟩
            · obtain ⟨t, d, b2, rfl, hdsp, ht⟩ := split_first_sp hbs
              obtain ⟨ht1, ht2⟩ := esc_keep H ht
              obtain ⟨e, he, he2, heamp, -, -, -, -⟩ := entity_form (H.ent d hdsp)
              by_cases hvt : blen v ≤ blen t
              · -- the skipped part lies inside `t`
                have e1 : t ++ (f d ++ b2.flatMap f) = v ++ T := by rw [← hvT]; simp [ht1]
                obtain ⟨w, hw⟩ : ∃ w, t = v ++ w := by
                  rcases List.append_eq_append_iff.1 e1 with ⟨w, h1, h2⟩ | ⟨w, h1, h2⟩
                  · have : blen w = 0 := by
                      have h3 : blen v = blen t + blen w := by rw [h1]; simp
                      omega
                    have := blen_eq_zero.1 this
                    subst this
                    exact ⟨[], by simpa using h1.symm⟩
                  · exact ⟨w, h1⟩
                exact hT ⟨v, w ++ d :: b2, by simp [hw], hvk, fun x hx => ht x (by rw [hw]; simp [hx])⟩
              · -- the `&` of an entity is skipped: the result is too long
                have e1 : Q ++ (t ++ d :: b2).flatMap f = (Q ++ t ++ ['&']) ++ ((e ++ [';']) ++ b2.flatMap f) := by
                  simp [ht1, he]
                rw [e1] at hrun
                have hamp1 : ('&').utf8Size = 1 := by decide
                have := esc_lower H _ _ _ _ _ _ (by simp [heamp]) (by
                  simp only [blen_append, blen_cons, blen_nil, hamp1]; omega) hrun
                simp at this
                omega
        · intro hS
          exact absurd (hS a c b rfl hc) hT

end
end KissXml
