import Verif.Model.Parse
import Verif.Proofs.Str
import Verif.Spec.Lex
/-!
# The scanning functions and `next_tag`
-/
namespace KissXml
open Spec

theorem qstate_cons (q : Option Char) (c : Char) (a : Str) : qstate q (c :: a) = qstate (qstep q c) a := rfl
@[simp] theorem qstate_nil (q : Option Char) : qstate q [] = q := rfl
theorem qstate_append (q : Option Char) (a b : Str) : qstate q (a ++ b) = qstate (qstate q a) b := by
  simp [qstate]

/-- one step of the loop -/
theorem qafLoop_cons (pat : Str) (hp : ∀ c ∈ pat.head?, c ≠ '"' ∧ c ≠ '\'') (hne : pat ≠ []) (i : Nat) (q : Option Char)
    (c : Char) (s : Str) : qafLoop pat i q (c :: s) =
      if q = none ∧ pat <+: c :: s then some i else qafLoop pat (i + c.utf8Size) (qstep q c) s := by
  cases q with
  | some q =>
    rw [qafLoop]
    simp only [qstep, reduceCtorEq, false_and, if_false]
    split <;> rfl
  | none =>
    rw [qafLoop]
    simp only [qstep, true_and]
    obtain ⟨x, p, rfl⟩ := List.exists_cons_of_ne_nil hne
    have hx := hp x (by simp)
    by_cases h1 : c = '"'
    · subst h1
      rw [if_pos rfl, if_neg, if_pos (.inl rfl)]
      rintro ⟨t, ht⟩
      simp at ht
      exact hx.1 ht.1
    · rw [if_neg h1]
      by_cases h2 : c = '\''
      · subst h2
        rw [if_pos rfl, if_neg, if_pos (.inr rfl)]
        rintro ⟨t, ht⟩
        simp at ht
        exact hx.2 ht.1
      · rw [if_neg h2, show (if c = '"' ∨ c = '\'' then some c else none) = none from if_neg (by simp [h1, h2])]
        simp only [startsWith_iff]

theorem firstUnquoted_nil {q : Option Char} {pat s : Str} : FirstUnquoted q pat [] s ↔ q = none ∧ pat <+: s := by
  constructor
  · rintro ⟨h1, h2, h3⟩; exact ⟨h2, h1⟩
  · rintro ⟨h1, h2⟩; exact ⟨h2, h1, fun _ _ _ => Nat.zero_le _⟩

theorem firstUnquoted_cons {q : Option Char} {pat a s : Str} {c d : Char} :
    FirstUnquoted q pat (d :: a) (c :: s) ↔ d = c ∧ ¬ (q = none ∧ pat <+: c :: s) ∧ FirstUnquoted (qstep q c) pat a s := by
  constructor
  · rintro ⟨h1, h2, h3⟩
    obtain ⟨t, ht⟩ := h1
    simp at ht
    obtain ⟨rfl, ht⟩ := ht
    refine ⟨rfl, ?_, ⟨⟨t, by simp [ht]⟩, h2, ?_⟩⟩
    · rintro ⟨hq, hs⟩
      have := h3 [] hs hq
      simp at this
    · intro a' ha' hq
      have := h3 (d :: a') (by simpa using ha') hq
      simpa using this
  · rintro ⟨rfl, h0, h1, h2, h3⟩
    refine ⟨by simpa using h1, h2, ?_⟩
    intro a' ha' hq
    cases a' with
    | nil => exact absurd ⟨hq, by simpa using ha'⟩ h0
    | cons e a' =>
      have he : e = d := by
        obtain ⟨t, ht⟩ := ha'
        simp at ht; exact ht.1
      subst he
      have := h3 a' (by simpa using ha') hq
      simpa using this

theorem qafLoop_iff {pat : Str} (hp : ∀ c ∈ pat.head?, c ≠ '"' ∧ c ≠ '\'') (hne : pat ≠ []) (s : Str) (i : Nat)
    (q : Option Char) (j : Nat) :
    qafLoop pat i q s = some j ↔ ∃ a, FirstUnquoted q pat a s ∧ j = i + blen a := by
  induction s generalizing i q j with
  | nil =>
    have : qafLoop pat i q [] = none := by cases q <;> rfl
    rw [this]
    constructor
    · intro h; cases h
    · rintro ⟨a, ⟨⟨t, ht⟩, -, -⟩, -⟩
      simp at ht
      exact absurd ht.2.1 hne
  | cons c s ih =>
    rw [qafLoop_cons pat hp hne]
    split
    · rename_i h
      constructor
      · intro hj
        exact ⟨[], firstUnquoted_nil.2 h, by simpa using hj.symm⟩
      · rintro ⟨a, ha, rfl⟩
        cases a with
        | nil => simp
        | cons d a => exact absurd h (firstUnquoted_cons.1 ha).2.1
    · rename_i h
      rw [ih]
      constructor
      · rintro ⟨a, ha, rfl⟩
        exact ⟨c :: a, firstUnquoted_cons.2 ⟨rfl, h, ha⟩, by simp; omega⟩
      · rintro ⟨a, ha, rfl⟩
        cases a with
        | nil => exact absurd (firstUnquoted_nil.1 ha) h
        | cons d a =>
          obtain ⟨rfl, -, h3⟩ := firstUnquoted_cons.1 ha
          exact ⟨a, h3, by simp; omega⟩

/-- generalisation of `FirstClosing` to a running scan -/
structure FirstClosingFrom (q : Option Char) (depth : Nat) (a s : Str) : Prop where
  here : a ++ ['>'] <+: s
  outside : qstate q a = none
  balanced : depth + unquoted '<' q a = unquoted '>' q a
  first : ∀ a', a' ++ ['>'] <+: s → qstate q a' = none → a'.length < a.length →
    unquoted '>' q a' < depth + unquoted '<' q a'

theorem firstClosing_iff {a s : Str} : FirstClosing a s ↔ FirstClosingFrom none 0 a s := by
  constructor
  · rintro ⟨h1, h2, h3, h4⟩; exact ⟨h1, h2, by simpa using h3, by simpa using h4⟩
  · rintro ⟨h1, h2, h3, h4⟩; exact ⟨h1, h2, by simpa using h3, by simpa using h4⟩

theorem firstClosingFrom_nil {q : Option Char} {depth : Nat} {s : Str} :
    FirstClosingFrom q depth [] s ↔ q = none ∧ depth = 0 ∧ ['>'] <+: s := by
  constructor
  · rintro ⟨h1, h2, h3, h4⟩; exact ⟨h2, by simpa [unquoted] using h3, by simpa using h1⟩
  · rintro ⟨h1, h2, h3⟩; exact ⟨by simpa using h3, h1, by simp [unquoted, h2], by simp⟩

/-- how a character changes the depth -/
theorem firstClosingFrom_cons {q : Option Char} {depth d' : Nat} {a s : Str} {c d : Char}
    (hd : d' + (if q = none ∧ c = '>' then 1 else 0) = depth + (if q = none ∧ c = '<' then 1 else 0)) :
    FirstClosingFrom q depth (d :: a) (c :: s) ↔ d = c ∧ FirstClosingFrom (qstep q c) d' a s := by
  have key : ∀ a', unquoted '<' q (c :: a') + depth + (unquoted '>' (qstep q c) a') =
      d' + unquoted '<' (qstep q c) a' + unquoted '>' q (c :: a') := by
    intro a'
    simp only [unquoted]; omega
  constructor
  · rintro ⟨h1, h2, h3, h4⟩
    obtain ⟨t, ht⟩ := h1
    simp at ht
    obtain ⟨rfl, ht⟩ := ht
    refine ⟨rfl, ⟨t, by simp [ht]⟩, h2, ?_, ?_⟩
    · have := key a; omega
    · intro a' ha' hq hl
      have := h4 (d :: a') (by simpa using ha') hq (by simpa using hl)
      have := key a'; omega
  · rintro ⟨rfl, h1, h2, h3, h4⟩
    refine ⟨by simpa using h1, h2, ?_, ?_⟩
    · have := key a; omega
    · intro a' ha' hq hl
      cases a' with
      | nil =>
        have hd0 : q = none := hq
        have hgt : d = '>' := by
          obtain ⟨t, ht⟩ := ha'
          simp at ht; exact ht.1.symm
        subst hd0; subst hgt
        simp [unquoted] at hd ⊢
        omega
      | cons e a' =>
        have he : e = d := by
          obtain ⟨t, ht⟩ := ha'
          simp at ht; exact ht.1
        subst he
        have := h4 a' (by simpa using ha') hq (by simpa using hl)
        have := key a'; omega

theorem nestedLoop_iff (s : Str) (i depth : Nat) (q : Option Char) (j : Nat) :
    nestedLoop i depth q s = some j ↔ ∃ a, FirstClosingFrom q depth a s ∧ j = i + blen a := by
  induction s generalizing i depth q j with
  | nil =>
    have : nestedLoop i depth q [] = none := by cases q <;> rfl
    rw [this]
    constructor
    · intro h; cases h
    · rintro ⟨a, ⟨⟨t, ht⟩, -, -, -⟩, -⟩
      simp at ht
  | cons c s ih =>
    -- the two ways to go on
    have go : ∀ d', d' + (if q = none ∧ c = '>' then 1 else 0) = depth + (if q = none ∧ c = '<' then 1 else 0) →
        ¬ (q = none ∧ depth = 0 ∧ c = '>') →
        (nestedLoop (i + c.utf8Size) d' (qstep q c) s = some j ↔ ∃ a, FirstClosingFrom q depth a (c :: s) ∧ j = i + blen a) := by
      intro d' hd hn
      rw [ih]
      constructor
      · rintro ⟨a, ha, rfl⟩
        exact ⟨c :: a, (firstClosingFrom_cons hd).2 ⟨rfl, ha⟩, by simp; omega⟩
      · rintro ⟨a, ha, rfl⟩
        cases a with
        | nil =>
          obtain ⟨h1, h2, ⟨t, h3⟩⟩ := firstClosingFrom_nil.1 ha
          simp at h3
          exact absurd ⟨h1, h2, h3.1.symm⟩ hn
        | cons d a =>
          obtain ⟨rfl, h3⟩ := (firstClosingFrom_cons hd).1 ha
          exact ⟨a, h3, by simp; omega⟩
    cases q with
    | some q =>
      rw [nestedLoop]
      rw [← go depth (by simp) (by simp)]
      simp only [qstep]
      split <;> rfl
    | none =>
      rw [nestedLoop.eq_def]
      simp only
      by_cases h1 : c = '"'
      · subst h1
        rw [if_pos rfl, ← go depth (by simp) (by simp)]; rfl
      · rw [if_neg h1]
        by_cases h2 : c = '\''
        · subst h2
          rw [if_pos rfl, ← go depth (by simp) (by simp)]; rfl
        · rw [if_neg h2]
          have hq : qstep none c = none := by simp [qstep, h1, h2]
          by_cases h3 : c = '<'
          · subst h3
            rw [if_pos rfl, ← go (depth + 1) (by simp) (by simp)]; rfl
          · rw [if_neg h3]
            by_cases h4 : c = '>'
            · subst h4
              rw [if_pos rfl]
              cases depth with
              | zero =>
                simp only
                constructor
                · intro hj
                  exact ⟨[], firstClosingFrom_nil.2 ⟨rfl, rfl, ⟨s, rfl⟩⟩, by simpa using hj.symm⟩
                · rintro ⟨a, ha, rfl⟩
                  cases a with
                  | nil => simp
                  | cons d a =>
                    have := ha.first [] ⟨s, rfl⟩ rfl (by simp)
                    simp [unquoted] at this
              | succ d =>
                simp only
                rw [← go d (by simp) (by simp)]; rfl
            · rw [if_neg h4, ← go depth (by simp [h3, h4]) (by simp [h4]), hq]

/-! ## next_tag -/

/-- byte length of the tag at the start of a string -/
def tagLen (sub : Str) : Option Nat :=
  if startsWith sub c%"<!--" then (find c%"-->" sub).map (· + 3)
  else if startsWith sub c%"<?" then ((quoteAwareFind sub c%"?>" 2).bind id).map (· + 2)
  else if startsWith sub c%"<![CDATA[" then (find c%"]]>" sub).map (· + 3)
  else if startsWith sub c%"<!" then ((nestedQuoteAwareFindClose sub 2).bind id).map (· + 1)
  else ((quoteAwareFind sub c%">" 1).bind id).map (· + 1)

theorem nextTag_none {pre r : Str} (h : '<' ∉ r) : nextTag (pre ++ r) (blen pre) = some (none, none) := by
  unfold nextTag
  rw [dropB_append]
  simp [find_single_none.2 h]

theorem firstAt_iff {pat s : Str} {i : Nat} : find pat s = some i ↔ ∃ a, FirstAt pat a s ∧ blen a = i := by
  rw [find_eq_some]
  have hlen : ∀ a b a' b' : Str, a ++ pat ++ b = a' ++ pat ++ b' → (blen a ≤ blen a' ↔ a.length ≤ a'.length) := by
    intro a b a' b' h
    rw [List.append_assoc, List.append_assoc] at h
    rcases List.append_eq_append_iff.1 h with ⟨c, rfl, -⟩ | ⟨c, rfl, -⟩
    · simp
    · simp only [blen_append, List.length_append]
      constructor
      · intro hh
        have : c = [] := blen_eq_zero.1 (by omega)
        simp [this]
      · intro hh
        have : c = [] := List.length_eq_zero_iff.1 (by omega)
        simp [this]
  constructor
  · rintro ⟨a, b, rfl, rfl, h⟩
    refine ⟨a, ⟨⟨b, rfl⟩, ?_⟩, rfl⟩
    rintro a' ⟨b', hb⟩
    exact (hlen _ _ _ _ hb.symm).1 (h a' b' hb.symm)
  · rintro ⟨a, ⟨⟨b, rfl⟩, h⟩, rfl⟩
    refine ⟨a, b, rfl, rfl, ?_⟩
    rintro a' b' hb
    exact (hlen _ _ _ _ hb).2 (h a' ⟨b', hb.symm⟩)

theorem prefix_lit {p s : Str} (h : startsWith s p = true) : ∃ u, s = p ++ u := by
  obtain ⟨u, hu⟩ := startsWith_iff.1 h; exact ⟨u, hu.symm⟩

theorem nextTag_some {pre t sub : Str} (h : '<' ∉ t) (hs : c%"<" <+: sub) :
    nextTag (pre ++ (t ++ sub)) (blen pre) =
      some (some (blen pre + blen t), (tagLen sub).map (· + (blen pre + blen t))) := by
  obtain ⟨u, rfl⟩ := hs
  unfold nextTag
  rw [dropB_append]
  have hf : find c%"<" (t ++ (c%"<" ++ u)) = some (blen t) := find_single.2 ⟨t, u, rfl, rfl, h⟩
  have hd : dropB (blen t + blen pre) (pre ++ (t ++ (c%"<" ++ u))) = some (c%"<" ++ u) := by
    rw [← List.append_assoc]
    exact dropB_eq_some.2 ⟨pre ++ t, rfl, by simp; omega⟩
  simp only [Option.bind_some, hf]
  rw [hd]
  simp only [Option.bind_some, Nat.add_comm (blen t)]
  unfold tagLen
  have comm : ∀ k, (fun x : Nat => x + (blen pre + blen t)) ∘ (fun x => x + k) =
      fun x => x + (blen pre + blen t) + k := by
    intro k; funext x; simp only [Function.comp]; omega
  generalize hsub : c%"<" ++ u = sub
  have hd1 : ∀ r, sub = c%"<" ++ r → dropB 1 sub = some r := by
    intro r hr; rw [hr]; exact dropB_append c%"<" r
  have hd2 : ∀ x r, (c%"<" ++ [x] = c%"<?" ∨ c%"<" ++ [x] = c%"<!") → sub = c%"<" ++ [x] ++ r → dropB 2 sub = some r := by
    rintro x r hx hr
    rw [hr]
    rcases hx with hx | hx <;> rw [hx] <;> exact dropB_eq_some.2 ⟨_, rfl, rfl⟩
  split
  · rw [Option.map_map, comm]
  · split
    · rename_i h2
      obtain ⟨r, hr⟩ := prefix_lit h2
      unfold quoteAwareFind
      rw [hd2 '?' r (.inl rfl) hr]
      simp only [Option.map_some, Option.bind_some, id, Option.map_map, comm]
    · split
      · rw [Option.map_map, comm]
      · split
        · rename_i h2
          obtain ⟨r, hr⟩ := prefix_lit h2
          unfold nestedQuoteAwareFindClose
          rw [hd2 '!' r (.inr rfl) hr]
          simp only [Option.map_some, Option.bind_some, id, Option.map_map, comm]
        · unfold quoteAwareFind
          rw [hd1 u hsub.symm]
          simp only [Option.map_some, Option.bind_some, id, Option.map_map, comm]

/-- the tag at the start of a string is the one of the specification -/
theorem tagLen_iff {s : Str} (hs : c%"<" <+: s) (n : Nat) :
    tagLen s = some n ↔ ∃ t, TagAt s t ∧ blen t = n := by
  obtain ⟨u, rfl⟩ := hs
  have hd2 : ∀ x r, (c%"<" ++ [x] = c%"<?" ∨ c%"<" ++ [x] = c%"<!") → dropB 2 (c%"<" ++ [x] ++ r) = some r := by
    rintro x r hx
    rcases hx with hx | hx <;> rw [hx] <;> exact dropB_eq_some.2 ⟨_, rfl, rfl⟩
  unfold tagLen
  by_cases h1 : startsWith (c%"<" ++ u) c%"<!--" = true
  · rw [if_pos h1]
    have hp := startsWith_iff.1 h1
    simp only [Option.map_eq_some_iff, firstAt_iff]
    constructor
    · rintro ⟨i, ⟨a, ha, rfl⟩, rfl⟩
      exact ⟨_, .comment hp ha, by rw [blen_append]; rfl⟩
    · rintro ⟨t, ht, rfl⟩
      obtain ⟨w, hw⟩ := hp
      cases ht with
      | comment _ ha => exact ⟨_, ⟨_, ha, rfl⟩, by rw [blen_append]; rfl⟩
      | pi hu ha => rw [← hw] at hu; simp at hu
      | cdata h ha => rw [← hw] at h; obtain ⟨v, hv⟩ := h; simp at hv
      | decl _ h ha => exact absurd ⟨w, hw⟩ h
      | elem hu h => rw [← hw] at hu; simp at hu; subst hu; exact absurd ⟨_, rfl⟩ h
  · rw [if_neg h1]
    have n1 : ¬ c%"<!--" <+: c%"<" ++ u := fun h => h1 (startsWith_iff.2 h)
    by_cases h2 : startsWith (c%"<" ++ u) c%"<?" = true
    · rw [if_pos h2]
      obtain ⟨r, hr⟩ := prefix_lit h2
      rw [hr] at n1 ⊢
      have hdd : dropB 2 (c%"<?" ++ r) = some r := hd2 '?' r (.inl rfl)
      unfold quoteAwareFind
      rw [hdd]
      simp only [Option.map_some, Option.bind_some, id, Option.map_eq_some_iff]
      simp only [qafLoop_iff (pat := c%"?>") (by simp) (by simp)]
      constructor
      · rintro ⟨i, ⟨a, ha, rfl⟩, rfl⟩
        refine ⟨_, .pi rfl ha, ?_⟩
        rw [blen_append, blen_append, show blen c%"<?" = 2 from rfl, show blen c%"?>" = 2 from rfl]
      · rintro ⟨t, ht, rfl⟩
        cases ht with
        | comment h _ => exact absurd h n1
        | @pi a u hu ha =>
          have : u = r := by simpa using hu.symm
          subst this
          refine ⟨_, ⟨_, ha, rfl⟩, ?_⟩
          rw [blen_append, blen_append, show blen c%"<?" = 2 from rfl, show blen c%"?>" = 2 from rfl]
        | cdata h ha => obtain ⟨v, hv⟩ := h; simp at hv
        | decl hu => simp at hu
        | elem hu _ h => simp at hu; subst hu; exact absurd ⟨_, rfl⟩ h
    · rw [if_neg h2]
      have n2 : ¬ c%"<?" <+: c%"<" ++ u := fun h => h2 (startsWith_iff.2 h)
      by_cases h3 : startsWith (c%"<" ++ u) c%"<![CDATA[" = true
      · rw [if_pos h3]
        have hp := startsWith_iff.1 h3
        simp only [Option.map_eq_some_iff, firstAt_iff]
        constructor
        · rintro ⟨i, ⟨a, ha, rfl⟩, rfl⟩
          exact ⟨_, .cdata hp ha, by rw [blen_append]; rfl⟩
        · rintro ⟨t, ht, rfl⟩
          obtain ⟨w, hw⟩ := hp
          cases ht with
          | comment h _ => exact absurd h n1
          | pi hu ha => exact absurd ⟨_, hu.symm⟩ n2
          | cdata h ha => exact ⟨_, ⟨_, ha, rfl⟩, by rw [blen_append]; rfl⟩
          | decl _ _ h ha => exact absurd ⟨w, hw⟩ h
          | elem hu h => rw [← hw] at hu; simp at hu; subst hu; exact absurd ⟨_, rfl⟩ h
      · rw [if_neg h3]
        have n3 : ¬ c%"<![CDATA[" <+: c%"<" ++ u := fun h => h3 (startsWith_iff.2 h)
        by_cases h4 : startsWith (c%"<" ++ u) c%"<!" = true
        · rw [if_pos h4]
          obtain ⟨r, hr⟩ := prefix_lit h4
          rw [hr] at n1 n3 ⊢
          have hdd : dropB 2 (c%"<!" ++ r) = some r := hd2 '!' r (.inr rfl)
          unfold nestedQuoteAwareFindClose
          rw [hdd]
          simp only [Option.map_some, Option.bind_some, id, Option.map_eq_some_iff]
          simp only [nestedLoop_iff, ← firstClosing_iff]
          constructor
          · rintro ⟨i, ⟨a, ha, rfl⟩, rfl⟩
            refine ⟨_, .decl rfl n1 n3 ha, ?_⟩
            rw [blen_append, blen_append, show blen c%"<!" = 2 from rfl, show blen c%">" = 1 from rfl]
          · rintro ⟨t, ht, rfl⟩
            cases ht with
            | comment h _ => exact absurd h n1
            | pi hu ha => simp at hu
            | cdata h ha => exact absurd h n3
            | @decl a u hu _ _ ha =>
              have : u = r := by simpa using hu.symm
              subst this
              refine ⟨_, ⟨_, ha, rfl⟩, ?_⟩
              rw [blen_append, blen_append, show blen c%"<!" = 2 from rfl, show blen c%">" = 1 from rfl]
            | elem hu h => simp at hu; subst hu; exact absurd ⟨_, rfl⟩ h
        · rw [if_neg h4]
          have n4 : ¬ c%"<!" <+: c%"<" ++ u := fun h => h4 (startsWith_iff.2 h)
          have hdd : dropB 1 (c%"<" ++ u) = some u := dropB_append c%"<" u
          unfold quoteAwareFind
          rw [hdd]
          simp only [Option.map_some, Option.bind_some, id, Option.map_eq_some_iff]
          simp only [qafLoop_iff (pat := c%">") (by simp) (by simp)]
          constructor
          · rintro ⟨i, ⟨a, ha, rfl⟩, rfl⟩
            refine ⟨_, .elem rfl ?_ ?_ ha, ?_⟩
            · rintro ⟨v, rfl⟩; exact n4 ⟨v, rfl⟩
            · rintro ⟨v, rfl⟩; exact n2 ⟨v, rfl⟩
            · rw [blen_append, blen_append, show blen c%"<" = 1 from rfl, show blen c%">" = 1 from rfl]
          · rintro ⟨t, ht, rfl⟩
            cases ht with
            | comment h _ => exact absurd h n1
            | pi hu ha => exact absurd ⟨_, hu.symm⟩ n2
            | cdata h ha => exact absurd h n3
            | decl hu => exact absurd ⟨_, hu.symm⟩ n4
            | @elem a v hu _ _ ha =>
              have : v = u := by simpa using hu.symm
              subst this
              refine ⟨_, ⟨_, ha, rfl⟩, ?_⟩
              rw [blen_append, blen_append, show blen c%"<" = 1 from rfl, show blen c%">" = 1 from rfl]

theorem tagAt_prefix {s t : Str} (h : TagAt s t) : t <+: s := by
  cases h with
  | comment _ ha => exact ha.here
  | cdata _ ha => exact ha.here
  | pi hu ha =>
    subst hu
    rw [List.append_assoc]
    exact List.prefix_append_right_inj _ |>.2 ha.here
  | decl hu _ _ ha =>
    subst hu
    rw [List.append_assoc]
    exact List.prefix_append_right_inj _ |>.2 ha.here
  | elem hu _ _ ha =>
    subst hu
    rw [List.append_assoc]
    exact List.prefix_append_right_inj _ |>.2 ha.here

theorem tagAt_unique {s t t' : Str} (hs : c%"<" <+: s) (h : TagAt s t) (h' : TagAt s t') : t = t' := by
  have h1 := (tagLen_iff hs _).2 ⟨t, h, rfl⟩
  have h2 := (tagLen_iff hs _).2 ⟨t', h', rfl⟩
  rw [h1] at h2
  have hl : blen t = blen t' := by simpa using h2
  obtain ⟨a, ha⟩ := tagAt_prefix h
  obtain ⟨b, hb⟩ := tagAt_prefix h'
  exact (append_inj_blen (ha.trans hb.symm) hl).1

end KissXml
