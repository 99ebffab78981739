import Verif.Model.Escape
import Verif.Spec.Escape
import Verif.Proofs.Str
/-!
# Lemmas about `text_escape`, `escape` and `unescape`
-/
namespace KissXml
open Spec

/-! ## escaping is per character -/

theorem replaceChar_flatMap (c : Char) (w : Str) (f : Char → Str) (s : Str) :
    replaceChar c w (s.flatMap f) = s.flatMap (fun x => replaceChar c w (f x)) := by
  induction s with
  | nil => rfl
  | cons x s ih =>
    simp only [List.flatMap_cons]
    rw [← ih]
    simp [replaceChar]

theorem textEscape_eq (s : Str) : textEscape s = s.flatMap escText := by
  unfold textEscape
  conv_lhs => rw [show replaceChar '&' c%"&amp;" s = s.flatMap (fun x => if x = '&' then c%"&amp;" else [x]) from rfl]
  rw [replaceChar_flatMap, replaceChar_flatMap]
  congr 1
  funext x
  by_cases h1 : x = '&'
  · subst h1; rfl
  by_cases h2 : x = '<'
  · subst h2; rfl
  by_cases h3 : x = '>'
  · subst h3; rfl
  simp [replaceChar, escText, h1, h2, h3]

theorem escape_eq (s : Str) : escape s = s.flatMap escAttr := by
  unfold escape
  conv_lhs => rw [show replaceChar '&' c%"&amp;" s = s.flatMap (fun x => if x = '&' then c%"&amp;" else [x]) from rfl]
  rw [replaceChar_flatMap, replaceChar_flatMap, replaceChar_flatMap, replaceChar_flatMap]
  congr 1
  funext x
  by_cases h1 : x = '&'
  · subst h1; rfl
  by_cases h2 : x = '<'
  · subst h2; rfl
  by_cases h3 : x = '>'
  · subst h3; rfl
  by_cases h4 : x = '\''
  · subst h4; rfl
  by_cases h5 : x = '"'
  · subst h5; rfl
  simp [replaceChar, escAttr, h1, h2, h3, h4, h5]

/-! ## the inner loop of `unescape` -/

/-- width of the last character, or a default -/
def lastW (d : Nat) (s : Str) : Nat :=
  match s.getLast? with
  | none => d
  | some c => c.utf8Size

@[simp] theorem lastW_nil (d : Nat) : lastW d [] = d := rfl
@[simp] theorem lastW_cons (d : Nat) (c : Char) (s : Str) : lastW d (c :: s) = lastW c.utf8Size s := by
  unfold lastW
  cases s with
  | nil => simp
  | cons x s => simp [List.getLast?_cons]

theorem lastW_pos {d : Nat} (hd : 0 < d) (s : Str) : 0 < lastW d s := by
  unfold lastW; split
  · exact hd
  · exact utf8Size_pos _

theorem lastW_append {d : Nat} (a : Str) {b : Str} (hb : b ≠ []) : lastW d (a ++ b) = lastW d b := by
  induction a generalizing d with
  | nil => rfl
  | cons c a ih =>
    rw [List.cons_append, lastW_cons, ih]
    cases b with
    | nil => exact absurd rfl hb
    | cons x b => simp

/-- the character a reference (without its `;`) is decoded to by the code -/
def refChar (m : Str) : Option Char :=
  if m = c%"&amp" then some '&'
  else if m = c%"&lt" then some '<'
  else if m = c%"&gt" then some '>'
  else if m = c%"&apos" then some '\''
  else if m = c%"&quot" then some '"'
  else if startsWith m c%"&#" then (parseHexU32 (m.drop 2)).bind charFromU32
  else none

/-- is it a numeric reference (for which `char_size` is updated)? -/
def isNumRef (m : Str) : Bool := startsWith m c%"&#"

theorem hexLoop_semicolon {acc : Nat} {s : Str} (h : ';' ∈ s) : hexLoop acc s = none := by
  induction s generalizing acc with
  | nil => simp at h
  | cons c s ih =>
    unfold hexLoop
    cases hd : hexDigit c with
    | none => rfl
    | some d =>
      have : c ≠ ';' := by rintro rfl; exact absurd hd (by simp [show hexDigit ';' = none by decide])
      have hs : ';' ∈ s := by
        rcases List.mem_cons.1 h with h | h
        · exact absurd h.symm this
        · exact h
      simp only
      split
      · exact ih hs
      · rfl

theorem parseHexU32_semicolon {s : Str} (h : ';' ∈ s) : parseHexU32 s = none := by
  unfold parseHexU32
  cases s with
  | nil => rfl
  | cons c s =>
    simp only
    split
    · rename_i hc; subst hc
      have : ';' ∈ s := by simpa using h
      split
      · rfl
      · exact hexLoop_semicolon this
    · exact hexLoop_semicolon h

theorem drop2_of_startsWith {m : Str} (h : startsWith m c%"&#" = true) : dropB 2 m = some (m.drop 2) := by
  obtain ⟨t, rfl⟩ := startsWith_iff.1 h
  exact dropB_append c%"&#" t

theorem unescapeAt_eq (Q m r2 : Str) (cs : Nat) :
    unescapeAt (Q ++ (m ++ ';' :: r2)) cs (blen Q) (blen Q + blen m + 1) m =
      some (match refChar m with
        | none => (Q ++ (m ++ ';' :: r2), cs)
        | some u => (Q ++ (u :: r2), if isNumRef m then u.utf8Size else cs)) := by
  have hins : ∀ x : Str, stringInsert (Q ++ (m ++ ';' :: r2)) (blen Q) (blen Q + blen m + 1) x =
      some (Q ++ (x ++ r2)) := by
    intro x
    unfold stringInsert
    have h1 : dropB (blen Q + blen m + 1) (Q ++ (m ++ ';' :: r2)) = some r2 := by
      apply dropB_eq_some.2
      exact ⟨Q ++ m ++ [';'], by simp, by simp [Nat.add_assoc]; rfl⟩
    have h2 : truncateB (blen Q) (Q ++ (m ++ ';' :: r2)) = some Q := by
      unfold truncateB
      have : ¬ blen Q ≥ blen (Q ++ (m ++ ';' :: r2)) := by
        have := utf8Size_pos ';'
        simp; omega
      simp only [this, if_false, takeB_append]
    simp [h1, h2]
  unfold unescapeAt refChar isNumRef
  split
  · rename_i h; subst h; rw [hins]; rfl
  split
  · rename_i h; subst h; rw [hins]; rfl
  split
  · rename_i h; subst h; rw [hins]; rfl
  split
  · rename_i h; subst h; rw [hins]; rfl
  split
  · rename_i h; subst h; rw [hins]; rfl
  split
  · rename_i h
    rw [drop2_of_startsWith h]
    dsimp only
    cases parseHexU32 (m.drop 2) with
    | none => rfl
    | some cp =>
      dsimp only [Option.bind_some]
      cases charFromU32 cp with
      | none => rfl
      | some u => simp [hins]
  · rfl

theorem refChar_semicolon {m : Str} (h : ';' ∈ m) : refChar m = none := by
  unfold refChar
  split
  · rename_i h'; subst h'; exact absurd h (by decide)
  split
  · rename_i h'; subst h'; exact absurd h (by decide)
  split
  · rename_i h'; subst h'; exact absurd h (by decide)
  split
  · rename_i h'; subst h'; exact absurd h (by decide)
  split
  · rename_i h'; subst h'; exact absurd h (by decide)
  split
  · rename_i h'
    obtain ⟨t, rfl⟩ := startsWith_iff.1 h'
    have : ';' ∈ t := by simpa using h
    simp [parseHexU32_semicolon this]
  · rfl

theorem unescapeAt_noop {buf sl : Str} {cs a b : Nat} (h : ';' ∈ sl) :
    unescapeAt buf cs a b sl = some (buf, cs) := by
  unfold unescapeAt
  split
  · rename_i h'; subst h'; exact absurd h (by decide)
  split
  · rename_i h'; subst h'; exact absurd h (by decide)
  split
  · rename_i h'; subst h'; exact absurd h (by decide)
  split
  · rename_i h'; subst h'; exact absurd h (by decide)
  split
  · rename_i h'; subst h'; exact absurd h (by decide)
  split
  · rename_i h'
    rw [drop2_of_startsWith h']
    obtain ⟨t, rfl⟩ := startsWith_iff.1 h'
    have : ';' ∈ t := by simpa using h
    simp [parseHexU32_semicolon this]
  · rfl

/-- after the first `;` the inner loop only updates `char_size` -/
theorem unescapeInner_noop (i : Nat) (pre rest buf : Str) (cs : Nat) (h : ';' ∈ pre) :
    unescapeInner i (pre ++ rest) (blen pre) rest buf cs = some (buf, lastW cs rest) := by
  induction rest generalizing pre cs with
  | nil => simp [unescapeInner]
  | cons k rest ih =>
    have e : pre ++ k :: rest = (pre ++ [k]) ++ rest := by simp
    have hb : blen pre + k.utf8Size = blen (pre ++ [k]) := by simp
    unfold unescapeInner
    simp only
    split
    · rw [takeB_append]
      simp only [unescapeAt_noop h]
      rw [e, hb, ih (pre ++ [k]) _ (by simp [h])]
      simp
    · rw [e, hb, ih (pre ++ [k]) _ (by simp [h])]
      simp

/-- no `;` at all: nothing is replaced -/
theorem unescapeInner_none (i : Nat) (slice : Str) (j : Nat) (rest buf : Str) (cs : Nat) (h : ';' ∉ rest) :
    unescapeInner i slice j rest buf cs = some (buf, lastW cs rest) := by
  induction rest generalizing j cs with
  | nil => simp [unescapeInner]
  | cons k rest ih =>
    have hk : k ≠ ';' := by rintro rfl; simp at h
    have hr : ';' ∉ rest := fun h' => h (List.mem_cons_of_mem _ h')
    unfold unescapeInner
    simp [hk, ih _ _ hr]

/-- up to the first `;` -/
theorem unescapeInner_first (Q pre m r2 : Str) (cs : Nat) (h : ';' ∉ m) :
    unescapeInner (blen Q) (pre ++ (m ++ ';' :: r2)) (blen pre) (m ++ ';' :: r2) (Q ++ (pre ++ (m ++ ';' :: r2))) cs =
      some (match refChar (pre ++ m) with
        | none => (Q ++ (pre ++ (m ++ ';' :: r2)), lastW 1 r2)
        | some u => (Q ++ (u :: r2), lastW (if isNumRef (pre ++ m) then u.utf8Size else 1) r2)) := by
  induction m generalizing pre cs with
  | nil =>
    simp only [List.nil_append, List.append_nil]
    unfold unescapeInner
    simp only [if_true, takeB_append]
    rw [unescapeAt_eq Q pre r2]
    simp only
    have e : pre ++ ';' :: r2 = (pre ++ [';']) ++ r2 := by simp
    have hb : blen pre + (';').utf8Size = blen (pre ++ [';']) := by simp
    rw [hb]
    cases refChar pre with
    | none =>
      simp only
      rw [e, unescapeInner_noop _ _ _ _ _ (by simp)]
      rfl
    | some u =>
      simp only
      rw [e, unescapeInner_noop _ _ _ _ _ (by simp)]
      rfl
  | cons k m ih =>
    have hk : k ≠ ';' := by rintro rfl; simp at h
    have hr : ';' ∉ m := fun h' => h (List.mem_cons_of_mem _ h')
    have hb : blen pre + k.utf8Size = blen (pre ++ [k]) := by simp
    rw [List.cons_append]
    unfold unescapeInner
    simp only [hk, if_false]
    have := ih (pre ++ [k]) k.utf8Size hr
    rw [hb]
    simpa using this

/-! ## one iteration of the outer loop -/

/-- split at the first `;` -/
def splitSemi (b : Str) : Option (Str × Str) := splitOnce ';' b

/-- the decoded character and the rest, at a `&` followed by `b` -/
def decode1 (b : Str) : Option (Char × Str × Bool) :=
  (splitSemi b).bind fun p => (refChar ('&' :: p.1)).map fun u => (u, p.2, isNumRef ('&' :: p.1))

/-- the distance the scan position advances from the `&` -/
def jump (b : Str) : Nat :=
  match decode1 b with
  | none => lastW 1 b
  | some (u, rest, num) => lastW (if num then u.utf8Size else 1) rest

/-- the text replacing `&b` -/
def after (b : Str) : Str :=
  match decode1 b with
  | none => '&' :: b
  | some (u, rest, _) => u :: rest

theorem jump_pos (b : Str) : 0 < jump b := by
  unfold jump
  split
  · exact lastW_pos (by decide) _
  · split
    · exact lastW_pos (utf8Size_pos _) _
    · exact lastW_pos (by decide) _

theorem unescapeLoop_step {ε : Type} (fuel : Nat) (P a b : Str) (ha : '&' ∉ a) :
    (unescapeLoop (fuel + 1) (P ++ (a ++ '&' :: b)) (blen P) : Res ε Str) =
      unescapeLoop fuel (P ++ (a ++ after b)) (blen P + blen a + jump b) := by
  conv_lhs => unfold unescapeLoop
  have h0 : ¬ blen P ≥ blen (P ++ (a ++ '&' :: b)) := by
    have := utf8Size_pos '&'
    simp; omega
  have hf : find c%"&" (a ++ '&' :: b) = some (blen a) := find_single.2 ⟨a, b, rfl, rfl, ha⟩
  have hd : dropB (blen a + blen P) (P ++ (a ++ '&' :: b)) = some ('&' :: b) :=
    dropB_eq_some.2 ⟨P ++ a, by simp, by simp [Nat.add_comm]⟩
  simp only [h0, if_false, dropB_append, hf, hd]
  have hi : blen a + blen P = blen (P ++ a) := by simp [Nat.add_comm]
  have hbuf : P ++ (a ++ '&' :: b) = (P ++ a) ++ ('&' :: b) := by simp
  rw [hi, hbuf]
  cases hs : splitSemi b with
  | none =>
    have hn : ';' ∉ b := splitOnce_eq_none.1 hs
    have hn' : ';' ∉ '&' :: b := by simp [hn]
    rw [unescapeInner_none _ _ _ _ _ _ hn']
    have hdec : decode1 b = none := by simp [decode1, hs]
    simp [after, jump, hdec]; rfl
  | some p =>
    obtain ⟨m, r2⟩ := p
    obtain ⟨rfl, hm⟩ := splitOnce_eq_some.1 hs
    have hm' : ';' ∉ '&' :: m := by simp [hm]
    have := unescapeInner_first (P ++ a) [] ('&' :: m) r2 1 hm'
    simp only [List.nil_append, List.cons_append, blen_nil] at this
    rw [this]
    cases hr : refChar ('&' :: m) with
    | none =>
      have hdec : decode1 (m ++ ';' :: r2) = none := by simp [decode1, hs, hr]
      simp [after, jump, hdec]
      rw [lastW_append m (by simp)]
      simp
      rfl
    | some u =>
      have hdec : decode1 (m ++ ';' :: r2) = some (u, r2, isNumRef ('&' :: m)) := by simp [decode1, hs, hr]
      simp [after, jump, hdec]

theorem unescapeLoop_done {ε : Type} (fuel : Nat) (P a : Str) (ha : '&' ∉ a) :
    (unescapeLoop (fuel + 1) (P ++ a) (blen P) : Res ε Str) = .ok (P ++ a) := by
  unfold unescapeLoop
  split
  · rfl
  · simp only [dropB_append, find_single_none.2 ha]

theorem unescapeLoop_over {ε : Type} (fuel : Nat) (B : Str) (n : Nat) (h : blen B ≤ n) :
    (unescapeLoop (fuel + 1) B n : Res ε Str) = .ok B := by
  unfold unescapeLoop; simp [h]

theorem unescapeLoop_split {ε : Type} (fuel : Nat) (B : Str) (n : Nat) (h : n < blen B) (hd : dropB n B = none) :
    (unescapeLoop (fuel + 1) B n : Res ε Str) = .panic := by
  unfold unescapeLoop; simp [Nat.not_le.2 h, hd]

end KissXml
