import Verif.Model.Machine
import Verif.Proofs.Lex
import Verif.Proofs.Tokens
import Verif.Proofs.Faults
/-!
# The counters of the parser as machine integers
-/
namespace KissXml
open Spec

/-- a counter with the value `n` -/
@[irreducible] def held (n : Nat) : Int := (n : Int).bmod (2 ^ 32)

/-- what a counter can reach without a difference -/
def Arith.cap : Arith → Nat
  | .checked => 2 ^ 31 - 1
  | .wrapping => 2 ^ 32

theorem held_zero : held 0 = 0 := by unfold held; rfl

theorem held_small {n : Nat} (h : n < 2147483648) : held n = n := by
  unfold held Int.bmod
  have : ((2 ^ 32 : Nat) : Int) = 4294967296 := rfl
  simp only [this]
  split <;> omega

theorem held_pos {n : Nat} (h : n + 1 < 4294967296) : held (n + 1) ≠ 0 := by
  unfold held Int.bmod
  have : ((2 ^ 32 : Nat) : Int) = 4294967296 := rfl
  simp only [this]
  split <;> omega

theorem cap_checked : Arith.cap .checked = 2147483647 := rfl
theorem cap_wrapping : Arith.cap .wrapping = 4294967296 := rfl

theorem cap_le (m : Arith) : m.cap ≤ 4294967296 := by
  cases m
  · rw [cap_checked]; omega
  · rw [cap_wrapping]

theorem cap_ge (m : Arith) : 2147483647 ≤ m.cap := by
  cases m
  · rw [cap_checked]
  · rw [cap_wrapping]; omega

theorem i32_inc {m : Arith} {n : Nat} (h : n + 1 ≤ m.cap) : m.i32 (held n + 1) = some (held (n + 1)) := by
  cases m with
  | checked =>
    have h : n + 1 ≤ 2147483647 := Nat.le_trans h (Nat.le_of_eq cap_checked)
    rw [held_small (n := n) (by omega), held_small (n := n + 1) (by omega), Arith.i32, if_pos ⟨by omega, by omega⟩]
    rfl
  | wrapping =>
    have e : ((n + 1 : Nat) : Int) = n + 1 := by omega
    clear h
    unfold Arith.i32 held
    simp only [Int.bmod_add_bmod, e]

theorem i32_dec {m : Arith} {n : Nat} (h : n + 1 ≤ m.cap) : m.i32 (held (n + 1) - 1) = some (held n) := by
  cases m with
  | checked =>
    have h : n + 1 ≤ 2147483647 := Nat.le_trans h (Nat.le_of_eq cap_checked)
    rw [held_small (n := n + 1) (by omega), held_small (n := n) (by omega), Arith.i32, if_pos ⟨by omega, by omega⟩]
    congr 1
    omega
  | wrapping =>
    have : ((n + 1 : Nat) : Int) - 1 = n := by omega
    clear h
    unfold Arith.i32 held
    simp only [Int.bmod_sub_bmod, this]

theorem nestedLoopM_eq (m : Arith) (s : Str) (i d : Nat) (q : Option Char) (h : d + s.length ≤ m.cap) :
    nestedLoopM m i (held d) q s = some (nestedLoop i d q s) := by
  induction s generalizing i d q with
  | nil => cases q <;> rfl
  | cons c s ih =>
    simp only [List.length_cons] at h
    cases q with
    | some q =>
      simp only [nestedLoopM, nestedLoop]
      split <;> exact ih _ _ _ (by omega)
    | none =>
      rw [nestedLoopM, nestedLoop.eq_def]
      simp only
      split
      · exact ih _ _ _ (by omega)
      split
      · exact ih _ _ _ (by omega)
      split
      · rw [i32_inc (by omega)]
        exact ih _ _ _ (by omega)
      split
      · cases d with
        | zero => rw [held_zero]; rfl
        | succ d =>
          have := cap_le m
          rw [if_neg (held_pos (by omega)), i32_dec (by omega)]
          exact ih _ _ _ (by omega)
      · exact ih _ _ _ (by omega)

theorem dropB_length {n : Nat} {s t : Str} (h : dropB n s = some t) : n + blen t = blen s := by
  obtain ⟨a, rfl, rfl⟩ := dropB_eq_some.1 h
  simp

theorem nextTagM_eq (m : Arith) (x : Str) (from_ : Nat) (h : blen x ≤ m.cap + 2) : nextTagM m x from_ = nextTag x from_ := by
  unfold nextTagM nextTag
  congr 1
  funext tail
  rcases find c%"<" tail with _ | i
  · rfl
  simp only
  rcases hd : dropB (i + from_) x with _ | sub
  · rfl
  simp only [Option.bind_some]
  have hl := dropB_length hd
  have : nestedQuoteAwareFindCloseM m sub 2 = nestedQuoteAwareFindClose sub 2 := by
    unfold nestedQuoteAwareFindCloseM nestedQuoteAwareFindClose
    rcases h2 : dropB 2 sub with _ | t
    · rfl
    have := dropB_length h2
    have := length_le_blen t
    have h0 := nestedLoopM_eq m t 2 0 none (by omega)
    rw [held_zero] at h0
    exact h0
  rw [this]

/-- the state with the counter as it is held -/
def Prolog.toM (p : Prolog) : PrologM := ⟨p.decl, p.dtds, held p.noCommentWarn, p.tagSpan⟩

theorem slice_end {i j : Nat} {x s : Str} (h : sliceB i j x = some s) : i + blen s = j ∧ j ≤ blen x := by
  obtain ⟨a, b, rfl, h1, h2⟩ := sliceB_eq_some.1 h
  simp only [blen_append]
  omega

theorem prefix_size {a s : Str} (h : startsWith s a = true) : blen a ≤ blen s := by
  obtain ⟨t, rfl⟩ := List.isPrefixOf_iff_prefix.1 h
  simp

theorem bind_same {α β γ : Type} (r : R α) {f : α → R γ} {g : α → R β} {k : β → R γ} (h : ∀ a, f a = (g a >>= k)) :
    (r >>= f) = ((r >>= g) >>= k) := by
  cases r
  · exact h _
  all_goals rfl

theorem prologLoopM_eq (m : Arith) (x : Str) {L : Nat} (hL : L = m.cap + 2) (h : blen x ≤ L) (fuel : Nat) (st : Prolog) (hc : 4 * st.noCommentWarn ≤ st.tagSpan.2)
    (hb : st.tagSpan.2 ≤ blen x) : prologLoopM m x fuel st.toM = (prologLoop x fuel st >>= fun p => .ok p.toM) := by
  induction fuel generalizing st with
  | zero => rfl
  | succ fuel ih =>
    obtain ⟨decl, dtds, n, sp⟩ := st
    simp only at hc hb
    have hcap := cap_le m
    have hcap' := cap_ge m
    have hz : (held n = 0) ↔ n = 0 := by
      cases n with
      | zero => simp [held_zero]
      | succ n => simp [held_pos (n := n) (by omega)]
    have hi : m.i32 (held n + 1) = some (held (n + 1)) := i32_inc (by omega)
    have hk : ∀ d' t' s e, 4 * n ≤ e → e ≤ blen x →
        prologLoopM m x fuel ⟨d', t', held n, (s, e)⟩ = (prologLoop x fuel ⟨d', t', n, (s, e)⟩ >>= fun p => .ok p.toM) :=
      fun d' t' s e => ih ⟨d', t', n, (s, e)⟩
    have hj : ∀ s e, 4 * (n + 1) ≤ e → e ≤ blen x →
        prologLoopM m x fuel ⟨decl, dtds, held (n + 1), (s, e)⟩ =
          (prologLoop x fuel ⟨decl, dtds, n + 1, (s, e)⟩ >>= fun p => .ok p.toM) :=
      fun s e => ih ⟨decl, dtds, n + 1, (s, e)⟩
    rw [show (⟨decl, dtds, n, sp⟩ : Prolog).toM = ⟨decl, dtds, held n, sp⟩ from rfl]
    clear ih hcap hcap'
    have hf : ∀ sp', (⟨decl, dtds, n, sp'⟩ : Prolog).toM = ⟨decl, dtds, held n, sp'⟩ := fun _ => rfl
    generalize held n = w at *
    generalize held (n + 1) = w' at *
    unfold prologLoopM prologLoop
    rw [nextTagM_eq m x _ (hL ▸ h)]
    refine bind_same _ fun p => ?_
    rcases p with ⟨_ | s, _ | e⟩
    · rfl
    · rfl
    · rfl
    · simp only
      rcases ht : sliceB sp.2 s x with _ | t
      · rfl
      simp only [Res.unwrap_some, Res.bind_ok]
      have ht := slice_end ht
      rcases realText t with (_ | _) | _ | _ | _
      · simp only [Res.bind_ok, Option.isSome_none, Bool.false_eq_true, if_false]
        rcases hs : sliceB s e x with _ | slice
        · rfl
        simp only [Res.unwrap_some, Res.bind_ok]
        have hs := slice_end hs
        split
        · split
          · rfl
          · cases Declaration.fromStr slice
            · exact hk _ _ _ _ (by omega) (by omega)
            all_goals rfl
        split
        · rename_i hp
          have hp := prefix_size hp
          have hp : 4 ≤ blen slice := hp
          have hr : ∀ r : R Str, (r >>= fun _ => (Res.unwrap (m.i32 (w + 1)) : R Int) >>= fun k =>
              prologLoopM m x fuel ⟨decl, dtds, k, (s, e)⟩) =
              ((r >>= fun _ => prologLoop x fuel ⟨decl, dtds, n + 1, (s, e)⟩) >>= fun p => .ok p.toM) := by
            intro r
            cases r
            · rw [Res.bind_ok, hi]
              exact hj _ _ (by omega) (by omega)
            all_goals rfl
          simp only [hz]
          exact hr _
        split
        · cases DTD.fromString slice
          · exact hk _ _ _ _ (by omega) (by omega)
          all_goals rfl
        split
        · exact hk _ _ _ _ (by omega) (by omega)
        split
        · rfl
        · cases (checkElementTag slice).mapErr fun _ => errAt .invalidSyntax x s
          · exact congrArg Res.ok (hf _).symm
          all_goals rfl
      · rfl
      · rfl
      · rfl
      · rfl

theorem elementLoopM_eq (m : Arith) (x : Str) (h : blen x ≤ m.cap + 2) (b : Bool) (fuel : Nat) (sp : Nat × Nat) (t : ParseTree) :
    elementLoopM m x b fuel sp t = elementLoop x b fuel sp t := by
  induction fuel generalizing sp t with
  | zero => rfl
  | succ fuel ih =>
    unfold elementLoopM elementLoop
    simp only [nextTagM_eq m x _ h, ih]
    rfl

theorem parseStrM_eq (m : Arith) (x : Str) (h : blen x ≤ m.cap + 2) : parseStrM m x = parseStr x := by
  unfold parseStrM parseStr
  have := prologLoopM_eq m x rfl h (blen x + 1) ⟨none, [], 0, (0, 0)⟩ (by simp) (by simp)
  simp only [elementLoopM_eq m x h]
  rw [show (⟨none, [], 0, (0, 0)⟩ : PrologM) = Prolog.toM ⟨none, [], 0, (0, 0)⟩ by rw [Prolog.toM, held_zero], this]
  cases prologLoop x (blen x + 1) ⟨none, [], 0, (0, 0)⟩ <;> rfl

/-! ## with checks: the same, or a panic -/

theorem nestedLoopM_checked (s : Str) (i d : Nat) (q : Option Char) :
    nestedLoopM .checked i d q s = none ∨ nestedLoopM .checked i d q s = some (nestedLoop i d q s) := by
  induction s generalizing i d q with
  | nil => exact .inr (by cases q <;> rfl)
  | cons c s ih =>
    cases q with
    | some q =>
      simp only [nestedLoopM, nestedLoop]
      split <;> exact ih _ _ _
    | none =>
      rw [nestedLoopM, nestedLoop.eq_def]
      simp only
      split
      · exact ih _ _ _
      split
      · exact ih _ _ _
      split
      · rw [Arith.i32]
        split
        · exact ih _ (d + 1) _
        · exact .inl rfl
      split
      · cases d with
        | zero => exact .inr rfl
        | succ d =>
          rw [if_neg (by omega), Arith.i32, show ((d + 1 : Nat) : Int) - 1 = d by omega]
          split
          · exact ih _ d _
          · exact .inl rfl
      · exact ih _ _ _

/-- a panic, or the same -/
def OrPanic {α : Type} (r r' : R α) : Prop := r = .panic ∨ r = r'

theorem orPanic_bind {α β : Type} {r r' : R α} {f f' : α → R β} (h : OrPanic r r') (hf : ∀ a, OrPanic (f a) (f' a)) :
    OrPanic (r >>= f) (r' >>= f') := by
  rcases h with rfl | rfl
  · exact .inl rfl
  · cases r
    · exact hf _
    all_goals exact .inr rfl

theorem orPanic_next (x : Str) (n : Nat) :
    OrPanic (Res.unwrap (nextTagM .checked x n) : R (Option Nat × Option Nat)) (Res.unwrap (nextTag x n)) := by
  unfold nextTagM nextTag
  rcases dropB n x with _ | tail
  · exact .inr rfl
  simp only [Option.bind_some]
  rcases find c%"<" tail with _ | i
  · exact .inr rfl
  simp only
  rcases dropB (i + n) x with _ | sub
  · exact .inr rfl
  simp only [Option.bind_some]
  have : nestedQuoteAwareFindCloseM .checked sub 2 = none ∨ nestedQuoteAwareFindCloseM .checked sub 2 = nestedQuoteAwareFindClose sub 2 := by
    unfold nestedQuoteAwareFindCloseM nestedQuoteAwareFindClose
    rcases dropB 2 sub with _ | t
    · exact .inr rfl
    · exact nestedLoopM_checked t 2 0 none
  rcases this with h | h
  · rw [h]
    split
    · exact .inr rfl
    split
    · exact .inr rfl
    split
    · exact .inr rfl
    split
    · exact .inl rfl
    · exact .inr rfl
  · rw [h]
    exact .inr rfl

/-- the state with the counter as a number -/
def Prolog.toC (p : Prolog) : PrologM := ⟨p.decl, p.dtds, p.noCommentWarn, p.tagSpan⟩

theorem prologLoopM_checked (x : Str) (fuel : Nat) (st : Prolog) :
    OrPanic (prologLoopM .checked x fuel st.toC) (prologLoop x fuel st >>= fun p => .ok p.toC) := by
  induction fuel generalizing st with
  | zero => exact .inr rfl
  | succ fuel ih =>
    obtain ⟨decl, dtds, n, sp⟩ := st
    unfold prologLoopM prologLoop Prolog.toC
    rcases orPanic_next x sp.2 with h | h
    · simp only [h]
      exact .inl rfl
    simp only [h]
    rcases nextTag x sp.2 with _ | ⟨_ | s, _ | e⟩
    · exact .inr rfl
    · exact .inr rfl
    · exact .inr rfl
    · exact .inr rfl
    · simp only [Res.unwrap_some, Res.bind_ok]
      rcases sliceB sp.2 s x with _ | t
      · exact .inr rfl
      simp only [Res.unwrap_some, Res.bind_ok]
      rcases realText t with (_ | _) | _ | _ | _
      · simp only [Res.bind_ok, Option.isSome_none, Bool.false_eq_true, if_false]
        rcases sliceB s e x with _ | slice
        · exact .inr rfl
        simp only [Res.unwrap_some, Res.bind_ok]
        split
        · split
          · exact .inr rfl
          · cases Declaration.fromStr slice
            · exact ih ⟨_, _, _, _⟩
            all_goals exact .inr rfl
        split
        · have hi : ∀ r : R Str, OrPanic (r >>= fun _ => (Res.unwrap (Arith.checked.i32 ((n : Int) + 1)) : R Int) >>= fun k =>
              prologLoopM .checked x fuel ⟨decl, dtds, k, (s, e)⟩)
              ((r >>= fun _ => prologLoop x fuel ⟨decl, dtds, n + 1, (s, e)⟩) >>= fun p => .ok p.toC) := by
            intro r
            cases r
            · rw [Res.bind_ok, Arith.i32]
              split
              · exact ih ⟨decl, dtds, n + 1, (s, e)⟩
              · exact .inl rfl
            all_goals exact .inr rfl
          have hz : ((n : Int) = 0) ↔ n = 0 := by omega
          simp only [hz]
          exact hi _
        split
        · cases DTD.fromString slice
          · exact ih ⟨_, _, _, _⟩
          all_goals exact .inr rfl
        split
        · exact ih ⟨_, _, _, _⟩
        split
        · exact .inr rfl
        · cases (checkElementTag slice).mapErr fun _ => errAt .invalidSyntax x s <;> exact .inr rfl
      all_goals exact .inr rfl

theorem elementLoopM_checked (x : Str) (b : Bool) (fuel : Nat) (sp : Nat × Nat) (t : ParseTree) :
    OrPanic (elementLoopM .checked x b fuel sp t) (elementLoop x b fuel sp t) := by
  induction fuel generalizing sp t with
  | zero => exact .inr rfl
  | succ fuel ih =>
    unfold elementLoopM elementLoop
    refine orPanic_bind (orPanic_next x sp.2) fun p => ?_
    rcases p with ⟨_ | s, _ | e⟩
    · exact .inr rfl
    · exact .inr rfl
    · exact .inr rfl
    · simp only
      split
      · exact .inr rfl
      refine orPanic_bind (.inr rfl) fun _ => orPanic_bind (.inr rfl) fun o => ?_
      refine orPanic_bind (.inr rfl) fun _ => orPanic_bind (.inr rfl) fun _ => orPanic_bind (.inr rfl) fun _ => ih _ _

theorem parseStrM_checked (x : Str) : OrPanic (parseStrM .checked x) (parseStr x) := by
  unfold parseStrM parseStr
  have := prologLoopM_checked x (blen x + 1) ⟨none, [], 0, (0, 0)⟩
  rw [show Prolog.toC ⟨none, [], 0, (0, 0)⟩ = (⟨none, [], 0, (0, 0)⟩ : PrologM) from rfl] at this
  rcases this with h | h
  · simp only [h]
    exact .inl rfl
  simp only [h]
  cases prologLoop x (blen x + 1) ⟨none, [], 0, (0, 0)⟩ with
  | ok p =>
    simp only [Res.bind_ok]
    refine orPanic_bind (.inr rfl) fun _ => orPanic_bind (.inr rfl) fun _ => orPanic_bind (.inr rfl) fun _ => orPanic_bind (.inr rfl) fun _ => ?_
    refine orPanic_bind (.inr rfl) fun _ => orPanic_bind (elementLoopM_checked _ _ _ _ _) fun _ => .inr rfl
  | _ => exact .inr rfl

/-! ## beyond the limits -/

theorem bmod_nat_add (a b : Nat) : (((a : Int).bmod (2 ^ 32)) + b).bmod (2 ^ 32) = ((a + b : Nat) : Int).bmod (2 ^ 32) := by
  rw [Int.bmod_add_bmod]
  simp only [Int.natCast_add]

/-- many `<` in a row, with checks -/
theorem nestedLoopM_lts (k i d : Nat) (s : Str) (h : d + k ≤ 2147483647) :
    nestedLoopM .checked i d none (List.replicate k '<' ++ s) = nestedLoopM .checked (i + k) ((d + k : Nat) : Int) none s := by
  induction k generalizing i d with
  | zero => rfl
  | succ k ih =>
    rw [List.replicate_succ, List.cons_append, nestedLoopM, if_neg (by decide), if_neg (by decide), if_pos rfl, Arith.i32,
      if_pos ⟨by omega, by omega⟩]
    have := ih (i + 1) (d + 1) (by omega)
    rw [show i + 1 + k = i + (k + 1) by omega, show d + 1 + k = d + (k + 1) by omega] at this
    exact this

theorem nestedLoopM_full (k i : Nat) (s : Str) (h : 2147483648 ≤ k) :
    nestedLoopM .checked i 0 none (List.replicate k '<' ++ s) = none := by
  obtain ⟨j, rfl⟩ : ∃ j, k = 2147483647 + (1 + j) := ⟨k - 2147483648, by omega⟩
  rw [List.replicate_add, List.append_assoc]
  have := nestedLoopM_lts 2147483647 i 0 (List.replicate (1 + j) '<' ++ s) (by omega)
  rw [show ((0 : Nat) : Int) = 0 from rfl] at this
  rw [this, Nat.add_comm 1 j, List.replicate_succ, List.cons_append, nestedLoopM, if_neg (by decide), if_neg (by decide), if_pos rfl, Arith.i32,
    if_neg (by omega)]
  rfl

theorem nestedLoop_lts (k i d : Nat) (s : Str) : nestedLoop i d none (List.replicate k '<' ++ s) = nestedLoop (i + k) (d + k) none s := by
  induction k generalizing i d with
  | zero => rfl
  | succ k ih =>
    rw [List.replicate_succ, List.cons_append, nestedLoop.eq_def]
    simp only
    rw [if_neg (by decide), if_neg (by decide), if_pos trivial]
    have := ih (i + 1) (d + 1)
    rw [show i + 1 + k = i + (k + 1) by omega, show d + 1 + k = d + (k + 1) by omega] at this
    exact this

/-- many `<` in a row, wrapping around -/
theorem nestedLoopM_wrap (k i d : Nat) (s : Str) :
    nestedLoopM .wrapping i (held d) none (List.replicate k '<' ++ s) = nestedLoopM .wrapping (i + k) (held (d + k)) none s := by
  induction k generalizing i d with
  | zero => rfl
  | succ k ih =>
    have e : Arith.wrapping.i32 (held d + 1) = some (held (d + 1)) := by
      unfold Arith.i32 held
      exact congrArg some (bmod_nat_add d 1)
    rw [List.replicate_succ, List.cons_append, nestedLoopM, if_neg (by decide), if_neg (by decide), if_pos rfl, e]
    have := ih (i + 1) (d + 1)
    rw [show i + 1 + k = i + (k + 1) by omega, show d + 1 + k = d + (k + 1) by omega] at this
    exact this

theorem held_full : held 4294967296 = 0 := by
  unfold held
  rfl

theorem nextTagM_mark (m : Arith) (t : Str) :
    nextTagM m ('<' :: '!' :: '<' :: t) 0 = (nestedLoopM m 2 0 none ('<' :: t)).map fun r => (some 0, r.map (· + 1)) := rfl

theorem nextTag_mark (t : Str) : nextTag ('<' :: '!' :: '<' :: t) 0 = some (some 0, (nestedLoop 2 0 none ('<' :: t)).map (· + 1)) := rfl

theorem parseStrM_panics (t : Str) (h : nestedLoopM .checked 2 0 none ('<' :: t) = none) :
    parseStrM .checked ('<' :: '!' :: '<' :: t) = .panic := by
  unfold parseStrM
  have : prologLoopM .checked ('<' :: '!' :: '<' :: t) (blen ('<' :: '!' :: '<' :: t) + 1) ⟨none, [], 0, (0, 0)⟩ = .panic := by
    rw [prologLoopM, nextTagM_mark, h]
    rfl
  simp only [this]
  rfl

theorem parseStr_mark (t : Str) (h : nestedLoop 2 0 none ('<' :: t) = none) :
    parseStr ('<' :: '!' :: '<' :: t) = .err (.parsing .unmatchedLt (some (1, 2))) := by
  unfold parseStr
  have : prologLoop ('<' :: '!' :: '<' :: t) (blen ('<' :: '!' :: '<' :: t) + 1) ⟨none, [], 0, (0, 0)⟩ =
      .err (.parsing .unmatchedLt (some (1, 2))) := by
    rw [prologLoop, nextTag_mark, h]
    rfl
  simp only [this]
  rfl

theorem parseStrM_two (m : Arith) (t a : Str) (ha : a = '<' :: '!' :: '<' :: t)
    (h : nextTagM m (a ++ c%"<a/>") 0 = some (some 0, some (blen a))) : parseStrM m (a ++ c%"<a/>") = parseStr c%"<a/>" := by
  have hd : dropB (blen a) (a ++ c%"<a/>") = some c%"<a/>" := dropB_append _ _
  have h2 : nextTagM m (a ++ c%"<a/>") (blen a) = some (some (blen a), some (blen a + 4)) := by
    unfold nextTagM
    rw [hd]
    simp only [Option.bind_some]
    rw [show find c%"<" c%"<a/>" = some 0 from rfl]
    simp only [Nat.zero_add]
    rw [hd]
    simp only [Option.bind_some]
    rw [if_neg (by decide), if_neg (by decide), if_neg (by decide), if_neg (by decide), show quoteAwareFind c%"<a/>" c%">" 1 = some (some 3) from rfl]
    simp only [Option.map_some]
    congr 3
    omega
  have h3 : nextTagM m (a ++ c%"<a/>") (blen a + 4) = some (none, none) := by
    unfold nextTagM
    have : dropB (blen a + 4) (a ++ c%"<a/>") = some [] := by
      have := dropB_blen (a ++ c%"<a/>")
      rw [blen_append] at this
      exact this
    rw [this]
    rfl
  have s1 : sliceB 0 (blen a) (a ++ c%"<a/>") = some a := sliceB_eq_some.2 ⟨[], c%"<a/>", rfl, rfl, by simp⟩
  have s0 : sliceB 0 0 (a ++ c%"<a/>") = some [] := sliceB_eq_some.2 ⟨[], a ++ c%"<a/>", rfl, rfl, by simp⟩
  have s2 : sliceB (blen a) (blen a) (a ++ c%"<a/>") = some [] := sliceB_eq_some.2 ⟨a, c%"<a/>", by simp, rfl, by simp⟩
  have s3 : sliceB (blen a) (blen a + 4) (a ++ c%"<a/>") = some c%"<a/>" := sliceB_eq_some.2 ⟨a, [], by simp, rfl, rfl⟩
  have hf : ∃ f, blen (a ++ c%"<a/>") + 1 = f + 2 := ⟨blen a + 3, by rw [blen_append]; rfl⟩
  obtain ⟨f, hf⟩ := hf
  have hp : prologLoopM m (a ++ c%"<a/>") (f + 2) ⟨none, [], 0, (0, 0)⟩ = .ok ⟨none, [], 0, (blen a, blen a + 4)⟩ := by
    rw [prologLoopM]
    simp only [h, Res.unwrap_some, Res.bind_ok, s0]
    rw [show (realText [] : R (Option Str)) = .ok none from rfl]
    simp only [Res.bind_ok, Option.isSome_none, Bool.false_eq_true, if_false, s1, Res.unwrap_some]
    have q : ∀ p, startsWith a p = startsWith ('<' :: '!' :: '<' :: t) p := fun p => by rw [ha]
    simp only [q]
    rw [if_neg (by simp [startsWith]), if_neg (by simp [startsWith]), if_neg (by simp [startsWith]), if_pos (by simp [startsWith]), prologLoopM]
    simp only [h2, Res.unwrap_some, Res.bind_ok, s2]
    rw [show (realText [] : R (Option Str)) = .ok none from rfl]
    simp only [Res.bind_ok, Option.isSome_none, Bool.false_eq_true, if_false, s3, Res.unwrap_some]
    rw [if_neg (by decide), if_neg (by decide), if_neg (by decide), if_neg (by decide), if_neg (by decide),
      show checkElementTag c%"<a/>" = .ok () by decide +kernel]
    rfl
  unfold parseStrM
  simp only [hf, hp, Res.bind_ok, s3, Res.unwrap_some]
  rw [show stripTag c%"<a/>" = some c%"a" from rfl]
  simp only [Res.bind_ok, Res.unwrap_some]
  have he : ∀ b' st, elementLoopM m (a ++ c%"<a/>") b' (f + 2) (blen a, blen a + 4) st = .ok st := by
    intro b' st
    rw [elementLoopM, h3]
    rfl
  simp only [he]
  rfl

theorem wrap_tag (k : Nat) (hk : held k = 0) (t : Str) :
    nestedLoopM .wrapping 2 0 none (List.replicate k '<' ++ '>' :: t) = some (some (2 + k)) := by
  have := nestedLoopM_wrap k 2 0 ('>' :: t)
  rw [Nat.zero_add, hk, held_zero] at this
  rw [this, nestedLoopM, if_neg (by decide), if_neg (by decide), if_neg (by decide), if_pos rfl, if_pos rfl]

theorem nestedLoop_end (i d : Nat) : nestedLoop i (d + 2) none c%"><a/>" = none := by
  simp [nestedLoop]

theorem blen_lts (k : Nat) : blen (List.replicate k '<') = k := by
  induction k with
  | zero => rfl
  | succ k ih => rw [List.replicate_succ, blen_cons, ih]; exact Nat.add_comm _ _

theorem wrap_doc (k : Nat) (hk : held (k + 1) = 0) :
    parseStrM .wrapping (c%"<!" ++ (List.replicate (k + 1) '<' ++ c%"><a/>")) = parseStr c%"<a/>" := by
  have hw := wrap_tag (k + 1) hk c%"<a/>"
  have hb := blen_lts (k + 1)
  rw [List.replicate_succ, List.cons_append] at hw
  rw [List.replicate_succ] at hb
  rw [List.replicate_succ, List.cons_append]
  have := parseStrM_two .wrapping (List.replicate k '<' ++ c%">") ('<' :: '!' :: '<' :: (List.replicate k '<' ++ c%">")) rfl (by
    simp only [List.cons_append, List.append_assoc]
    rw [nextTagM_mark]
    refine (congrArg (Option.map _) hw).trans ?_
    simp only [Option.map_some]
    congr 3
    simp only [blen_cons, blen_append, blen_nil] at hb ⊢
    have : '<'.utf8Size = 1 := rfl
    have : '!'.utf8Size = 1 := rfl
    have : '>'.utf8Size = 1 := rfl
    omega)
  simp only [List.cons_append, List.append_assoc] at this
  exact this

theorem wrap_src (k : Nat) :
    parseStr (c%"<!" ++ (List.replicate (k + 2) '<' ++ c%"><a/>")) = .err (.parsing .unmatchedLt (some (1, 2))) := by
  have := (nestedLoop_lts (k + 2) 2 0 c%"><a/>").trans ((congrArg (fun d => nestedLoop _ d none _) (Nat.zero_add (k + 2))).trans (nestedLoop_end _ _))
  rw [List.replicate_succ, List.cons_append] at this ⊢
  exact parseStr_mark _ this

/-! ### many comments -/

theorem comment_step (m : Arith) (pre r : Str) (fuel : Nat) (n : Int) (sp : Nat × Nat) (hs : sp.2 = blen pre) :
    prologLoopM m (pre ++ (c%"<!---->" ++ r)) (fuel + 1) ⟨none, [], n, sp⟩ =
      ((Res.unwrap (m.i32 (n + 1)) : R Int) >>= fun k =>
        prologLoopM m (pre ++ (c%"<!---->" ++ r)) fuel ⟨none, [], k, (blen pre, blen pre + 7)⟩) := by
  have hd : dropB (blen pre) (pre ++ (c%"<!---->" ++ r)) = some (c%"<!---->" ++ r) := dropB_append _ _
  have h2 : nextTagM m (pre ++ (c%"<!---->" ++ r)) (blen pre) = some (some (blen pre), some (blen pre + 7)) := by
    unfold nextTagM
    rw [hd]
    simp only [Option.bind_some]
    rw [show find c%"<" (c%"<!---->" ++ r) = some 0 from rfl]
    simp only [Nat.zero_add]
    rw [hd]
    simp only [Option.bind_some]
    rw [if_pos (show startsWith (c%"<!---->" ++ r) c%"<!--" = true from rfl), show find c%"-->" (c%"<!---->" ++ r) = some 4 from rfl]
    simp only [Option.map_some]
    congr 3
    omega
  have s2 : sliceB (blen pre) (blen pre) (pre ++ (c%"<!---->" ++ r)) = some [] := sliceB_eq_some.2 ⟨pre, c%"<!---->" ++ r, by simp, rfl, by simp⟩
  have s3 : sliceB (blen pre) (blen pre + 7) (pre ++ (c%"<!---->" ++ r)) = some c%"<!---->" := sliceB_eq_some.2 ⟨pre, r, by simp, rfl, rfl⟩
  rw [prologLoopM]
  simp only [hs, h2, Res.unwrap_some, Res.bind_ok, s2]
  rw [show (realText [] : R (Option Str)) = .ok none from rfl]
  simp only [Res.bind_ok, Option.isSome_none, Bool.false_eq_true, if_false, s3, Res.unwrap_some]
  rw [if_neg (by decide), if_pos (by decide), show abbreviate c%"<!---->" 32 = some c%"<!---->" from rfl]
  split <;> rfl

theorem comment_run (j fuel n : Nat) (pre s : Str) (sp : Nat × Nat) (hs : sp.2 = blen pre) (hn : n ≤ 2147483647) (hj : 2147483648 ≤ n + j)
    (hf : j ≤ fuel) : prologLoopM .checked (pre ++ ((List.replicate j c%"<!---->").flatten ++ s)) fuel ⟨none, [], n, sp⟩ = .panic := by
  induction j generalizing fuel n pre sp with
  | zero => omega
  | succ j ih =>
    obtain ⟨f, rfl⟩ : ∃ f, fuel = f + 1 := ⟨fuel - 1, by omega⟩
    rw [List.replicate_succ, List.flatten_cons, List.append_assoc, comment_step _ _ _ _ _ _ hs, Arith.i32]
    by_cases h : n + 1 ≤ 2147483647
    · rw [if_pos ⟨by omega, by omega⟩]
      have := ih f (n + 1) (pre ++ c%"<!---->") (blen pre, blen pre + 7) (by rw [blen_append]; rfl) h (by omega) (by omega)
      rw [List.append_assoc] at this
      exact this
    · rw [if_neg (by omega)]
      rfl

theorem comments_size (j : Nat) (s : Str) : j ≤ blen ((List.replicate j c%"<!---->").flatten ++ s) := by
  induction j with
  | zero => exact Nat.zero_le _
  | succ j ih =>
    rw [List.replicate_succ, List.flatten_cons, List.append_assoc, blen_append]
    have : blen c%"<!---->" = 7 := rfl
    omega

theorem parseStrM_comments (j : Nat) (s : Str) (h : 2147483648 ≤ j) :
    parseStrM .checked ((List.replicate j c%"<!---->").flatten ++ s) = .panic := by
  have := comment_run j (blen ((List.replicate j c%"<!---->").flatten ++ s) + 1) 0 [] s (0, 0) rfl (by omega) (by omega)
    (Nat.le_trans (comments_size j s) (Nat.le_succ _))
  rw [List.nil_append, show ((0 : Nat) : Int) = 0 from rfl] at this
  unfold parseStrM
  simp only [this]
  rfl

/-! ## offsets, lines and columns -/

theorem nextTag_bounds {x : Str} {n s : Nat} {e : Option Nat} (h : nextTag x n = some (some s, e)) :
    n ≤ s ∧ s < blen x ∧ ∀ j, e = some j → s < j ∧ j ≤ blen x := by
  have hd : ∃ r, dropB n x = some r := by
    rcases hd : dropB n x with _ | r
    · rw [nextTag, hd] at h
      cases h
    · exact ⟨r, rfl⟩
  obtain ⟨r, hr⟩ := hd
  obtain ⟨pre, rfl, rfl⟩ := dropB_eq_some.1 hr
  by_cases hm : '<' ∈ r
  · obtain ⟨t, u, rfl, ht⟩ := mem_split_first hm
    rw [show t ++ '<' :: u = t ++ (c%"<" ++ u) from rfl, nextTag_some ht ⟨u, rfl⟩] at h
    simp only [Option.some.injEq, Prod.mk.injEq] at h
    obtain ⟨rfl, rfl⟩ := h
    have h1 : '<'.utf8Size = 1 := rfl
    refine ⟨by omega, by simp only [blen_append, blen_cons]; omega, fun j hj => ?_⟩
    obtain ⟨k, hk, rfl⟩ := Option.map_eq_some_iff.1 hj
    obtain ⟨tag, hT, rfl⟩ := (tagLen_iff ⟨u, rfl⟩ k).1 hk
    have h2 := tagAt_prefix hT
    obtain ⟨w, hw⟩ := h2
    have h3 := congrArg blen hw
    simp only [blen_append, blen_cons, blen_nil] at h3 ⊢
    have h4 : 0 < blen tag := by
      cases hT <;> simp only [blen_append, blen_cons, blen_nil] <;> simp [Char.utf8Size]
    omega
  · rw [nextTag_none hm] at h
    cases h

theorem lineColLoop_bounds (pos i line col : Nat) (s : Str) :
    (lineColLoop pos i line col s).1 ≤ line + s.length ∧ (lineColLoop pos i line col s).2 ≤ max col 1 + s.length := by
  induction s generalizing i line col with
  | nil => exact ⟨Nat.le_refl _, Nat.le_max_left _ _⟩
  | cons c s ih =>
    rw [lineColLoop, List.length_cons]
    by_cases hc : c = '\n'
    · simp only [hc, if_true]
      have := ih (i + '\n'.utf8Size) (line + 1) 1
      split <;> omega
    · simp only [hc, if_false]
      have := ih (i + c.utf8Size) line (col + 1)
      split <;> omega

end KissXml
