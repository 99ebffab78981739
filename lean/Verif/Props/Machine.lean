import Verif.Proofs.Machine
/-!
# C93: the counters of the parser as machine integers
-/
namespace KissXml.Props
open KissXml

/-- The `i32` counters of `parse_str` make no difference for inputs of at most 2^31 + 1 bytes, with overflow checks or without: everything
that the other theorems say about `parseStr` is true for `parseStrM` and these inputs. -/
theorem C93_same (m : Arith) (x : Str) (h : blen x ≤ 2 ^ 31 + 1) : parseStrM m x = parseStr x :=
  parseStrM_eq m x (Nat.le_trans h (by have := cap_ge m; omega))

/-- Without overflow checks (release builds) the same is true up to 2^32 + 2 bytes. -/
theorem C93_wrapping (x : Str) (h : blen x ≤ 2 ^ 32 + 2) : parseStrM .wrapping x = parseStr x :=
  parseStrM_eq .wrapping x h

/-- With overflow checks (debug builds) the result is never a different one: it is the same or a panic. -/
theorem C93_checked (x : Str) : parseStrM .checked x = .panic ∨ parseStrM .checked x = parseStr x :=
  parseStrM_checked x

/-- The limit of `C93_same` is exact: `<!` and 2^31 or more `<` (2^31 + 2 bytes or more) is a panic with overflow checks, whatever follows.  It
should be an error, because the first `<` is not closed. -/
theorem C93_false_checked (k : Nat) (s : Str) (h : 2 ^ 31 ≤ k) :
    parseStrM .checked (c%"<!" ++ (List.replicate k '<' ++ s)) = .panic ∧ blen (c%"<!" ++ List.replicate k '<') = k + 2 ∧
    parseStr (c%"<!" ++ List.replicate k '<') = .err (.parsing .unmatchedLt (some (1, 2))) := by
  obtain ⟨j, rfl⟩ : ∃ j, k = j + 1 := ⟨k - 1, by omega⟩
  refine ⟨?_, ?_, ?_⟩
  · have := nestedLoopM_full (j + 1) 2 s h
    rw [List.replicate_succ, List.cons_append] at this ⊢
    exact parseStrM_panics _ this
  · rw [blen_append, blen_lts]
    exact Nat.add_comm _ _
  · have := nestedLoop_lts (j + 1) 2 0 []
    rw [List.append_nil, List.replicate_succ] at this
    rw [List.replicate_succ]
    exact parseStr_mark _ this

/-- With overflow checks 2^31 comments before the root are a panic, too. -/
theorem C93_false_comments (k : Nat) (s : Str) (h : 2 ^ 31 ≤ k) : parseStrM .checked ((List.replicate k c%"<!---->").flatten ++ s) = .panic :=
  parseStrM_comments k s h

/-- Without overflow checks there are inputs that are not rejected as they should be: here `<!` and 2^32 `<` are closed by one `>`. -/
theorem C93_false_wrapping : ∃ x d, parseStrM .wrapping x = .ok d ∧ parseStr x = .err (.parsing .unmatchedLt (some (1, 2))) ∧
    blen x = 2 ^ 32 + 7 := by
  refine ⟨c%"<!" ++ (List.replicate 4294967296 '<' ++ c%"><a/>"), ⟨none, [], ⟨c%"a", [], SMap.empty, none, none, SMap.empty⟩⟩, ?_, ?_, ?_⟩
  · exact (wrap_doc 4294967295 held_full).trans rfl
  · exact wrap_src 4294967294
  · rw [blen_append, blen_append, blen_lts]
    rfl

/-- The offsets in `parse_str` (`usize`) do not overflow: those that `next_tag` finds are inside of the input, in order.  They are the largest
values of the additions that give them.  A Rust string has at most `isize::MAX` bytes. -/
theorem C93_offsets (x : Str) (n s : Nat) (e : Option Nat) (h : nextTag x n = some (some s, e)) :
    n ≤ s ∧ s < blen x ∧ ∀ j, e = some j → s < j ∧ j ≤ blen x :=
  nextTag_bounds h

/-- Nor do the line and the column of an error: both are at most one more than the number of characters. -/
theorem C93_lines (x : Str) (pos : Nat) : (lineAndColumn x pos).1 ≤ x.length + 1 ∧ (lineAndColumn x pos).2 ≤ x.length + 1 := by
  have := lineColLoop_bounds pos 0 1 1 x
  unfold lineAndColumn
  omega

/-! ## examples -/

example : nextTag c%"é<a b='>'>x" 0 = some (some 2, some 11) ∧ blen c%"é<a b='>'>x" = 12 := by decide

example : lineAndColumn c%"\n\n<" 2 = (3, 2) ∧ lineAndColumn c%"ab<" 2 = (1, 4) := by decide


example : ∃ d, parseStrM .checked c%"<!DOCTYPE a [<!ENTITY x '>'>]><!--c--><!--d--><a/>" = .ok d ∧ d.dtds.length = 1 := ⟨_, rfl, rfl⟩

example (m : Arith) : parseStrM m c%"<!DOCTYPE a [<!ENTITY x '>'>]><!--c--><a/>" = parseStr c%"<!DOCTYPE a [<!ENTITY x '>'>]><!--c--><a/>" :=
  C93_same m _ (by decide)

example : parseStrM .checked (c%"<!" ++ (List.replicate (2 ^ 31) '<' ++ c%"a")) = .panic := (C93_false_checked (2 ^ 31) c%"a" (Nat.le_refl _)).1

example : parseStrM .checked ((List.replicate (2 ^ 31) c%"<!---->").flatten ++ c%"<a/>") = .panic :=
  C93_false_comments (2 ^ 31) c%"<a/>" (Nat.le_refl _)

/-- fewer comments are no problem -/
example : ∃ d, parseStrM .checked ((List.replicate 3 c%"<!---->").flatten ++ c%"<a/>") = .ok d := ⟨_, rfl⟩

end KissXml.Props
