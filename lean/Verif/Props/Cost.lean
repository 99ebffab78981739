import Verif.Proofs.CostLower
/-!
# C94: how long parsing takes

The rounds of the loops of `parse_str` as counted in `Model/Cost.lean`.
-/
namespace KissXml.Props
open KissXml KissXml.Spec

/-- **C94** (same results). The parser with a counter gives the results of the parser without it. -/
theorem C94_same (x : Str) : (parseStrRun x).out = parseStr x := out_parse x

/-- **C94** (upper bound). The loops of `parse_str` run at most quadratically many rounds, whether the input is accepted or not. -/
theorem C94_upper (x : Str) : (parseStrRun x).count ≤ 6 * (blen x + 1) * (blen x + 1) := parseStrRun_le x

/-- **C94** (children). For every element of a parsed document as many rounds are needed as the square of the number of its
children: all children are looked at again for each new one. -/
theorem C94_children {x : Str} {d : Document} (h : parseStr x = .ok d) : squares (.element d.root) ≤ (parseStrRun x).count :=
  parse_squares h

/-- **C94** (tags). What is done to find the tags is linear: the counts of any number of calls of `next_tag`, each from the end of
the tag before. -/
theorem C94_tags (calls : Nat) (x : Str) : tagsC calls x 0 ≤ blen x + 1 := by
  have := tagsC_le calls x 0 (Nat.zero_le _)
  omega

/-- **C94** (references). `unescape` runs at most as many rounds as half the square of the characters, and at most one for every
character and ampersand. -/
theorem C94_unescape {ε : Type} (t : Str) : (unescapeC t : Res ε Str × Nat).1 = unescape t ∧
    2 * (unescapeC t : Res ε Str × Nat).2 ≤ t.length * (t.length + 1) ∧ (unescapeC t : Res ε Str × Nat).2 ≤ t.count '&' * t.length :=
  ⟨unescapeLoopC_same _ _ _, unescapeLoopC_le (ε := ε) _ [] t⟩

/-- **C94** (references, worst case). The bound is reached by `n` ampersands. -/
theorem C94_ampersands {ε : Type} (n : Nat) : 2 * (unescapeC (List.replicate n '&') : Res ε Str × Nat).2 = n * (n + 1) := by
  refine unescapeLoopC_amps (ε := ε) n _ [] ?_
  have := length_le_blen (List.replicate n '&')
  rw [List.length_replicate] at this
  omega

/-- **C94** (texts). An element with a text needs all the rounds of `unescape` for the text. -/
theorem C94_text {t : Str} (h1 : '<' ∉ t) (h2 : t.all isWs = false) :
    (unescapeC t : R Str × Nat).2 ≤ (parseStrRun (c%"<a>" ++ t ++ c%"</a>")).count := by
  rw [List.append_assoc]
  exact wrapped_le h1 h2

theorem escaped_amps (n : Nat) : textEscape (List.replicate n '&') = ampRefs n := by
  induction n with
  | zero => rfl
  | succ n ih =>
    rw [List.replicate_succ, ampRefs, ← ih]
    rfl

/-- **C94** (what is written). For the `5n+7` bytes that are written for an element with `n` ampersands at least `5n(n+1)/2` rounds are needed. -/
theorem C94_written (n : Nat) (h : 0 < n) :
    blen (c%"<a>" ++ textEscape (List.replicate n '&') ++ c%"</a>") = 5 * n + 7 ∧
    5 * n * (n + 1) ≤ 2 * (parseStrRun (c%"<a>" ++ textEscape (List.replicate n '&') ++ c%"</a>")).count := by
  have hl : ∀ n, blen (ampRefs n) = 5 * n := by
    intro n
    induction n with
    | zero => rfl
    | succ n ih =>
      rw [ampRefs, blen_append, ih]
      have : blen c%"&amp;" = 5 := rfl
      omega
  have hlt : ∀ n, '<' ∉ ampRefs n := by
    intro n
    induction n with
    | zero => simp [ampRefs]
    | succ n ih => rw [ampRefs, List.mem_append]; exact fun h => h.elim (by decide) ih
  rw [escaped_amps]
  constructor
  · rw [blen_append, blen_append, hl]
    have h1 : blen c%"<a>" = 3 := rfl
    have h2 : blen c%"</a>" = 4 := rfl
    omega
  · have h1 : (ampRefs n).all isWs = false := by
      obtain ⟨m, rfl⟩ : ∃ m, n = m + 1 := ⟨n - 1, by omega⟩
      rfl
    have h2 := C94_text (hlt n) h1
    have h3 := unescapeLoopC_ampRefs (ε := Err) n (blen (ampRefs n) + 1) [] (by rw [hl]; omega)
    have h4 : 2 * (unescapeC (ampRefs n) : R Str × Nat).2 = 5 * n * (n + 1) := h3
    omega

/-- attributes, references, a prefix, comments and nested elements: 115 rounds for 59 bytes -/
example : (parseStrRun c%"<!--c--><a k='&lt;' xmlns:p='u'>x&gt;<p:b/><c>&amp;</c></a>").count = 115 := by decide +kernel

/-- a rejected input -/
example : (parseStrRun c%"<a>&&&<b></a>").count = 21 ∧ (match (parseStrRun c%"<a>&&&<b></a>").out with | .err _ => true | _ => false) = true := by decide +kernel

/-- an element with five children and one with two -/
example : (match parseStr c%"<a><b/>x<b/>y<b><c/><c/></b></a>" with | .ok d => squares (.element d.root) | _ => 0) = 29 ∧
    (parseStrRun c%"<a><b/>x<b/>y<b><c/><c/></b></a>").count = 74 := by decide +kernel

/-- three calls find all tags, a fourth finds none -/
example : tagsC 1 c%"<a k='>'>x<b/></a>" 0 = 9 ∧ tagsC 4 c%"<a k='>'>x<b/></a>" 0 = 18 ∧ blen c%"<a k='>'>x<b/></a>" = 18 := by decide +kernel

/-- two references and other text -/
example : (unescapeC c%"a&lt;b&amp;c" : R Str × Nat) = (.ok c%"a<b&c", 17) := by decide +kernel

example : (unescapeC (List.replicate 4 '&') : R Str × Nat) = (.ok c%"&&&&", 10) := by decide +kernel

/-- two ampersands: 17 bytes -/
example : (c%"<a>" ++ textEscape (List.replicate 2 '&') ++ c%"</a>") = c%"<a>&amp;&amp;</a>" ∧
    (parseStrRun c%"<a>&amp;&amp;</a>").count = 35 ∧ (unescapeC c%"&amp;&amp;" : R Str × Nat).2 = 15 := by decide +kernel

end KissXml.Props
