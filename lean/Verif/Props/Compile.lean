import Verif.Proofs.CompileSource
import Verif.Proofs.CompileUpper
/-!
# C124: how often patterns are compiled

The calls of `Regex::new` as counted in `Model/Compile.lean`.
-/
namespace KissXml.Props
open KissXml KissXml.Spec

/-- **C124** (cells). A cell in a `const` item is filled at every use, one in a `static` item only at the first. -/
theorem C124_cells {α : Type} (a : α) (n : Nat) : constUses a n = n ∧ staticUses a (n + 1) none = 1 := ⟨constUses_eq a n, staticUses_once a n⟩

/-- **C124** (same results). The parser and `append` with a counter give the results of those without it. -/
theorem C124_same (x : Str) (e : Element) (n : Node) : (parseStrComp x).out = parseStr x ∧ (appendComp e n).out = e.append n :=
  ⟨comp_parse x, comp_append e n⟩

/-- **C124** (append). `append` compiles a pattern for every text of the element, the new node included, after texts next to each other are put
together. -/
theorem C124_append (e : Element) (n : Node) : (appendComp e n).count = (joinRuns (e.children ++ [n])).countP Node.isText := by
  rw [appendComp_count, joinRuns_context]

/-- **C124** (parsing). For every element of a parsed document three patterns are compiled and one for every attribute; for every text one, and
one more for every node before it in the same element. -/
theorem C124_parse {x : Str} {d : Document} (h : parseStr x = .ok d) : compiled (.element d.root) ≤ (parseStrComp x).count := parse_weight h

/-- **C124** (upper bound). No more patterns are compiled than twice the rounds of the loops of C94, whether the input is accepted or not: at most
quadratically many in the bytes. -/
theorem C124_upper (x : Str) : (parseStrComp x).count ≤ 2 * (parseStrRun x).count ∧
    (parseStrComp x).count ≤ 12 * (blen x + 1) * (blen x + 1) := by
  refine ⟨parse_sim x, Nat.le_trans (parse_sim x) ?_⟩
  have := Nat.mul_le_mul_left 2 (parseStrRun_le x)
  rw [← Nat.mul_assoc, ← Nat.mul_assoc] at this
  exact this

/-- **C124** (growth). With `m` times a text and a comment in an element, parsing compiles at least `m²` patterns; `append`, called for each of
them, compiles `m (m + 1)`. -/
theorem C124_growth (t c : Str) (m : Nat) (x : Str) (d : Document) (h : parseStr x = .ok d)
    (hd : d.root.children = (List.replicate m [Node.text t, Node.comment c]).flatten) (e : Element) (he : e.children = []) (ht : ¬ Blank t) :
    m * m ≤ (parseStrComp x).count ∧
    (appendEachComp (List.replicate m [Node.text t, Node.comment c]).flatten e).count = m * (m + 1) := by
  rw [← pairs_flatten] at hd ⊢
  constructor
  · refine Nat.le_trans ?_ (parse_weight h)
    rw [compiled_elem, hd, places_pairs]
    omega
  · have := appendEach_pairs ht c m 0 e he
    simpa using this

/-- **C124** (sources). There are such sources of any size: with `8 m + 8` bytes and at least `m²` patterns. -/
theorem C124_sources (m : Nat) (hm : 0 < m) : ∃ x d, parseStr x = .ok d ∧ blen x = 8 * m + 8 ∧ m * m ≤ (parseStrComp x).count := by
  obtain ⟨x, d, h, hx, hd⟩ := talk_source m hm
  refine ⟨x, d, h, hx, Nat.le_trans ?_ (parse_weight h)⟩
  rw [compiled_elem, hd, places_pairs]
  omega

/-- for `m = 3`: 32 bytes and 17 patterns -/
example : blen c%"<a>x<!---->x<!---->x<!----></a>\n" = 32 ∧
    (match parseStr c%"<a>x<!---->x<!---->x<!----></a>\n" with | .ok _ => true | _ => false) = true ∧
    (parseStrComp c%"<a>x<!---->x<!---->x<!----></a>\n").count = 17 := by decide +kernel

/-- three uses -/
example : constUses 'r' 3 = 3 ∧ staticUses 'r' 3 none = 1 := by decide

/-- an element with two texts -/
private def twoTexts : Element := ⟨c%"a", [.text c%"x", .comment c%"c", .text c%"y"], .empty, none, none, .empty⟩

/-- a third text is put together with the second; for a text after a comment a pattern is needed, not for an element -/
example : (appendComp twoTexts (.text c%"z")).count = 2 ∧ (appendComp twoTexts (.element twoTexts)).count = 2 ∧
    (appendEachComp [.comment c%"d", .text c%"z"] twoTexts).count = 5 := by decide

/-- two elements, an attribute, texts in the second, fourth and first place: 6 + 1 + 7 patterns at least -/
example : (match parseStr c%"<a k='v'><b>t</b>x<!--c-->y</a>" with | .ok d => compiled (.element d.root) | _ => 0) = 14 ∧
    (parseStrComp c%"<a k='v'><b>t</b>x<!--c-->y</a>").count = 19 := by decide +kernel

/-- a rejected input: three tags with the texts before them, two names and two attributes -/
example : (parseStrComp c%"<a>x<b k='v' l='w'/></c></a>").count = 10 ∧
    (match parseStr c%"<a>x<b k='v' l='w'/></c></a>" with | .err _ => true | _ => false) = true ∧
    (parseStrRun c%"<a>x<b k='v' l='w'/></c></a>").count = 38 := by decide +kernel

/-- three texts and comments in 34 bytes -/
example : (match parseStr c%"<a>x<!--c-->x<!--c-->x<!--c--></a>" with
      | .ok d => decide (d.root.children.map Node.isText = [true, false, true, false, true, false]) | _ => false) = true ∧
    (parseStrComp c%"<a>x<!--c-->x<!--c-->x<!--c--></a>").count = 17 := by decide +kernel

end KissXml.Props
