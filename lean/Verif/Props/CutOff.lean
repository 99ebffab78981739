import Verif.Proofs.CutOff
import Verif.Proofs.TokenCheck
import Verif.Proofs.RootsParse
/-!
# C115: inputs that are cut off
-/
namespace KissXml.Props
open KissXml KissXml.Spec

/-- An accepted input cut off between two tags (and any text without `<` put there instead of the rest): with no root tag yet there is no
XML content; where elements are open the root is not closed; else it is accepted, and the text does not matter. -/
theorem C115_text (x : Str) (d : Document) (pre rest Q : List (Str × Str)) (tail u : Str) (h : parseStr x = .ok d)
    (hl : Lexes x (pre ++ rest ++ Q) tail) (h1 : ∀ t ∈ pre, IsProlog t.2) (h2 : ∀ t r, rest = t :: r → ¬ IsProlog t.2) (hu : '<' ∉ u) :
    (rest = [] → parseStr (srcOf (pre ++ rest) ++ u) = .err (.parsing .noXmlContent none)) ∧
    (rest ≠ [] → depth (rest.map Prod.snd) ≠ 0 → parseStr (srcOf (pre ++ rest) ++ u) = .err (.parsing .rootNotClosed none)) ∧
    (rest ≠ [] → depth (rest.map Prod.snd) = 0 → ∃ d', ∀ u', '<' ∉ u' → parseStr (srcOf (pre ++ rest) ++ u') = .ok d') :=
  cut_text h hl h1 h2 hu

/-- An accepted input cut off inside of a tag: the error has the position of the tag. -/
theorem C115_tag (x : Str) (d : Document) (pre rest Q : List (Str × Str)) (tail t r v : Str) (h : parseStr x = .ok d)
    (hl : Lexes x (pre ++ rest ++ (t, r) :: Q) tail) (h1 : ∀ t ∈ pre, IsProlog t.2) (h2 : ∀ t r, rest = t :: r → ¬ IsProlog t.2)
    (hv : v <+: r) (hn : v ≠ []) (hr : v ≠ r) : ∃ lc, Located (srcOf (pre ++ rest) ++ t) lc ∧
      parseStr (srcOf (pre ++ rest) ++ t ++ v) = .err (.parsing (if rest = [] then .unmatchedLt else .invalidSyntax) (some lc)) := by
  obtain ⟨y, h3, h4⟩ := lexesTo_split (lexes_to hl).1
  cases h4 with
  | tag k1 k2 k3 k4 =>
    obtain ⟨g1, g2⟩ := piece_no_tag (tagAt_alone k2) hv hn hr
    exact cut_tag h hl h1 h2 k1 g1 g2

/-- An accepted input with one top-level element is read as before when only text after the root element is cut off, and whenever more is
cut off the result is one of these four errors: never a document, never a panic. -/
theorem C115_cut (x : Str) (d : Document) (pre rest : List (Str × Str)) (h : parseStr x = .ok d) (hp : Parts x pre rest)
    (h1 : OneRoot (rest.map Prod.snd)) (y : Str) (hy : y <+: x) :
    (srcOf (pre ++ rest) <+: y ∧ parseStr y = .ok d) ∨
    (¬ srcOf (pre ++ rest) <+: y ∧ (parseStr y = .err (.parsing .noXmlContent none) ∨ parseStr y = .err (.parsing .rootNotClosed none) ∨
      ∃ lc, parseStr y = .err (.parsing .unmatchedLt (some lc)) ∨ parseStr y = .err (.parsing .invalidSyntax (some lc)))) := by
  obtain ⟨tail, hl⟩ := hp.lexes
  obtain ⟨hx, htail⟩ := lexes_to hl
  have hsrc := lexesTo_src hx
  have hlq : Lexes x (pre ++ rest ++ []) tail := by rwa [List.append_nil]
  by_cases hc : srcOf (pre ++ rest) <+: y
  · left
    refine ⟨hc, ?_⟩
    obtain ⟨u, rfl⟩ := hc
    have hu : '<' ∉ u := by
      rw [hsrc, List.prefix_append_right_inj] at hy
      exact fun h => htail (hy.subset h)
    obtain ⟨g1, g2, g3⟩ := C115_text x d pre rest [] tail u h hlq hp.prolog hp.root hu
    by_cases hr : rest = []
    · have := (C115_text x d pre rest [] tail tail h hlq hp.prolog hp.root htail).1 hr
      rw [← hsrc, h] at this
      cases this
    · by_cases hd : depth (rest.map Prod.snd) = 0
      · obtain ⟨d', hd'⟩ := g3 hr hd
        have := hd' tail htail
        rw [← hsrc, h] at this
        cases this
        exact hd' u hu
      · have := (C115_text x d pre rest [] tail tail h hlq hp.prolog hp.root htail).2.1 hr hd
        rw [← hsrc, h] at this
        cases this
  · right
    refine ⟨hc, ?_⟩
    rw [hsrc] at hy
    obtain ⟨P, t, r, Q, u, he, rfl, hu⟩ := (cut_place (pre ++ rest) tail y hy).resolve_left hc
    -- the part of the tokens before the cut, split at the root tag
    have hsplit : ∃ pre' rest', P = pre' ++ rest' ∧ (∀ t ∈ pre', IsProlog t.2) ∧ (∀ t r, rest' = t :: r → ¬ IsProlog t.2) ∧
        (rest' = [] ∨ ∃ R, rest = rest' ++ R ∧ R ≠ []) := by
      rcases List.append_eq_append_iff.1 he with ⟨a, ha, hb⟩ | ⟨a, ha, hb⟩
      · refine ⟨pre, a, ha, hp.prolog, fun t' r' hr' => ?_, .inr ⟨_, hb, by simp⟩⟩
        exact hp.root t' (r' ++ (t, r) :: Q) (by rw [hb, hr']; rfl)
      · exact ⟨P, [], by simp, fun t ht => hp.prolog t (by rw [ha]; simp [ht]), by simp, .inl rfl⟩
    obtain ⟨pre', rest', rfl, i1, i2, i3⟩ := hsplit
    rw [he] at hl
    rcases hu with hu | ⟨v, rfl, hv, hn, hne⟩
    · have hlt : '<' ∉ u := by
        have := (lexes_toks hl (t, r) (by simp)).1
        exact fun h => this (hu.subset h)
      obtain ⟨g1, g2, g3⟩ := C115_text x d pre' rest' _ tail u h hl i1 i2 hlt
      by_cases hr : rest' = []
      · exact .inl (g1 hr)
      · obtain ⟨R, hR, hRn⟩ := i3.resolve_left hr
        have := h1 (rest'.map Prod.snd) (R.map Prod.snd) (by rw [hR, List.map_append]) (by simpa using hr) (by simpa using hRn)
        exact .inr (.inl (g2 hr (by omega)))
    · obtain ⟨lc, -, g⟩ := C115_tag x d pre' rest' Q tail t r v h hl i1 i2 hv hn hne
      rw [List.append_assoc] at g
      refine .inr (.inr ⟨lc, ?_⟩)
      split at g
      · exact .inl g
      · exact .inr g

/-- a document with a comment before it and text after it -/
def whole : Str := c%"<!-- c --><a b='>'>x<c/>\n</a> end"
/-- its tokens from the root tag on -/
def wholeRest : List (Str × Str) := [([], c%"<a b='>'>"), (c%"x", c%"<c/>"), (c%"\n", c%"</a>")]

theorem whole_parts : Parts whole [([], c%"<!-- c -->")] wholeRest := partsB_sound c%" end" (by decide) rfl
theorem whole_one : OneRoot (wholeRest.map Prod.snd) := by
  intro a b h ha hb
  rcases a with _ | ⟨t1, _ | ⟨t2, _ | ⟨t3, a⟩⟩⟩
  · exact absurd rfl ha
  · simp [wholeRest] at h; rw [← h.1]; decide
  · simp [wholeRest] at h; rw [← h.1, ← h.2.1]; decide
  · simp [wholeRest] at h
    exact absurd h.2.2.2.2 hb
example : ∃ d, parseStr whole = .ok d := ⟨_, rfl⟩
-- cut off in the comment, before the root tag, in the root tag, in the text, in a tag, and after the root element
example : parseStr c%"<!-- c --" = .err (.parsing .unmatchedLt (some (1, 2))) ∧
    parseStr c%"<!-- c -->" = .err (.parsing .noXmlContent none) ∧
    parseStr c%"<!-- c --><a b='>" = .err (.parsing .unmatchedLt (some (1, 12))) ∧
    parseStr c%"<!-- c --><a b='>'>x" = .err (.parsing .rootNotClosed none) ∧
    parseStr c%"<!-- c --><a b='>'>x<c/>\n</a" = .err (.parsing .invalidSyntax (some (2, 2))) := by
  refine ⟨by decide +kernel, by decide +kernel, by decide +kernel, by decide +kernel, by decide +kernel⟩
example (d : Document) (h : parseStr whole = .ok d) : parseStr c%"<!-- c --><a b='>'>x<c/>\n</a> e" = .ok d := by
  rcases C115_cut whole d _ _ h whole_parts whole_one c%"<!-- c --><a b='>'>x<c/>\n</a> e" ⟨c%"nd", rfl⟩ with ⟨-, h⟩ | ⟨h, -⟩
  · exact h
  · exact absurd (by decide) h
-- with two top-level elements what is left can be a document
example : (∃ d, parseStr c%"<a></a><b></b>" = .ok d) ∧ ∃ d, parseStr c%"<a></a>" = .ok d := ⟨⟨_, rfl⟩, ⟨_, rfl⟩⟩

end KissXml.Props
