import Verif.Proofs.Encoding
import Verif.Props.Misc
import Verif.Props.Prolog
/-!
# C119: character encodings

Every processor has to read UTF-8, with or without a byte order mark, and UTF-16.
-/
namespace KissXml.Props
open KissXml KissXml.Spec

/-- C119 (partial): a stream with a string in UTF-8 is read like the string.
Missing: byte order marks and UTF-16, where it is false for every document (`C119_false_bom`, `C119_false_utf16`). -/
theorem C119_partial (s : Str) : parseStream s.utf8Encode = parseStr s := (C58_io ⟨none, [], ElementF.dflt⟩ [] .empty (fun _ => none) []).2.2.1 s

/-- C119 is false for every document with a byte order mark: it is taken for text outside of the root element. -/
theorem C119_false_bom (s : Str) (d : Document) (h : parseStr s = .ok d) :
    parseStream (bom :: s).utf8Encode = .err (.parsing .textOutsideRoot (some (1, 2))) := by
  rw [C119_partial]
  obtain ⟨lc, h1, h2⟩ := text_first (text := [bom]) h (by decide) (by decide) (by decide)
  rw [show [bom] ++ s = bom :: s from rfl] at h2
  rw [h2]
  rcases h1 with ⟨-, u, v, h3, -, -, rfl⟩ | ⟨h3, -⟩
  · simp only [List.nil_eq, List.append_eq_nil_iff] at h3
    rw [h3.1, h3.2]; rfl
  · exact absurd h3 (by decide)

/-- Nothing that begins with a byte order mark is ever accepted. -/
theorem C119_bom_never (s : Str) (d : Document) : parseStream (bom :: s).utf8Encode ≠ .ok d := by
  rw [C119_partial]
  intro h
  obtain ⟨pre, tx, tag, rest, E, F, hp, hF, -⟩ := accepted h
  obtain ⟨tail, hl⟩ := hp.lexes
  have key : ∀ a g toks, Lexes (bom :: s) ((a, g) :: toks) tail → AllWs a → False := by
    intro a g toks hl ha
    generalize hx : bom :: s = x at hl
    cases hl with
    | @tag _ _ r s' _ _ k1 k2 k3 k4 =>
      cases a with
      | nil =>
        obtain ⟨u, hu⟩ := tagAt_lt k2
        rw [← hu] at hx
        exact absurd (List.cons.inj hx).1 (by decide)
      | cons c a =>
        have := ha c (List.mem_cons_self ..)
        rw [← (List.cons.inj hx).1] at this
        revert this; decide
  cases pre with
  | nil => exact key _ _ _ hl hF.blank
  | cons t pre => exact key t.1 t.2 _ hl (hF.prolog t (List.mem_cons_self ..)).2

/-- C119 is false for every document in UTF-16 (which has to have a byte order mark): it is an I/O error. -/
theorem C119_false_utf16 (big : Bool) (s : Str) : parseStream (utf16 big (bom :: s)) = .err .io := by
  have h : utf16Units bom = [0xFEFF] := by decide
  unfold utf16
  rw [List.flatMap_cons, h, List.singleton_append, List.flatMap_cons]
  cases big
  · exact not_utf8 (b := 255) (List.mem_append_left _ (by decide)) (by decide)
  · exact not_utf8 (b := 255) (List.mem_append_left _ (by decide)) (by decide)

/-- Any other text in front of a document (without markup and references, and not only white space) is this error, too; the position is that
of the beginning of the input. -/
theorem C119_text (x text : Str) (d : Document) (h : parseStr x = .ok d) (hw : ¬ AllWs text) (h1 : '<' ∉ text) (h2 : '&' ∉ text) :
    ∃ lc, LocatedText [] text lc ∧ parseStr (text ++ x) = .err (.parsing .textOutsideRoot (some lc)) := text_first h hw h1 h2

/-- The encoding that a document declares is not looked at: with any declaration in front, the bytes are read in the same way. (The
recommendation demands an error for an encoding that the processor cannot read.) -/
theorem C119_declared (x m : Str) (d : Document) (pre rest : List (Str × Str)) (h : parseStream x.utf8Encode = .ok d) (hp : Parts x pre rest)
    (hn : ∀ t ∈ pre, ¬ c%"<?xml" <+: t.2) (hm : c%"xml" <+: m) (hT : TagAt (c%"<?" ++ m ++ c%"?>") (c%"<?" ++ m ++ c%"?>")) :
    parseStream (c%"<?" ++ m ++ c%"?>" ++ x).utf8Encode = .ok (d.setDeclaration (some ⟨m⟩)) := by
  rw [C119_partial] at h ⊢
  exact C110_declaration (w := []) h hp hn (by simp [AllWs]) hm hT

/-! ## examples -/

/-- an accepted document -/
def latinDoc : Str := c%"<a>é</a>"

example : ∃ d, parseStr latinDoc = .ok d := ⟨_, rfl⟩
example : parseStream (bom :: latinDoc).utf8Encode = .err (.parsing .textOutsideRoot (some (1, 2))) := C119_false_bom latinDoc _ rfl
example : (utf16 false (bom :: c%"<a/>")).toList = [0xFF, 0xFE, 0x3C, 0, 0x61, 0, 0x2F, 0, 0x3E, 0] := by decide +kernel
example : (utf16 true [Char.ofNat 0x1F600]).toList = [0xD8, 0x3D, 0xDE, 0x00] := by decide +kernel
example : ∃ lc, LocatedText [] c%"\nhello " lc ∧ parseStr (c%"\nhello " ++ latinDoc) = .err (.parsing .textOutsideRoot (some lc)) :=
  C119_text latinDoc _ _ rfl (by decide) (by decide) (by decide)

-- two bytes of ISO-8859-1 (two letters) are read as the one letter that they are in UTF-8
example : parseStream (c%"<?" ++ c%"xml version='1.0' encoding='ISO-8859-1'" ++ c%"?>" ++ latinDoc).utf8Encode =
    .ok ⟨some ⟨c%"xml version='1.0' encoding='ISO-8859-1'"⟩, [], ⟨c%"a", [.text c%"é"], .empty, none, none, .empty⟩⟩ :=
  C119_declared latinDoc _ ⟨none, [], ⟨c%"a", [.text c%"é"], .empty, none, none, .empty⟩⟩ []
    [([], c%"<a>"), (c%"é", c%"</a>")] (by rw [C119_partial]; rfl) (partsB_sound [] (by decide) rfl) (by simp) ⟨_, rfl⟩
    (by exact tagAt_of (tag := c%"<?xml version='1.0' encoding='ISO-8859-1'?>") (r := []) (by decide) (by decide))

end KissXml.Props
