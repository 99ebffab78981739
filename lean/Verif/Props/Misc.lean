import Verif.Proofs.Misc
/-!
# Doctypes, declarations, error positions and messages, I/O: C47, C48, C55, C57, C58
-/
namespace KissXml.Props
open KissXml KissXml.Spec

/-! ## C47 -/

/-- C47 is false: what is written for a doctype declaration is its text without the delimiters, and no document whose first
doctype declaration has such text (more than white space before any `<`), after no declaration or one that is a single
`<?xml ...?>` tag, is accepted again after being written. -/
theorem C47_false (d : Document) (m : DTD) (ds : List DTD) (hd : d.dtds = m :: ds)
    (hdecl : ∀ decl, d.declaration = some decl → c%"<?xml" <+: decl.display ∧ TagAt decl.display decl.display)
    (hm : ∃ u c v, m.dtdStr = u ++ c :: v ∧ '<' ∉ u ∧ c ≠ '<' ∧ isWs c = false) (d' : Document) :
    parseStr d.toString ≠ .ok d' := by
  have hj : ∀ y, Junk (m.dtdStr ++ y) := fun y => junk_append hm
  unfold Document.toString Document.toStringWithIndent
  rw [hd]
  cases hx : d.declaration with
  | none =>
    simp only [dtdsToString, DTD.display, List.append_assoc, List.nil_append]
    exact junk_reject (hj _)
  | some decl =>
    simp only [dtdsToString, DTD.display, List.append_assoc]
    exact junk_reject_decl (hdecl _ hx).2 (hdecl _ hx).1 (junk_blank (w := c%"\n") (by decide) (hj _))

-- a document that was read and is then written cannot be read again
example : ∃ d, parseStr c%"<?xml version=\"1.0\"?><!DOCTYPE a SYSTEM 'b'><a/>" = .ok d ∧ d.dtds = [⟨c%" a SYSTEM 'b'"⟩] ∧
    d.toString = c%"<?xml version=\"1.0\"?>\n a SYSTEM 'b'\n<a/>\n" ∧ ∃ e, parseStr d.toString = .err e := ⟨_, rfl, rfl, rfl, ⟨_, rfl⟩⟩
example : TagAt Declaration.dflt.display Declaration.dflt.display := tagAt_self ⟨_, rfl⟩ rfl

/-- C47, what holds: a doctype declaration read from its source has the text of the source, and adding the delimiters to what
is written gives a source that is read as the same doctype declaration.
Missing: the delimiters are not written (see `C47_false`). -/
theorem C47_partial (m : DTD) : DTD.fromString (c%"<!DOCTYPE" ++ m.display ++ c%">") = .ok m := dtd_tag m.dtdStr

example : DTD.display ⟨c%" note SYSTEM 'x'"⟩ = c%" note SYSTEM 'x'" := rfl

/-! ## C48 -/

/-- C48: exactly which strings are accepted, what the result is, and which strings lead to a panic. -/
theorem C48_partial (s : Str) :
    (∀ d, Declaration.fromStr s = .ok d ↔
      ∃ w1 w2, s = w1 ++ (c%"<?" ++ d.declStr ++ c%"?>") ++ w2 ∧ w1.all isWs = true ∧ w2.all isWs = true) ∧
    (Declaration.fromStr s = .panic ↔ ∃ w1 w2, s = w1 ++ c%"<?>" ++ w2 ∧ w1.all isWs = true ∧ w2.all isWs = true) ∧
    Declaration.fromStr s ≠ .diverge ∧
    (∀ d : Declaration, Declaration.fromStr d.display = .ok d) := by
  refine ⟨fun d => fromStr_ok_iff (m := d.declStr), fromStr_panic_iff, ?_, fun d => fromStr_tag d.declStr⟩
  rcases fromStr_cases s with ⟨w1, w2, m', h1, h2, h3, h4⟩ | ⟨w1, w2, h1, h2, h3, h4⟩ | ⟨⟨e, h4⟩, -⟩ <;> rw [h4] <;> simp

/-- C48 is false: `<?>` leads to a panic. -/
theorem C48_false : Declaration.fromStr c%"<?>" = .panic := rfl

example : Declaration.fromStr c%" <?xml?x?>\n" = .ok ⟨c%"xml?x"⟩ := rfl
example : ∃ e, Declaration.fromStr c%"<?xml>" = .err e := ⟨_, rfl⟩

/-! ## C55 -/

/-- C55 is false: columns are one too large, and text outside the root is reported where the tag before it ends. -/
theorem C55_false : parseStr c%"</a>" = .err (.parsing .startsWithClosing (some (1, 2))) ∧
    parseStr c%"<?xml?>\n\nx<a/>" = .err (.parsing .textOutsideRoot (some (2, 1))) := ⟨rfl, rfl⟩

/-- C55, what holds: every syntax error with a position, except for text outside the root, is reported at the beginning of a
tag: the input consists of whole tokens `toks` and a rest `text < b` in which `text` is the text in front of that tag; the line
is that of this `<`, and the column is one more than its 1-based column (the number of characters between the last newline
and the `<` being `v.length`).
Missing: the right column; text outside the root. -/
theorem C55_partial (x : Str) (m : PMsg) (l c : Nat) (h : parseStr x = .err (.parsing m (some (l, c)))) (hm : m ≠ .textOutsideRoot) :
    ∃ toks a text b, x = a ++ text ++ '<' :: b ∧ LexesTo x toks (text ++ '<' :: b) ∧ '<' ∉ text ∧
    ∃ u v, a ++ text = u ++ v ∧ (u = [] ∨ ∃ u', u = u' ++ ['\n']) ∧ '\n' ∉ v ∧ l = 1 + u.count '\n' ∧ c = v.length + 1 + 1 := by
  have := le_parseStr x _ h
  rcases this with h1 | ⟨pos, ⟨a, text, b, toks, h1, h2, h3, h4⟩, h5⟩
  · exact absurd h1 hm
  · refine ⟨toks, a, text, b, by simp [h1], h2, h3, ?_⟩
    obtain ⟨u, v, huv, hu, hv⟩ := lastLine_exists (a ++ text)
    refine ⟨u, v, huv, hu, hv, ?_⟩
    have h6 := lineAndColumn_eq (a ++ text) '<' b (by decide)
    rw [h1, h4, ← List.append_assoc, h6] at h5
    simp only [Prod.mk.injEq] at h5
    rw [h5.1, h5.2, huv, lastLine_split u v hu hv]
    refine ⟨?_, rfl⟩
    rw [List.count_append, List.count_eq_zero.2 hv, Nat.add_zero]

/-- the same for constructs that are not supported -/
theorem C55_unsupported_partial (x what : Str) (l c : Nat) (h : parseStr x = .err (.notSupported what (some (l, c)))) :
    ∃ toks a text b, x = a ++ text ++ '<' :: b ∧ LexesTo x toks (text ++ '<' :: b) ∧ '<' ∉ text ∧
    ∃ u v, a ++ text = u ++ v ∧ (u = [] ∨ ∃ u', u = u' ++ ['\n']) ∧ '\n' ∉ v ∧ l = 1 + u.count '\n' ∧ c = v.length + 1 + 1 := by
  have := le_parseStr x _ h
  obtain ⟨pos, ⟨a, text, b, toks, h1, h2, h3, h4⟩, h5⟩ := this
  refine ⟨toks, a, text, b, by simp [h1], h2, h3, ?_⟩
  obtain ⟨u, v, huv, hu, hv⟩ := lastLine_exists (a ++ text)
  refine ⟨u, v, huv, hu, hv, ?_⟩
  have h6 := lineAndColumn_eq (a ++ text) '<' b (by decide)
  rw [h1, h4, ← List.append_assoc, h6] at h5
  simp only [Prod.mk.injEq] at h5
  rw [h5.1, h5.2, huv, lastLine_split u v hu hv]
  refine ⟨?_, rfl⟩
  rw [List.count_append, List.count_eq_zero.2 hv, Nat.add_zero]

example : ∃ m, parseStr c%"<a>\n<b>\n é</c>" = .err (.parsing m (some (3, 4))) := ⟨_, rfl⟩
example : parseStr c%"<a>\n <!x></a>" = .err (.notSupported c%"<!x>" (some (2, 3))) := rfl

/-! ## C57 -/

/-- C57: showing a parsing error and making a parsing error of that text gives the same message; the message never begins with
the prefix, and is what is left when copies of the prefix are removed. -/
theorem C57_message (s : Str) : parsingErrorNew (parsingErrorDisplay (parsingErrorNew s)) = parsingErrorNew s ∧
    ¬ c%"ParsingError: " <+: parsingErrorNew s ∧
    ∃ k, s = (List.replicate k c%"ParsingError: ").flatten ++ parsingErrorNew s := by
  have h := trimStartMatchesF_fix c%"ParsingError: " (by simp) s.length s (le_refl _)
  refine ⟨?_, ?_, trimStartMatchesF_form _ _ _⟩
  · exact trimStartMatches_again (by simp [parsingErrorPrefix])
  · intro hp
    have := startsWith_iff.2 hp
    rw [show parsingErrorNew s = trimStartMatchesF s.length c%"ParsingError: " s from rfl, h] at this
    cases this

example : parsingErrorNew c%"ParsingError: ParsingError: x: ParsingError: y" = c%"x: ParsingError: y" := rfl

/-! ## C58 -/

/-- C58: writing appends (or stores) the UTF-8 form of the string, and reading the UTF-8 form of a string is parsing it. -/
theorem C58_io (d : Document) (indent : Str) (out : ByteArray) (fs : Files) (path : Str) :
    d.writeToFileWithIndent out indent = out ++ (d.toStringWithIndent indent).utf8Encode ∧
    d.writeToFile out = out ++ d.toString.utf8Encode ∧
    (∀ s : Str, parseStream s.utf8Encode = parseStr s) ∧
    parseStream (d.writeToFileWithIndent ByteArray.empty indent) = parseStr (d.toStringWithIndent indent) ∧
    parseFilepath (d.writeToFilepathWithIndent fs path indent) path = parseStr (d.toStringWithIndent indent) ∧
    parseFilepath (d.writeToFilepath fs path) path = parseStr d.toString ∧
    (∀ p, p ≠ path → d.writeToFilepathWithIndent fs path indent p = fs p) := by
  have h : ∀ s : Str, parseStream s.utf8Encode = parseStr s := by
    intro s
    unfold parseStream
    rw [readToString_encode]; rfl
  have h2 : ∀ i, parseFilepath (d.writeToFilepathWithIndent fs path i) path = parseStr (d.toStringWithIndent i) := by
    intro i
    unfold parseFilepath Document.writeToFilepathWithIndent
    rw [if_pos rfl]
    show (readToString _ >>= _) = _
    rw [readToString_encode]; rfl
  refine ⟨rfl, rfl, h, ?_, h2 indent, h2 _, fun p hp => if_neg hp⟩
  unfold Document.writeToFileWithIndent
  rw [ByteArray.empty_append]
  exact h _

/-- Bytes that are no UTF-8 are an I/O error; other bytes are parsed as the string they encode; a file is parsed like a stream
of its contents. -/
theorem C58_bytes (b : ByteArray) (fs : Files) (path : Str) :
    ((∃ s : Str, b = s.utf8Encode ∧ parseStream b = parseStr s) ∨ ((¬ ∃ s : Str, b = s.utf8Encode) ∧ parseStream b = .err .io)) ∧
    parseFilepath fs path = (match fs path with | some b => parseStream b | none => .err .io) := by
  constructor
  · rcases readToString_cases b with ⟨s, rfl⟩ | h
    · exact .inl ⟨s, rfl, by unfold parseStream; rw [readToString_encode]; rfl⟩
    · refine .inr ⟨?_, io_not_bind _ _ h⟩
      rintro ⟨s, rfl⟩
      rw [readToString_encode] at h; cases h
  · unfold parseFilepath
    cases fs path <;> rfl

/-- Byte offsets of the model are those of the UTF-8 form. -/
theorem C58_offsets (s : Str) : s.utf8Encode.size = blen s := utf8Encode_size s

example : parseStream (Document.writeToFile ⟨none, [], ⟨c%"a", [], .empty, none, none, .empty⟩⟩ ByteArray.empty) = parseStr c%"<a/>\n" :=
  (C58_io _ _ ByteArray.empty (fun _ => none) []).2.2.2.1

end KissXml.Props
