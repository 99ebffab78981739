import Verif.Proofs.Fs
import Verif.Props.Misc
/-!
# Property C79: files, directories, writers and readers that fail
-/
namespace KissXml.Props
open Spec

/-- Writing to a path that is a directory, or below a file, fails and changes nothing. -/
theorem C79_fails {fs : FileSys} (h : WellFormed fs) (d : Document) (path : Path) (i : Str) (hc : CannotWrite fs path) :
    ∃ e, d.writeToPathWithIndent fs path i = (fs, .error e) := (writeToPath_spec h d path i).1 hc

/-- Writing to any other path succeeds; it stores the UTF-8 form of the string, makes the missing directories, and changes nothing else.
Reading the file is parsing the string. -/
theorem C79_writes {fs : FileSys} (h : WellFormed fs) (d : Document) (path : Path) (i : Str) (hc : ¬ CannotWrite fs path) :
    ∃ fs', d.writeToPathWithIndent fs path i = (fs', .ok ()) ∧ WellFormed fs' ∧
      fs' path = some (.file (d.toStringWithIndent i).utf8Encode) ∧ (∀ q, q <+: path → q ≠ path → fs' q = some .dir) ∧
      (∀ q, ¬ q <+: path → fs' q = fs q) ∧ parsePath fs' path = parseStr (d.toStringWithIndent i) := by
  refine ⟨_, (writeToPath_spec h d path i).2 hc, stored_wf h hc _, ?_, ?_, ?_, ?_⟩
  · rw [stored, if_pos rfl]
  · intro q h1 h2
    rw [stored, if_neg h2, if_pos h1]
  · intro q h1
    rw [stored, if_neg (fun h2 : q = path => h1 (h2 ▸ List.prefix_refl _)), if_neg h1]
  · rw [parsePath, fsRead_stored h hc]
    exact (C58_io d i ByteArray.empty (fun _ => none) []).2.2.1 _

/-- Without an indent: the same with what `to_string` gives. -/
theorem C79_default {fs : FileSys} (h : WellFormed fs) (d : Document) (path : Path) :
    (CannotWrite fs path → ∃ e, d.writeToPath fs path = (fs, .error e)) ∧
    (¬ CannotWrite fs path → ∃ fs', d.writeToPath fs path = (fs', .ok ()) ∧ WellFormed fs' ∧
      fs' path = some (.file d.toString.utf8Encode) ∧ (∀ q, q <+: path → q ≠ path → fs' q = some .dir) ∧
      (∀ q, ¬ q <+: path → fs' q = fs q) ∧ parsePath fs' path = parseStr d.toString) :=
  ⟨C79_fails h d path c%"  ", C79_writes h d path c%"  "⟩

/-- Reading a file is reading its contents; anything else is an I/O error. -/
theorem C79_reads {fs : FileSys} (h : WellFormed fs) (path : Path) :
    (∀ b, fs path = some (.file b) → parsePath fs path = parseStream b) ∧
    ((∀ b, fs path ≠ some (.file b)) → parsePath fs path = .err .io) := by
  rcases List.eq_nil_or_concat path with rfl | ⟨p, n, hpath⟩
  · refine ⟨fun b hb => ?_, fun _ => rfl⟩
    rw [h.root] at hb; cases hb
  · rw [List.concat_eq_append] at hpath
    subst hpath
    rw [parsePath, fsRead, if_neg (by simp), List.dropLast_concat]
    constructor
    · intro b hb
      rw [lookupDir_ok h (by simpa using h.parent p n (by simp [hb])), hb]
      rfl
    · intro hn
      cases lookupDir fs [] p with
      | error e => rfl
      | ok u =>
        cases hf : fs (p ++ [n]) with
        | none => rfl
        | some e =>
          cases e with
          | dir => rfl
          | file b => exact (hn b hf).elim

/-- The kinds of the errors: reading a directory is told from reading what is missing in a directory. -/
theorem C79_kinds {fs : FileSys} (h : WellFormed fs) :
    (∀ path, fs path = some .dir → fsRead fs path = .error .isADirectory) ∧
    (∀ p n, fs p = some .dir → fs (p ++ [n]) = none → fsRead fs (p ++ [n]) = .error .notFound) := by
  constructor
  · intro path hp
    rcases List.eq_nil_or_concat path with rfl | ⟨p, n, hpath⟩
    · rfl
    · rw [List.concat_eq_append] at hpath
      subst hpath
      rw [fsRead, if_neg (by simp), List.dropLast_concat, lookupDir_ok h (by simpa using h.parent p n (by simp [hp])), hp]
  · intro p n hp hn
    rw [fsRead, if_neg (by simp), List.dropLast_concat, lookupDir_ok h (by simpa using hp), hn]

/-- A writer gets the UTF-8 form of the string, at the end of what it had; if it fails, it got the beginning of it.  The library does
not panic. -/
theorem C79_writer {σ : Type} {w : Writer σ} {taken : σ → ByteArray} (h : Faithful w taken) (d : Document) (fuel : Nat) (s : σ) (i : Str) :
    (∀ s', d.writeToWriter w fuel s i = (.ok (), s') → taken s' = taken s ++ (d.toStringWithIndent i).utf8Encode) ∧
    (∀ r s', d.writeToWriter w fuel s i = (r, s') → r ≠ .panic ∧ ∃ n, taken s' = taken s ++ (d.toStringWithIndent i).utf8Encode.extract 0 n) :=
  writeAll_spec h fuel s _

/-- A writer that always takes something gets everything; it is called at most once for every byte. -/
theorem C79_writer_ok {σ : Type} {w : Writer σ} (hw : ∀ s b, b.size ≠ 0 → ∃ n s', w.write s b = (.took n, s') ∧ 0 < n ∧ n ≤ b.size)
    (d : Document) (fuel : Nat) (s : σ) (i : Str) (hf : blen (d.toStringWithIndent i) < fuel) : (d.writeToWriter w fuel s i).1 = .ok () :=
  writeAll_ok hw fuel s _ (by rw [C58_offsets]; exact hf)

/-- How a stream is divided into reads does not matter. -/
theorem C79_reader {calls : List Got} (h : GoodReads calls) : parseReader calls = parseStream (gotBytes calls) := by
  have := readToEnd_append h []
  rw [List.append_nil] at this
  rw [parseReader, this, readToEnd]
  simp [Except.map, parseStream]

/-- Nothing is read after the end of the stream. -/
theorem C79_reader_end {calls : List Got} (h : GoodReads calls) (b : ByteArray) (hb : b.size = 0) (rest : List Got) :
    parseReader (calls ++ .bytes b :: rest) = parseReader calls := by
  rw [C79_reader h, parseReader, readToEnd_append h, readToEnd, if_pos hb]
  simp [Except.map, parseStream]

/-- A failing read is an I/O error, whatever was read before. -/
theorem C79_reader_fails {calls : List Got} (h : GoodReads calls) (e : IoErr) (rest : List Got) :
    parseReader (calls ++ .failed e :: rest) = .err .io := by
  rw [parseReader, readToEnd_append h, readToEnd]
  rfl

/-! A file system with a directory `a` and a file `f`: `a/b/x` can be written (`b` is made), `a` and `f/x` cannot. -/
def fsSample : FileSys
  | [] => some .dir
  | [n] => if n = c%"a" then some .dir else if n = c%"f" then some (.file .empty) else none
  | _ => none

example : WellFormed fsSample := by
  refine ⟨rfl, fun p n h => ?_⟩
  match p with
  | [] => rfl
  | [_] => exact (h rfl).elim
  | _ :: _ :: _ => exact (h rfl).elim

example : fsSample [c%"a"] = some .dir ∧ fsSample ([c%"a"] ++ [c%"x"]) = none ∧ fsRead fsSample [c%"a"] = .error .isADirectory ∧
    fsRead fsSample [c%"a", c%"x"] = .error .notFound := ⟨rfl, rfl, rfl, rfl⟩

example : ¬ CannotWrite fsSample [c%"a", c%"b", c%"x"] := by
  rintro (h | ⟨q, b, h1, h2, h3⟩)
  · cases h
  · match q with
    | [] => cases h3
    | [n] =>
      obtain ⟨rfl, -⟩ := List.cons_prefix_cons.1 h1
      cases h3
    | _ :: _ :: _ => cases h3

example : CannotWrite fsSample [c%"a"] ∧ CannotWrite fsSample [c%"f", c%"x"] :=
  ⟨.inl rfl, .inr ⟨[c%"f"], .empty, by simp, by simp, rfl⟩⟩

/-! A writer that takes one byte at a time, and is full after three. -/
def slowWriter : Writer ByteArray where
  write s b := if s.size < 3 then (.took (min 1 b.size), s ++ b.extract 0 (min 1 b.size)) else (.failed .other, s)

example : Faithful slowWriter id := by
  refine ⟨fun s b n s' h => ?_, fun s b s' h => ?_, fun s b e s' h => ?_⟩ <;> simp only [slowWriter] at h <;> split at h <;> cases h
  · exact ⟨Nat.min_le_right _ _, rfl⟩
  · rfl

example : (slowWriter.writeAll 9 .empty ⟨#[1, 2]⟩).1 = .ok () ∧ (slowWriter.writeAll 9 .empty ⟨#[1, 2, 3, 4]⟩).1 = .err .other :=
  ⟨rfl, rfl⟩

example : GoodReads [.bytes ⟨#[60]⟩, .interrupted, .bytes ⟨#[97, 47, 62]⟩] := by
  intro k hk
  simp only [List.mem_cons, List.not_mem_nil, or_false] at hk
  rcases hk with rfl | rfl | rfl
  · exact .inr ⟨_, rfl, by decide⟩
  · exact .inl rfl
  · exact .inr ⟨_, rfl, by decide⟩

end KissXml.Props
