import Verif.Model.Io
/-!
# Files, directories and writers that can fail

`Model/Io` once more, with an operating system.  A path is the list of the names on the way from the root directory; there are no
links, no `.` or `..`, no permissions and no other processes, and the disk does not fill up.
-/
namespace KissXml

/-- `std::io::ErrorKind`, as far as it is needed -/
inductive IoErr where
  | notFound | notADirectory | isADirectory | alreadyExists | invalidData | writeZero | other
deriving DecidableEq, Repr

inductive Entry where
  | dir
  | file (content : ByteArray)

abbrev Path := List Str
abbrev FileSys := Path → Option Entry

/-- The operating system looks for the directory `p ++ rest`, where `p` is a directory. -/
def lookupDir (fs : FileSys) (p : Path) : Path → Except IoErr Unit
  | [] => .ok ()
  | n :: rest =>
    match fs (p ++ [n]) with
    | none => .error .notFound
    | some (.file _) => .error .notADirectory
    | some .dir => lookupDir fs (p ++ [n]) rest

/-- with one entry changed -/
def FileSys.set (fs : FileSys) (p : Path) (e : Entry) : FileSys := fun q => if q = p then some e else fs q

/-- `mkdir(2)` -/
def mkdir (fs : FileSys) (p : Path) : FileSys × Except IoErr Unit :=
  if p = [] then (fs, .error .alreadyExists)
  else
    match lookupDir fs [] p.dropLast with
    | .error e => (fs, .error e)
    | .ok () =>
      match fs p with
      | some _ => (fs, .error .alreadyExists)
      | none => (fs.set p .dir, .ok ())

/-- `Path::is_dir` -/
def isDir (fs : FileSys) (p : Path) : Bool :=
  match lookupDir fs [] p with
  | .ok () => true
  | .error _ => false

/-- `std::fs::create_dir_all` (std: `DirBuilder::create_dir_all`): try to make the directory; if the parent is missing, make the parent
first. -/
def createDirAll (fs : FileSys) (p : Path) : FileSys × Except IoErr Unit :=
  match mkdir fs p with
  | (fs, .ok ()) => (fs, .ok ())
  | (fs, .error .notFound) =>
    if _h : p = [] then (fs, .error .other)
    else
      match createDirAll fs p.dropLast with
      | (fs, .error e) => (fs, .error e)
      | (fs, .ok ()) =>
        match mkdir fs p with
        | (fs, .ok ()) => (fs, .ok ())
        | (fs, .error e) => if isDir fs p then (fs, .ok ()) else (fs, .error e)
  | (fs, .error e) => if isDir fs p then (fs, .ok ()) else (fs, .error e)
termination_by p.length
decreasing_by
  have := List.length_pos_iff.2 _h
  simp only [List.length_dropLast]
  omega

/-- `std::fs::write`: the file is created or replaced. -/
def fsWrite (fs : FileSys) (p : Path) (b : ByteArray) : FileSys × Except IoErr Unit :=
  if p = [] then (fs, .error .isADirectory)
  else
    match lookupDir fs [] p.dropLast with
    | .error e => (fs, .error e)
    | .ok () =>
      match fs p with
      | some .dir => (fs, .error .isADirectory)
      | _ => (fs.set p (.file b), .ok ())

/-- `std::fs::read` -/
def fsRead (fs : FileSys) (p : Path) : Except IoErr ByteArray :=
  if p = [] then .error .isADirectory
  else
    match lookupDir fs [] p.dropLast with
    | .error e => .error e
    | .ok () =>
      match fs p with
      | none => .error .notFound
      | some .dir => .error .isADirectory
      | some (.file b) => .ok b

/-- `Document::write_to_filepath_with_indent`, dom.rs:164-173; `Path::parent` is `None` for the root only. -/
noncomputable def Document.writeToPathWithIndent (d : Document) (fs : FileSys) (path : Path) (indent : Str) : FileSys × Except IoErr Unit :=
  if path = [] then fsWrite fs path (d.toStringWithIndent indent).utf8Encode
  else
    match createDirAll fs path.dropLast with
    | (fs, .error e) => (fs, .error e)
    | (fs, .ok ()) => fsWrite fs path (d.toStringWithIndent indent).utf8Encode

/-- `Document::write_to_filepath`, dom.rs:157-159. -/
noncomputable def Document.writeToPath (d : Document) (fs : FileSys) (path : Path) : FileSys × Except IoErr Unit :=
  d.writeToPathWithIndent fs path c%"  "

/-- `parse_filepath`, lib.rs:363-367. -/
def parsePath (fs : FileSys) (path : Path) : R Document := do
  let b ← (match fsRead fs path with | .ok b => .ok b | .error _ => .err .io : R ByteArray)
  let content ← readToString b
  parseStr content

/-! ## writers -/

/-- What a call of `Write::write` did: `n` bytes were taken, or an error that calls for another try (`ErrorKind::Interrupted`), or another
error. -/
inductive Wrote where
  | took (n : Nat)
  | interrupted
  | failed (e : IoErr)

/-- an implementation of `std::io::Write` with states in `σ` -/
structure Writer (σ : Type) where
  write : σ → ByteArray → Wrote × σ

/-- `Write::write_all` (std): write until everything is written.  `Ok(n)` with too large an `n` makes the slicing `&buf[n..]` panic.  The
number bounds the number of calls of `write`. -/
def Writer.writeAll {σ : Type} (w : Writer σ) : Nat → σ → ByteArray → Res IoErr Unit × σ
  | 0, s, _ => (.diverge, s)
  | fuel + 1, s, b =>
    if b.size = 0 then (.ok (), s)
    else
      match w.write s b with
      | (.took n, s') =>
        if n = 0 then (.err .writeZero, s')
        else if n ≤ b.size then w.writeAll fuel s' (b.extract n b.size)
        else (.panic, s')
      | (.interrupted, s') => w.writeAll fuel s' b
      | (.failed e, s') => (.err e, s')

/-- `Document::write_to_file_with_indent`, dom.rs:185-187.  `write!(out, "{}", string)` hands the whole string to `write_all`. -/
noncomputable def Document.writeToWriter {σ : Type} (d : Document) (w : Writer σ) (fuel : Nat) (s : σ) (indent : Str) : Res IoErr Unit × σ :=
  w.writeAll fuel s (d.toStringWithIndent indent).utf8Encode

/-! ## readers -/

/-- What a call of `Read::read` did: it returned bytes (none at the end of the stream), or an error. -/
inductive Got where
  | bytes (b : ByteArray)
  | interrupted
  | failed (e : IoErr)

/-- `Read::read_to_end` (std) of a reader whose calls of `read` give `calls`, and then the end of the stream. -/
def readToEnd : List Got → Except IoErr ByteArray
  | [] => .ok .empty
  | .bytes b :: calls => if b.size = 0 then .ok .empty else (readToEnd calls).map (b ++ ·)
  | .interrupted :: calls => readToEnd calls
  | .failed e :: _ => .error e

/-- `parse_stream`, lib.rs:372-376. -/
def parseReader (calls : List Got) : R Document := do
  let b ← (match readToEnd calls with | .ok b => .ok b | .error _ => .err .io : R ByteArray)
  let buffer ← readToString b
  parseStr buffer

end KissXml
