import Verif.Model.Parse
import Verif.Model.Serialize
/-!
# Reading and writing documents

Byte contents are `ByteArray`.  A stream is the bytes that are left in it; a file system maps paths to the contents of files
(`none`: reading the file fails).  Failing writes, and the creation of the parent directory (dom.rs:166-170), are not modelled.
-/
namespace KissXml

/-- `Read::read_to_string` and `fs::read_to_string`: the bytes have to be UTF-8. -/
def readToString (b : ByteArray) : R Str :=
  match b.utf8Decode? with
  | some a => .ok a.toList
  | none => .err .io

/-- file contents by path -/
abbrev Files := Str → Option ByteArray

/-- `parse_filepath`, lib.rs:363-367. -/
def parseFilepath (fs : Files) (path : Str) : R Document := do
  let b ← (match fs path with | some b => .ok b | none => .err .io : R ByteArray)
  let content ← readToString b
  parseStr content

/-- `parse_stream`, lib.rs:372-376. -/
def parseStream (reader : ByteArray) : R Document := do
  let buffer ← readToString reader
  parseStr buffer

/-- `write_to_file_with_indent`, dom.rs:185-187: the contents of `out` afterwards. -/
noncomputable def Document.writeToFileWithIndent (d : Document) (out : ByteArray) (indent : Str) : ByteArray :=
  out ++ (d.toStringWithIndent indent).utf8Encode

/-- `write_to_file`, dom.rs:178-180. -/
noncomputable def Document.writeToFile (d : Document) (out : ByteArray) : ByteArray := d.writeToFileWithIndent out c%"  "

/-- `write_to_filepath_with_indent`, dom.rs:164-173: the file is replaced. -/
noncomputable def Document.writeToFilepathWithIndent (d : Document) (fs : Files) (path indent : Str) : Files :=
  fun p => if p = path then some (d.toStringWithIndent indent).utf8Encode else fs p

/-- `write_to_filepath`, dom.rs:157-159. -/
noncomputable def Document.writeToFilepath (d : Document) (fs : Files) (path : Str) : Files := d.writeToFilepathWithIndent fs path c%"  "

end KissXml
