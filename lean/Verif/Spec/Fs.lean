import Verif.Model.Fs
/-!
# Specification: files and directories
-/
namespace KissXml.Spec

/-- a tree: the root is a directory, and whatever exists is in a directory -/
structure WellFormed (fs : FileSys) : Prop where
  root : fs [] = some .dir
  parent : ∀ p n, fs (p ++ [n]) ≠ none → fs p = some .dir

/-- `path` cannot be a file: it is a directory, or one of the names on the way to it is a file -/
def CannotWrite (fs : FileSys) (path : Path) : Prop :=
  fs path = some .dir ∨ ∃ q b, q <+: path ∧ q ≠ path ∧ fs q = some (.file b)

open Classical in
/-- The file at `path` has the content `b`, the directories on the way to it exist, and everything else is as before. -/
noncomputable def stored (fs : FileSys) (path : Path) (b : ByteArray) : FileSys := fun q =>
  if q = path then some (.file b) else if q <+: path then some .dir else fs q

/-- what a writer has taken -/
structure Faithful {σ : Type} (w : Writer σ) (taken : σ → ByteArray) : Prop where
  /-- at most what was given, and it goes to the end -/
  took : ∀ s b n s', w.write s b = (.took n, s') → n ≤ b.size ∧ taken s' = taken s ++ b.extract 0 n
  interrupted : ∀ s b s', w.write s b = (.interrupted, s') → taken s' = taken s
  failed : ∀ s b e s', w.write s b = (.failed e, s') → taken s' = taken s

/-- the bytes of all reads -/
def gotBytes : List Got → ByteArray
  | [] => .empty
  | .bytes b :: calls => b ++ gotBytes calls
  | _ :: calls => gotBytes calls

/-- no read fails or is empty; some may be interrupted -/
def GoodReads (calls : List Got) : Prop := ∀ k ∈ calls, k = .interrupted ∨ ∃ b, k = .bytes b ∧ b.size ≠ 0

end KissXml.Spec
