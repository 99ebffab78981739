/-!
# Rust `str` as used by kiss-xml

A Rust string is modelled by the list of its Unicode scalar values.  Offsets are **byte** offsets,
as in Rust: `dropB`/`takeB`/`sliceB` model `&s[a..]`, `&s[..b]`, `&s[a..b]` and return `none` exactly
where Rust panics (offset beyond the end or not on a character boundary).
-/
namespace KissXml

/-- A Rust `String` / `&str`. -/
abbrev Str := List Char

/-- `c%"abc"` is the explicit character list `['a','b','c']`. -/
syntax:max "c%" str : term
macro_rules
  | `(c% $s:str) => do
    let cs := s.getString.toList.map (fun c => Lean.Syntax.mkCharLit c)
    `([$(cs.toArray),*])

/-- Outcome of a Rust function returning `Result<α, E>`: a value, an error, a panic, or (for the fuel
bounded loops of this model only) running out of fuel. -/
inductive Res (ε : Type) (α : Type) where
  | ok (a : α)
  | err (e : ε)
  | panic
  | diverge
deriving Repr, DecidableEq

namespace Res
/-- The `?` operator. -/
def bind {ε α β} (r : Res ε α) (f : α → Res ε β) : Res ε β :=
  match r with
  | ok a => f a
  | err e => err e
  | panic => panic
  | diverge => diverge

instance {ε} : Monad (Res ε) where
  pure := ok
  bind := Res.bind

/-- `Result::map_err`. -/
def mapErr {ε ε' α} (r : Res ε α) (f : ε → ε') : Res ε' α :=
  match r with
  | ok a => ok a
  | err e => err (f e)
  | panic => panic
  | diverge => diverge

/-- `unwrap`/`expect`/slice indexing: `none` panics. -/
def unwrap {ε α} (o : Option α) : Res ε α :=
  match o with
  | some a => ok a
  | none => panic

@[simp] theorem bind_ok {ε α β} (a : α) (f : α → Res ε β) : (Res.ok a >>= f) = f a := rfl
@[simp] theorem bind_err {ε α β} (e : ε) (f : α → Res ε β) : ((Res.err e : Res ε α) >>= f) = .err e := rfl
@[simp] theorem bind_panic {ε α β} (f : α → Res ε β) : ((Res.panic : Res ε α) >>= f) = .panic := rfl
@[simp] theorem bind_diverge {ε α β} (f : α → Res ε β) : ((Res.diverge : Res ε α) >>= f) = .diverge := rfl
@[simp] theorem pure_eq {ε α} (a : α) : (pure a : Res ε α) = .ok a := rfl
@[simp] theorem unwrap_some {ε α} (a : α) : (unwrap (some a) : Res ε α) = .ok a := rfl
@[simp] theorem unwrap_none {ε α} : (unwrap (none : Option α) : Res ε α) = .panic := rfl
@[simp] theorem mapErr_ok {ε ε' α} (a : α) (f : ε → ε') : (Res.ok a).mapErr f = .ok a := rfl
@[simp] theorem mapErr_err {ε ε' α} (e : ε) (f : ε → ε') : (Res.err e : Res ε α).mapErr f = .err (f e) := rfl
@[simp] theorem mapErr_panic {ε ε' α} (f : ε → ε') : (Res.panic : Res ε α).mapErr f = .panic := rfl
@[simp] theorem mapErr_diverge {ε ε' α} (f : ε → ε') : (Res.diverge : Res ε α).mapErr f = .diverge := rfl
end Res

/-- `str::len`: number of UTF-8 bytes. -/
def blen : Str → Nat
  | [] => 0
  | c :: s => c.utf8Size + blen s

/-- `&s[n..]`; `none` = panic (n > len or not on a char boundary). -/
def dropB : Nat → Str → Option Str
  | 0, s => some s
  | _ + 1, [] => none
  | n + 1, c :: s => if c.utf8Size ≤ n + 1 then dropB (n + 1 - c.utf8Size) s else none

/-- `&s[..n]`; `none` = panic. -/
def takeB : Nat → Str → Option Str
  | 0, _ => some []
  | _ + 1, [] => none
  | n + 1, c :: s =>
    if c.utf8Size ≤ n + 1 then (takeB (n + 1 - c.utf8Size) s).map (c :: ·) else none

/-- `&s[a..b]`; `none` = panic. -/
def sliceB (a b : Nat) (s : Str) : Option Str :=
  if a ≤ b then (takeB b s).bind (dropB a) else none

/-- `String::truncate(n)`: no effect beyond the end, panic off a char boundary. -/
def truncateB (n : Nat) (s : Str) : Option Str :=
  if n ≥ blen s then some s else takeB n s

/-- `str::starts_with(pat)`. -/
def startsWith (s pat : Str) : Bool := pat.isPrefixOf s

/-- `str::ends_with(pat)`. -/
def endsWith (s pat : Str) : Bool := pat.isSuffixOf s

/-- `str::find(pat)`: byte offset of the first occurrence. -/
def find (pat : Str) : Str → Option Nat
  | [] => if startsWith [] pat then some 0 else none
  | c :: s => if startsWith (c :: s) pat then some 0 else (find pat s).map (c.utf8Size + ·)

/-- `str::contains(pat)`. -/
def contains (s pat : Str) : Bool := (find pat s).isSome

/-- `str::replace(c, to)`; kiss-xml only replaces one-character patterns. -/
def replaceChar (c : Char) (to : Str) (s : Str) : Str :=
  s.flatMap (fun x => if x = c then to else [x])

/-- `str::split_once(c)` for a one-character pattern. -/
def splitOnce (c : Char) : Str → Option (Str × Str)
  | [] => none
  | x :: s => if x = c then some ([], s) else (splitOnce c s).map (fun p => (x :: p.1, p.2))

/-- Membership of a code point in a list of inclusive ranges. -/
def inRanges (rs : List (Nat × Nat)) (c : Char) : Bool :=
  rs.any (fun r => decide (r.1 ≤ c.toNat) && decide (c.toNat ≤ r.2))

/-- Unicode `White_Space`: both `char::is_whitespace` and `\s` of the regex crate. -/
def wsRanges : List (Nat × Nat) :=
  [(0x9, 0xD), (0x20, 0x20), (0x85, 0x85), (0xA0, 0xA0), (0x1680, 0x1680), (0x2000, 0x200A),
   (0x2028, 0x2029), (0x202F, 0x202F), (0x205F, 0x205F), (0x3000, 0x3000)]

/-- `char::is_whitespace`. -/
def isWs (c : Char) : Bool := inRanges wsRanges c

/-- `str::trim`. -/
def trim (s : Str) : Str := ((s.dropWhile isWs).reverse.dropWhile isWs).reverse

/-- `str::trim_start_matches(pat)`: removes `pat` from the front as often as possible
(fuel: the length of the string, enough for a non-empty pattern). -/
def trimStartMatchesF : Nat → Str → Str → Str
  | 0, _, s => s
  | n + 1, pat, s => if startsWith s pat && !pat.isEmpty then trimStartMatchesF n pat (s.drop pat.length) else s

/-- `str::trim_start_matches(pat)`. -/
def trimStartMatches (pat s : Str) : Str := trimStartMatchesF s.length pat s

/-- `str::cmp`.  Rust compares UTF-8 bytes lexicographically; this is the same order as comparing code
points lexicographically (see `Verif.Proofs.Order`). -/
def strCmp : Str → Str → Ordering
  | [], [] => .eq
  | [], _ :: _ => .lt
  | _ :: _, [] => .gt
  | a :: s, b :: t => if a.toNat < b.toNat then .lt else if b.toNat < a.toNat then .gt else strCmp s t

end KissXml
