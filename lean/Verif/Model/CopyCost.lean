import Verif.Model.Escape
/-!
# The copies made by `unescape`

The same definitions as in `Model/Escape.lean`, which also count the bytes that `unescape` copies from one string to another:

* `to_string()` of the rest of the text for every ampersand, lib.rs:289;
* `to_string()` of what follows the reference in `string_insert`, lib.rs:355, and the two `push_str` there, lib.rs:357-358;
* `to_string()` of a character given by its number, lib.rs:317.

Not counted: the conversion of the argument (lib.rs:280), and that a `String` is moved when it grows (the buffer never grows here).
-/
namespace KissXml

/-- `string_insert`, lib.rs:354-359, as `stringInsert` -/
def stringInsertB (buffer : Str) (a b : Nat) (insert : Str) : Option Str × Nat :=
  match dropB b buffer with
  | none => (none, 0)
  | some back =>
    match truncateB a buffer with
    | none => (none, blen back)
    | some front => (some (front ++ insert ++ back), blen back + blen insert + blen back)

/-- lib.rs:293-327, as `unescapeAt` -/
def unescapeAtB (buffer : Str) (charSize start stop : Nat) (slice : Str) : Option (Str × Nat) × Nat :=
  let put (insert : Str) (size : Nat) : Option (Str × Nat) × Nat :=
    ((stringInsertB buffer start stop insert).1.map (·, size), (stringInsertB buffer start stop insert).2)
  if slice = c%"&amp" then put c%"&" charSize
  else if slice = c%"&lt" then put c%"<" charSize
  else if slice = c%"&gt" then put c%">" charSize
  else if slice = c%"&apos" then put c%"'" charSize
  else if slice = c%"&quot" then put c%"\"" charSize
  else if startsWith slice c%"&#" then
    match dropB 2 slice with
    | none => (none, 0)
    | some digits =>
      match parseHexU32 digits with
      | none => (some (buffer, charSize), 0)
      | some cp =>
        match charFromU32 cp with
        | none => (some (buffer, charSize), 0)
        | some u => ((put [u] u.utf8Size).1, u.utf8Size + (put [u] u.utf8Size).2)
  else (some (buffer, charSize), 0)

/-- the `for (j, k) in slice.char_indices()` loop of `unescape`, lib.rs:291-328, as `unescapeInner` -/
def unescapeInnerB (i : Nat) (slice : Str) : Nat → Str → Str → Nat → Option (Str × Nat) × Nat
  | _, [], buffer, charSize => (some (buffer, charSize), 0)
  | j, k :: rest, buffer, _ =>
    let charSize := k.utf8Size
    if k = ';' then
      match takeB j slice with
      | none => (none, 0)
      | some sl =>
        match unescapeAtB buffer charSize i (i + j + 1) sl with
        | (none, n) => (none, n)
        | (some (buffer', charSize'), n) =>
          let r := unescapeInnerB i slice (j + k.utf8Size) rest buffer' charSize'
          (r.1, r.2 + n)
    else unescapeInnerB i slice (j + k.utf8Size) rest buffer charSize

/-- the outer `loop` of `unescape`, lib.rs:282-332, as `unescapeLoop` -/
def unescapeLoopB {ε : Type} : Nat → Str → Nat → Res ε Str × Nat
  | 0, _, _ => (.diverge, 0)
  | fuel + 1, buffer, lastI =>
    if lastI ≥ blen buffer then (.ok buffer, 0)
    else
      match dropB lastI buffer with
      | none => (.panic, 0)
      | some tail =>
        match find c%"&" tail with
        | none => (.ok buffer, 0)
        | some i0 =>
          let i := i0 + lastI
          match dropB i buffer with
          | none => (.panic, 0)
          | some slice =>
            match unescapeInnerB i slice 0 slice buffer 1 with
            | (none, n) => (.panic, blen slice + n)
            | (some (buffer', charSize), n) =>
              let r := unescapeLoopB fuel buffer' (i + charSize)
              (r.1, r.2 + (blen slice + n))

/-- `unescape`, lib.rs:279-334. -/
def unescapeB {ε : Type} (text : Str) : Res ε Str × Nat := unescapeLoopB (blen text + 1) text 0

end KissXml
