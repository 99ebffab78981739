import Verif.Model.Escape
/-!
# The digits read by `unescape`

The same definitions as in `Model/Escape.lean`, which also count the characters that `u32::from_str_radix` looks at in the calls of lib.rs:313:
one for every character up to the end of the string, or up to and including the first one that is not a digit or makes the number too large.
A sign is not counted.
-/
namespace KissXml

/-- digit loop of `u32::from_str_radix(_, 16)`, as `hexLoop` -/
def hexLoopD : Nat → Str → Option Nat × Nat
  | acc, [] => (some acc, 0)
  | acc, c :: s =>
    match hexDigit c with
    | none => (none, 1)
    | some d =>
      if acc * 16 + d < 4294967296 then ((hexLoopD (acc * 16 + d) s).1, (hexLoopD (acc * 16 + d) s).2 + 1)
      else (none, 1)

/-- `u32::from_str_radix(s, 16)`, as `parseHexU32` -/
def parseHexU32D : Str → Option Nat × Nat
  | [] => (none, 0)
  | c :: s => if c = '+' then (if s.isEmpty then (none, 0) else hexLoopD 0 s) else hexLoopD 0 (c :: s)

/-- lib.rs:293-327, as `unescapeAt` -/
def unescapeAtD (buffer : Str) (charSize start stop : Nat) (slice : Str) : Option (Str × Nat) × Nat :=
  if slice = c%"&amp" then ((stringInsert buffer start stop c%"&").map (·, charSize), 0)
  else if slice = c%"&lt" then ((stringInsert buffer start stop c%"<").map (·, charSize), 0)
  else if slice = c%"&gt" then ((stringInsert buffer start stop c%">").map (·, charSize), 0)
  else if slice = c%"&apos" then ((stringInsert buffer start stop c%"'").map (·, charSize), 0)
  else if slice = c%"&quot" then ((stringInsert buffer start stop c%"\"").map (·, charSize), 0)
  else if startsWith slice c%"&#" then
    match dropB 2 slice with
    | none => (none, 0)
    | some digits =>
      match parseHexU32D digits with
      | (none, n) => (some (buffer, charSize), n)
      | (some cp, n) =>
        match charFromU32 cp with
        | none => (some (buffer, charSize), n)
        | some u => ((stringInsert buffer start stop [u]).map (·, u.utf8Size), n)
  else (some (buffer, charSize), 0)

/-- the `for (j, k) in slice.char_indices()` loop of `unescape`, lib.rs:291-328, as `unescapeInner` -/
def unescapeInnerD (i : Nat) (slice : Str) : Nat → Str → Str → Nat → Option (Str × Nat) × Nat
  | _, [], buffer, charSize => (some (buffer, charSize), 0)
  | j, k :: rest, buffer, _ =>
    let charSize := k.utf8Size
    if k = ';' then
      match takeB j slice with
      | none => (none, 0)
      | some sl =>
        match unescapeAtD buffer charSize i (i + j + 1) sl with
        | (none, n) => (none, n)
        | (some (buffer', charSize'), n) =>
          let r := unescapeInnerD i slice (j + k.utf8Size) rest buffer' charSize'
          (r.1, r.2 + n)
    else unescapeInnerD i slice (j + k.utf8Size) rest buffer charSize

/-- the outer `loop` of `unescape`, lib.rs:282-332, as `unescapeLoop` -/
def unescapeLoopD {ε : Type} : Nat → Str → Nat → Res ε Str × Nat
  | 0, _, _ => (.diverge, 0)
  | fuel + 1, buffer, lastI =>
    if lastI ≥ blen buffer then (.ok buffer, 0)
    else
      match dropB lastI buffer with
      | none => (.panic, 0)
      | some tail =>
        match find c%"&" tail with
        | none => (.ok buffer, 0)
        | some i0 =>
          let i := i0 + lastI
          match dropB i buffer with
          | none => (.panic, 0)
          | some slice =>
            match unescapeInnerD i slice 0 slice buffer 1 with
            | (none, n) => (.panic, n)
            | (some (buffer', charSize), n) =>
              let r := unescapeLoopD fuel buffer' (i + charSize)
              (r.1, r.2 + n)

/-- `unescape`, lib.rs:279-334. -/
def unescapeD {ε : Type} (text : Str) : Res ε Str × Nat := unescapeLoopD (blen text + 1) text 0

end KissXml
