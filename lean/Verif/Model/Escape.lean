import Verif.Model.Str
/-!
# Escaping and unescaping (`/repo/src/lib.rs` lines 250-359)
-/
namespace KissXml

/-- `text_escape`, lib.rs:252-257. -/
def textEscape (text : Str) : Str :=
  replaceChar '>' c%"&gt;" (replaceChar '<' c%"&lt;" (replaceChar '&' c%"&amp;" text))

/-- `escape`, lib.rs:267-274. -/
def escape (text : Str) : Str :=
  replaceChar '"' c%"&quot;" (replaceChar '\'' c%"&apos;"
    (replaceChar '>' c%"&gt;" (replaceChar '<' c%"&lt;" (replaceChar '&' c%"&amp;" text))))

/-- `attribute_escape`, lib.rs:261-263. -/
def attributeEscape (text : Str) : Str := escape text

/-- `string_insert`, lib.rs:354-359 (`none` = panic). -/
def stringInsert (buffer : Str) (a b : Nat) (insert : Str) : Option Str :=
  (dropB b buffer).bind fun back =>
    (truncateB a buffer).map fun front => front ++ insert ++ back

/-- `char::to_digit(16)`. -/
def hexDigit (c : Char) : Option Nat :=
  let n := c.toNat
  if 0x30 ≤ n ∧ n ≤ 0x39 then some (n - 0x30)
  else if 0x61 ≤ n ∧ n ≤ 0x66 then some (n - 0x61 + 10)
  else if 0x41 ≤ n ∧ n ≤ 0x46 then some (n - 0x41 + 10)
  else none

/-- digit loop of `u32::from_str_radix(_, 16)` with overflow check. -/
def hexLoop : Nat → Str → Option Nat
  | acc, [] => some acc
  | acc, c :: s =>
    match hexDigit c with
    | none => none
    | some d => if acc * 16 + d < 4294967296 then hexLoop (acc * 16 + d) s else none

/-- `u32::from_str_radix(s, 16)` (std): optional leading `+`, at least one digit, overflow is an error. -/
def parseHexU32 : Str → Option Nat
  | [] => none
  | c :: s => if c = '+' then (if s.isEmpty then none else hexLoop 0 s) else hexLoop 0 (c :: s)

/-- `char::from_u32` (std). -/
def charFromU32 (n : Nat) : Option Char :=
  if n.isValidChar then some (Char.ofNat n) else none

/-- body of the `if k == ';'` block of `unescape`, lib.rs:293-327.  `slice` is the text from the `&` up to
and excluding the `;`; `start`, `stop` the byte span to replace.  Returns the new buffer and char_size.
The five `if`s are exclusive because they compare `slice` with different constants. -/
def unescapeAt (buffer : Str) (charSize start stop : Nat) (slice : Str) : Option (Str × Nat) :=
  if slice = c%"&amp" then (stringInsert buffer start stop c%"&").map (·, charSize)
  else if slice = c%"&lt" then (stringInsert buffer start stop c%"<").map (·, charSize)
  else if slice = c%"&gt" then (stringInsert buffer start stop c%">").map (·, charSize)
  else if slice = c%"&apos" then (stringInsert buffer start stop c%"'").map (·, charSize)
  else if slice = c%"&quot" then (stringInsert buffer start stop c%"\"").map (·, charSize)
  else if startsWith slice c%"&#" then
    match dropB 2 slice with
    | none => none
    | some digits =>
      match parseHexU32 digits with
      | none => some (buffer, charSize)
      | some cp =>
        match charFromU32 cp with
        | none => some (buffer, charSize)
        | some u => (stringInsert buffer start stop [u]).map (·, u.utf8Size)
  else some (buffer, charSize)

/-- the `for (j, k) in slice.char_indices()` loop of `unescape`, lib.rs:291-328.  `slice` is the whole
slice, the fourth argument its part from byte `j` on.  The loop runs to the end of the slice: there is no
`break` after a replacement. -/
def unescapeInner (i : Nat) (slice : Str) : Nat → Str → Str → Nat → Option (Str × Nat)
  | _, [], buffer, charSize => some (buffer, charSize)
  | j, k :: rest, buffer, _ =>
    let charSize := k.utf8Size
    if k = ';' then
      match takeB j slice with
      | none => none
      | some sl =>
        match unescapeAt buffer charSize i (i + j + 1) sl with
        | none => none
        | some (buffer', charSize') => unescapeInner i slice (j + k.utf8Size) rest buffer' charSize'
    else unescapeInner i slice (j + k.utf8Size) rest buffer charSize

/-- the outer `loop` of `unescape`, lib.rs:282-332. -/
def unescapeLoop {ε : Type} : Nat → Str → Nat → Res ε Str
  | 0, _, _ => .diverge
  | fuel + 1, buffer, lastI =>
    if lastI ≥ blen buffer then .ok buffer
    else
      match dropB lastI buffer with
      | none => .panic
      | some tail =>
        match find c%"&" tail with
        | none => .ok buffer
        | some i0 =>
          let i := i0 + lastI
          match dropB i buffer with
          | none => .panic
          | some slice =>
            match unescapeInner i slice 0 slice buffer 1 with
            | none => .panic
            | some (buffer', charSize) => unescapeLoop fuel buffer' (i + charSize)

/-- `unescape`, lib.rs:279-334. -/
def unescape {ε : Type} (text : Str) : Res ε Str := unescapeLoop (blen text + 1) text 0

end KissXml
