import Verif.Model.Parse
/-!
# Texts of errors (`/repo/src/errors.rs`, and the `format!` calls of `/repo/src/lib.rs`)
-/
namespace KissXml

/-- decimal digits; the first argument is fuel -/
def digitsF : Nat → Nat → Str
  | 0, _ => []
  | f + 1, n => (if n < 10 then [] else digitsF f (n / 10)) ++ [Char.ofNat (48 + n % 10)]

/-- `Display for usize` -/
def showNat (n : Nat) : Str := digitsF (n + 1) n

/-- `Display for isize` -/
def showInt : Int → Str
  | .ofNat n => showNat n
  | .negSucc n => '-' :: showNat (n + 1)

/-- `line {line}, column {col}` -/
def showPlace (lc : Nat × Nat) : Str := c%"line " ++ showNat lc.1 ++ c%", column " ++ showNat lc.2

/-- ` (syntax error on line {line}, column {col})`, or nothing when the error has no position -/
def syntaxErrorAt : Option (Nat × Nat) → Str
  | none => []
  | some lc => c%" (syntax error on " ++ showPlace lc ++ c%")"

/-- ` on line {line}, column {col}`, or nothing when the error has no position -/
def onPlace : Option (Nat × Nat) → Str
  | none => []
  | some lc => c%" on " ++ showPlace lc

/-- The message of a `ParsingError`.  Those that are re-wrapped (`rewrap`) come with the position added at their end; see
`rewrap_text` in `Props/Message`. -/
def PMsg.text (loc : Option (Nat × Nat)) : PMsg → Str
  | .noXmlContent => c%"no XML content"  -- lib.rs:392
  | .unmatchedLt => c%"'<' has not matching '>'" ++ syntaxErrorAt loc  -- lib.rs:396-398
  | .textOutsideRoot => c%"Text outside the root element is not supported" ++ syntaxErrorAt loc  -- lib.rs:405-407
  | .declNotAtStart => c%"<?xml ...?> declaration must at start of XML" ++ syntaxErrorAt loc  -- lib.rs:413-415
  | .startsWithClosing => c%"cannot start with closing tag" ++ syntaxErrorAt loc  -- lib.rs:434-436
  | .invalidSyntax => c%"invalid XML syntax" ++ onPlace loc  -- lib.rs:441-443, 467-469
  | .onlyOneRoot => c%"only 1 root element is allowed" ++ syntaxErrorAt loc  -- lib.rs:475-477
  | .noRootElement => c%"no root element" ++ syntaxErrorAt loc  -- parsing.rs:71, 98; lib.rs:492-494, 509-511, 534-536, 579-581
  | .invalidComment => c%"invalid comment syntax" ++ onPlace loc  -- lib.rs:519-521
  | .unclosedCData => c%"Unclosed CDATA. '<![CDATA[' must be followed by ']]>'" ++ syntaxErrorAt loc  -- lib.rs:527-529
  | .invalidElementTag => c%"Invalid XML Element" ++ syntaxErrorAt loc  -- lib.rs:741, 551-553
  | .rootAlreadyClosed => c%"root element already closed" ++ syntaxErrorAt loc  -- lib.rs:560-562
  | .closingMismatch tag name =>
      c%"closing tag " ++ tag ++ c%" does not match <" ++ name ++ c%">" ++ syntaxErrorAt loc  -- lib.rs:567-569
  | .rootNotClosed => c%"root element not closed"  -- lib.rs:592-594
  | .closeWithoutOpen => c%"closing tag without corresponding open tag"  -- parsing.rs:60
  | .emptyTag => c%"invalid XML syntax" ++ onPlace loc ++ c%": empty tags not supported"  -- lib.rs:624-626
  | .attrForm => c%"invalid XML syntax" ++ onPlace loc ++ c%": attributes must be in the form 'key=\"value\"'"  -- lib.rs:636-638
  | .attrNoContent => c%"invalid XML syntax" ++ onPlace loc ++ c%": no content after ="  -- lib.rs:643-645
  | .attrUnquoted => c%"invalid XML syntax" ++ onPlace loc ++
      c%": attribute value must be quoted with single or double quotes"  -- lib.rs:651-653
  | .undefinedPrefix p => c%"invalid XML syntax" ++ onPlace loc ++ c%": XML namespace prefix '" ++ p ++
      c%"' has no defined namespace (missing 'xmlns:" ++ p ++ c%"=\"...\"')"  -- lib.rs:678-680
  | .invalidDecl => c%"Invalid XML declaration syntax"  -- dom.rs:2042
  | .invalidDtd => c%"Invalid DTD syntax"  -- dom.rs:2085

/-- `impl Display for IndexOutOfBounds`, errors.rs:163-170. -/
def showIndex (index : Int) : Option (Int × Int) → Str
  | some b => c%"Index " ++ showInt index ++ c%" is out of bounds (valid range: " ++ showInt b.1 ++ c%" - " ++ showInt b.2 ++ c%")"
  | none => c%"Index " ++ showInt index ++ c%" is out of bounds"

/-- `impl Display for KissXmlError`, errors.rs:36-50, and for the single errors, errors.rs:76, 102, 129, 163, 192, 218, 245, 272;
the text of an I/O error (errors.rs:47) is not modelled. -/
def Err.display : Err → Option Str
  | .parsing m loc => some (parsingErrorDisplay (parsingErrorNew (m.text loc)))
  | .typeCast msg => some (c%"TypeCastError: " ++ msg)
  | .doesNotExist msg => some (c%"DoesNotExistError: " ++ msg)
  | .indexOutOfBounds i b => some (showIndex i b)
  | .invalidAttributeName name => some (c%"InvalidAttributeName: " ++ (c%"'" ++ name ++ c%"' is not a valid attribute name"))  -- dom.rs:990
  | .invalidElementName name => some (c%"InvalidElementName: " ++ (c%"'" ++ name ++ c%"' is not a valid name"))  -- dom.rs:1004
  | .invalidContent msg => some (c%"InvalidContent: " ++ msg)
  | .notSupported what loc => some (c%"NotSupportedError: " ++ (c%"kiss-xml does not support '" ++ what ++ c%"'" ++
      (match loc with | none => [] | some lc => c%" (error on " ++ showPlace lc ++ c%")")))  -- lib.rs:541-544
  | .io => none

end KissXml
