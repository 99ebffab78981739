import Verif.Model.Str
/-!
# The regular expressions of the code, as they are written there

Copied character by character; `Spec/Pattern` says what this notation means.  The functions of the model that stand for `is_match` of
these patterns are compared with it in `Props/Pattern`.
-/
namespace KissXml.Patterns

/-- `check_attr_name`, dom.rs:985; `check_elem_name`, dom.rs:999 -/
def name : Str := c%"^[_a-zA-Z]\\S*$"

/-- `Text::is_whitespace`, dom.rs:1659 -/
def blank : Str := c%"^\\s+$"

/-- `real_text`, lib.rs:872 -/
def allBlank : Str := c%"^\\s*$"

/-- `name_start_char`, lib.rs:734 -/
def nameStartChar : Str := c%"[:A-Z_a-z\\xC0-\\xD6\\xD8-\\xF6\\xF8-\\x{2FF}\\x{370}-\\x{37D}\\x{37F}-\\x{1FFF}\\x{200C}-\\x{200D}\\x{2070}-\\x{218F}\\x{2C00}-\\x{2FEF}\\x{3001}-\\x{D7FF}\\x{F900}-\\x{FDCF}\\x{FDF0}-\\x{FFFD}\\x{10000}-\\x{EFFFF}]"

/-- `name_char`, lib.rs:735 -/
def nameChar : Str := c%"[:A-Z_a-z\\xC0-\\xD6\\xD8-\\xF6\\xF8-\\x{2FF}\\x{370}-\\x{37D}\\x{37F}-\\x{1FFF}\\x{200C}-\\x{200D}\\x{2070}-\\x{218F}\\x{2C00}-\\x{2FEF}\\x{3001}-\\x{D7FF}\\x{F900}-\\x{FDCF}\\x{FDF0}-\\x{FFFD}\\x{10000}-\\x{EFFFF}.\\-0-9\\xB7\\x{0300}-\\x{036F}\\x{203F}-\\x{2040}]"

/-- the argument of `format!`, lib.rs:736 -/
def tagTemplate : Str := c%"(?ms)</?{name_start_char}{name_char}*(:{name_start_char}{name_char}*)?(\\s+{name_start_char}{name_char}*=(\".*?\"|'.*?'))*\\s*/?>"

end KissXml.Patterns
