import Verif.Spec.Crash
import Verif.Model.Warn
/-!
# Specification: warnings
-/
namespace KissXml.Spec

/-- What is printed about tags before the root element; with `true`, there has been a comment before.  The first comment is shown
(shortened), and every `<!` construct that is neither a comment nor a document type. -/
inductive Warns : Bool → List Str → List Warning → Prop
  | nil {b : Bool} : Warns b [] []
  | decl {b : Bool} {tag : Str} {l : List Str} {w : List Warning} : c%"<?xml" <+: tag → Warns b l w → Warns b (tag :: l) w
  | doctype {b : Bool} {tag : Str} {l : List Str} {w : List Warning} : c%"<!DOCTYPE" <+: tag → Warns b l w → Warns b (tag :: l) w
  | comment {tag s : Str} {l : List Str} {w : List Warning} : c%"<!--" <+: tag → Shortened tag s → Warns true l w →
      Warns false (tag :: l) (.comment s :: w)
  | again {tag : Str} {l : List Str} {w : List Warning} : c%"<!--" <+: tag → Warns true l w → Warns true (tag :: l) w
  | other {b : Bool} {tag : Str} {l : List Str} {w : List Warning} : c%"<!" <+: tag → ¬ c%"<!--" <+: tag → ¬ c%"<!DOCTYPE" <+: tag →
      Warns b l w → Warns b (tag :: l) (.ignored tag :: w)

end KissXml.Spec
