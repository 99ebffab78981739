import Verif.Spec.Crash
/-!
# Specification: what may stand before the root element
-/
namespace KissXml.Spec

/-- Tokens before the root element that are accepted: there is only white space between them; a declaration is the first tag, or the
second one if the first one begins at the very beginning; the first comment can be shortened without cutting a character in half. -/
structure PrologFine (pre : List (Str × Str)) : Prop where
  blank : ∀ t ∈ pre, AllWs t.1
  decl : ∀ a text tag b, pre = a ++ (text, tag) :: b → c%"<?xml" <+: tag → a = [] ∨ ∃ t, a = [([], t)]
  comment : ∀ a text tag b, pre = a ++ (text, tag) :: b → c%"<!--" <+: tag → (∀ t ∈ a, ¬ c%"<!--" <+: t.2) → ¬ NoCut tag

/-- those of the tags that begin with `p` -/
def tagsWith (p : Str) (toks : List (Str × Str)) : List Str := (toks.map Prod.snd).filter (fun t => p.isPrefixOf t)

/-- what is taken from the tokens before the root element: the last declaration, and all the document types -/
structure PrologGives (pre : List (Str × Str)) (D : Option Declaration) (ds : List DTD) : Prop where
  decl : D.map (fun d => c%"<?" ++ d.declStr ++ c%"?>") = (tagsWith c%"<?xml" pre).getLast?
  dtds : ds.map (fun m => c%"<!DOCTYPE" ++ m.dtdStr ++ c%">") = tagsWith c%"<!DOCTYPE" pre

end KissXml.Spec
