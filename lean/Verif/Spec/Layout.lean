import Verif.Model.Dom
import Verif.Spec.Order
import Verif.Spec.Escape
/-!
# Specification: layout of serialised elements

A direct description of pretty printing with indentation unit `u` at nesting depth `k`.
-/
namespace KissXml.Spec

/-- a valid indent: one tab or any number of spaces -/
def ValidIndent (i : Str) : Prop := i = ['\t'] ∨ ∃ n, i = List.replicate n ' '

/-- `k` copies of the unit -/
def pad (u : Str) (k : Nat) : Str := (List.replicate k u).flatten

/-- ` name="value"` -/
def attrStr (kv : Str × Str) : Str := ' ' :: kv.1 ++ c%"=\"" ++ kv.2.flatMap escAttr ++ ['"']

/-- `prefix:name` or `name` -/
def qname (e : Element) : Str := match e.pfx with
  | some p => p ++ ':' :: e.name
  | none => e.name

/-- all attributes, each once, in strictly increasing attribute order -/
def SortedAttrs (a : SMap) (l : List (Str × Str)) : Prop :=
  l.Perm a.entries ∧ l.Pairwise (fun y z => AttrLt y.1 z.1)

mutual
/-- `Layout u k inl e s`: `s` is the layout of `e` at depth `k`; `inl` says that the element stands in mixed
content, where no white space may be added. -/
inductive ELayout (u : Str) : Nat → Bool → Element → Str → Prop
  /-- no children: `<tag/>` -/
  | empty {k inl n a x p c l} : SortedAttrs a l →
      ELayout u k inl ⟨n, [], a, x, p, c⟩
        ((if inl then [] else pad u k) ++ '<' :: qname ⟨n, [], a, x, p, c⟩ ++ l.flatMap attrStr ++ c%"/>")
  /-- a single text, comment or CDATA: on the line of its tags -/
  | leaf {k inl n a x p c l m s} : SortedAttrs a l →
      m.isElement = false → NLayout u k true m s →
      ELayout u k inl ⟨n, [m], a, x, p, c⟩
        ((if inl then [] else pad u k) ++ '<' :: qname ⟨n, [m], a, x, p, c⟩ ++ l.flatMap attrStr ++ c%">" ++ s ++
          c%"</" ++ qname ⟨n, [m], a, x, p, c⟩ ++ c%">")
  /-- mixed content (or inside mixed content): no white space is added -/
  | inline {k inl n cs a x p c l s} : SortedAttrs a l →
      (∃ y z w, cs = y :: z :: w) ∨ (∃ e, cs = [.element e]) →
      inl = true ∨ (∃ t, Node.text t ∈ cs) →
      LLayout u k true cs s →
      ELayout u k inl ⟨n, cs, a, x, p, c⟩
        ((if inl then [] else pad u k) ++ '<' :: qname ⟨n, cs, a, x, p, c⟩ ++ l.flatMap attrStr ++ c%">" ++ s ++
          c%"</" ++ qname ⟨n, cs, a, x, p, c⟩ ++ c%">")
  /-- otherwise: one line per child, one level deeper, closing tag on its own line -/
  | block {k n cs a x p c l s} : SortedAttrs a l →
      (∃ y z w, cs = y :: z :: w) ∨ (∃ e, cs = [.element e]) →
      (¬ ∃ t, Node.text t ∈ cs) →
      LLayout u (k + 1) false cs s →
      ELayout u k false ⟨n, cs, a, x, p, c⟩
        (pad u k ++ '<' :: qname ⟨n, cs, a, x, p, c⟩ ++ l.flatMap attrStr ++ c%">\n" ++ s ++
          pad u k ++ c%"</" ++ qname ⟨n, cs, a, x, p, c⟩ ++ c%">")
/-- children; with `inl = false` each one is followed by a line feed -/
inductive LLayout (u : Str) : Nat → Bool → List Node → Str → Prop
  | nil {k inl} : LLayout u k inl [] []
  | cons {k inl m ms s ss} : NLayout u k inl m s → LLayout u k inl ms ss →
      LLayout u k inl (m :: ms) (s ++ (if inl then [] else ['\n']) ++ ss)
/-- one node -/
inductive NLayout (u : Str) : Nat → Bool → Node → Str → Prop
  | text {k inl t} : NLayout u k inl (.text t) (t.flatMap escText)
  | comment {k inl t} : NLayout u k inl (.comment t) ((if inl then [] else pad u k) ++ c%"<!--" ++ t ++ c%"-->")
  | cdata {k inl t} : NLayout u k inl (.cdata t) ((if inl then [] else pad u k) ++ c%"<![CDATA[" ++ t ++ c%"]]>")
  | element {k inl e s} : ELayout u k inl e s → NLayout u k inl (.element e) s
end

end KissXml.Spec
