import Verif.Proofs.Local
import Verif.Proofs.TokenCheck
/-!
# Elements taken out of a source, and elements replaced in a source (C83, C84)
-/
namespace KissXml.Props
open Spec

/-! ## examples -/

/-- a document with a prolog, a prefix that is declared outside, and a prefix that is declared by the element itself -/
def localPre : List (Str × Str) := [([], c%"<?xml version='1.0'?>")]
/-- its other tokens -/
def localRest : List (Str × Str) :=
  [(c%"\n", c%"<p:a xmlns:p='u' xmlns='w'>"), (c%"t&lt;", c%"<q:b xmlns:q='v'>"), ([], c%"<p:c/>"), (c%"x", c%"</q:b>"), ([], c%"<p:d>"),
   ([], c%"</p:d>"), (c%" ", c%"</p:a>")]

/-- the document -/
def localInput : Str :=
  c%"<?xml version='1.0'?>\n<p:a xmlns:p='u' xmlns='w'>t&lt;<q:b xmlns:q='v'><p:c/>x</q:b><p:d></p:d> </p:a>\n"

theorem localLexes : Lexes localInput (localPre ++ localRest) c%"\n" := by
  have h : lexesB (localPre ++ localRest) c%"\n" = true := by decide
  exact lexesB_sound h

theorem localParts : Parts localInput localPre localRest := partsB_sound c%"\n" (by decide) rfl

theorem localOk : ∃ d, parseStr localInput = .ok d := by
  have h : (match parseStr localInput with | .ok _ => true | _ => false) = true := by decide +kernel
  cases hp : parseStr localInput <;> simp_all

/-- `<q:b xmlns:q='v'><p:c/>x</q:b>` in it -/
theorem localB : ElementIn localRest [(c%"\n", c%"<p:a xmlns:p='u' xmlns='w'>")] c%"t&lt;" c%"<q:b xmlns:q='v'>"
    [([], c%"<p:c/>"), (c%"x", c%"</q:b>")] [([], c%"<p:d>"), ([], c%"</p:d>"), (c%" ", c%"</p:a>")] :=
  ⟨rfl, by decide, oneRootB_sound (by decide), by decide⟩

/-! ## C83: an element alone -/

/-- In an accepted document with one top-level element, take the source of an element, from the `<` of its first tag to the `>` of its
last tag.  If the element has no prefix, or a prefix that is declared by an attribute of the element itself, this source is accepted
alone.  The result has the same names, prefixes, attributes and content as the element in the document: only the namespaces which are
inherited from outside may differ. -/
theorem C83_alone (x : Str) (d : Document) (pre rest a body b : List (Str × Str)) (text tag : Str) (h : parseStr x = .ok d)
    (hp : Parts x pre rest) (h1 : OneRoot (rest.map Prod.snd)) (he : ElementIn rest a text tag body b) :
    ∃ e, (elementsOf d.root)[(openTags (a.map Prod.snd)).length]? = some e ∧
      ((∀ p, e.pfx = some p → (e.attrs.get (c%"xmlns:" ++ p)).isSome) → ∃ d', parseStr (tag ++ srcOf body) = .ok d' ∧
        bare (.element d'.root) = bare (.element e) ∧ d'.declaration = none ∧ d'.dtds = []) := by
  obtain ⟨e, h2, h3, -⟩ := element_alone h hp h1 he
  exact ⟨e, h2, h3⟩

/-- The other direction: an element with a prefix which it does not declare itself is not accepted alone. -/
theorem C83_rejected (x : Str) (d : Document) (pre rest a body b : List (Str × Str)) (text tag : Str) (h : parseStr x = .ok d)
    (hp : Parts x pre rest) (h1 : OneRoot (rest.map Prod.snd)) (he : ElementIn rest a text tag body b) (hn : ¬ c%"<?xml" <+: tag)
    (e : Element) (p : Str) (h2 : (elementsOf d.root)[(openTags (a.map Prod.snd)).length]? = some e) (hq : e.pfx = some p)
    (hd : e.attrs.get (c%"xmlns:" ++ p) = none) (d' : Document) : parseStr (tag ++ srcOf body) ≠ .ok d' := by
  obtain ⟨e', h3, -, h4⟩ := element_alone h hp h1 he
  cases h2.symm.trans h3
  intro hd'
  have := h4 (fun h => h.elim hn (fun h => by
    have := kind_mark h
    rcases he.opening with ho | ho <;> rw [this] at ho <;> cases ho)) d' hd' p hq
  rw [hd] at this
  cases this

example : ∃ d d' : Document, parseStr localInput = .ok d ∧ parseStr c%"<q:b xmlns:q='v'><p:c/>x</q:b>" = .ok d' ∧
    ∃ e, (elementsOf d.root)[1]? = some e ∧ bare (.element d'.root) = bare (.element e) := by
  obtain ⟨d, h⟩ := localOk
  obtain ⟨e, h2, h3⟩ := C83_alone localInput d _ _ _ _ _ _ _ h localParts (oneRootB_sound (by decide)) localB
  have hx : e.pfx = some c%"q" ∧ e.attrs.get c%"xmlns:q" = some c%"v" := by
    have hk : (match parseStr localInput with
      | .ok d => ((elementsOf d.root)[1]?).map fun e => (e.pfx, e.attrs.get c%"xmlns:q")
      | _ => none) = some (some c%"q", some c%"v") := by decide +kernel
    simp only [h] at hk
    rw [show (openTags (List.map Prod.snd [(c%"\n", c%"<p:a xmlns:p='u' xmlns='w'>")])).length = 1 by decide] at h2
    rw [h2] at hk
    simp at hk
    exact hk
  obtain ⟨d', h4, h5, -⟩ := h3 (by
    intro p hp
    rw [hx.1] at hp
    cases hp
    rw [show c%"xmlns:" ++ c%"q" = c%"xmlns:q" from rfl, hx.2]; rfl)
  exact ⟨d, d', h, h4, e, h2, h5⟩

example : ∃ a text body b, ElementIn localRest a text c%"<p:d>" body b ∧ ∀ d', parseStr (c%"<p:d>" ++ srcOf body) ≠ .ok d' :=
  ⟨localRest.take 4, _, [([], c%"</p:d>")], _, ⟨rfl, by decide, oneRootB_sound (by decide), by decide⟩,
    fun d' h => by
      have hk : (match parseStr c%"<p:d></p:d>" with | .ok _ => false | _ => true) = true := by decide +kernel
      have h : parseStr c%"<p:d></p:d>" = .ok d' := h
      rw [h] at hk
      cases hk⟩

/-! ## C84: an element replaced by another one -/

/-- In an accepted document with one top-level element, replace the source of one element by the source of any other element that is
accepted alone.  The new document is accepted.  Its tree is the old one with the one element replaced (nothing else changes, namespaces
included); the element in its place has the names, prefixes, attributes and content that it has alone. -/
theorem C84_replace (x y : Str) (d dy : Document) (pre rest a body b body' : List (Str × Str)) (text tag tag' text' tail : Str)
    (h : parseStr x = .ok d) (hp : Parts x pre rest) (hl : Lexes x (pre ++ rest) tail) (h1 : OneRoot (rest.map Prod.snd))
    (he : ElementIn rest a text tag body b)
    (hy : parseStr y = .ok dy) (hpy : Parts y [] ((text', tag') :: body')) (h1y : OneRoot (tag' :: body'.map Prod.snd)) :
    ∃ (H : Hole) (e e' : Element) (d' : Document),
      [.element d.root] = H.plug (.element e) ∧ H.count = (openTags (a.map Prod.snd)).length ∧
      parseStr (srcOf (pre ++ a ++ (text, tag') :: (body' ++ b)) ++ tail) = .ok d' ∧ [.element d'.root] = H.plug (.element e') ∧
      bare (.element e') = bare (.element dy.root) ∧ d'.declaration = d.declaration ∧ d'.dtds = d.dtds :=
  element_replaced h hp hl h1 he hy hpy h1y

/-- what is in the hole is the element of that number -/
theorem C84_hole (H : Hole) (e r : Element) (h : [.element r] = H.plug (.element e)) : (elementsOf r)[H.count]? = some e :=
  elements_hole (d := ⟨none, [], r⟩) h

example : ∃ (H : Hole) (e e' : Element) (d d' : Document), parseStr localInput = .ok d ∧ H.count = 1 ∧
    [.element d.root] = H.plug (.element e) ∧ [.element d'.root] = H.plug (.element e') ∧
    bare (.element e') = .element ⟨c%"z", [.text c%"k"], .empty, none, none, .empty⟩ ∧
    parseStr c%"<?xml version='1.0'?>\n<p:a xmlns:p='u' xmlns='w'>t&lt;<z>k</z><p:d></p:d> </p:a>\n" = .ok d' := by
  obtain ⟨d, h⟩ := localOk
  obtain ⟨H, e, e', d', h2, h3, h4, h5, h6, -⟩ := C84_replace localInput c%"<z>k</z>" d _ _ _ _ _ _ _ _ _ _ _ _ h localParts localLexes
    (oneRootB_sound (by decide)) localB (rfl : parseStr c%"<z>k</z>" = .ok ⟨none, [], ⟨c%"z", [.text c%"k"], .empty, none, none, .empty⟩⟩)
    (partsB_sound (pre := []) (rest := [([], c%"<z>"), (c%"k", c%"</z>")]) [] (by decide) rfl) (oneRootB_sound (by decide))
  exact ⟨H, e, e', d, d', h, h3, h2, h5, h6, h4⟩

end KissXml.Props
