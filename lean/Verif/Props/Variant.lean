import Verif.Proofs.Expand
/-!
# C86, C41: two ways to write the same document
-/
namespace KissXml.Props
open KissXml KissXml.Spec

/-- In an accepted input with one top-level element, write the texts and tags of the element in another way (`Rewritten`): attributes
in another order, other quotes, other white space in tags and between tags, references instead of characters (`TokVariant`), `<a></a>`
for `<a/>` and the other way round.  As long as each tag
still has a part that fits the pattern of tags (C53) and `unescape` does not panic on the values, the new input is accepted, and the
documents are equal. -/
theorem C86_variant (x x' : Str) (d : Document) (pre rest rest' : List (Str × Str)) (h : parseStr x = .ok d) (hp : Parts x pre rest)
    (hp' : Parts x' pre rest') (h1 : OneRoot (rest.map Prod.snd)) (hv : Rewritten rest rest') :
    ∃ d', parseStr x' = .ok d' ∧ d.eq d' = true :=
  parse_variant h hp hp' h1 hv

/-- The order of attributes: two tags of the same kind with the same name and the same attributes, all of different names. -/
theorem C86_order (tag tag' n : Str) (ps ps' : List Str) (ho : Opening tag) (hk : kind tag' = kind tag) (hb : ¬ BadTag tag')
    (h : Pieces tag n ps) (h' : Pieces tag' n ps') (hg : GoodPieces ps) (hp : ps.Perm ps')
    (hd : ps.Pairwise fun p p' => ∀ k raw raw', Quoted k raw p → ¬ Quoted k raw' p') : TagVariant tag tag' :=
  .opening ho hk hb h h' (fun p hm => hg p (hp.mem_iff.2 hm)) fun k v => gives_perm hp hd k v

/-! ## an example -/

theorem angled_of {t : Str} (h : t = c%"<" ++ t.tail.dropLast ++ c%">") : Angled t := ⟨_, h⟩

/-- two ways to write the same tag -/
theorem exVariant : TagVariant c%"<p:a xmlns:p='u' x=\"1&gt;\" y = '2'>" c%"<p:a\ny=\"2\" y='2' xmlns:p=\"u\" x='1>' >" :=
  variant_of (.inl rfl) rfl (by decide) (angled_of rfl) (angled_of rfl) rfl rfl rfl rfl rfl rfl (by decide)

/-- before -/
def exBefore : List (Str × Str) := [([], c%"<p:a xmlns:p='u' x=\"1&gt;\" y = '2'>"), (c%"t&gt;", c%"<p:b/>"), ([], c%"<!--c-->"), ([], c%"</p:a>")]
/-- after -/
def exAfter : List (Str × Str) :=
  [(c%"\n", c%"<p:a\ny=\"2\" y='2' xmlns:p=\"u\" x='1>' >"), (c%"t>", c%"<p:b\t/>"), (c%" ", c%"<!--c-->"), ([], c%"</p:a >")]

example : Rewritten exBefore exAfter :=
  .cons ⟨.blank (by decide) (by decide), exVariant⟩
    (.cons ⟨.text (u := c%"t>") (by decide) (by decide) (unescape_ok_iff (ε := Unit).1 rfl) (unescape_ok_iff (ε := Unit).1 rfl),
        variant_of (.inr rfl) rfl (by decide) (angled_of rfl) (angled_of rfl) rfl rfl rfl rfl rfl rfl (.refl _)⟩
      (.cons ⟨.blank (by decide) (by decide), .same rfl⟩
        (.cons ⟨.same rfl, .close rfl rfl (fun h => by have := badTag_iff.1 h; revert this; decide) (inner_iff.2 ⟨rfl, angled_of rfl⟩)
          (inner_iff.2 ⟨rfl, angled_of rfl⟩)⟩ .nil)))

example : ∃ d d', parseStr c%"<p:a xmlns:p='u' x=\"1&gt;\" y = '2'>t&gt;<p:b/><!--c--></p:a>" = .ok d ∧
    parseStr c%"\n<p:a\ny=\"2\" y='2' xmlns:p=\"u\" x='1>' >t><p:b\t/> <!--c--></p:a >" = .ok d' ∧ d.eq d' = true ∧
    d.root.attrs.entries ≠ d'.root.attrs.entries ∧ Parts (srcOf exBefore) [] exBefore ∧ Parts (srcOf exAfter) [] exAfter ∧
    OneRoot (exBefore.map Prod.snd) :=
  ⟨_, _, rfl, rfl, rfl, by decide, partsB_sound [] (by decide) rfl, partsB_sound [] (by decide) rfl, oneRootB_sound (by decide)⟩

/-! ## C41 for any input with one top-level element -/

/-- C41: in an input with one top-level element write some elements `<a …/>` as `<a …></a>`, also with white space between the two tags.
If one of the two inputs is accepted then so is the other, and the documents are equal.  Missing: inputs with several top-level
elements, for which it is false (`C41_false`). -/
theorem C41_any_partial (x x' : Str) (pre rest rest' : List (Str × Str)) (hp : Parts x pre rest) (hp' : Parts x' pre rest')
    (h1 : OneRoot (rest.map Prod.snd)) (hv : Expanded rest rest') :
    (∀ d, parseStr x = .ok d → ∃ d', parseStr x' = .ok d' ∧ d.eq d' = true) ∧
    (∀ d', parseStr x' = .ok d' → ∃ d, parseStr x = .ok d ∧ d'.eq d = true) :=
  parse_expanded hp hp' h1 hv

/-- with empty-element tags -/
def exShort : List (Str × Str) := [([], c%"<a>"), (c%"t", c%"<b x='1'/>"), ([], c%"<b/>"), ([], c%"</a>")]
/-- with pairs of tags -/
def exLong : List (Str × Str) :=
  [([], c%"<a>"), (c%"t", c%"<b x='1'>"), (c%"\n", c%"</b>"), ([], c%"<b>"), ([], c%"</b >"), ([], c%"</a>")]

theorem exExpanded : Expanded exShort exLong :=
  .cons (.elem (m := c%"b x='1'") (n := c%"b") (by decide) (by decide)
      (pieces_name (pieces_slash (by decide) (by decide) |>.2 (pieces_split (inner_iff.2 ⟨rfl, angled_of rfl⟩) rfl)) fun _ => inner_trimmed)
      (by decide) rfl (fun h => by have := badTag_iff.1 h; revert this; decide) (inner_iff.2 ⟨rfl, angled_of rfl⟩)
    (.elem (m := c%"b") (n := c%"b") (by decide) (by decide)
      (pieces_name (pieces_slash (by decide) (by decide) |>.2 (pieces_split (inner_iff.2 ⟨rfl, angled_of rfl⟩) rfl)) fun _ => inner_trimmed)
      (by decide) rfl (fun h => by have := badTag_iff.1 h; revert this; decide) (inner_iff.2 ⟨rfl, angled_of rfl⟩) (.cons .nil)))

example : ∃ d d', parseStr (srcOf exShort) = .ok d ∧ parseStr (srcOf exLong) = .ok d' ∧ d.eq d' = true ∧
    Parts (srcOf exShort) [] exShort ∧ Parts (srcOf exLong) [] exLong ∧ OneRoot (exShort.map Prod.snd) ∧ Expanded exShort exLong :=
  ⟨_, _, rfl, rfl, rfl, partsB_sound [] (by decide) rfl, partsB_sound [] (by decide) rfl, oneRootB_sound (by decide), exExpanded⟩

/-- the condition on the kind of the start tag: `<b //>` without one slash is `<b />`, still an empty element -/
example : kind c%"<b//>" = .empty ∧ kind c%"<b/>" = .empty := by decide

end KissXml.Props
