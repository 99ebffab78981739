import Verif.Proofs.TagNames
import Verif.Proofs.TokenCheck
/-!
# C60, C61: tags and the elements they write
-/
namespace KissXml.Props
open Spec

/-! ## an example -/

/-- the tokens of a document with a prefix, spaces around `=`, a repeated attribute and a value with `>` -/
def srcRest : List (Str × Str) :=
  [([], c%"<p:a xmlns:p='u' b = \"1&lt;\" c='x>y' >"), (c%"t", c%"<b k='1' k=\"2\"/>"), ([], c%"<!--<c>-->"),
   (c%" ", c%"<d>"), ([], c%"</d>"), ([], c%"</p:a>")]

/-- the document -/
def srcInput : Str := c%"<p:a xmlns:p='u' b = \"1&lt;\" c='x>y' >t<b k='1' k=\"2\"/><!--<c>--> <d></d></p:a>"

theorem srcParts : Parts srcInput [] srcRest := partsB_sound [] (by decide) rfl

theorem srcOk : ∃ d, parseStr srcInput = .ok d := by
  have h : (match parseStr srcInput with | .ok _ => true | _ => false) = true := by decide +kernel
  cases hp : parseStr srcInput <;> simp_all

/-! ## C60: names -/

/-- C60 as stated is false: a tag with `<` in a value, and the second attribute of a tag, may have any name; and after the character U+1680,
which is white space and a name character at once, a prefix may begin with any name character. -/
theorem C60_false :
    (∃ d, parseStr c%"<a&b y=\"<x>\"/>" = .ok d ∧ d.root.tagName = c%"a&b" ∧ ¬ XmlName d.root.tagName) ∧
    (∃ d, parseStr c%"<a x=\"1\" y&=\"2\"/>" = .ok d ∧ d.root.attrs.get c%"y&" = some c%"2" ∧ ¬ XmlName c%"y&") ∧
    (∃ d, parseStr c%"<\u1680-p:a xmlns:-p=\"u\"/>" = .ok d ∧ d.root.tagName = c%"-p:a" ∧ ¬ XmlName d.root.tagName) := by
  have hn : ∀ n : Str, '&' ∈ n → ¬ XmlName n := fun n hm h => xmlName_not_mem h '&' (by decide) hm
  have hm : ¬ XmlName c%"-p:a" := by
    rintro ⟨c, r, h, hc, -⟩
    cases h
    exact absurd hc (by decide)
  exact ⟨⟨_, rfl, rfl, hn _ (by decide)⟩, ⟨_, rfl, rfl, hn _ (by decide)⟩, ⟨_, rfl, rfl, hm⟩⟩

/-- C60 for tags without a second `<`: the name in every start tag and empty-element tag is an XML name, and after it comes the end
of the tag or the beginning of an attribute that has an XML name, too.

Missing: tags with `<` in a value, tags with U+1680 before the first quote, and the names of the attributes after the first; see `C60_false`. -/
theorem C60_partial (x : Str) (d : Document) (pre rest : List (Str × Str)) (h : parseStr x = .ok d) (hp : Parts x pre rest)
    (tag : Str) (ht : tag ∈ rest.map Prod.snd) (ho : Opening tag) (hpl : PlainTag tag) :
    ∃ n R, tag = '<' :: n ++ R ∧ XmlName n ∧ AfterName R ∧ ∀ m, OpenName tag m ↔ m = n :=
  accepted_names h hp ht ho hpl

example : (∃ d, parseStr srcInput = .ok d) ∧ ∀ tag ∈ openTags (srcRest.map Prod.snd), PlainTag tag :=
  ⟨srcOk, by decide⟩

/-- If all tags are plain and there is one root, all elements of the document have XML names. -/
theorem C60_elements_partial (x : Str) (d : Document) (pre rest : List (Str × Str)) (h : parseStr x = .ok d) (hp : Parts x pre rest)
    (h1 : OneRoot (rest.map Prod.snd)) (hpl : ∀ tag ∈ openTags (rest.map Prod.snd), PlainTag tag) :
    ∀ e ∈ elementsOf d.root, XmlName e.tagName := by
  intro e he
  obtain ⟨tag, ht, hw⟩ := forall₂_right (root_writes h hp h1) he
  have ht' : tag ∈ rest.map Prod.snd ∧ Opening tag := by simpa [openTags] using ht
  obtain ⟨n, R, -, hn, -, hm⟩ := accepted_names h hp ht'.1 ht'.2 (hpl tag ht)
  rw [(hm _).1 (tagWrites_name hw)]
  exact hn

example : ∃ d, parseStr srcInput = .ok d ∧ ∀ e ∈ elementsOf d.root, XmlName e.tagName :=
  let ⟨d, h⟩ := srcOk
  ⟨d, h, C60_elements_partial _ _ [] srcRest h srcParts (oneRootB_sound (by decide)) (by decide)⟩

/-! ## C61: elements and attributes are the ones written -/

/-- C61 as stated is false: the elements of `<a></a><b></b>` are those of one tag only, and a value may be decoded wrongly. -/
theorem C61_false :
    (∃ d, parseStr c%"<a></a><b></b>" = .ok d ∧ (elementsOf d.root).map ElementF.tagName = [c%"b"]) ∧
    (∃ d, parseStr c%"<a b=\"&#65;\"/>" = .ok d ∧ d.root.attrs.get c%"b" = some c%"e") :=
  ⟨⟨_, rfl, rfl⟩, ⟨_, rfl, rfl⟩⟩

/-- C61 for documents with one root: the elements, in document order, are the ones that the start tags and empty-element tags
write, in the order of the source: each has the name in its tag and exactly the attributes in its tag, with the values as
`unescape` reads them (`ReadAs`: decoded when they are `Legible`, see C07 and C67).

Missing: several top-level elements, and correct decoding of values that are not `Legible`; see `C61_false`. -/
theorem C61_partial (x : Str) (d : Document) (pre rest : List (Str × Str)) (h : parseStr x = .ok d) (hp : Parts x pre rest)
    (h1 : OneRoot (rest.map Prod.snd)) :
    List.Forall₂ (TagWrites ReadAs) (openTags (rest.map Prod.snd)) (elementsOf d.root) :=
  (root_writes h hp h1).imp fun _ _ hw => tagWrites_mono (fun _ _ hu => unescapes_readAs hu) hw

example : ∃ d, parseStr srcInput = .ok d ∧
    List.Forall₂ (TagWrites ReadAs)
      [c%"<p:a xmlns:p='u' b = \"1&lt;\" c='x>y' >", c%"<b k='1' k=\"2\"/>", c%"<d>"] (elementsOf d.root) :=
  let ⟨d, h⟩ := srcOk
  ⟨d, h, C61_partial srcInput _ [] srcRest h srcParts (oneRootB_sound (by decide))⟩

example : (match parseStr srcInput with
    | .ok d => (elementsOf d.root).map fun e => (e.tagName, [e.attrs.get c%"xmlns:p", e.attrs.get c%"b", e.attrs.get c%"c",
        e.attrs.get c%"k"])
    | _ => []) =
    [(c%"p:a", [some c%"u", some c%"1<", some c%"x>y", none]), (c%"b", [none, none, none, some c%"2"]),
      (c%"d", [none, none, none, none])] := by decide +kernel

end KissXml.Props
