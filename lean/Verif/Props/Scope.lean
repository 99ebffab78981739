import Verif.Proofs.ScopeExact
import Verif.Proofs.Outer
import Verif.Proofs.TokenCheck
import Verif.Props.Dom
/-!
# C73: the namespaces of a parsed document
-/
namespace KissXml.Props
open KissXml KissXml.Spec

/-- C73: in every parsed document with one top-level element, the namespace of each element is `resolved`: a function of the
prefixes and attributes of the element and of the elements around it. -/
theorem C73_namespaces (x : Str) (d : Document) (pre rest : List (Str × Str)) (h : parseStr x = .ok d) (hp : Parts x pre rest)
    (h1 : OneRoot (rest.map Prod.snd)) (up : List Element) (e : Element) (he : Above d.root up e) : e.xmlns = resolved e up := by
  obtain ⟨text, tag, rest', E, F, rfl, -, h3, h4, h5⟩ := accepted_parts h hp
  obtain ⟨g1, g2⟩ := root_rules h3 h1
  have g3 := root_ctx h3 h1
  rw [← h4] at g1 g2 g3
  obtain ⟨k1, k2, -⟩ := above_rules g1 g2 g3 he
  unfold resolved
  obtain ⟨n, cs, a, y, q, cc⟩ := e
  cases q with
  | some p => exact k1.1 p rfl
  | none => simpa [nearest_cons] using k2.1 rfl

/-- C73, for elements that are added later: an element without a namespace, as the constructors make it (its prefixes are its
`xmlns:` attributes), appended to an element of a parsed document, gets the namespace of the nearest `xmlns:p` on itself or
around its new place if it has a prefix `p`; without a prefix, it gets the namespace of the element it was appended to if
that has no prefix, else none. -/
theorem C73_append (x : Str) (d : Document) (pre rest : List (Str × Str)) (h : parseStr x = .ok d) (hp : Parts x pre rest)
    (h1 : OneRoot (rest.map Prod.snd)) (up : List Element) (e : Element) (he : Above d.root up e)
    (c : Element) (hx : c.xmlns = none) (hc : ∀ p, c.ctx.get p = c.attrs.get (c%"xmlns:" ++ p)) :
    ∃ e' c', e.append (.element c) = .ok e' ∧ Node.element c' ∈ e'.children ∧ c'.tagName = c.tagName ∧
      c'.xmlns = match c.pfx with
        | some p => nearest (c%"xmlns:" ++ p) (c :: e :: up)
        | none => if e.pfx = none then e.xmlns else none := by
  obtain ⟨text, tag, rest', E, F, rfl, -, h3, h4, h5⟩ := accepted_parts h hp
  obtain ⟨g1, g2⟩ := root_rules h3 h1
  have g3 := root_ctx h3 h1
  rw [← h4] at g1 g2 g3
  obtain ⟨-, -, k3⟩ := above_rules g1 g2 g3 he
  obtain ⟨n', hd, ha⟩ := C16_append e (.element c)
  cases n' with
  | element c' =>
    refine ⟨_, c', ha, mem_normalText_nontext (by simp) (by simp), ?_⟩
    obtain ⟨m1, -, -, m4, -, m6⟩ := hd
    refine ⟨by unfold ElementF.tagName; rw [m1, m4], ?_⟩
    rw [m6, hx]
    cases hq : c.pfx with
    | none => simp [givenDefault]
    | some p =>
      obtain ⟨n, cs, a, y, q, cc⟩ := e
      simp only [Option.none_or, hc, nearest_cons]
      exact congrArg _ (k3.1 p)
  | _ => simp [HandedDown] at hd

/-! ## an example -/

/-- prefixes are declared again, hidden, and used from far away; `<f>` does not see the default namespace of `<r>` -/
def nsInput : Str :=
  c%"<r xmlns='u' xmlns:p='v'><a><p:b xmlns:p='w'><p:d/><f/></p:b></a><p:c><e xmlns='y'><g/></e></p:c><k xmlns:xmlns:p='z'><p:m/></k></r>"

/-- its tokens -/
def nsRest : List (Str × Str) := [([], c%"<r xmlns='u' xmlns:p='v'>"), ([], c%"<a>"), ([], c%"<p:b xmlns:p='w'>"), ([], c%"<p:d/>"),
  ([], c%"<f/>"), ([], c%"</p:b>"), ([], c%"</a>"), ([], c%"<p:c>"), ([], c%"<e xmlns='y'>"), ([], c%"<g/>"), ([], c%"</e>"),
  ([], c%"</p:c>"), ([], c%"<k xmlns:xmlns:p='z'>"), ([], c%"<p:m/>"), ([], c%"</k>"), ([], c%"</r>")]

-- it meets the hypotheses
example : Parts nsInput [] nsRest ∧ OneRoot (nsRest.map Prod.snd) := ⟨partsB_sound [] (by decide) rfl, oneRootB_sound (by decide)⟩

example : (match parseStr nsInput with
    | .ok d => (docOrder (.element d.root)).filterMap (fun n => match n with | .element e => some (e.name, e.xmlns) | _ => none)
    | _ => []) = [(c%"r", some c%"u"), (c%"a", some c%"u"), (c%"b", some c%"w"), (c%"d", some c%"w"), (c%"f", none), (c%"c", some c%"v"),
      (c%"e", some c%"y"), (c%"g", some c%"y"), (c%"k", some c%"u"), (c%"m", some c%"z")] := by decide +kernel

-- what `resolved` says of two of them
example : resolved ⟨c%"f", [], .empty, none, none, .empty⟩ [⟨c%"b", [], ⟨[(c%"xmlns:p", c%"w")], by decide⟩, none, some c%"p", .empty⟩,
    ⟨c%"r", [], ⟨[(c%"xmlns", c%"u"), (c%"xmlns:p", c%"v")], by decide⟩, none, none, .empty⟩] = none := by decide
example : resolved ⟨c%"d", [], .empty, none, some c%"p", .empty⟩ [⟨c%"b", [], ⟨[(c%"xmlns:p", c%"w")], by decide⟩, none, some c%"p", .empty⟩,
    ⟨c%"r", [], ⟨[(c%"xmlns", c%"u"), (c%"xmlns:p", c%"v")], by decide⟩, none, none, .empty⟩] = some c%"w" := by decide

-- appending to the inner `<g>`: an unprefixed element gets `y`, a prefixed one what the root declares
example : (match parseStr c%"<r xmlns:p='v'><e xmlns='y'/></r>" with
    | .ok d => d.root.childElements.map (fun e => [(⟨c%"x", [], .empty, none, none, .empty⟩ : Element), ⟨c%"x", [], .empty, none, some c%"p", .empty⟩].map
        fun c => match e.append (.element c) with | .ok e' => e'.childElements.map (·.xmlns) | _ => [])
    | _ => []) = [[[some c%"y"], [some c%"v"]]] := by decide +kernel

end KissXml.Props
