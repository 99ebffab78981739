import Verif.Proofs.Untrusted
import Verif.Props.RoundTrip
import Verif.Proofs.SyntaxCheck
/-!
# C114: texts and values cannot change the structure of what is written
-/
namespace KissXml.Props
open KissXml KissXml.Spec

/-- What is written for a document that can be written is never refused by the parser: it is read, giving a document of the same shape
(names, prefixes, attribute names, comments, CDATA, order), or the parser panics.  No text and no value changes that. -/
theorem C114_shape (d : Document) (h : DocShape d) (i : Str) : parseStr (d.toStringWithIndent i) = .panic ∨
    ∃ d', parseStr (d.toStringWithIndent i) = .ok d' ∧ d'.declaration = d.declaration ∧ d'.dtds = [] ∧
      SameShape (.element d.root) (.element d'.root) := by
  rcases written_or_panic h i with ⟨-, hp⟩ | ⟨-, hp⟩
  · exact .inr ⟨_, hp, rfl, rfl, re_shapeOf none d.root h.nodes⟩
  · exact .inl hp

/-- Putting other texts and values into a document makes no difference: whatever they are (texts must not be blank), what is written is
read back with the shape of the document before, or the parser panics. -/
theorem C114_other (d e : Document) (h : DocShape d) (hs : SameShape (.element d.root) (.element e.root)) (h1 : e.declaration = d.declaration)
    (h2 : e.dtds = []) (ht : ∀ t, Node.text t ∈ docOrder (.element e.root) → ∃ c ∈ t, isWs c = false) (i : Str) :
    parseStr (e.toStringWithIndent i) = .panic ∨ ∃ e', parseStr (e.toStringWithIndent i) = .ok e' ∧
      e'.declaration = d.declaration ∧ e'.dtds = [] ∧ SameShape (.element d.root) (.element e'.root) := by
  rcases C114_shape e (shape_docShape h hs h1 h2 ht) i with hp | ⟨e', g1, g2, g3, g4⟩
  · exact .inl hp
  · exact .inr ⟨e', g1, g2.trans h1, g3, shape_trans hs g4⟩

/-- It panics exactly if there is a text or a value for which unescaping what was written for it panics. -/
theorem C114_panic (d : Document) (h : DocShape d) (i : Str) :
    parseStr (d.toStringWithIndent i) = .panic ↔ ∃ s, Escaped d s ∧ Panics s := by
  rw [← docHas_escaped]
  rcases written_or_panic h i with ⟨hg, hp⟩ | ⟨hg, hp⟩
  · exact ⟨fun h => (by rw [hp] at h; cases h), fun h => absurd hg h⟩
  · exact ⟨fun _ => hg, fun _ => hp⟩

/-- The same from the side of the source: an input with the layout of a document (in the sense of C41), whatever stands in its texts and
between its quotes, is read or makes the parser panic; it is never refused with an error. -/
theorem C114_source (d : CDoc) (h : d.OkFor (fun _ => True) CTag.Laid) : (∃ x, parseStr d.src = .ok x) ∨ parseStr d.src = .panic :=
  read_or_panic h

/-- `<a k='&bogus;'>&#xZZ;<b/>&;</a>`, and the same with `é` at the end of the last text: references that mean nothing -/
def strays (t : Str) : CDoc :=
  ⟨none, [], [], ⟨c%"a", [⟨c%" ", c%"k", [], [], '\'', c%"&bogus;"⟩], []⟩, some (.empty c%"&#xZZ;" ⟨c%"b", [], []⟩ (.done t), []), []⟩

example : (strays c%"&;").src = c%"<a k='&bogus;'>&#xZZ;<b/>&;</a>" := rfl
theorem strays_ok (t : Str) (ht : '<' ∉ t) : (strays t).OkFor (fun _ => True) CTag.Laid := by
  have h : (strays []).OkFor (fun _ => True) CTag.Laid := by
    refine docForB_sound (p := fun _ => true) (l := fun t => layoutB t.attrs && allowedB t) (fun _ _ => trivial) (fun t ht => ?_) (by decide)
    rw [Bool.and_eq_true] at ht
    exact ⟨layoutB_sound ht.1, allowedB_iff.1 ht.2⟩
  refine ⟨⟨h.decl, h.misc, h.sp, h.root, ?_, h.tail⟩, h.declared, h.shown⟩
  rintro c sp hb
  obtain ⟨h1, h2⟩ := h.body (.empty c%"&#xZZ;" ⟨c%"b", [], []⟩ (.done [])) [] rfl
  cases hb
  exact ⟨⟨h1.1, h1.2.1, ht, trivial⟩, h2⟩
example : ∃ x, parseStr (strays c%"&;").src = .ok x :=
  (C114_source _ (strays_ok _ (by decide))).resolve_right (fun h => by
    have : (match parseStr (strays c%"&;").src with | .panic => true | _ => false) = false := by decide +kernel
    rw [h] at this; cases this)
example : parseStr (strays c%"&lt;é").src = .panic := by decide +kernel

/-- an element with a value and a text, an element, and a text -/
def carries (v s t : Str) : Document :=
  ⟨none, [], ⟨c%"r", [.text s, .element ⟨c%"a", [], .empty, none, none, .empty⟩, .text t], SMap.empty.insert c%"k" v, none, none, .empty⟩⟩

theorem carries_docShape : DocShape (carries c%"v" c%"s" c%"t") := shapeB_sound (by decide)
/-- two of them have the same shape -/
theorem carries_shape (v s t v' s' t' : Str) : SameShape (.element (carries v s t).root) (.element (carries v' s' t').root) := by
  refine .element rfl rfl (fun k => ?_) (.cons (.text _ _) (.cons (shape_refl _) (.cons (.text _ _) .nil)))
  simp only [carries, SMap.get_insert]
  split <;> simp

-- markup in texts and values: the shape is the same
example : (∃ d', parseStr ((carries c%"\"/><!--" c%"</r><x/>" c%"<![CDATA[").toStringWithIndent []) = .ok d' ∧
    SameShape (.element (carries c%"v" c%"s" c%"t").root) (.element d'.root)) ∧
    (carries c%"\"/><!--" c%"</r><x/>" c%"<![CDATA[").toStringWithIndent [] =
      c%"<r k=\"&quot;/&gt;&lt;!--\">&lt;/r&gt;&lt;x/&gt;<a/>&lt;![CDATA[</r>\n" := by
  refine ⟨?_, by decide⟩
  have hs := carries_shape c%"v" c%"s" c%"t" c%"\"/><!--" c%"</r><x/>" c%"<![CDATA["
  have ht : ∀ t, Node.text t ∈ docOrder (.element (carries c%"\"/><!--" c%"</r><x/>" c%"<![CDATA[").root) → ∃ c ∈ t, isWs c = false := by
    intro t ht
    simp only [carries, docOrder, docOrderL, List.mem_cons, List.cons_append, List.nil_append, List.not_mem_nil, or_false, reduceCtorEq,
      false_or, Node.text.injEq] at ht
    rcases ht with rfl | rfl <;> exact ⟨'<', by decide, by decide⟩
  rcases C114_other _ _ carries_docShape hs rfl rfl ht [] with hp | ⟨d', h1, -, -, h2⟩
  · have hok : (match parseStr ((carries c%"\"/><!--" c%"</r><x/>" c%"<![CDATA[").toStringWithIndent []) with
      | .panic => true | _ => false) = false := by decide +kernel
    rw [hp] at hok
    cases hok
  · exact ⟨d', h1, h2⟩

-- a text that is read back wrongly, but still as a text
example : DocShape loses ∧ ∃ d', parseStr (loses.toStringWithIndent []) = .ok d' ∧ d'.root.children = [.text c%"&&amp;é"] ∧
    SameShape (.element loses.root) (.element d'.root) :=
  ⟨loses_shape, _, rfl, rfl, .element rfl rfl (fun _ => Iff.rfl) (.cons (.text _ _) .nil)⟩

-- one that makes the parser panic
example : DocShape amp ∧ (∀ i, parseStr (amp.toStringWithIndent i) = .panic) ∧ ∃ s, Escaped amp s ∧ Panics s :=
  ⟨amp_shape, C46_false.2.2.2, (C114_panic amp amp_shape []).1 (C46_false.2.2.2 [])⟩

end KissXml.Props
