import Verif.Proofs.Doctype
import Verif.Proofs.XmlCheck
import Verif.Proofs.SyntaxCheck
import Verif.Proofs.TokenCheck
import Verif.Props.Prolog
/-!
# C116: document type declarations

The grammar of document type declarations is in Verif/Spec/Doctype.lean, after the W3C recommendation.
-/
namespace KissXml.Props
open KissXml KissXml.Spec

/-- C116: a document type declaration with element, attribute list, entity and notation declarations, put before the root element of an
accepted document: the input is accepted, the declaration is kept as it is written, and the rest is read as before.
Missing, see `C116_false`: comments and processing instructions in it with quotes or angle brackets that are not closed inside them. -/
theorem C116_partial {x u w m : Str} {l : List Item} {d : Document} {a b rest : List (Str × Str)} (hm : Doctype m l) (hl : ∀ i ∈ l, NeutralItem i)
    (h : parseStr x = .ok d) (hp : Parts x (a ++ b) rest) (hn : ∀ t ∈ b, ¬ c%"<?xml" <+: t.2) (hw : AllWs w) (hx : x = srcOf a ++ u) :
    ∃ l r, d.dtds = l ++ r ∧ l.length = (tagsWith c%"<!DOCTYPE" a).length ∧
      parseStr (srcOf a ++ w ++ c%"<!DOCTYPE" ++ m ++ c%">" ++ u) = .ok (d.setDoctypeDefs (some (l ++ ⟨m⟩ :: r))) :=
  C110_doctype h hp hn hw (tagAt_doctype.2 (neutral_doctype hm hl)) hx

/-- C116: a document of XML with a document type declaration is read: the declaration is kept as it is written, and the rest is what it
is to every reader of XML that does not read the document type.
Missing, see `C116_false`, `C71_false`: comments and processing instructions in the declaration with quotes or angle brackets that are not
closed inside them, and for the rest what is missing in `C71_partial`. -/
theorem C116_document_partial {x dec m e n : Str} {l before i : List Item} {as : List (Str × Str)} (hx : DtDocument true x dec m l before e n as i [])
    (hl : ∀ i ∈ l, NeutralItem i) (hn : Nice e) (hb : ∀ p ∈ before, ∃ c, p = .comment c ∧ EasyComment c)
    (hf : ∀ c r, before = .comment c :: r → ¬ NoCut (c%"<!--" ++ c ++ c%"-->"))
    (he : EasyItem (.elem n as i)) (hp : ∀ p l, n = p ++ ':' :: l → ':' ∉ p → c%"xmlns:" ++ p ∈ as.map Prod.fst) :
    ∃ d, parseStr x = .ok d ∧ d.dtds = [⟨m⟩] ∧ dec = (match d.declaration with | none => [] | some x => x.display) ∧
      Taken [.elem n as i] [.element d.root] := by
  refine read_doctype hx ?_ hn hb hf he hp
  obtain ⟨m1, m2, m3, b1, b2, -, -, hm, -⟩ := hx
  exact neutral_doctype hm hl

/-- C116: what documents can have as document type: exactly the strings in which quotes and angle brackets are closed. -/
theorem C116_exact (m : Str) : (∃ x d, parseStr x = .ok d ∧ ⟨m⟩ ∈ d.dtds) ↔ Neutral m := by
  refine ⟨fun ⟨x, d, h, hm⟩ => dtds_neutral h hm, fun h => ?_⟩
  obtain ⟨l, r, -, -, hd⟩ := C110_doctype (x := c%"<a/>") (u := c%"<a/>") (w := []) (a := []) (b := []) (d := ⟨_, _, _⟩) rfl
    (partsB_sound (pre := []) (rest := [([], c%"<a/>")]) [] (by decide) rfl) (by simp) (by simp [AllWs]) (tagAt_doctype.2 h) rfl
  exact ⟨_, _, hd, by simp [Document.setDoctypeDefs]⟩

/-- C116: a document type declaration at the beginning of an accepted document is kept exactly if quotes and angle brackets are closed in it. -/
theorem C116_kept {x m : Str} {d : Document} (h : parseStr x = .ok d) (hn : ¬ c%"<?xml" <:+: x) :
    parseStr (c%"<!DOCTYPE" ++ m ++ c%">" ++ x) = .ok (d.setDoctypeDefs (some (⟨m⟩ :: d.dtds))) ↔ Neutral m := by
  refine ⟨fun h => dtds_neutral h (D := ⟨m⟩) (by simp [Document.setDoctypeDefs]), fun hm => ?_⟩
  obtain ⟨pre, text, tag, rest, E, F, hp, -⟩ := accepted h
  have hno : ∀ t ∈ pre, ¬ c%"<?xml" <+: t.2 := by
    intro t ht hx
    refine hn (hx.isInfix.trans ?_)
    obtain ⟨tail, hl⟩ := hp.lexes
    obtain ⟨v, hv, -⟩ := lexes_cut hl
    obtain ⟨s, t', rfl⟩ := List.append_of_mem ht
    rw [hv, srcOf_append, srcOf_cons]
    exact ⟨srcOf s ++ t.1, srcOf t' ++ v, by simp⟩
  obtain ⟨l, r, h1, h2, h3⟩ := C110_doctype (u := x) (w := []) (m := m) (a := []) (b := pre) h hp hno (by simp [AllWs]) (tagAt_doctype.2 hm) rfl
  rw [List.length_eq_zero_iff.1 (h2.trans rfl)] at h1 h3
  rw [h1]
  simpa [srcOf] using h3

/-! ## examples -/

theorem many_of {p : Char → Prop} {l : List Lang} {s : Str} (h : ∀ c ∈ s, p c) : Many (anyOf (oneChar p :: l)) s := by
  induction s with
  | nil => exact .nil
  | cons c s ih => exact .cons (a := [c]) ⟨_, List.mem_cons_self .., c, h c (List.mem_cons_self ..), rfl⟩ (ih fun x hx => h x (List.mem_cons_of_mem _ hx))

theorem many_chars {p : Char → Prop} {s : Str} (h : ∀ c ∈ s, p c) : Many (oneChar p) s := by
  induction s with
  | nil => exact .nil
  | cons c s ih => exact .cons (a := [c]) ⟨c, h c (List.mem_cons_self ..), rfl⟩ (ih fun x hx => h x (List.mem_cons_of_mem _ hx))

instance (s : Str) : Decidable (dtSpaces s) := inferInstanceAs (Decidable (XSpace s))

/-- ` a SYSTEM "x>" [ … ] ` -/
def dtExample : Str := c%" a SYSTEM \"x>\" [<!ELEMENT a (b?|c)*>\n<!ENTITY e '<\"&lt;'><!ATTLIST a k (1|2) #FIXED \">\"><!--k--><?p <q r='>'>?>%z;]\n"

theorem dtExample_ok : Doctype dtExample [.comment c%"k", .pi c%"p" c%"<q r='>'>"] := by
  refine ⟨c%" a SYSTEM \"x>\" ",
    c%"[<!ELEMENT a (b?|c)*>\n<!ENTITY e '<\"&lt;'><!ATTLIST a k (1|2) #FIXED \">\"><!--k--><?p <q r='>'>?>%z;]\n", ?_, .inr ⟨
    c%"<!ELEMENT a (b?|c)*>\n<!ENTITY e '<\"&lt;'><!ATTLIST a k (1|2) #FIXED \">\"><!--k--><?p <q r='>'>?>%z;", c%"\n", ?_, by decide, rfl⟩, rfl⟩
  · refine ⟨c%" ", _, ⟨by decide, by decide⟩, ⟨c%"a", _, plainNameB_sound (by decide), ⟨c%" SYSTEM \"x>\"", _, .inr ?_, ⟨c%" ", [], by decide, rfl, rfl⟩, rfl⟩, rfl⟩, rfl⟩
    refine ⟨c%" ", _, ⟨by decide, by decide⟩, ⟨_, [], ⟨_, List.mem_cons_self .., ⟨c%"SYSTEM", _, rfl, ⟨c%" ", _, ⟨by decide, by decide⟩, ⟨c%"\"x>\"", [], ?_, rfl, rfl⟩, rfl⟩, rfl⟩⟩, rfl, rfl⟩, rfl⟩
    exact ⟨_, List.mem_cons_self .., c%"\"", _, rfl, ⟨c%"x>", _, many_chars (by decide), ⟨c%"\"", [], rfl, rfl, rfl⟩, rfl⟩, rfl⟩
  · refine .other (a := c%"<!ELEMENT a (b?|c)*>") ⟨dtElement, by simp, ?_⟩ (.other (a := c%"\n") ⟨dtSpace, by simp, by decide, by decide⟩
      (.other (a := c%"<!ENTITY e '<\"&lt;'>") ⟨dtEntity, by simp, ?_⟩ (.other (a := c%"<!ATTLIST a k (1|2) #FIXED \">\">") ⟨dtAttlist, by simp, ?_⟩
      (.comment (c := c%"k") (xcommentB_sound (d := false) (by decide)) (.pi (n := c%"p") (d := c%"<q r='>'>") (s := c%"<?p <q r='>'>?>")
      ⟨⟨plainNameB_sound (by decide), by rintro a b c ⟨⟩⟩, by decide, by decide, .inr ⟨c%" ", by decide, by decide, rfl⟩⟩
      (.other (a := c%"%z;") (r := []) ⟨dtPe, by simp, ⟨c%"%", _, rfl, ⟨c%"z", _, plainNameB_sound (by decide), ⟨c%";", [], rfl, rfl, rfl⟩, rfl⟩, rfl⟩⟩ .nil))))))
    · refine ⟨c%"<!ELEMENT", _, rfl, ⟨c%" ", _, ⟨by decide, by decide⟩, ⟨c%"a", _, plainNameB_sound (by decide), ⟨c%" ", _, ⟨by decide, by decide⟩,
        ⟨c%"(b?|c)*", _, ⟨inOrder [DtGroup, dtTimes], by simp, c%"(b?|c)", _, ?_, ⟨c%"*", [], .inr ⟨word c%"*", by simp, rfl⟩, rfl, rfl⟩, rfl⟩, ⟨[], _, by decide,
        ⟨c%">", [], rfl, rfl, rfl⟩, rfl⟩, rfl⟩, rfl⟩, rfl⟩, rfl⟩, rfl⟩
      exact .choice (w := []) (a := c%"b?") (r := c%"|c") (v := []) (by decide) (.name (n := c%"b") (t := c%"?") (plainNameB_sound (by decide)) (.inr ⟨word c%"?", by simp, rfl⟩))
        (.cons (w := []) (v := []) (a := c%"c") (r := []) (by decide) (by decide) (.name (n := c%"c") (t := []) (plainNameB_sound (by decide)) (.inl rfl)) .nil) (by decide) (by decide)
    · refine ⟨_, List.mem_cons_self .., c%"<!ENTITY", _, rfl, ⟨c%" ", _, ⟨by decide, by decide⟩, ⟨c%"e", _, plainNameB_sound (by decide), ⟨c%" ", _, ⟨by decide, by decide⟩,
        ⟨c%"'<\"&lt;'", _, ⟨_, List.mem_cons_self .., ?_⟩, ⟨[], _, by decide, ⟨c%">", [], rfl, rfl, rfl⟩, rfl⟩, rfl⟩, rfl⟩, rfl⟩, rfl⟩, rfl⟩
      refine ⟨_, List.mem_cons_of_mem _ (List.mem_cons_self ..), c%"'", _, rfl, ⟨c%"<\"&lt;", _, ?_, ⟨c%"'", [], rfl, rfl, rfl⟩, rfl⟩, rfl⟩
      refine .cons (a := c%"<") ⟨_, List.mem_cons_self .., '<', by decide, rfl⟩ (.cons (a := c%"\"") ⟨_, List.mem_cons_self .., '"', by decide, rfl⟩
        (.cons (a := c%"&lt;") (s := []) ⟨dtRef, by simp, ?_⟩ .nil))
      exact ⟨_, List.mem_cons_self .., c%"&", _, rfl, ⟨c%"lt", _, plainNameB_sound (by decide), ⟨c%";", [], rfl, rfl, rfl⟩, rfl⟩, rfl⟩
    · refine ⟨c%"<!ATTLIST", _, rfl, ⟨c%" ", _, ⟨by decide, by decide⟩, ⟨c%"a", _, plainNameB_sound (by decide),
        ⟨c%" k (1|2) #FIXED \">\"", _, .cons (a := c%" k (1|2) #FIXED \">\"") (s := []) ?_ .nil, ⟨[], _, by decide, ⟨c%">", [], rfl, rfl, rfl⟩, rfl⟩, rfl⟩, rfl⟩, rfl⟩, rfl⟩
      refine ⟨c%" ", _, ⟨by decide, by decide⟩, ⟨c%"k", _, plainNameB_sound (by decide), ⟨c%" ", _, ⟨by decide, by decide⟩, ⟨c%"(1|2)", _, ?_, ⟨c%" ", _, ⟨by decide, by decide⟩,
        ⟨c%"#FIXED \">\"", [], ?_, rfl, rfl⟩, rfl⟩, rfl⟩, rfl⟩, rfl⟩, rfl⟩
      · refine ⟨inOrder [word c%"(", dtSpaces, dtToken, Many (inOrder [dtSpaces, word c%"|", dtSpaces, dtToken]), dtSpaces, word c%")"], by simp, c%"(", _, rfl, ⟨[], _, by decide, ⟨c%"1", _, ⟨by decide, by decide⟩, ⟨c%"|2", _, .cons (a := c%"|2") (s := []) ?_ .nil, ⟨[], _, by decide,
          ⟨c%")", [], rfl, rfl, rfl⟩, rfl⟩, rfl⟩, rfl⟩, rfl⟩, rfl⟩
        exact ⟨[], _, by decide, ⟨c%"|", _, rfl, ⟨[], _, by decide, ⟨c%"2", [], ⟨by decide, by decide⟩, rfl, rfl⟩, rfl⟩, rfl⟩, rfl⟩
      · refine ⟨_, List.mem_cons_of_mem _ (List.mem_cons_of_mem _ (List.mem_cons_self ..)), c%"#FIXED ", _,
          .inr ⟨c%"#FIXED", _, rfl, ⟨c%" ", [], ⟨by decide, by decide⟩, rfl, rfl⟩, rfl⟩, ⟨c%"\">\"", [], ?_, rfl, rfl⟩, rfl⟩
        exact ⟨_, List.mem_cons_self .., c%"\"", _, rfl, ⟨c%">", _, many_of (by decide), ⟨c%"\"", [], rfl, rfl, rfl⟩, rfl⟩, rfl⟩

/-- the comment and the processing instruction have no effect -/
theorem dtExample_neutral : ∀ i ∈ [Item.comment c%"k", .pi c%"p" c%"<q r='>'>"], NeutralItem i := by
  intro i hi
  simp only [List.mem_cons, List.not_mem_nil, or_false] at hi
  rcases hi with rfl | rfl
  · exact neutral_calm (by decide)
  · exact neutral_angles (s := c%"q r='>'") (neutral_app (s := c%"q r=") (neutral_calm (by decide)) (neutral_quoted (q := '\'') (s := c%">") (.inr rfl) (by decide)))

example : parseStr (c%"<?xml 1?> <!DOCTYPE a>" ++ c%" <!DOCTYPE" ++ dtExample ++ c%">" ++ c%"<!--k-->\n<r>t</r>") =
    .ok ⟨some ⟨c%"xml 1"⟩, [⟨c%" a"⟩, ⟨dtExample⟩], ⟨c%"r", [.text c%"t"], .empty, none, none, .empty⟩⟩ := by
  obtain ⟨l, r, h1, h2, h3⟩ := C116_partial (x := c%"<?xml 1?> <!DOCTYPE a><!--k-->\n<r>t</r>") (w := c%" ") (u := c%"<!--k-->\n<r>t</r>")
    (d := ⟨some ⟨c%"xml 1"⟩, [⟨c%" a"⟩], ⟨c%"r", [.text c%"t"], .empty, none, none, .empty⟩⟩)
    (a := [([], c%"<?xml 1?>"), (c%" ", c%"<!DOCTYPE a>")]) (b := [([], c%"<!--k-->")]) (rest := [(c%"\n", c%"<r>"), (c%"t", c%"</r>")]) dtExample_ok dtExample_neutral rfl
    (partsB_sound [] (by decide) rfl) (by decide) (by decide) rfl
  obtain ⟨D, l', rfl, hl⟩ := List.length_eq_succ_iff.1 (h2.trans (show _ = 0 + 1 from rfl))
  rw [List.length_eq_zero_iff.1 hl] at h1 h3
  obtain ⟨rfl, rfl⟩ : D = ⟨c%" a"⟩ ∧ r = [] := by simpa [eq_comm] using h1
  exact h3

example : ∃ d, parseStr (c%"<?xml version='1.0'?>\n<!DOCTYPE" ++ dtExample ++ c%"><a k='1'>6 &gt; 5<b/></a>\n") = .ok d ∧ d.dtds = [⟨dtExample⟩] ∧
    c%"<?xml version='1.0'?>" = (match d.declaration with | none => [] | some x => x.display) ∧
    Taken [.elem c%"a" [(c%"k", c%"1")] [.text c%"6 > 5", .elem c%"b" [] []]] [.element d.root] := by
  refine C116_document_partial (e := c%"<a k='1'>6 &gt; 5<b/></a>") (l := [.comment c%"k", .pi c%"p" c%"<q r='>'>"]) (before := []) ?_ dtExample_neutral ⟨by decide, by decide⟩
    (by simp) (by simp) ?_ (fun p l h hp => ?_)
  · refine ⟨c%"\n", [], c%"\n", [], [], .inr ?_, .space (w := c%"\n") (by decide) .nil, dtExample_ok, .nil, ?_, .space (w := c%"\n") (by decide) .nil, rfl, by simp⟩
    · refine ⟨c%" version='1.0'", [], [], [], ⟨c%"1.0", ⟨c%"0", rfl, by decide, by decide⟩, ?_⟩, .inl rfl, .inl rfl, by decide, rfl⟩
      exact ⟨c%" ", [], [], '\'', by decide, by decide, by decide, by decide, .inr rfl, rfl⟩
    · refine XPiece.elem (n := c%"a") (s := c%"a k='1'") (c := c%"6 &gt; 5<b/>") (w := []) ?_ ?_ (by decide)
      · refine ⟨c%" k='1'", [], plainNameB_sound (by decide), ?_, by decide, by decide, rfl⟩
        exact XAttrs.cons (w := c%" ") (k := c%"k") (e1 := []) (e2 := []) (raw := c%"1") (q := '\'') (r := []) (by decide) (by decide) (plainNameB_sound (by decide)) (by decide)
          (by decide) (by simp) (.inr rfl) (.char (by decide) (by decide) (by decide) (by decide) .nil) .nil
      · refine XContent.more (s := c%"6 &gt; 5") (p := c%"<b/>") (l := [.text c%"6 > 5"]) (r := []) ⟨by decide, c%"6 > 5", ?_, .inr ⟨by decide, rfl⟩⟩
            (.empty (s := c%"b") ⟨[], [], plainNameB_sound (by decide), .nil, by decide, by decide, rfl⟩) (.last ⟨by decide, [], .nil, .inl ⟨rfl, rfl⟩⟩)
        exact .char (by decide) (by decide) (by decide) (.char (by decide) (by decide) (by decide) (.ref (.entity .gt) (.char (by decide) (by decide) (by decide)
          (.char (by decide) (by decide) (by decide) .nil))))
  · refine ⟨elemNameB_sound (by decide), ?_, ?_⟩
    · intro kv hkv
      simp only [List.mem_cons, List.not_mem_nil, or_false] at hkv
      subst hkv
      exact ⟨validName_iff.1 (by decide), .inl (by rintro c ⟨⟩; decide)⟩
    · exact ⟨.inl (by rintro c ⟨⟩; decide), ⟨elemNameB_sound (by decide), by simp, trivial⟩, trivial⟩
  · have : ':' ∈ c%"a" := by rw [h]; simp
    exact absurd this (by decide)

example : Neutral c%" any 'thi>ng' <goes>" ∧ ¬ Neutral c%" a>" ∧ ¬ Neutral c%" don't" ∧ ¬ Neutral c%" ><" := by
  refine ⟨?_, fun h => ?_, fun h => ?_, fun h => ?_⟩
  · exact neutral_app (s := c%" any 'thi>ng' ") (t := c%"<goes>") (neutral_app (s := c%" any 'thi>ng'") (neutral_app (s := c%" any ") (neutral_calm (by decide))
      (neutral_quoted (q := '\'') (s := c%"thi>ng") (.inr rfl) (by decide))) (neutral_calm (by decide))) (neutral_angles (s := c%"goes") (neutral_calm (by decide)))
  · exact absurd h.closed (by decide)
  · exact absurd h.quotes (by decide)
  · exact absurd (h.order c%" >" (by decide)) (by decide)

example : (∃ x d, parseStr x = .ok d ∧ ⟨dtExample⟩ ∈ d.dtds) ∧ ¬ ∃ x d, parseStr x = .ok d ∧ ⟨c%" a>"⟩ ∈ d.dtds :=
  ⟨(C116_exact _).2 (neutral_doctype dtExample_ok dtExample_neutral), fun h => absurd ((C116_exact _).1 h).closed (by decide)⟩

/-- `<!DOCTYPE …><!--j--><r/>` -/
example : parseStr (c%"<!DOCTYPE" ++ dtExample ++ c%">" ++ c%"<!--j--><r/>") = .ok ⟨none, [⟨dtExample⟩], ⟨c%"r", [], .empty, none, none, .empty⟩⟩ :=
  (C116_kept (x := c%"<!--j--><r/>") (d := ⟨none, [], ⟨c%"r", [], .empty, none, none, .empty⟩⟩) rfl (by decide)).2 (neutral_doctype dtExample_ok dtExample_neutral)

/-! ## counterexamples -/

theorem small_root {tight : Bool} : XPiece tight c%"<a/>" (.elem c%"a" [] []) :=
  .empty (s := c%"a") ⟨[], [], plainNameB_sound (by decide), .nil, by decide, by decide, rfl⟩

theorem small_doctype {s : Str} {l : List Item} (h : DtSubset s l) : Doctype (c%" a [" ++ s ++ c%"]") l := by
  refine ⟨c%" a ", c%"[" ++ s ++ c%"]" ++ [], ?_, .inr ⟨s, [], h, by decide, rfl⟩, by simp⟩
  exact ⟨c%" ", _, ⟨by decide, by decide⟩, ⟨c%"a", _, plainNameB_sound (by decide), ⟨[], _, .inl rfl, ⟨c%" ", [], by decide, rfl, rfl⟩, rfl⟩, rfl⟩, rfl⟩

/-- C116 is false: documents that follow the grammar of XML and are rejected, because of an apostrophe or a `>` in a comment inside the
document type declaration. -/
theorem C116_false : ∀ x ∈ [c%"<!DOCTYPE a [<!-- don't -->]><a/>", c%"<!DOCTYPE a [<!-- a -> b -->]><a/>"], DtWellFormed x ∧ ∀ d, parseStr x ≠ .ok d := by
  intro x hx
  have hr : ∀ d, parseStr x ≠ .ok d := by
    intro d hd
    have : ∀ x ∈ [c%"<!DOCTYPE a [<!-- don't -->]><a/>", c%"<!DOCTYPE a [<!-- a -> b -->]><a/>"],
        (match parseStr x with | .ok _ => false | _ => true) = true := by decide +kernel
    have := this x hx
    rw [hd] at this
    cases this
  refine ⟨?_, hr⟩
  simp only [List.mem_cons, List.not_mem_nil, or_false] at hx
  rcases hx with rfl | rfl
  · exact ⟨[], _, _, _, _, _, _, _, _, [], [], [], [], [], .inl rfl, .nil,
      small_doctype (.comment (c := c%" don't ") (r := []) (xcommentB_sound (d := false) (by decide)) .nil), .nil, small_root, .nil, rfl, rfl⟩
  · exact ⟨[], _, _, _, _, _, _, _, _, [], [], [], [], [], .inl rfl, .nil,
      small_doctype (.comment (c := c%" a -> b ") (r := []) (xcommentB_sound (d := false) (by decide)) .nil), .nil, small_root, .nil, rfl, rfl⟩

/-- C116 is false: a document that follows the grammar of XML and is read with another document type.  Because of a `<` in a comment the
library does not see its end, and takes the comment after it as part of it. -/
theorem C116_false_swallow : DtDocument true c%"<!DOCTYPE a [<!--<-->]><!-- > --><a/>" [] c%" a [<!--<-->]" [.comment c%"<"] [.comment c%" > "] c%"<a/>" c%"a" [] [] [] ∧
    ∃ d, parseStr c%"<!DOCTYPE a [<!--<-->]><!-- > --><a/>" = .ok d ∧ d.dtds = [⟨c%" a [<!--<-->]><!-- > --"⟩] :=
  ⟨⟨[], c%"<!-- > -->", [], [], _, .inl rfl, .nil, small_doctype (.comment (c := c%"<") (r := []) (xcommentB_sound (d := false) (by decide)) .nil),
    .comment (c := c%" > ") (xcommentB_sound (d := false) (by decide)) .nil, small_root, .nil, rfl, rfl⟩, ⟨_, rfl, rfl⟩⟩

/-- C116 is false: a document that follows the grammar of XML and is read with another root element.  Its root has a CDATA section as only
content; because of an apostrophe in a processing instruction in the document type, the library takes a part of that section as markup. -/
theorem C116_false_root : DtDocument true c%"<!DOCTYPE a [<?p '?>]><a><![CDATA['>><a><b/>]]></a>" [] c%" a [<?p '?>]" [.pi c%"p" c%"'"] []
      c%"<a><![CDATA['>><a><b/>]]></a>" c%"a" [] [.cdata c%"'>><a><b/>"] [] ∧
    ∃ d, parseStr c%"<!DOCTYPE a [<?p '?>]><a><![CDATA['>><a><b/>]]></a>" = .ok d ∧
      d.root.children = [.element ⟨c%"b", [], .empty, none, none, .empty⟩, .text c%"]]>"] := by
  refine ⟨⟨[], [], [], [], [], .inl rfl, .nil, small_doctype (.pi (n := c%"p") (d := c%"'") (s := c%"<?p '?>") (r := []) ?_ .nil), .nil, ?_, .nil, rfl, rfl⟩, ⟨_, rfl, rfl⟩⟩
  · exact ⟨⟨plainNameB_sound (by decide), by rintro a b c ⟨⟩⟩, by decide, by decide, .inr ⟨c%" ", by decide, by decide, rfl⟩⟩
  · refine .elem (n := c%"a") (s := c%"a") (c := c%"<![CDATA['>><a><b/>]]>") (w := []) ⟨[], [], plainNameB_sound (by decide), .nil, by decide, by decide, rfl⟩ ?_ (by decide)
    exact .more (s := []) (l := []) (p := c%"<![CDATA['>><a><b/>]]>") (r := []) (m := []) ⟨by decide, [], .nil, .inl ⟨rfl, rfl⟩⟩ (.cdata (s := c%"'>><a><b/>") ⟨by decide, by decide⟩)
      (.last ⟨by decide, [], .nil, .inl ⟨rfl, rfl⟩⟩)

end KissXml.Props
