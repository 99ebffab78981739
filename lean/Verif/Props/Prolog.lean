import Verif.Proofs.Prolog
import Verif.Proofs.TokenCheck
/-!
# C110: what stands before the root element
-/
namespace KissXml.Props
open Spec

/-- C110: an input is accepted exactly if what stands before the root element is fine and the rest is accepted alone.  The declaration and
the document types are those in the first part, the root element is that of the second part. -/
theorem C110_exact {x u : Str} {pre rest : List (Str × Str)} (hp : Parts x pre rest) (hx : x = srcOf pre ++ u) (d : Document) :
    parseStr x = .ok d ↔ PrologFine pre ∧ PrologGives pre d.declaration d.dtds ∧ parseStr u = .ok ⟨none, [], d.root⟩ := parse_prolog hp hx

/-- C110: the parts before the root elements of two accepted documents can be exchanged. -/
theorem C110_swap {x u y v : Str} {d e : Document} {pre rest pre' rest' : List (Str × Str)} (hx : parseStr x = .ok d) (hp : Parts x pre rest)
    (hu : x = srcOf pre ++ u) (hy : parseStr y = .ok e) (hq : Parts y pre' rest') (hv : y = srcOf pre' ++ v) :
    parseStr (srcOf pre' ++ u) = .ok ((d.setDeclaration e.declaration).setDoctypeDefs (some e.dtds)) := by
  obtain ⟨hf, hg, -⟩ := (parse_prolog hq hv).1 hy
  exact parse_new_prolog (d := d) hx hp hu (parts_toks hq) hq.prolog hf hg

/-- C110: a declaration put before an accepted document that has none -/
theorem C110_declaration {x w m : Str} {d : Document} {pre rest : List (Str × Str)} (h : parseStr x = .ok d) (hp : Parts x pre rest)
    (hn : ∀ t ∈ pre, ¬ c%"<?xml" <+: t.2) (hw : AllWs w) (hm : c%"xml" <+: m) (hT : TagAt (c%"<?" ++ m ++ c%"?>") (c%"<?" ++ m ++ c%"?>")) :
    parseStr (w ++ c%"<?" ++ m ++ c%"?>" ++ x) = .ok (d.setDeclaration (some ⟨m⟩)) := by
  obtain ⟨tail, hl⟩ := hp.lexes
  obtain ⟨u, hx, -⟩ := lexes_cut hl
  obtain ⟨hf, hg, -⟩ := (parse_prolog hp hx).1 h
  have hpx : c%"<?xml" <+: c%"<?" ++ m ++ c%"?>" := by obtain ⟨u, rfl⟩ := hm; exact ⟨u ++ c%"?>", by simp⟩
  have := parse_new_prolog (pre' := (w, c%"<?" ++ m ++ c%"?>") :: pre) (D := some ⟨m⟩) (ds := d.dtds) h hp hx ?_ ?_ ?_ ?_
  · rw [srcOf_cons] at this
    rw [hx]
    simpa [Document.setDeclaration] using this
  · intro t ht
    rcases List.mem_cons.1 ht with rfl | ht
    · exact ⟨blank_no_lt hw, hT⟩
    · exact parts_toks hp t ht
  · intro t ht
    rcases List.mem_cons.1 ht with rfl | ht
    · exact .inl hpx
    · exact hp.prolog t ht
  · exact fine_in (a := []) hf hw hn (fun _ => rfl) (by rintro ⟨u, hu⟩; simp at hu)
  · refine ⟨?_, ?_⟩
    · rw [tagsWith_pos hpx, tagsWith_nil hn]; rfl
    · rw [tagsWith_neg (by rintro ⟨u, hu⟩; simp at hu)]
      exact hg.dtds

/-- C110: the declaration taken out of an accepted document -/
theorem C110_declaration_out {x y text tag : Str} {d : Document} {pre rest : List (Str × Str)} (h : parseStr x = .ok d)
    (hp : Parts x ((text, tag) :: pre) rest) (ht : c%"<?xml" <+: tag) (hn : ∀ t ∈ pre, ¬ c%"<?xml" <+: t.2) (hy : x = text ++ tag ++ y) :
    d.declaration.map (fun D => c%"<?" ++ D.declStr ++ c%"?>") = some tag ∧ parseStr y = .ok (d.setDeclaration none) := by
  obtain ⟨tail, hl⟩ := hp.lexes
  obtain ⟨u, hx, -⟩ := lexes_cut hl
  obtain ⟨hf, hg, -⟩ := (parse_prolog hp hx).1 h
  obtain ⟨g1, g2⟩ := hg
  rw [tagsWith_pos ht, tagsWith_nil hn] at g1
  refine ⟨g1, ?_⟩
  have := parse_new_prolog (pre' := pre) (D := none) (ds := d.dtds) h hp hx (fun t ht => parts_toks hp t (List.mem_cons_of_mem _ ht))
    (fun t ht => hp.prolog t (List.mem_cons_of_mem _ ht))
    (fine_out (a := []) hf (by obtain ⟨v, rfl⟩ := ht; rintro ⟨u, hu⟩; simp at hu)) ⟨?_, ?_⟩
  · rw [srcOf_cons, List.append_assoc (text ++ tag)] at hx
    rwa [← List.append_cancel_left (hy.symm.trans hx)] at this
  · rw [tagsWith_nil hn]; rfl
  · rwa [tagsWith_neg (by obtain ⟨v, rfl⟩ := ht; rintro ⟨u, hu⟩; simp at hu)] at g2

/-- C110: a document type put before the root element of an accepted document, after the declarations -/
theorem C110_doctype {x u w m : Str} {d : Document} {a b rest : List (Str × Str)} (h : parseStr x = .ok d) (hp : Parts x (a ++ b) rest)
    (hn : ∀ t ∈ b, ¬ c%"<?xml" <+: t.2) (hw : AllWs w) (hT : TagAt (c%"<!DOCTYPE" ++ m ++ c%">") (c%"<!DOCTYPE" ++ m ++ c%">"))
    (hx : x = srcOf a ++ u) :
    ∃ l r, d.dtds = l ++ r ∧ l.length = (tagsWith c%"<!DOCTYPE" a).length ∧
      parseStr (srcOf a ++ w ++ c%"<!DOCTYPE" ++ m ++ c%">" ++ u) = .ok (d.setDoctypeDefs (some (l ++ ⟨m⟩ :: r))) := by
  obtain ⟨tail, hl⟩ := hp.lexes
  obtain ⟨u', hx', -⟩ := lexes_cut hl
  obtain ⟨hf, hg, -⟩ := (parse_prolog hp hx').1 h
  have hpx : c%"<!DOCTYPE" <+: c%"<!DOCTYPE" ++ m ++ c%">" := ⟨m ++ c%">", by simp⟩
  obtain ⟨g1, g2⟩ := hg
  rw [tagsWith_append] at g1 g2
  obtain ⟨l, r, h1, h2, h3⟩ := map_split g2
  refine ⟨l, r, h1, by rw [← h2]; simp, ?_⟩
  have := parse_new_prolog (pre' := a ++ (w, c%"<!DOCTYPE" ++ m ++ c%">") :: b) (D := d.declaration) (ds := l ++ ⟨m⟩ :: r) h hp hx' ?_ ?_ ?_ ?_
  · have hu : u = srcOf b ++ u' := by
      rw [srcOf_append, List.append_assoc] at hx'
      exact List.append_cancel_left (hx.symm.trans hx')
    rw [srcOf_append, srcOf_cons] at this
    rw [hu]
    simpa [Document.setDoctypeDefs] using this
  · intro t ht
    rcases List.mem_append.1 ht with ht | ht
    · exact parts_toks hp t (List.mem_append_left _ ht)
    rcases List.mem_cons.1 ht with rfl | ht
    · exact ⟨blank_no_lt hw, hT⟩
    · exact parts_toks hp t (List.mem_append_right _ ht)
  · intro t ht
    rcases List.mem_append.1 ht with ht | ht
    · exact hp.prolog t (List.mem_append_left _ ht)
    rcases List.mem_cons.1 ht with rfl | ht
    · exact .inr (List.IsPrefix.trans ⟨c%"DOCTYPE", rfl⟩ hpx)
    · exact hp.prolog t (List.mem_append_right _ ht)
  · exact fine_in hf hw hn (by rintro ⟨u, hu⟩; simp at hu) (by rintro ⟨u, hu⟩; simp at hu)
  · refine ⟨?_, ?_⟩
    · rw [tagsWith_append, tagsWith_neg (by rintro ⟨u, hu⟩; simp at hu)]
      exact g1
    · rw [tagsWith_append, tagsWith_pos hpx, List.map_append, List.map_cons, h2, h3]

/-- C110: a document type taken out of an accepted document -/
theorem C110_doctype_out {x u text tag : Str} {d : Document} {a b rest : List (Str × Str)} (h : parseStr x = .ok d)
    (hp : Parts x (a ++ (text, tag) :: b) rest) (ht : c%"<!DOCTYPE" <+: tag) (hx : x = srcOf a ++ text ++ tag ++ u) :
    ∃ l D r, d.dtds = l ++ D :: r ∧ l.length = (tagsWith c%"<!DOCTYPE" a).length ∧ tag = c%"<!DOCTYPE" ++ D.dtdStr ++ c%">" ∧
      parseStr (srcOf a ++ u) = .ok (d.setDoctypeDefs (some (l ++ r))) := by
  obtain ⟨tail, hl⟩ := hp.lexes
  obtain ⟨u', hx', -⟩ := lexes_cut hl
  obtain ⟨hf, hg, -⟩ := (parse_prolog hp hx').1 h
  have hnx : ¬ c%"<?xml" <+: tag := by obtain ⟨v, rfl⟩ := ht; rintro ⟨u, hu⟩; simp at hu
  have hnc : ¬ c%"<!--" <+: tag := by obtain ⟨v, rfl⟩ := ht; rintro ⟨u, hu⟩; simp at hu
  obtain ⟨g1, g2⟩ := hg
  rw [tagsWith_append, tagsWith_neg hnx, ← tagsWith_append] at g1
  rw [tagsWith_append, tagsWith_pos ht] at g2
  obtain ⟨l, r, h1, h2, h3⟩ := map_split g2
  cases r with
  | nil => cases h3
  | cons D r =>
    simp only [List.map_cons, List.cons.injEq] at h3
    refine ⟨l, D, r, h1, by rw [← h2]; simp, h3.1.symm, ?_⟩
    have := parse_new_prolog (pre' := a ++ b) (D := d.declaration) (ds := l ++ r) h hp hx' ?_ ?_
      (fine_out hf (fun h => absurd h hnc)) ⟨g1, by rw [tagsWith_append, List.map_append, h2, h3.2]⟩
    · have hu : u = srcOf b ++ u' := by
        rw [srcOf_append, srcOf_cons] at hx'
        have := hx.symm.trans hx'
        simp only [List.append_assoc] at this
        exact List.append_cancel_left (List.append_cancel_left (List.append_cancel_left this))
      rw [srcOf_append] at this
      rw [hu]
      simpa [Document.setDoctypeDefs] using this
    all_goals
      intro t ht
      rcases List.mem_append.1 ht with ht | ht
    · exact parts_toks hp t (List.mem_append_left _ ht)
    · exact parts_toks hp t (List.mem_append_right _ (List.mem_cons_of_mem _ ht))
    · exact hp.prolog t (List.mem_append_left _ ht)
    · exact hp.prolog t (List.mem_append_right _ (List.mem_cons_of_mem _ ht))

/-- C110: a comment, or something else that begins with `<!`, put before the root element, after the declarations: the document stays
the same -/
theorem C110_ignored {x u w tag : Str} {d : Document} {a b rest : List (Str × Str)} (h : parseStr x = .ok d) (hp : Parts x (a ++ b) rest)
    (hn : ∀ t ∈ b, ¬ c%"<?xml" <+: t.2) (hw : AllWs w) (hT : TagAt tag tag) (ht : c%"<!" <+: tag) (hd : ¬ c%"<!DOCTYPE" <+: tag)
    (hc : c%"<!--" <+: tag → (∃ t ∈ a, c%"<!--" <+: t.2) ∨ ¬ NoCut tag) (hx : x = srcOf a ++ u) :
    parseStr (srcOf a ++ w ++ tag ++ u) = .ok d := by
  obtain ⟨tail, hl⟩ := hp.lexes
  obtain ⟨u', hx', -⟩ := lexes_cut hl
  obtain ⟨hf, hg, -⟩ := (parse_prolog hp hx').1 h
  have hnx : ¬ c%"<?xml" <+: tag := by obtain ⟨v, rfl⟩ := ht; rintro ⟨u, hu⟩; simp at hu
  obtain ⟨g1, g2⟩ := hg
  rw [tagsWith_append] at g1 g2
  have := parse_new_prolog (pre' := a ++ (w, tag) :: b) (D := d.declaration) (ds := d.dtds) h hp hx' ?_ ?_
    (fine_in hf hw hn (fun h => absurd h hnx) hc) ⟨by rw [tagsWith_append, tagsWith_neg hnx]; exact g1, by rw [tagsWith_append, tagsWith_neg hd]; exact g2⟩
  · have hu : u = srcOf b ++ u' := by
      rw [srcOf_append, List.append_assoc] at hx'
      exact List.append_cancel_left (hx.symm.trans hx')
    rw [srcOf_append, srcOf_cons] at this
    rw [hu]
    simpa using this
  all_goals
    intro t ht'
    rcases List.mem_append.1 ht' with ht' | ht'
  · exact parts_toks hp t (List.mem_append_left _ ht')
  · rcases List.mem_cons.1 ht' with rfl | ht'
    · exact ⟨blank_no_lt hw, hT⟩
    · exact parts_toks hp t (List.mem_append_right _ ht')
  · exact hp.prolog t (List.mem_append_left _ ht')
  · rcases List.mem_cons.1 ht' with rfl | ht'
    · exact .inr ht
    · exact hp.prolog t (List.mem_append_right _ ht')

/-- C110: a comment, or something else that begins with `<!`, taken out of what stands before the root element: the document stays the
same -/
theorem C110_ignored_out {x u text tag : Str} {d : Document} {a b rest : List (Str × Str)} (h : parseStr x = .ok d)
    (hp : Parts x (a ++ (text, tag) :: b) rest) (ht : c%"<!" <+: tag) (hd : ¬ c%"<!DOCTYPE" <+: tag)
    (hc : c%"<!--" <+: tag → (∃ t ∈ a, c%"<!--" <+: t.2) ∨ ∀ t ∈ b, c%"<!--" <+: t.2 → ¬ NoCut t.2) (hx : x = srcOf a ++ text ++ tag ++ u) :
    parseStr (srcOf a ++ u) = .ok d := by
  obtain ⟨tail, hl⟩ := hp.lexes
  obtain ⟨u', hx', -⟩ := lexes_cut hl
  obtain ⟨hf, hg, -⟩ := (parse_prolog hp hx').1 h
  have hnx : ¬ c%"<?xml" <+: tag := by obtain ⟨v, rfl⟩ := ht; rintro ⟨u, hu⟩; simp at hu
  obtain ⟨g1, g2⟩ := hg
  rw [tagsWith_append, tagsWith_neg hnx, ← tagsWith_append] at g1
  rw [tagsWith_append, tagsWith_neg hd, ← tagsWith_append] at g2
  have := parse_new_prolog (pre' := a ++ b) (D := d.declaration) (ds := d.dtds) h hp hx' ?_ ?_ (fine_out hf hc) ⟨g1, g2⟩
  · have hu : u = srcOf b ++ u' := by
      rw [srcOf_append, srcOf_cons] at hx'
      have := hx.symm.trans hx'
      simp only [List.append_assoc] at this
      exact List.append_cancel_left (List.append_cancel_left (List.append_cancel_left this))
    rw [srcOf_append] at this
    rw [hu]
    simpa using this
  all_goals
    intro t ht'
    rcases List.mem_append.1 ht' with ht' | ht'
  · exact parts_toks hp t (List.mem_append_left _ ht')
  · exact parts_toks hp t (List.mem_append_right _ (List.mem_cons_of_mem _ ht'))
  · exact hp.prolog t (List.mem_append_left _ ht')
  · exact hp.prolog t (List.mem_append_right _ (List.mem_cons_of_mem _ ht'))

/-- C110: other white space between the tags before the root element (none at the beginning, if the second tag is a declaration): the
document stays the same -/
theorem C110_space {x u : Str} {d : Document} {pre pre' rest : List (Str × Str)} (h : parseStr x = .ok d) (hp : Parts x pre rest)
    (hx : x = srcOf pre ++ u) (hs : pre'.map Prod.snd = pre.map Prod.snd) (hb : ∀ t ∈ pre', AllWs t.1)
    (hd : ∀ p q r, pre' = p :: q :: r → c%"<?xml" <+: q.2 → p.1 = []) : parseStr (srcOf pre' ++ u) = .ok d := by
  obtain ⟨hf, hg, -⟩ := (parse_prolog hp hx).1 h
  have hmem : ∀ t ∈ pre', ∃ s ∈ pre, s.2 = t.2 := by
    intro t ht
    have : t.2 ∈ pre.map Prod.snd := hs ▸ List.mem_map_of_mem ht
    obtain ⟨s, h1, h2⟩ := List.mem_map.1 this
    exact ⟨s, h1, h2⟩
  have hsp : ∀ a tx tg b, pre' = a ++ (tx, tg) :: b → ∃ a0 tx0 b0, pre = a0 ++ (tx0, tg) :: b0 ∧ a0.map Prod.snd = a.map Prod.snd := by
    intro a tx tg b hab
    rw [hab, List.map_append, List.map_cons] at hs
    obtain ⟨l, r, rfl, h2, h3⟩ := map_split hs.symm
    cases r with
    | nil => cases h3
    | cons q r =>
      simp only [List.map_cons, List.cons.injEq] at h3
      exact ⟨l, q.1, r, by rw [← h3.1], h2⟩
  refine parse_new_prolog h hp hx ?_ ?_ ⟨hb, ?_, ?_⟩ ⟨?_, ?_⟩
  · intro t ht
    obtain ⟨s, h1, h2⟩ := hmem t ht
    exact ⟨blank_no_lt (hb t ht), h2 ▸ (parts_toks hp s h1).2⟩
  · intro t ht
    obtain ⟨s, h1, h2⟩ := hmem t ht
    exact h2 ▸ hp.prolog s h1
  · intro a tx tg b hab hx
    obtain ⟨a0, tx0, b0, h1, h2⟩ := hsp a tx tg b hab
    rcases hf.decl a0 tx0 tg b0 h1 hx with rfl | ⟨t, rfl⟩
    · exact .inl (List.map_eq_nil_iff.1 h2.symm)
    · rcases a with _ | ⟨p, _ | ⟨q, a⟩⟩
      · exact .inl rfl
      · have := hd p _ _ hab hx
        exact .inr ⟨p.2, by rw [← this]⟩
      · simp at h2
  · intro a tx tg b hab hx hn
    obtain ⟨a0, tx0, b0, h1, h2⟩ := hsp a tx tg b hab
    refine hf.comment a0 tx0 tg b0 h1 hx ?_
    intro t ht
    have : t.2 ∈ a.map Prod.snd := h2 ▸ List.mem_map_of_mem ht
    obtain ⟨s, h3, h4⟩ := List.mem_map.1 this
    exact h4 ▸ hn s h3
  · rw [tagsWith, hs]; exact hg.decl
  · rw [tagsWith, hs]; exact hg.dtds

/-! ## examples -/

/-- tokens before the root element of the example -/
def prologToks : List (Str × Str) := [([], c%"<?xml 1?>"), (c%" ", c%"<!DOCTYPE a>"), ([], c%"<!--k-->"), (c%"\n", c%"<!DOCTYPE b [<!ENTITY c '>'>]>")]
/-- the example -/
def prologInput : Str := c%"<?xml 1?> <!DOCTYPE a><!--k-->\n<!DOCTYPE b [<!ENTITY c '>'>]> <r>t</r>\n"

theorem prologParts : Parts prologInput prologToks [(c%" ", c%"<r>"), (c%"t", c%"</r>")] := partsB_sound c%"\n" (by decide) rfl

/-- what it is read as -/
theorem prologDoc : parseStr prologInput =
    .ok ⟨some ⟨c%"xml 1"⟩, [⟨c%" a"⟩, ⟨c%" b [<!ENTITY c '>'>]"⟩], ⟨c%"r", [.text c%"t"], .empty, none, none, .empty⟩⟩ := rfl

example : PrologFine prologToks ∧ parseStr c%" <r>t</r>\n" = .ok ⟨none, [], ⟨c%"r", [.text c%"t"], .empty, none, none, .empty⟩⟩ := by
  obtain ⟨h1, -, h2⟩ := (C110_exact prologParts rfl _).1 prologDoc
  exact ⟨h1, h2⟩

/-- the conditions are needed: text, a late declaration, a first comment that is cut in half -/
example : (∃ e, parseStr c%"x<!--k--><r/>" = .err e) ∧ (∃ e, parseStr c%" <!--k--><?xml 1?><r/>" = .err e) ∧
    parseStr c%"<!--0123456789☼01234567890123456789--><r/>" = .panic ∧
    (∃ d, parseStr c%"<!--k--><!--0123456789☼01234567890123456789--><r/>" = .ok d) := ⟨⟨_, rfl⟩, ⟨_, rfl⟩, rfl, ⟨_, rfl⟩⟩

/-- with the first part of `<?xml 2?><!--j--><a/>` -/
example : parseStr c%"<?xml 2?><!--j--> <r>t</r>\n" = .ok ⟨some ⟨c%"xml 2"⟩, [], ⟨c%"r", [.text c%"t"], .empty, none, none, .empty⟩⟩ :=
  C110_swap (y := c%"<?xml 2?><!--j--><a/>") (pre' := [([], c%"<?xml 2?>"), ([], c%"<!--j-->")]) (v := c%"<a/>") (e := ⟨_, _, _⟩) prologDoc prologParts rfl rfl
    (partsB_sound (rest := [([], c%"<a/>")]) [] (by decide) rfl) rfl

example : parseStr c%"\n<?xml v='?>'?><!--j--><a/>" = .ok ⟨some ⟨c%"xml v='?>'"⟩, [], ⟨c%"a", [], .empty, none, none, .empty⟩⟩ :=
  C110_declaration (x := c%"<!--j--><a/>") (w := c%"\n") (m := c%"xml v='?>'") (d := ⟨_, _, _⟩) rfl
    (partsB_sound (pre := [([], c%"<!--j-->")]) (rest := [([], c%"<a/>")]) [] (by decide) rfl) (by decide) (by decide) (by decide)
    (tagAt_self (by decide) rfl)

example : parseStr (prologInput.drop 9) = .ok ⟨none, [⟨c%" a"⟩, ⟨c%" b [<!ENTITY c '>'>]"⟩], ⟨c%"r", [.text c%"t"], .empty, none, none, .empty⟩⟩ :=
  (C110_declaration_out prologDoc prologParts (by decide) (by decide) rfl).2

example : ∃ l r, [(⟨c%" a"⟩ : DTD), ⟨c%" b [<!ENTITY c '>'>]"⟩] = l ++ r ∧ l.length = 1 ∧
    parseStr c%"<?xml 1?> <!DOCTYPE a><!--k--> <!DOCTYPE n>\n<!DOCTYPE b [<!ENTITY c '>'>]> <r>t</r>\n" =
      .ok ⟨some ⟨c%"xml 1"⟩, l ++ ⟨c%" n"⟩ :: r, ⟨c%"r", [.text c%"t"], .empty, none, none, .empty⟩⟩ :=
  C110_doctype (a := prologToks.take 3) (b := prologToks.drop 3) (w := c%" ") (m := c%" n") prologDoc prologParts (by decide) (by decide) (tagAt_self (by decide) rfl) rfl

example : ∃ l D r, [(⟨c%" a"⟩ : DTD), ⟨c%" b [<!ENTITY c '>'>]"⟩] = l ++ D :: r ∧ l.length = 0 ∧ c%"<!DOCTYPE a>" = c%"<!DOCTYPE" ++ D.dtdStr ++ c%">" ∧
    parseStr c%"<?xml 1?><!--k-->\n<!DOCTYPE b [<!ENTITY c '>'>]> <r>t</r>\n" =
      .ok ⟨some ⟨c%"xml 1"⟩, l ++ r, ⟨c%"r", [.text c%"t"], .empty, none, none, .empty⟩⟩ :=
  C110_doctype_out (a := prologToks.take 1) (text := c%" ") (tag := c%"<!DOCTYPE a>") (b := prologToks.drop 2) prologDoc prologParts (by decide) rfl

/-- a long comment with a character in the wrong place is accepted after another one -/
example : parseStr c%"<?xml 1?> <!DOCTYPE a><!--k-->\n<!DOCTYPE b [<!ENTITY c '>'>]><!--0123456789☼01234567890123456789--> <r>t</r>\n" =
    parseStr prologInput :=
  (C110_ignored (a := prologToks) (b := []) (w := []) (tag := c%"<!--0123456789☼01234567890123456789-->") prologDoc prologParts (by decide) (by decide)
    (tagAt_self (by decide) rfl) (by decide) (by decide) (fun _ => .inl ⟨_, List.mem_cons_of_mem _ (List.mem_cons_of_mem _ (List.mem_cons_self ..)), by decide⟩)
    rfl).trans prologDoc.symm

example : parseStr c%"<?xml 1?> <!DOCTYPE a>\n<!DOCTYPE b [<!ENTITY c '>'>]> <r>t</r>\n" = parseStr prologInput :=
  (C110_ignored_out (a := prologToks.take 2) (text := []) (tag := c%"<!--k-->") (b := prologToks.drop 3) prologDoc prologParts (by decide) (by decide)
    (fun _ => .inr (by
      intro t ht h
      have : t = (c%"\n", c%"<!DOCTYPE b [<!ENTITY c '>'>]>") := by simpa [prologToks] using ht
      subst this
      exact absurd h (by decide))) rfl).trans prologDoc.symm

example : parseStr c%"\n<?xml 1?><!DOCTYPE a>\t<!--k--><!DOCTYPE b [<!ENTITY c '>'>]> <r>t</r>\n" = parseStr prologInput :=
  (C110_space (pre' := [(c%"\n", c%"<?xml 1?>"), ([], c%"<!DOCTYPE a>"), (c%"\t", c%"<!--k-->"), ([], c%"<!DOCTYPE b [<!ENTITY c '>'>]>")])
    prologDoc prologParts rfl rfl (by decide) (by rintro p q r h h'; cases h; exact absurd h' (by decide))).trans prologDoc.symm

end KissXml.Props
