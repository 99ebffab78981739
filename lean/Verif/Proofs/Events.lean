import Verif.Spec.Events
import Verif.Proofs.Source
import Verif.Proofs.Steps
import Verif.Proofs.Complete
import Verif.Proofs.UnescapeExact
/-!
# The events of a document
-/
namespace KissXml
open Spec

theorem eventsL_append (a b : List Node) : eventsL (a ++ b) = eventsL a ++ eventsL b := by
  induction a with
  | nil => rfl
  | cons n a ih => rw [List.cons_append, eventsL, ih, eventsL, List.append_assoc]

theorem events_element (e : Element) : events (.element e) = .start e.tagName e.attrs.get :: (eventsL e.children ++ [.stop e.tagName]) := by
  obtain ⟨n, cs, a, x, q, c⟩ := e
  rw [events]

theorem standsFor_of {text : Str} {f f' : Forest} (h : WithText text f f') : ∃ ns, StandsFor text ns ∧ plain f' = ns ++ plain f := by
  cases h with
  | blank hw => exact ⟨[], .blank (all_iff.1 hw), rfl⟩
  | @text t hw hu =>
    have hn : ¬ AllWs text := by
      intro hh
      rw [all_iff.2 hh] at hw
      cases hw
    rw [plain]
    by_cases hb : Blank t
    · exact ⟨[], .unseen hn (unescape_ok_iff.1 hu) hb, by rw [if_pos (isBlankText_iff.2 ⟨t, rfl, hb⟩)]; rfl⟩
    · refine ⟨[.text t], .text hn (unescape_ok_iff.1 hu) hb, ?_⟩
      rw [if_neg]
      · rfl
      · intro h1
        obtain ⟨t', h2, h3⟩ := isBlankText_iff.1 h1
        cases h2
        exact hb h3

theorem opens_read {parent : Option Element} {tag : Str} {e : Element} (h : Opens parent tag e) (ha : Angled tag) (cs : List Node) :
    TagWrites Read tag { e with children := cs } := tagWrites_mono (fun _ _ hu => unescape_ok_iff.1 hu) (opens_writes h ha cs)

theorem body_events {e : Element} {toks : List (Str × Str)} {f : Forest} (h : Body e toks f) (ha : ∀ t ∈ toks, Angled t.2) :
    ∃ ls, List.Forall₂ TokEvents toks ls ∧ ls.flatten = eventsL (plain f) ++ [.stop e.tagName] := by
  induction h with
  | @close e text tag f hc hw =>
    obtain ⟨ns, h1, h2⟩ := standsFor_of hw
    refine ⟨[eventsL ns ++ [.stop e.tagName]], .cons ⟨ns, _, h1, .close (kind_close hc.slash)
      (inner_iff.2 ⟨hc.name, ha (_, _) (List.mem_cons_self ..)⟩), rfl⟩ .nil, ?_⟩
    rw [h2, plain]; simp
  | @comment e text c toks f f' _ _ hw ih =>
    obtain ⟨ns, h1, h2⟩ := standsFor_of hw
    obtain ⟨ls, h3, h4⟩ := ih (fun t ht => ha t (List.mem_cons_of_mem _ ht))
    refine ⟨(eventsL ns ++ [.comment c]) :: ls, .cons ⟨ns, _, h1, .comment, rfl⟩ h3, ?_⟩
    rw [List.flatten_cons, h4, h2, plain, if_neg (by simp [isBlankText]), eventsL_append, eventsL, events]; simp
  | @cdata e text c toks f f' _ _ hw ih =>
    obtain ⟨ns, h1, h2⟩ := standsFor_of hw
    obtain ⟨ls, h3, h4⟩ := ih (fun t ht => ha t (List.mem_cons_of_mem _ ht))
    refine ⟨(eventsL ns ++ [.cdata c]) :: ls, .cons ⟨ns, _, h1, .cdata, rfl⟩ h3, ?_⟩
    rw [List.flatten_cons, h4, h2, plain, if_neg (by simp [isBlankText]), eventsL_append, eventsL, events]; simp
  | @empty e c text tag toks f f' hO hs _ hw ih =>
    obtain ⟨ns, h1, h2⟩ := standsFor_of hw
    obtain ⟨ls, h3, h4⟩ := ih (fun t ht => ha t (List.mem_cons_of_mem _ ht))
    refine ⟨(eventsL ns ++ [.start c.tagName c.attrs.get, .stop c.tagName]) :: ls, .cons ⟨ns, _, h1, .empty (kind_empty hO hs)
      (opens_read hO (ha (_, _) (List.mem_cons_self ..)) c.children), rfl⟩ h3, ?_⟩
    rw [List.flatten_cons, h4, h2, plain, if_neg (by simp [isBlankText]), eventsL_append, eventsL, events_element, opens_children hO, eventsL]; simp
  | @elem e c text tag toks1 toks2 k f f' hO hs _ _ hw ih1 ih2 =>
    obtain ⟨ns, h1, h2⟩ := standsFor_of hw
    obtain ⟨ls, h3, h4⟩ := ih1 (fun t ht => ha t (by simp [ht]))
    obtain ⟨ls', h5, h6⟩ := ih2 (fun t ht => ha t (by simp [ht]))
    refine ⟨(eventsL ns ++ [.start c.tagName c.attrs.get]) :: (ls ++ ls'), .cons ⟨ns, _, h1, .start (kind_start hO hs)
      (opens_read hO (ha (_, _) (List.mem_cons_self ..)) c.children), rfl⟩ (List.rel_append h3 h5), ?_⟩
    rw [List.flatten_cons, List.flatten_append, h4, h6, h2, plain, eventsL_append, eventsL, events_element]
    have : ElementF.tagName ({ c with children := plain k } : Element) = c.tagName := rfl
    simp [this]

theorem root_events {x : Str} {d : Document} {pre rest : List (Str × Str)} (h : parseStr x = .ok d) (hp : Parts x pre rest)
    (h1 : OneRoot (tagsOf rest)) : ∃ ls, List.Forall₂ TokEvents rest ls ∧ ls.flatten = events (.element d.root) := by
  obtain ⟨text, tag, rest', E, F, rfl, hF, hR, hd, ha⟩ := accepted_parts h hp
  obtain ⟨hO, hB⟩ := root_one hR h1
  have hang : Angled tag := ha (text, tag) (by simp)
  rcases hB with ⟨hs, rfl, rfl⟩ | ⟨hs, hB⟩
  · refine ⟨[[.start E.tagName E.attrs.get, .stop E.tagName]], .cons ⟨[], _, .blank hF.blank, .empty (kind_empty hO hs)
      (opens_read hO hang E.children), rfl⟩ .nil, ?_⟩
    rw [hd, addRev, events_element]
    have : E.reverseChildren = E := by
      have := opens_children hO
      obtain ⟨n, cs, a, x, q, c⟩ := E
      simp at this
      subst this
      rfl
    rw [this, opens_children hO]; rfl
  · obtain ⟨ls, h3, h4⟩ := body_events hB (fun t ht => ha t (by simp [ht]))
    refine ⟨[.start E.tagName E.attrs.get] :: ls, .cons ⟨[], _, .blank hF.blank, .start (kind_start hO hs) (opens_read hO hang E.children), rfl⟩ h3, ?_⟩
    rw [hd, body_dom hB (opens_children hO), events_element, List.flatten_cons, h4]
    rfl

/-! ## the events of a token are determined -/

theorem standsFor_unique {t : Str} {l l' : List Node} (h : StandsFor t l) (h' : StandsFor t l') : l = l' := by
  cases h with
  | blank h1 => cases h' with
    | blank => rfl
    | unseen h2 => exact absurd h1 h2
    | text h2 => exact absurd h1 h2
  | unseen h1 h2 h3 => cases h' with
    | blank h4 => exact absurd h4 h1
    | unseen => rfl
    | text _ h5 h6 => cases unesc_unique h2 h5; exact absurd h3 h6
  | text h1 h2 h3 => cases h' with
    | blank h4 => exact absurd h4 h1
    | unseen _ h5 h6 => cases unesc_unique h2 h5; exact absurd h6 h3
    | text _ h5 => cases unesc_unique h2 h5; rfl

/-- the last piece with a name -/
theorem last_quoted {ps : List Str} {k : Str} (h : ∃ raw, ∃ p ∈ ps, Quoted k raw p) :
    ∃ a p b raw, ps = a ++ p :: b ∧ Quoted k raw p ∧ ∀ p' ∈ b, ∀ raw', ¬ Quoted k raw' p' := by
  induction ps with
  | nil => obtain ⟨_, _, hm, -⟩ := h; cases hm
  | cons q ps ih =>
    by_cases hq : ∃ raw, ∃ p ∈ ps, Quoted k raw p
    · obtain ⟨a, p, b, raw, rfl, h2, h3⟩ := ih hq
      exact ⟨q :: a, p, b, raw, rfl, h2, h3⟩
    · obtain ⟨raw, p, hm, hp⟩ := h
      rcases List.mem_cons.1 hm with rfl | hm
      · exact ⟨[], p, ps, raw, rfl, hp, fun p' hp' raw' hr => hq ⟨raw', p', hp', hr⟩⟩
      · exact absurd ⟨raw, p, hm, hp⟩ hq

theorem attrs_unique {ps : List Str} {a b : SMap} (h : AttrsWritten Read ps a) (h' : AttrsWritten Read ps b) : a.get = b.get := by
  funext k
  by_cases hq : ∃ raw, ∃ p ∈ ps, Quoted k raw p
  · obtain ⟨l, p, r, raw, h1, h2, h3⟩ := last_quoted hq
    obtain ⟨v, g1, g2⟩ := h.last l p r k raw h1 h2 h3
    obtain ⟨w, g3, g4⟩ := h'.last l p r k raw h1 h2 h3
    have := unesc_unique g2 g4
    simp only [Option.some.injEq] at this
    rw [g1, g3, this]
  · have n1 : a.get k = none := by
      cases hv : a.get k with
      | none => rfl
      | some v => exact absurd (h.only k v hv) hq
    have n2 : b.get k = none := by
      cases hv : b.get k with
      | none => rfl
      | some v => exact absurd (h'.only k v hv) hq
    rw [n1, n2]

theorem tagWrites_unique {tag : Str} {e e' : Element} (h : TagWrites Read tag e) (h' : TagWrites Read tag e') :
    e.tagName = e'.tagName ∧ e.attrs.get = e'.attrs.get := by
  obtain ⟨ps, h1, h2⟩ := h
  obtain ⟨ps', h3, h4⟩ := h'
  obtain ⟨h5, rfl⟩ := pieces_unique h1 h3
  exact ⟨h5, attrs_unique h2 h4⟩

theorem kind_comment (c : Str) : kind (c%"<!--" ++ c ++ c%"-->") = .mark := kind_mark ⟨c%"--" ++ c ++ c%"-->", by simp⟩

theorem kind_cdata (c : Str) : kind (c%"<![CDATA[" ++ c ++ c%"]]>") = .mark := kind_mark ⟨c%"[CDATA[" ++ c ++ c%"]]>", by simp⟩

theorem tagEvents_unique {tag : Str} {l l' : List Event} (h : TagEvents tag l) (h' : TagEvents tag l') : l = l' := by
  cases h with
  | start h1 h2 =>
    cases h' with
    | start _ h4 => obtain ⟨g1, g2⟩ := tagWrites_unique h2 h4; rw [g1, g2]
    | empty h3 => rw [h1] at h3; cases h3
    | close h3 => rw [h1] at h3; cases h3
    | comment => rw [kind_comment] at h1; cases h1
    | cdata => rw [kind_cdata] at h1; cases h1
  | empty h1 h2 =>
    cases h' with
    | start h3 => rw [h1] at h3; cases h3
    | empty _ h4 => obtain ⟨g1, g2⟩ := tagWrites_unique h2 h4; rw [g1, g2]
    | close h3 => rw [h1] at h3; cases h3
    | comment => rw [kind_comment] at h1; cases h1
    | cdata => rw [kind_cdata] at h1; cases h1
  | close h1 h2 =>
    cases h' with
    | start h3 => rw [h1] at h3; cases h3
    | empty h3 => rw [h1] at h3; cases h3
    | close _ h4 => rw [inner_unique h2 h4]
    | comment => rw [kind_comment] at h1; cases h1
    | cdata => rw [kind_cdata] at h1; cases h1
  | @comment c =>
    generalize hx : c%"<!--" ++ c ++ c%"-->" = x at h'
    cases h' with
    | start h3 => rw [← hx, kind_comment] at h3; cases h3
    | empty h3 => rw [← hx, kind_comment] at h3; cases h3
    | close h3 => rw [← hx, kind_comment] at h3; cases h3
    | comment => simp at hx; rw [hx]
    | cdata => simp at hx
  | @cdata c =>
    generalize hx : c%"<![CDATA[" ++ c ++ c%"]]>" = x at h'
    cases h' with
    | start h3 => rw [← hx, kind_cdata] at h3; cases h3
    | empty h3 => rw [← hx, kind_cdata] at h3; cases h3
    | close h3 => rw [← hx, kind_cdata] at h3; cases h3
    | comment => simp at hx
    | cdata => simp at hx; rw [hx]

theorem tokEvents_unique {t : Str × Str} {l l' : List Event} (h : TokEvents t l) (h' : TokEvents t l') : l = l' := by
  obtain ⟨ns, m, h1, h2, rfl⟩ := h
  obtain ⟨ns', m', h3, h4, rfl⟩ := h'
  rw [standsFor_unique h1 h3, tagEvents_unique h2 h4]

theorem toksEvents_unique {toks : List (Str × Str)} {ls ls' : List (List Event)} (h : List.Forall₂ TokEvents toks ls)
    (h' : List.Forall₂ TokEvents toks ls') : ls = ls' := by
  induction h generalizing ls' with
  | nil => cases h'; rfl
  | cons h1 _ ih => cases h' with
    | cons h2 h3 => rw [tokEvents_unique h1 h2, ih h3]

/-! ## what the events say about the tree -/

mutual
theorem events_texts : (n : Node) → (events n).filterMap Event.text? = (docOrder n).filterMap text?
  | .element ⟨n, cs, a, x, q, c⟩ => by
    rw [events, docOrder, List.filterMap_cons, List.filterMap_append, eventsL_texts cs]
    exact List.append_nil _
  | .text t => by rw [events, docOrder]; rfl
  | .comment t => by rw [events, docOrder]; rfl
  | .cdata t => by rw [events, docOrder]; rfl
theorem eventsL_texts : (l : List Node) → (eventsL l).filterMap Event.text? = (docOrderL l).filterMap text?
  | [] => rfl
  | n :: l => by rw [eventsL, docOrderL, List.filterMap_append, List.filterMap_append, events_texts n, eventsL_texts l]
end

theorem events_head (n : Node) : ∃ v l, events n = v :: l ∧ ∀ m, v ≠ .stop m := by
  cases n with
  | element e => exact ⟨_, _, events_element e, by simp⟩
  | text t => exact ⟨_, _, by rw [events], by simp⟩
  | comment t => exact ⟨_, _, by rw [events], by simp⟩
  | cdata t => exact ⟨_, _, by rw [events], by simp⟩

/-- The events of some nodes, up to the end of the element around them, say what the nodes are. -/
theorem eventsL_stop : (l l' : List Node) → (m m' : Str) → (r r' : List Event) → eventsL l ++ .stop m :: r = eventsL l' ++ .stop m' :: r' →
    SameWritingL l l' ∧ m = m' ∧ r = r'
  | [], [], m, m', r, r', h => by
    simp only [eventsL, List.nil_append, List.cons.injEq, Event.stop.injEq] at h
    exact ⟨.nil, h.1, h.2⟩
  | [], n' :: t', m, m', r, r', h => by
    obtain ⟨v, u, h1, h2⟩ := events_head n'
    rw [eventsL, eventsL, h1] at h
    exact absurd (List.cons.inj h).1.symm (h2 m)
  | n :: t, [], m, m', r, r', h => by
    obtain ⟨v, u, h1, h2⟩ := events_head n
    rw [eventsL, eventsL, h1] at h
    exact absurd (List.cons.inj h).1 (h2 m')
  | .text a :: t, n' :: t', m, m', r, r', h => by
    cases n' with
    | text b =>
      simp only [eventsL, events, List.cons_append, List.nil_append, List.cons.injEq, Event.text.injEq] at h
      obtain ⟨h1, h2⟩ := eventsL_stop t t' m m' r r' h.2
      exact ⟨.cons (h.1 ▸ .text a) h1, h2⟩
    | element e => rw [eventsL, eventsL, events_element] at h; simp [events] at h
    | comment b => simp [eventsL, events] at h
    | cdata b => simp [eventsL, events] at h
  | .comment a :: t, n' :: t', m, m', r, r', h => by
    cases n' with
    | comment b =>
      simp only [eventsL, events, List.cons_append, List.nil_append, List.cons.injEq, Event.comment.injEq] at h
      obtain ⟨h1, h2⟩ := eventsL_stop t t' m m' r r' h.2
      exact ⟨.cons (h.1 ▸ .comment a) h1, h2⟩
    | element e => rw [eventsL, eventsL, events_element] at h; simp [events] at h
    | text b => simp [eventsL, events] at h
    | cdata b => simp [eventsL, events] at h
  | .cdata a :: t, n' :: t', m, m', r, r', h => by
    cases n' with
    | cdata b =>
      simp only [eventsL, events, List.cons_append, List.nil_append, List.cons.injEq, Event.cdata.injEq] at h
      obtain ⟨h1, h2⟩ := eventsL_stop t t' m m' r r' h.2
      exact ⟨.cons (h.1 ▸ .cdata a) h1, h2⟩
    | element e => rw [eventsL, eventsL, events_element] at h; simp [events] at h
    | text b => simp [eventsL, events] at h
    | comment b => simp [eventsL, events] at h
  | .element ⟨n, cs, a, x, q, c⟩ :: t, n' :: t', m, m', r, r', h => by
    cases n' with
    | element e =>
      rw [eventsL, eventsL, events_element, events_element] at h
      simp only [List.cons_append, List.append_assoc, List.nil_append, List.cons.injEq, Event.start.injEq] at h
      obtain ⟨⟨h1, h2⟩, h3⟩ := h
      obtain ⟨g1, g2, g3⟩ := eventsL_stop cs e.children _ _ _ _ h3
      obtain ⟨k1, k2⟩ := eventsL_stop t t' m m' r r' g3
      exact ⟨.cons (.element h1 h2 g1) k1, k2⟩
    | text b => rw [eventsL, eventsL, events_element] at h; simp [events] at h
    | comment b => rw [eventsL, eventsL, events_element] at h; simp [events] at h
    | cdata b => rw [eventsL, eventsL, events_element] at h; simp [events] at h
termination_by l => sizeOf l

theorem events_inj {e e' : Element} (h : events (.element e) = events (.element e')) : SameWriting (.element e) (.element e') := by
  have := eventsL_stop [.element e] [.element e'] [] [] [] [] (by simp only [eventsL, h])
  cases this.1 with
  | cons h1 => exact h1

end KissXml
