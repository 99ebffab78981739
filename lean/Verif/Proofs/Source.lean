import Verif.Spec.Source
import Verif.Proofs.Outer
/-!
# The elements of an accepted document and the tags that write them
-/
namespace KissXml
open Spec

/-! ## words -/

theorem words_ws {w s : Str} {l : List Str} (hw : AllWs w) (h : Words s l) : Words (w ++ s) l := by
  cases h with
  | done h => exact .done (by intro c hc; rcases List.mem_append.1 hc with hc | hc; exacts [hw c hc, h c hc])
  | @word w' n r l h1 h2 h3 =>
    have : w ++ (w' ++ n ++ r) = (w ++ w') ++ n ++ r := by simp
    rw [this]
    exact .word (by intro c hc; rcases List.mem_append.1 hc with hc | hc; exacts [hw c hc, h1 c hc]) h2 h3

theorem words_split (n : Nat) : ∀ s : Str, s.length ≤ n → Words s (quoteAwareSplit s) := by
  induction n with
  | zero =>
    intro s hs
    have : s = [] := List.length_eq_zero_iff.1 (by omega)
    subst this
    exact .done (by intro c hc; simp at hc)
  | succ n ih =>
    intro s hs
    obtain ⟨m, r, h1, h2, h3⟩ := first_word none s
    by_cases hm : m = []
    · subst hm
      rcases h3 with rfl | ⟨c, r', rfl, hc, -⟩
      · subst h1; exact .done (by intro c hc; simp at hc)
      · rw [List.nil_append] at h1
        subst h1
        unfold quoteAwareSplit
        rw [qas_ws hc, if_pos (by rfl)]
        exact words_ws (w := [c]) (by intro x hx; simp at hx; rw [hx]; exact hc) (ih r' (by simp at hs; omega))
    · have hfw : FirstWord (m ++ r) m := ⟨hm, h2, r, rfl, h3⟩
      unfold quoteAwareSplit
      rw [h1, qas_word h2, List.nil_append]
      have key : ∀ l, Words r l → Words (m ++ r) (m :: l) := by
        intro l hl
        have := Words.word (w := []) (by intro c hc; simp at hc) hfw hl
        simpa using this
      rcases h3 with rfl | ⟨c, r', rfl, hc, hq⟩
      · rw [qasLoop, if_neg (by simpa using hm)]
        exact key [] (.done (by intro c hc; simp at hc))
      · rw [hq, qas_ws hc, if_neg (by simpa using hm)]
        refine key _ (words_ws (w := [c]) (by intro x hx; simp at hx; rw [hx]; exact hc) (ih r' ?_))
        have : s.length = m.length + (r'.length + 1) := by rw [h1]; simp
        omega

/-! ## joined words -/

theorem needsMerge_touch {a b : Str} {l : List Str} : needsMerge a (b :: l) = true ↔ Touch a b := by
  simp [Touch, needsMerge, endsWith_iff, startsWith_iff]

theorem joinLoop_joined (n : Nat) : ∀ l : List Str, l.length ≤ n → Joined l (joinLoop l) := by
  induction n with
  | zero =>
    intro l hl
    have : l = [] := List.length_eq_zero_iff.1 (by omega)
    subst this
    unfold joinLoop
    exact .nil
  | succ n ih =>
    intro l hl
    match l, hl with
    | [], _ => unfold joinLoop; exact .nil
    | [a], _ => unfold joinLoop; exact .one (by simp) .nil
    | [a, b], hl =>
      unfold joinLoop
      split
      · rename_i hm
        exact .two (needsMerge_touch.1 hm) (by simp) .nil
      · rename_i hm
        exact .one (by rintro b' r ⟨⟩ ht; exact hm (needsMerge_touch.2 ht)) (ih _ (by simp at hl ⊢; omega))
    | a :: b :: c :: r, hl =>
      unfold joinLoop
      split
      · rename_i hm
        split
        · rename_i hm2
          exact .three (needsMerge_touch.1 hm) (needsMerge_touch.1 hm2) (ih _ (by simp at hl; omega))
        · rename_i hm2
          exact .two (needsMerge_touch.1 hm) (by rintro b' r ⟨⟩ ht; exact hm2 (needsMerge_touch.2 ht)) (ih _ (by simp at hl ⊢; omega))
      · rename_i hm
        exact .one (by rintro b' r ⟨⟩ ht; exact hm (needsMerge_touch.2 ht)) (ih _ (by simp at hl ⊢; omega))

/-- there is one way to join words -/
theorem joined_unique {l ps ps' : List Str} (h : Joined l ps) (h' : Joined l ps') : ps = ps' := by
  induction h generalizing ps' with
  | nil => cases h'; rfl
  | one h1 _ ih =>
    cases h' with
    | one _ h2 => rw [ih h2]
    | two h2 => exact absurd h2 (h1 _ _ rfl)
    | three h2 => exact absurd h2 (h1 _ _ rfl)
  | two h1 h2 _ ih =>
    cases h' with
    | one h3 => exact absurd h1 (h3 _ _ rfl)
    | two _ _ h3 => rw [ih h3]
    | three _ h3 => exact absurd h3 (h2 _ _ rfl)
  | three h1 h2 _ ih =>
    cases h' with
    | one h3 => exact absurd h1 (h3 _ _ rfl)
    | two _ h3 => exact absurd h2 (h3 _ _ rfl)
    | three _ _ h3 => rw [ih h3]

theorem pieces_split {tag t n : Str} {comps : List Str} (hi : Inner tag t) (h : quoteAwareSplit t = n :: comps) :
    Pieces tag n (joinLoop comps) :=
  ⟨t, comps, hi, h ▸ words_split _ t (le_refl _), joinLoop_joined _ comps (le_refl _)⟩

/-! ## attributes -/

theorem quoted_unique {k raw k' raw' p : Str} (h : Quoted k raw p) (h' : Quoted k' raw' p) : k = k' ∧ raw = raw' := by
  obtain ⟨hk, q, hq, rfl⟩ := h
  obtain ⟨hk', q', hq', he⟩ := h'
  have h1 : splitOnce '=' (k ++ '=' :: ([q] ++ raw ++ [q])) = some (k, [q] ++ raw ++ [q]) := splitOnce_eq_some.2 ⟨rfl, hk⟩
  have h2 : splitOnce '=' (k' ++ '=' :: ([q'] ++ raw' ++ [q'])) = some (k', [q'] ++ raw' ++ [q']) := splitOnce_eq_some.2 ⟨rfl, hk'⟩
  have he' : k ++ '=' :: ([q] ++ raw ++ [q]) = k' ++ '=' :: ([q'] ++ raw' ++ [q']) := by simpa using he
  rw [he', h2] at h1
  simp only [Option.some.injEq, Prod.mk.injEq] at h1
  refine ⟨h1.1.symm, ?_⟩
  have h3 := h1.2
  simp only [List.cons_append, List.nil_append, List.cons.injEq] at h3
  obtain ⟨rfl, h3⟩ := h3
  exact (List.append_cancel_right h3).symm

/-- one attribute -/
theorem attrOf_quoted {p k u : Str} (h : AttrOf p k u) : ∃ raw, Quoted k raw p ∧ (unescape raw : R Str) = .ok u := by
  obtain ⟨q, m, h1, h2, h3, h4⟩ := h
  exact ⟨m, ⟨h2, q, h1, by simp [h3]⟩, h4⟩

theorem parseAttrs_written {buffer : Str} {pos : Nat} {l : List Str} {m m' : SMap} (h : parseAttrs buffer pos l m = .ok m') :
    (∀ p ∈ l, ∃ k raw, Quoted k raw p) ∧
    (∀ k v, m'.get k = some v → m.get k = some v ∨ ∃ raw, ∃ p ∈ l, Quoted k raw p) ∧
    (∀ k, (∀ p ∈ l, ∀ raw, ¬ Quoted k raw p) → m'.get k = m.get k) ∧
    (∀ a p b k raw, l = a ++ p :: b → Quoted k raw p → (∀ p' ∈ b, ∀ raw', ¬ Quoted k raw' p') →
      ∃ v, m'.get k = some v ∧ (unescape raw : R Str) = .ok v) := by
  induction l generalizing m with
  | nil =>
    unfold parseAttrs at h
    cases h
    refine ⟨by simp, fun k v h => .inl h, fun _ _ => rfl, ?_⟩
    intro a p b k raw hl
    simp at hl
  | cons kv l ih =>
    obtain ⟨k0, u, hA, h2⟩ := parseAttrs_cons.1 h
    obtain ⟨raw0, hq, hu⟩ := attrOf_quoted hA
    obtain ⟨i1, i2, i3, i4⟩ := ih h2
    refine ⟨?_, ?_, ?_, ?_⟩
    · intro p hp
      rcases List.mem_cons.1 hp with rfl | hp
      · exact ⟨k0, raw0, hq⟩
      · exact i1 p hp
    · intro k v hk
      rcases i2 k v hk with hk | ⟨raw, p, hp, hr⟩
      · rw [SMap.get_insert] at hk
        by_cases he : k0 = k
        · subst he; exact .inr ⟨raw0, kv, by simp, hq⟩
        · have : m.get k = some v := by simpa [he, eq_comm] using hk
          exact .inl this
      · exact .inr ⟨raw, p, by simp [hp], hr⟩
    · intro k hk
      rw [i3 k (fun p hp => hk p (by simp [hp])), SMap.get_insert]
      have : k0 ≠ k := by rintro rfl; exact hk kv (by simp) raw0 hq
      simp [this]
    · intro a p b k raw hl hp hb
      cases a with
      | nil =>
        simp only [List.nil_append, List.cons.injEq] at hl
        obtain ⟨rfl, rfl⟩ := hl
        obtain ⟨rfl, rfl⟩ := quoted_unique hq hp
        exact ⟨u, by rw [i3 k0 hb, SMap.get_insert]; simp, hu⟩
      | cons x a =>
        simp only [List.cons_append, List.cons.injEq] at hl
        exact i4 a p b k raw hl.2 hp hb

theorem opens_writes {parent : Option Element} {tag : Str} {e : Element} (h : Opens parent tag e) (ha : Angled tag) (cs : List Node) :
    TagWrites Unescapes tag { e with children := cs } := by
  obtain ⟨t, attrs, n0, n, x, q, h1, hN⟩ := h.elem
  have hi := inner_iff.2 ⟨h1, ha⟩
  obtain ⟨comps, buffer, pos, h2, h3⟩ := hN.attrs_ok
  obtain ⟨p1, p2, -, p4⟩ := parseAttrs_written h3
  have he : e.attrs = attrs := by rw [hN.eq, (setNamespaceContext_fields _ _ _).2.2.1]
  refine ⟨joinLoop comps, ?_, ?_⟩
  · rw [opens_tagName_children, newElem_tagName hN]
    exact pieces_split hi h2
  · simp only [he]
    refine ⟨p1, fun k v hk => ?_, p4⟩
    rcases p2 k v hk with h | h
    · simp [SMap.get, SMap.empty, LMap.get] at h
    · exact h

/-! ## elements in document order -/

/-- the elements of a list of nodes, in document order -/
def elementsL (l : List Node) : List Element := (docOrderL l).filterMap element?

theorem elementsL_cons (n : Node) (l : List Node) : elementsL (n :: l) = (docOrder n).filterMap element? ++ elementsL l := by
  unfold elementsL; rw [docOrderL, List.filterMap_append]

theorem elementsL_append (a b : List Node) : elementsL (a ++ b) = elementsL a ++ elementsL b := by
  induction a with
  | nil => rfl
  | cons n a ih => rw [List.cons_append, elementsL_cons, elementsL_cons, ih, List.append_assoc]

theorem elementsOf_eq (e : Element) : elementsOf e = e :: elementsL e.children := by
  obtain ⟨n, cs, a, x, q, c⟩ := e
  unfold elementsOf elementsL
  rw [docOrder, List.filterMap_cons]
  rfl

theorem openTags_cons (t : Str) (l : List Str) : openTags (t :: l) = (if Opening t then [t] else []) ++ openTags l := by
  unfold openTags
  rw [List.filter_cons]
  by_cases h : Opening t <;> simp [h]

theorem openTags_append (a b : List Str) : openTags (a ++ b) = openTags a ++ openTags b := by
  unfold openTags; rw [List.filter_append]

theorem not_opening_mark {t : Str} (h : c%"<!" <+: t) : ¬ Opening t := by
  rintro (h' | h') <;> rw [kind_mark h] at h' <;> cases h'

theorem elementsL_withText {text : Str} {f f' : Forest} (h : WithText text f f') :
    elementsL (plain f') = elementsL (plain f) := by
  obtain ⟨l, h1, h2⟩ := textBit_of h
  rw [h2, elementsL_append]
  rcases h1 with ⟨-, rfl⟩ | ⟨-, t, -, rfl⟩
  · rfl
  · split
    · rfl
    · rfl

theorem body_writes {e : Element} {toks : List (Str × Str)} {f : Forest} (h : Body e toks f) (ha : ∀ t ∈ toks, Angled t.2) :
    List.Forall₂ (TagWrites Unescapes) (openTags (tagsOf toks)) (elementsL (plain f)) := by
  induction h with
  | close hc hw =>
    rw [elementsL_withText hw]
    simp [tagsOf, openTags, Opening, kind_close hc.slash, plain, elementsL, docOrderL]
  | @comment e text c toks f f' _ _ hw ih =>
    rw [elementsL_withText hw, tagsOf, List.map_cons, openTags_cons,
      if_neg (not_opening_mark (List.IsPrefix.trans (by decide : c%"<!" <+: c%"<!--") ⟨_, List.append_assoc _ _ _ |>.symm⟩)),
      List.nil_append]
    have : elementsL (plain (.leaf (.comment c) f)) = elementsL (plain f) := by
      rw [plain, if_neg (by simp [isBlankText]), elementsL_cons]; rfl
    rw [this]
    exact ih (fun t ht => ha t (by simp [ht]))
  | @cdata e text c toks f f' _ _ hw ih =>
    rw [elementsL_withText hw, tagsOf, List.map_cons, openTags_cons,
      if_neg (not_opening_mark (List.IsPrefix.trans (by decide : c%"<!" <+: c%"<![CDATA[") ⟨_, List.append_assoc _ _ _ |>.symm⟩)),
      List.nil_append]
    have : elementsL (plain (.leaf (.cdata c) f)) = elementsL (plain f) := by
      rw [plain, if_neg (by simp [isBlankText]), elementsL_cons]; rfl
    rw [this]
    exact ih (fun t ht => ha t (by simp [ht]))
  | @empty e c text tag toks f f' hO hs _ hw ih =>
    rw [elementsL_withText hw, tagsOf, List.map_cons, openTags_cons, if_pos (.inr (kind_empty hO hs))]
    have : elementsL (plain (.leaf (.element c) f)) = c :: elementsL (plain f) := by
      rw [plain, if_neg (by simp [isBlankText]), elementsL_cons]
      have := elementsOf_eq c
      rw [opens_children hO] at this
      unfold elementsOf at this
      rw [this]; rfl
    rw [this]
    have hw := opens_writes hO (ha (_, _) (List.mem_cons_self ..)) c.children
    exact .cons hw (ih (fun t ht => ha t (by simp [ht])))
  | @elem e c text tag toks1 toks2 k f f' hO hs _ _ hw ih1 ih2 =>
    rw [elementsL_withText hw, tagsOf, List.map_cons, openTags_cons, if_pos (.inl (kind_start hO hs)), List.map_append,
      openTags_append]
    have : elementsL (plain (.elem c k f)) = { c with children := plain k } :: (elementsL (plain k) ++ elementsL (plain f)) := by
      rw [plain, elementsL_cons]
      have := elementsOf_eq { c with children := plain k }
      unfold elementsOf at this
      rw [this]; rfl
    rw [this]
    have hw := opens_writes hO (ha (_, _) (List.mem_cons_self ..)) (plain k)
    exact .cons hw (List.rel_append (ih1 (fun t ht => ha t (by simp [ht]))) (ih2 (fun t ht => ha t (by simp [ht]))))

theorem root_writes {x : Str} {d : Document} {pre rest : List (Str × Str)} (h : parseStr x = .ok d) (hp : Parts x pre rest)
    (h1 : OneRoot (tagsOf rest)) : List.Forall₂ (TagWrites Unescapes) (openTags (tagsOf rest)) (elementsOf d.root) := by
  obtain ⟨text, tag, rest', E, F, rfl, -, hR, hd, ha⟩ := accepted_parts h hp
  obtain ⟨hO, hB⟩ := root_one hR h1
  have hang : Angled tag := ha (text, tag) (by simp)
  have hr : d.root = { E with children := plain F } := by
    rw [hd]
    rcases hB with ⟨-, -, rfl⟩ | ⟨-, hB⟩
    · have := opens_children hO
      obtain ⟨n, cs, a, x, q, c⟩ := E
      simp at this
      subst this
      rfl
    · exact body_dom hB (opens_children hO)
  rw [hr, elementsOf_eq, tagsOf, List.map_cons, openTags_cons]
  rw [if_pos]
  · refine .cons (opens_writes hO hang _) ?_
    rcases hB with ⟨-, rfl, rfl⟩ | ⟨-, hB⟩
    · exact .nil
    · exact body_writes hB (fun t ht => ha t (by simp [ht]))
  · rcases hB with ⟨hs, -⟩ | ⟨hs, -⟩
    · exact .inr (kind_empty hO hs)
    · exact .inl (kind_start hO hs)

theorem tagWrites_mono {D D' : Str → Str → Prop} (h : ∀ r v, D r v → D' r v) {tag : Str} {e : Element} (hw : TagWrites D tag e) :
    TagWrites D' tag e := by
  obtain ⟨ps, h1, h4⟩ := hw
  exact ⟨ps, h1, h4.form, h4.only, fun a p b k raw hl hq hb =>
    let ⟨v, hv, hd⟩ := h4.last a p b k raw hl hq hb
    ⟨v, hv, h _ _ hd⟩⟩

end KissXml
