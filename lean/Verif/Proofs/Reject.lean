import Verif.Proofs.Complete
/-!
# Faults are reasons to reject an input
-/
namespace KissXml
open KissXml.Spec

/-! ## positions -/

theorem located_unique {a : Str} {lc lc' : Nat × Nat} (h : Located a lc) (h' : Located a lc') : lc = lc' := by
  obtain ⟨u, v, rfl, h1, h2, rfl⟩ := h
  obtain ⟨u', v', h3, h4, h5, rfl⟩ := h'
  have e1 := lastLine_split u v h1 h2
  rw [h3, lastLine_split u' v' h4 h5] at e1
  subst e1
  rw [List.append_cancel_right h3]

theorem locatedText_unique {a t : Str} {lc lc' : Nat × Nat} (h : LocatedText a t lc) (h' : LocatedText a t lc') : lc = lc' := by
  rcases h with ⟨h1, h2⟩ | ⟨h1, h2⟩ <;> rcases h' with ⟨h3, h4⟩ | ⟨h3, h4⟩
  · exact located_unique h2 h4
  · exact absurd h3 h1
  · exact absurd h1 h3
  · rw [h2, h4]

theorem alike_rfl {e : Err} : Alike e e := .inl rfl

/-! ## start tags -/

theorem parseAttrs_good {a : List Str} (h : GoodPieces a) (b : Str) (pos : Nat) (m : SMap) :
    ∃ m', ∀ l, parseAttrs b pos (a ++ l) m = parseAttrs b pos l m' := by
  induction a generalizing m with
  | nil => exact ⟨m, fun l => rfl⟩
  | cons p a ih =>
    obtain ⟨k, raw, hq, u, hu⟩ := h p (by simp)
    obtain ⟨m', hm⟩ := ih (fun q hq => h q (by simp [hq])) (m.insert k u)
    refine ⟨m', fun l => ?_⟩
    rw [List.cons_append, parseAttrs_quoted hq, unescape_ok_iff.2 hu, Res.bind_ok, hm]

theorem split_of_pieces {tag t n : Str} {ps : List Str} (hi : Inner tag t) (h : Pieces tag n ps) :
    ∃ comps, quoteAwareSplit t = n :: comps ∧ joinLoop comps = ps := by
  obtain ⟨s, ws, h1, h2, h3⟩ := h
  obtain rfl := inner_unique hi h1
  exact ⟨ws, words_unique (words_split _ t (le_refl _)) h2, joined_unique (joinLoop_joined _ ws (le_refl _)) h3⟩

theorem parseAttrs_all {ps : List Str} (hg : GoodPieces ps) (x : Str) (pos : Nat) : ∃ m, parseAttrs x pos ps SMap.empty = .ok m := by
  obtain ⟨m, hm⟩ := parseAttrs_good hg x pos SMap.empty
  exact ⟨m, by have := hm []; rw [List.append_nil] at this; rw [this]; rfl⟩

theorem nameSplit_of {x : Str} {pos : Nat} {ps : List Str} {attrs : SMap} (ha : parseAttrs x pos ps SMap.empty = .ok attrs) {o : List Str}
    {n l : Str} (hb : Bound o n ps) (hl : LocalPart n l) {parent : Option Element} (ho : parent = none → o = []) :
    ∃ y q, nameSplit x pos parent attrs n = .ok (l, y, q) := by
  rcases hl with ⟨hl, rfl⟩ | ⟨p, hp, rfl⟩
  · exact ⟨_, _, nameSplit_ok.2 (.plain hl)⟩
  · cases hg : attrs.get (c%"xmlns:" ++ p) with
    | some v => exact ⟨_, _, nameSplit_ok.2 (.own rfl hp hg)⟩
    | none =>
      cases parent with
      | none =>
        have := (attrs_isSome ha (c%"xmlns:" ++ p)).2 (hb p l rfl hp (ho rfl))
        rw [hg] at this
        cases this
      | some p => exact ⟨_, _, nameSplit_ok.2 (.inh rfl hp hg rfl)⟩

theorem parseNewElement_fault {o : List Str} {tag t : Str} (hi : Inner tag t) (x : Str) (pos : Nat) {parent : Option Element}
    (ho : parent = none ↔ o = []) {e : Err} (h : TagFault o tag (lineAndColumn x pos) e) :
    ∃ e', parseNewElement t x pos parent = .err e' ∧ Alike e e' := by
  rw [parseNewElement_eq]
  cases h with
  | @blank s hi' hw =>
    obtain rfl := inner_unique hi hi'
    rw [words_unique (words_split _ t (le_refl _)) (.done hw)]
    exact ⟨_, rfl, alike_rfl⟩
  | @form n p a b hP hg hp =>
    obtain ⟨comps, h1, h2⟩ := split_of_pieces hi hP
    obtain ⟨m, hm⟩ := parseAttrs_good hg x pos SMap.empty
    rw [h1]
    simp only [h2, hm]
    rw [parseAttrs, if_pos]
    · exact ⟨_, rfl, alike_rfl⟩
    · have : contains p c%"=" = false := by
        rw [Bool.eq_false_iff]; intro h; exact hp ((List.singleton_infix_iff _ _).1 (contains_iff.1 h))
      rw [this]; rfl
  | @noValue n k a b hP hg hk =>
    obtain ⟨comps, h1, h2⟩ := split_of_pieces hi hP
    obtain ⟨m, hm⟩ := parseAttrs_good hg x pos SMap.empty
    rw [h1]
    simp only [h2, hm]
    have hc : contains (k ++ c%"=") c%"=" = true := contains_iff.2 ((List.singleton_infix_iff _ _).2 (by simp))
    rw [parseAttrs, if_neg (by simp [hc]), splitOnce_eq_some.2 ⟨rfl, hk⟩]
    exact ⟨_, rfl, alike_rfl⟩
  | @unquoted n k v a b hP hg hk hv hq =>
    obtain ⟨comps, h1, h2⟩ := split_of_pieces hi hP
    obtain ⟨m, hm⟩ := parseAttrs_good hg x pos SMap.empty
    rw [h1]
    simp only [h2, hm]
    have hc : contains (k ++ c%"=" ++ v) c%"=" = true := contains_iff.2 ((List.singleton_infix_iff _ _).2 (by simp))
    have hs : splitOnce '=' (k ++ c%"=" ++ v) = some (k, v) := splitOnce_eq_some.2 ⟨by simp, hk⟩
    rw [parseAttrs, if_neg (by rw [hc]; simp), hs]
    simp only [Res.unwrap_some, Res.bind_ok]
    rw [if_neg (fun h => hv (blen_eq_zero.1 h)), if_pos]
    · exact ⟨_, rfl, alike_rfl⟩
    · by_contra hno
      simp only [Bool.or_eq_true, decide_eq_true_eq, not_or] at hno
      obtain ⟨q, w, hq', hv', -⟩ := quoted_form hno.1 (by simpa only [Bool.not_eq_true', Bool.not_eq_false] using hno.2)
      exact hq k w ⟨hk, q, hq', by rw [hv']; simp⟩
  | @pfx n p0 l0 ps hP hg hb hn0 hp0 =>
    obtain ⟨comps, h1, h2⟩ := split_of_pieces hi hP
    obtain ⟨m, hm⟩ := parseAttrs_all hg x pos
    rw [h1]
    simp only [h2, hm, Res.bind_ok]
    unfold Bound at hb
    push Not at hb
    obtain ⟨a, b, rfl, ha, h0, hno⟩ := hb
    obtain ⟨rfl, rfl⟩ := prefix_unique hn0 ha hp0
    obtain rfl := ho.2 h0
    have hc : contains (a ++ ':' :: b) c%":" = true := contains_iff.2 ((List.singleton_infix_iff _ _).2 (by simp))
    have hk : ¬ m.containsKey (c%"xmlns:" ++ a) = true := by
      intro h
      obtain ⟨p, hp, raw, hq⟩ := (attrs_isSome hm _).1 h
      exact hno p hp raw hq
    unfold nameSplit
    rw [if_pos hc, splitOnce_eq_some.2 ⟨rfl, ha⟩]
    simp only [Res.unwrap_some, Res.bind_ok]
    rw [if_neg hk]
    exact ⟨_, rfl, alike_rfl⟩
  | @name n l ps hP hg hb hl hbad =>
    obtain ⟨comps, h1, h2⟩ := split_of_pieces hi hP
    obtain ⟨m, hm⟩ := parseAttrs_all hg x pos
    obtain ⟨y, q, hn⟩ := nameSplit_of hm hb hl ho.1
    rw [h1]
    simp only [h2, hm, hn, Res.bind_ok]
    have : validName l = false := by rw [Bool.eq_false_iff]; intro h; exact hbad (validName_iff.1 h)
    rw [new_plain, this]
    exact ⟨_, rfl, alike_rfl⟩
  | @attrName n l p k raw ps hP hg hb hl hl' hp hq hbad =>
    obtain ⟨comps, h1, h2⟩ := split_of_pieces hi hP
    obtain ⟨m, hm⟩ := parseAttrs_all hg x pos
    obtain ⟨y, q, hn⟩ := nameSplit_of hm hb hl ho.1
    rw [h1]
    simp only [h2, hm, hn, Res.bind_ok]
    rw [new_plain, validName_iff.2 hl']
    simp only [Bool.not_true, Bool.false_eq_true, if_false]
    obtain ⟨v, hv⟩ := lmap_get_isSome.1 ((attrs_isSome hm k).2 ⟨p, hp, raw, hq⟩)
    cases hf : m.entries.find? (fun kv => !validName kv.1) with
    | none =>
      rw [List.find?_eq_none] at hf
      have := hf (k, v) hv
      exact absurd (validName_iff.1 (by simpa using this)) hbad
    | some kv => exact ⟨_, rfl, .inr ⟨k, kv.1, rfl, rfl⟩⟩

/-- a start tag with which nothing is wrong -/
theorem parseNewElement_fine {o : List Str} {tag t : Str} (hi : Inner tag t) (x : Str) (pos : Nat) {parent : Option Element}
    (ho : parent = none ↔ o = []) (h : TagFine o tag) : ∃ e, parseNewElement t x pos parent = .ok e := by
  obtain ⟨n, l, ps, hP, hg, hb, hl, hl', ha⟩ := h
  rw [parseNewElement_eq]
  obtain ⟨comps, h1, h2⟩ := split_of_pieces hi hP
  obtain ⟨m, hm⟩ := parseAttrs_all hg x pos
  obtain ⟨y, q, hn⟩ := nameSplit_of hm hb hl ho.1
  rw [h1]
  simp only [h2, hm, hn, Res.bind_ok]
  have hf : m.entries.find? (fun kv => !validName kv.1) = none := by
    rw [List.find?_eq_none]
    rintro ⟨k, v⟩ hv
    obtain ⟨p, hp, raw, hq⟩ := (attrs_isSome hm k).1 (lmap_get_isSome.2 ⟨v, hv⟩)
    simp [validName_iff.2 (ha p hp k raw hq)]
  rw [new_plain, validName_iff.2 hl', hf]
  exact ⟨_, rfl⟩

/-! ## tags after the root tag -/

theorem append_closed {st : ParseTree} (h : Opened st []) (n : Node) : st.append n = .err (.parsing .noRootElement none) := by
  have hs := h.stack
  unfold ParseTree.append
  cases hp : st.pos with
  | none => rfl
  | some p => rw [hp] at hs; cases hs

theorem goodTag_match {tag : Str} (h : ¬ BadTag tag) : Re.isMatch elemRe tag = true := by
  by_contra hm
  exact h (badTag_iff.2 (by simpa using hm))

theorem close_prefix {tag : Str} (h : kind tag = .close) : ¬ c%"<!" <+: tag ∧ c%"</" <+: tag := by
  unfold kind at h
  by_cases h1 : c%"<!" <+: tag
  · rw [if_pos h1] at h; cases h
  · refine ⟨h1, ?_⟩
    rw [if_neg h1] at h
    by_contra h2
    rw [if_neg h2] at h
    split at h <;> cases h

theorem handleTag_plain {tag t : Str} (h1 : ¬ c%"<!" <+: tag) (ht : stripTag tag = some t) (hg : ¬ BadTag tag) (x : Str) (pos : Nat)
    (st : ParseTree) : handleTag x pos tag st =
      (if startsWith tag c%"</" then do
        match ← st.topElement with
        | none => .err (errAt .rootAlreadyClosed x pos)
        | some active =>
          if t ≠ active.tagName then .err (errAt (.closingMismatch tag active.tagName) x pos)
          else st.pop
      else do
        let top ← st.topElement
        let e ← parseNewElement t x pos top
        if endsWith tag c%"/>" then (st.append (.element e)).mapErr (rewrap x pos)
        else st.push e) := by
  unfold handleTag
  rw [if_neg (by
      simp only [Bool.and_eq_true, startsWith_iff, not_and]
      intro h; exact absurd (List.IsPrefix.trans (by decide) h) h1),
    if_neg (by rw [startsWith_iff]; exact fun h => h1 (List.IsPrefix.trans (by decide) h)), if_neg (by rwa [startsWith_iff]), ht,
    checkElementTag_ok.2 (goodTag_match hg)]
  rfl

theorem handleTag_fault {st : ParseTree} {o : List Str} {tag s : Str} (hst : Opened st o) (hT : TagAt s tag) (x : Str) (pos : Nat)
    {e : Err} (h : InnerFault o tag (lineAndColumn x pos) e) : ∃ e', handleTag x pos tag st = .err e' ∧ Alike e e' := by
  have hang := tagAt_angled hT
  obtain ⟨t, ht, -⟩ := stripTag_infix tag
  have hi : Inner tag t := inner_iff.2 ⟨ht, hang⟩
  have hcmt : c%"<!--" <+: tag → (startsWith tag c%"<!--" && endsWith tag c%"-->") = true := by
    intro h
    rw [startsWith_iff.2 h, endsWith_iff.2 (comment_ends hT h)]; rfl
  have hnc : ¬ c%"<!--" <+: tag → ¬ (startsWith tag c%"<!--" && endsWith tag c%"-->") = true := by
    intro h h'
    simp only [Bool.and_eq_true, startsWith_iff] at h'
    exact h h'.1
  have h7 : blen c%"-->" = 3 := rfl
  have h8 : blen c%"<!--" = 4 := rfl
  have htop : ∃ parent, st.topElement = .ok parent ∧ (parent = none ↔ o = []) := by
    rcases opened_top hst with ⟨h1, h2⟩ | ⟨e, ns', h1, h2⟩
    · exact ⟨_, h2, by simp [h1]⟩
    · exact ⟨_, h2, by simp [h1]⟩
  cases h with
  | comment h1 h2 =>
    unfold handleTag
    rw [if_pos (hcmt h1)]
    have hb : blen tag < 7 := by
      obtain ⟨u, hu⟩ := h1
      have h3 := congrArg List.length hu
      simp at h3
      have h4 : u <:+ c%"-->" := List.suffix_of_suffix_length_le ⟨_, hu⟩ (comment_ends hT ⟨u, hu⟩) (by simp; omega)
      obtain ⟨w, hw⟩ := h4
      have h5 := congrArg List.length hw
      have h6 := congrArg blen hw
      have h9 := congrArg blen hu
      have h10 := length_le_blen w
      simp only [blen_append] at h6 h9
      simp at h5
      omega
    simp only
    rw [if_neg (by omega), if_neg (by omega)]
    exact ⟨_, rfl, alike_rfl⟩
  | outside h0 h1 =>
    subst h0
    unfold handleTag
    rcases h1 with ⟨h1, h2⟩ | h1
    · rw [if_pos (hcmt h1)]
      have hb := length_le_blen tag
      obtain ⟨m, hm⟩ : ∃ m, tag = c%"<!--" ++ m ++ c%"-->" := by
        obtain ⟨u, hu⟩ := h1
        obtain ⟨v, hv⟩ := comment_ends hT ⟨u, hu⟩
        have h3 := congrArg List.length hv
        have h4 : c%"<!--" <+: v := List.prefix_of_prefix_length_le ⟨u, hu⟩ ⟨_, hv⟩ (by simp at h3 ⊢; omega)
        obtain ⟨w, rfl⟩ := h4
        exact ⟨w, hv.symm⟩
      have hl : sliceB 4 (blen tag - 3) tag = some m :=
        sliceB_eq_some.2 ⟨c%"<!--", c%"-->", hm, rfl, by rw [hm]; simp only [blen_append]; omega⟩
      simp only
      rw [if_pos (by omega), hl]
      simp only [Res.unwrap_some, Res.bind_ok]
      have hcn : commentNew m = .ok m := by
        unfold commentNew
        rw [if_neg]
        rw [contains_iff]
        exact comment_body hT hm
      rw [hcn]
      simp only [Res.bind_ok, append_closed hst]
      exact ⟨_, rfl, alike_rfl⟩
    · rw [if_neg (hnc (by
        obtain ⟨u, rfl⟩ := h1
        rintro ⟨v, hv⟩
        simp at hv)), if_pos (startsWith_iff.2 h1)]
      obtain ⟨m, hm, hno⟩ := cdata_body hT h1
      have hsl : sliceB 9 (blen tag - 3) tag = some m :=
          sliceB_eq_some.2 ⟨c%"<![CDATA[", c%"]]>", hm, rfl, by
            have h7 : blen c%"]]>" = 3 := rfl
            have h8 : blen c%"<![CDATA[" = 9 := rfl
            rw [hm]; simp only [blen_append]; omega⟩
      rw [if_neg (by simp [endsWith_iff.2 ⟨_, hm.symm⟩]), hsl]
      have hcn : cdataNew m = .ok m := by
        unfold cdataNew
        rw [if_neg]
        rwa [contains_iff]
      simp only [Res.unwrap_some, Res.bind_ok, hcn, append_closed hst]
      exact ⟨_, rfl, alike_rfl⟩
  | outside0 h0 h1 =>
    subst h0 h1
    unfold handleTag
    rw [if_pos (hcmt (by decide))]
    simp only
    rw [if_neg (by decide), if_pos (by decide)]
    have : commentNew [] = .ok [] := rfl
    rw [this, Res.bind_ok, append_closed hst]
    exact ⟨_, rfl, alike_rfl⟩
  | unsupported h1 h2 h3 h4 =>
    unfold handleTag
    rw [if_neg (hnc h2), if_neg (by rwa [startsWith_iff]), if_pos (startsWith_iff.2 h1)]
    rw [abbreviate_some.2 h4]
    exact ⟨_, rfl, alike_rfl⟩
  | «syntax» h1 h2 =>
    unfold handleTag
    rw [if_neg (hnc (fun h => h1 (List.IsPrefix.trans (by decide) h))),
      if_neg (by rw [startsWith_iff]; exact fun h => h1 (List.IsPrefix.trans (by decide) h)), if_neg (by rwa [startsWith_iff]), ht]
    unfold checkElementTag
    rw [badTag_iff.1 h2]
    exact ⟨_, rfl, alike_rfl⟩
  | closed h0 hk hg =>
    obtain ⟨k1, k2⟩ := close_prefix hk
    have hb : st.topElement = .ok none := by
      rcases opened_top hst with ⟨h1, h2⟩ | ⟨e, ns', h1, h2⟩
      · exact h2
      · rw [h0] at h1; cases h1
    rw [handleTag_plain k1 ht hg, if_pos (startsWith_iff.2 k2), hb]
    exact ⟨_, rfl, alike_rfl⟩
  | mismatch h0 hk hg hm hne =>
    obtain ⟨k1, k2⟩ := close_prefix hk
    rw [handleTag_plain k1 ht hg, if_pos (startsWith_iff.2 k2)]
    rcases opened_top hst with ⟨h1, h2⟩ | ⟨e, ns', h1, h2⟩
    · rw [h0] at h1; cases h1
    · rw [h0] at h1
      cases h1
      rw [h2]
      simp only [Res.bind_ok]
      obtain rfl := inner_unique hi hm
      rw [if_pos hne]
      exact ⟨_, rfl, alike_rfl⟩
  | elem hop hg hf =>
    obtain ⟨k1, k2⟩ := opening_iff.1 hop
    obtain ⟨parent, hp, ho⟩ := htop
    obtain ⟨e', he, hal⟩ := parseNewElement_fault hi x pos ho hf
    rw [handleTag_plain k1 ht hg, if_neg (by rwa [startsWith_iff]), hp, Res.bind_ok, he]
    exact ⟨e', rfl, hal⟩
  | element h0 hk hg hf =>
    subst h0
    obtain ⟨k1, k2⟩ := opening_iff.1 (.inr hk)
    obtain ⟨parent, hp, ho⟩ := htop
    obtain ⟨e', he⟩ := parseNewElement_fine hi x pos ho hf
    have hs : endsWith tag c%"/>" = true := by
      unfold kind at hk
      rw [if_neg k1, if_neg k2] at hk
      by_contra hs
      rw [if_neg (fun h => hs (endsWith_iff.2 h))] at hk
      cases hk
    rw [handleTag_plain k1 ht hg, if_neg (by rwa [startsWith_iff]), hp, Res.bind_ok, he, Res.bind_ok, if_pos hs, append_closed hst]
    exact ⟨_, rfl, alike_rfl⟩

/-! ## one tag -/

section
variable {x : Str} {pre rest : List (Str × Str)} {text tag s : Str} {pos : Nat} {st : RState}

/-- the root tag -/
theorem prologTag_root (h1 : AllWs text) (h2 : ¬ IsProlog tag) (h3 : ¬ c%"</" <+: tag) (h4 : ¬ BadTag tag) (x : Str) (pos : Nat) (st : Prolog) :
    prologTag x pos text tag st = .ok ({ st with tagSpan := (pos + blen text, pos + blen text + blen tag) }, true) := by
  unfold prologTag
  rw [realText_ws h1]
  simp only [Res.bind_ok, Option.isSome_none, Bool.false_eq_true, if_false]
  rw [if_neg (by rw [startsWith_iff]; exact fun h => h2 (.inl h)),
    if_neg (by rw [startsWith_iff]; exact fun h => h2 (.inr (List.IsPrefix.trans (by decide) h))),
    if_neg (by rw [startsWith_iff]; exact fun h => h2 (.inr (List.IsPrefix.trans (by decide) h))),
    if_neg (by rw [startsWith_iff]; exact fun h => h2 (.inr h)),
    if_neg (by rw [startsWith_iff]; exact h3), checkElementTag_ok.2 (goodTag_match h4)]
  rfl

/-- a tag with a fault is rejected, for this fault -/
theorem step_fault (hx : LexesTo x (pre ++ rest) (text ++ s)) (hT : TagAt s tag) (hpos : pos = blen (srcOf (pre ++ rest)))
    (hi : RInv pre rest st) {e : Err} (hf : Fault pre rest text s e) : ∃ e', readTag x pos text tag st = .err e' ∧ Alike e e' := by
  have hne : s ≠ [] := by
    rintro rfl
    obtain ⟨u, hu⟩ := tagAt_lt hT
    simp at hu
  have hloc := tag_located hx hT hpos
  cases st with
  | prolog st =>
    obtain ⟨hpre, rfl, h0, hw⟩ := hi
    simp only [List.append_nil] at hx hpos hloc
    simp only [readTag]
    cases hf with
    | noRoot _ k => exact absurd k hne
    | noTag _ _ k => exact absurd hT (k _)
    | text _ _ k1 k2 k3 =>
      obtain ⟨u, hu⟩ := k2
      have hlt : LocatedText (srcOf pre) text (lineAndColumn x pos) := by
        rw [hpos]
        exact locatedText (by rw [← lexesTo_src hx]) (by rintro rfl; exact k1 (by simp [AllWs]))
      obtain rfl := locatedText_unique k3 hlt
      unfold prologTag
      rw [realText_not_ws k1, unescape_ok_iff.2 hu]
      exact ⟨_, rfl, alike_rfl⟩
    | decl _ hT' k1 k2 k3 k4 =>
      obtain rfl := tagAt_unique (tagAt_lt hT) hT hT'
      obtain rfl := located_unique k4 hloc
      unfold prologTag
      rw [realText_ws k1]
      simp only [Res.bind_ok, Option.isSome_none, Bool.false_eq_true, if_false]
      rw [if_pos (startsWith_iff.2 k2), if_pos (fun h => h0.1 h k3)]
      exact ⟨_, rfl, alike_rfl⟩
    | closing _ hT' k1 k2 k3 =>
      obtain rfl := tagAt_unique (tagAt_lt hT) hT hT'
      obtain rfl := located_unique k3 hloc
      have hcl : ∀ {p : Str}, ¬ p <+: c%"</" → ¬ c%"</" <+: p → ¬ startsWith tag p = true := by
        intro p h1 h2 h
        rcases List.prefix_or_prefix_of_prefix (startsWith_iff.1 h) k2 with h | h
        · exact h1 h
        · exact h2 h
      unfold prologTag
      rw [realText_ws k1]
      simp only [Res.bind_ok, Option.isSome_none, Bool.false_eq_true, if_false]
      rw [if_neg (hcl (by decide) (by decide)), if_neg (hcl (by decide) (by decide)), if_neg (hcl (by decide) (by decide)),
        if_neg (hcl (by decide) (by decide)), if_pos (startsWith_iff.2 k2)]
      exact ⟨_, rfl, alike_rfl⟩
    | notTag _ hT' k1 k2 k3 k4 k5 =>
      obtain rfl := tagAt_unique (tagAt_lt hT) hT hT'
      obtain rfl := located_unique k5 hloc
      unfold prologTag
      rw [realText_ws k1]
      simp only [Res.bind_ok, Option.isSome_none, Bool.false_eq_true, if_false]
      rw [if_neg (by rw [startsWith_iff]; exact fun h => k2 (.inl h)),
        if_neg (by rw [startsWith_iff]; exact fun h => k2 (.inr (List.IsPrefix.trans (by decide) h))),
        if_neg (by rw [startsWith_iff]; exact fun h => k2 (.inr (List.IsPrefix.trans (by decide) h))),
        if_neg (by rw [startsWith_iff]; exact fun h => k2 (.inr h)),
        if_neg (by rw [startsWith_iff]; exact k3)]
      unfold checkElementTag
      rw [badTag_iff.1 k4]
      exact ⟨_, rfl, alike_rfl⟩
    | root _ hT' k1 k2 k3 k4 k5 k6 =>
      obtain rfl := tagAt_unique (tagAt_lt hT) hT hT'
      obtain rfl := located_unique k5 hloc
      obtain ⟨t, ht, -⟩ := stripTag_infix tag
      have hi : Inner tag t := inner_iff.2 ⟨ht, tagAt_angled hT⟩
      obtain ⟨e', he, hal⟩ := parseNewElement_fault hi x (pos + blen text) (parent := none) (by simp) k6
      rw [prologTag_root k1 k2 (opening_iff.1 k3).2 k4]
      simp only [Res.bind_ok, ht, Res.unwrap_some, he]
      exact ⟨e', rfl, hal⟩
    | noTag2 k => exact absurd rfl k
    | second k => cases k
    | text2 k => exact absurd rfl k
    | inner k => exact absurd rfl k
    | notClosed k => exact absurd rfl k
  | inside pro sc st =>
    obtain ⟨hpre, hne', hroot, ⟨o, ho, hst⟩, hq, hsc⟩ := hi
    simp only [readTag]
    have hs : (∀ t r, rest = [(t, r)] → kind r ≠ .empty) → sc = false := by
      intro h
      cases sc with
      | false => rfl
      | true =>
        obtain ⟨t, u, h1, h2⟩ := hsc.1 rfl
        exact absurd h2 (h t u h1)
    cases hf with
    | noRoot k => exact absurd k hne'
    | noTag k => exact absurd k hne'
    | text k => exact absurd k hne'
    | decl k => exact absurd k hne'
    | closing k => exact absurd k hne'
    | notTag k => exact absurd k hne'
    | root k => exact absurd k hne'
    | noTag2 _ _ k => exact absurd hT (k _)
    | second k1 k2 _ k3 =>
      obtain rfl := located_unique k3 hloc
      rw [hsc.2 ⟨_, _, k1, k2⟩, if_pos rfl]
      exact ⟨_, rfl, alike_rfl⟩
    | text2 _ k1 k2 _ k3 k4 k5 =>
      obtain rfl := located_unique k5 hloc
      obtain rfl := openAfter_unique ho k2
      obtain ⟨u, hu⟩ := k4
      rw [hs k1, if_neg (by simp)]
      unfold addText
      rw [realText_not_ws k3, unescape_ok_iff.2 hu]
      simp only [Res.bind_ok, Res.pure_eq, append_closed hst]
      exact ⟨_, rfl, alike_rfl⟩
    | inner _ k1 k2 k3 hT' k4 k5 =>
      obtain rfl := tagAt_unique (tagAt_lt hT) hT hT'
      obtain rfl := located_unique k4 hloc
      obtain rfl := openAfter_unique ho k2
      obtain ⟨st1, h1⟩ := (addText_ok_iff (b := x) (pos := pos + blen text) hq hst).2 k3
      obtain ⟨e', he, hal⟩ := handleTag_fault (opened_addText hst h1) hT x (pos + blen text) k5
      rw [hs k1, if_neg (by simp), h1, Res.bind_ok, he]
      exact ⟨e', rfl, hal⟩
    | notClosed _ _ k => exact absurd k hne

end

/-! ## the whole input -/

/-- an input with a fault is rejected, for this fault -/
theorem parse_fault {x : Str} {pre rest : List (Str × Str)} {text s : Str} (hx : LexesTo x (pre ++ rest) (text ++ s)) (htext : '<' ∉ text)
    (h1 : ∀ t ∈ pre, IsProlog t.2) (h2 : ∀ t r, rest = t :: r → ¬ IsProlog t.2) (h3 : NoFaultYet (parseStr (srcOf (pre ++ rest))))
    {e : Err} (hf : Fault pre rest text s e) : ∃ e', parseStr x = .err e' ∧ Alike e e' := by
  obtain ⟨st, hst⟩ := (noFaultYet_iff hx).1 h3
  have hinv : RInv pre rest st := by
    rcases read_cases hx with ⟨st', pre', rest', g1, g2, g3⟩ | ⟨pre, rest, text', tag', s', u, st, g1, g2, g3, g4, g5, g6, g7⟩
    · rw [hst] at g1
      cases g1
      have hi : (∀ t ∈ pre', IsProlog t.2) ∧ (∀ t r, rest' = t :: r → ¬ IsProlog t.2) := by
        cases st with
        | prolog st => exact ⟨g3.1, by rw [g3.2.1]; simp⟩
        | inside pro sc st => exact ⟨g3.1, g3.2.2.1⟩
      obtain ⟨rfl, rfl⟩ := split_unique g2 hi.1 h1 hi.2 h2
      exact g3
    · rcases g7 with ⟨e', k1, k2⟩ | ⟨k1, k2⟩ <;> rw [k1] at hst <;> cases hst
  by_cases hT : ∃ tag, TagAt s tag
  · obtain ⟨tag, hT⟩ := hT
    obtain ⟨r, hr⟩ := tagAt_prefix hT
    have hx' := lexesTo_snoc hx htext hT hr.symm
    obtain ⟨toks', er, hl⟩ := exists_lex (0 + blen (srcOf (pre ++ rest ++ [(text, tag)]))) r
    obtain ⟨e', he, hal⟩ := step_fault hx hT rfl hinv hf
    rw [parse_read (lex_of_lexesTo hx' 0 hl), readToks_append, readToks_append, hst]
    simp only [Res.bind_ok, readToks, Nat.zero_add, he]
    exact ⟨e', rfl, hal⟩
  · have hno : ∀ t, ¬ TagAt s t := fun t ht => hT ⟨t, ht⟩
    have hend : s = [] → parseStr x = finish x none st := by
      rintro rfl
      have hl := lex_of_lexesTo hx 0 (toks' := []) (e := none) (.done (by simpa using htext))
      rw [List.append_nil] at hl
      rw [parse_read hl, hst, Res.bind_ok]
    have hlt : c%"<" <+: s → parseStr x = finish x (some (0 + blen (srcOf (pre ++ rest)) + blen text)) st ∧
        Located (srcOf (pre ++ rest) ++ text) (lineAndColumn x (0 + blen (srcOf (pre ++ rest)) + blen text)) := by
      intro hs
      have hl := lex_of_lexesTo hx 0 (.fail htext hs hno)
      rw [List.append_nil] at hl
      rw [parse_read hl, hst, Res.bind_ok]
      refine ⟨rfl, ?_⟩
      obtain ⟨u, rfl⟩ := hs
      have := located (x := x) (a := srcOf (pre ++ rest) ++ text) (b := u) (c := '<') (by rw [lexesTo_src hx]; simp) (by decide)
      rwa [Nat.zero_add, ← blen_append]
    cases hf with
    | noRoot k1 k2 =>
      rw [hend k2]
      cases st with
      | prolog st => exact ⟨_, rfl, alike_rfl⟩
      | inside pro sc st => exact absurd k1 hinv.2.1
    | noTag k1 k2 _ k3 =>
      obtain ⟨g1, g2⟩ := hlt k2
      subst k1
      rw [List.append_nil] at g1 g2
      obtain rfl := located_unique k3 g2
      rw [g1]
      cases st with
      | prolog st => exact ⟨_, rfl, alike_rfl⟩
      | inside pro sc st => exact absurd rfl hinv.2.1
    | noTag2 k1 k2 _ k3 =>
      obtain ⟨g1, g2⟩ := hlt k2
      obtain rfl := located_unique k3 g2
      rw [g1]
      cases st with
      | prolog st => exact absurd hinv.2.1 k1
      | inside pro sc st => exact ⟨_, rfl, alike_rfl⟩
    | notClosed k1 k2 k3 =>
      rw [hend k3]
      cases st with
      | prolog st => exact absurd hinv.2.1 k1
      | inside pro sc st =>
        obtain ⟨-, hne, -, ⟨o, ho, hop⟩, -, -⟩ := hinv
        obtain rfl := openAfter_unique ho k2
        have hstk := hop.stack
        unfold finish
        cases hp : st.pos with
        | none => rw [hp] at hstk; cases hstk
        | some p =>
          simp only [ParseTree.emptyStack, hp]
          exact ⟨_, rfl, alike_rfl⟩
    | text _ h => exact absurd h (hno _)
    | decl _ h => exact absurd h (hno _)
    | closing _ h => exact absurd h (hno _)
    | notTag _ h => exact absurd h (hno _)
    | root _ h => exact absurd h (hno _)
    | second _ _ h => exact absurd h (hno _)
    | text2 _ _ _ h => exact absurd h (hno _)
    | inner _ _ _ _ h => exact absurd h (hno _)

/-! ## without the parser -/

/-- for concrete tags -/
theorem tagAt_of {tag r : Str} (h0 : c%"<" <+: tag) (h : tagLen (tag ++ r) = some (blen tag)) : TagAt (tag ++ r) tag := by
  obtain ⟨t', h1, h2⟩ := (tagLen_iff (h0.trans (List.prefix_append _ _)) _).1 h
  obtain ⟨u, hu⟩ := tagAt_prefix h1
  rw [← (append_inj_blen hu h2).1] at h1 ⊢
  exact h1

/-- two ways to take tokens from an input -/
theorem lexesTo_next {x r r' : Str} {toks toks' : List (Str × Str)} (h : LexesTo x toks r) (h' : LexesTo x toks' r')
    (hlt : toks.length < toks'.length) :
    ∃ text tag s u, toks' = toks ++ (text, tag) :: u ∧ r = text ++ s ∧ '<' ∉ text ∧ TagAt s tag := by
  induction h generalizing toks' r' with
  | done =>
    cases h' with
    | done => simp at hlt
    | @tag text tag rest s r toks h1 h2 h3 h4 => exact ⟨text, tag, s, toks, rfl, rfl, h1, h2⟩
  | @tag text tag rest s r toks h1 h2 h3 h4 ih =>
    generalize hy : text ++ s = y at h'
    cases h' with
    | done => simp at hlt
    | @tag text' tag' rest' s' r' toks' h1' h2' h3' h4' =>
      obtain ⟨rfl, rfl⟩ := split_lt_unique hy h1 (tagAt_lt h2) h1' (tagAt_lt h2')
      obtain rfl := tagAt_unique (tagAt_lt h2) h2 h2'
      rw [h3'] at h3
      obtain rfl := List.append_cancel_left h3
      obtain ⟨text', tag', s', u'', k1, k2, k3, k4⟩ := ih h4' (by simpa using hlt)
      exact ⟨text', tag', s', u'', by rw [k1]; rfl, k2, k3, k4⟩

theorem rinv_split {pre rest : List (Str × Str)} {st : RState} (hi : RInv pre rest st) :
    (∀ t ∈ pre, IsProlog t.2) ∧ (∀ t r, rest = t :: r → ¬ IsProlog t.2) := by
  cases st with
  | prolog st => exact ⟨hi.1, by rw [hi.2.1]; simp⟩
  | inside pro sc st => exact ⟨hi.1, hi.2.2.1⟩

theorem first_noFaultYet {x : Str} {pre rest : List (Str × Str)} {text s : Str} (h : Split x pre rest text s) :
    NoFaultYet (parseStr (srcOf (pre ++ rest))) ↔ First x pre rest := by
  obtain ⟨hx, htext, h1, h2⟩ := h
  constructor
  · intro hn pre' rest' text' s' ⟨hx', htext', h1', h2'⟩ ht
    by_contra hlt
    obtain ⟨st, hst⟩ := (noFaultYet_iff hx).1 hn
    obtain ⟨text2, tag2, s2, u, k1, k2, k3, k4⟩ := lexesTo_next hx' hx (by omega)
    obtain ⟨v, hv⟩ := tagAt_lt k4
    have hcut : c%"<" <+: s' → text' = text2 ∧ s' = s2 := fun h => split_lt_unique k2 htext' h k3 (tagAt_lt k4)
    have hTl : ∀ {t : Str}, TagAt s' t → c%"<" <+: s' := fun ht => tagAt_lt ht
    have hnil : s' ≠ [] := by
      rintro rfl
      rw [← hv, List.append_nil] at k2
      exact htext' (k2 ▸ by simp)
    have hlt' : c%"<" <+: s' := by
      rcases ht with hc | ⟨e, hf⟩
      · cases hc <;> exact hTl ‹_›
      · cases hf <;> first | exact hTl ‹_› | assumption | exact absurd ‹_› hnil
    obtain ⟨rfl, rfl⟩ := hcut hlt'
    rw [k1, readToks_append] at hst
    cases hst' : readToks x 0 (pre' ++ rest') .init with
    | ok st' =>
      have hinv : RInv pre' rest' st' := by
        rcases read_cases hx' with ⟨st'', pre'', rest'', g1, g2, g3⟩ | ⟨pre'', rest'', text'', tag', s', u, st, g1, g2, g3, g4, g5, g6, g7⟩
        · rw [hst'] at g1
          cases g1
          have hi := rinv_split g3
          obtain ⟨rfl, rfl⟩ := split_unique g2 hi.1 h1' hi.2 h2'
          exact g3
        · rcases g7 with ⟨e', k1, k2⟩ | ⟨k1, k2⟩ <;> rw [k1] at hst' <;> cases hst'
      rw [hst', Res.bind_ok] at hst
      simp only [readToks, Nat.zero_add] at hst
      rcases ht with hc | ⟨e, hf⟩
      · rw [step_panic k4 hinv hc] at hst; cases hst
      · obtain ⟨e', he, -⟩ := step_fault hx' k4 rfl hinv hf
        rw [he] at hst; cases hst
    | _ => rw [hst'] at hst; cases hst
  · intro hf
    rw [noFaultYet_iff hx]
    rcases read_cases hx with ⟨st, pre', rest', g1, g2, g3⟩ | ⟨pre', rest', text', tag', s', u, st, g1, g2, g3, g4, g5, g6, g7⟩
    · exact ⟨st, g1⟩
    · obtain ⟨i1, i2⟩ := rinv_split g6
      have := hf pre' rest' text' s' ⟨g2, g3, i1, i2⟩ (by
        rcases g7 with ⟨e, -, k⟩ | ⟨-, k⟩
        · exact .inr ⟨e, k⟩
        · exact .inl k)
      rw [g1] at this
      simp at this
      omega

/-- exact description of errors -/
theorem first_err {x : Str} {e : Err} (h : parseStr x = .err e) :
    ∃ pre rest text s, Split x pre rest text s ∧ First x pre rest ∧ Fault pre rest text s e := by
  obtain ⟨pre, rest, text, s, h1, h2, h3, h4, h5, h6⟩ := parse_err h
  exact ⟨pre, rest, text, s, ⟨h1, h2, h3, h4⟩, (first_noFaultYet ⟨h1, h2, h3, h4⟩).1 h5, h6⟩

theorem first_fault {x : Str} {pre rest : List (Str × Str)} {text s : Str} {e : Err} (h : Split x pre rest text s) (h1 : First x pre rest)
    (hf : Fault pre rest text s e) : ∃ e', parseStr x = .err e' ∧ Alike e e' :=
  parse_fault h.1 h.2.1 h.2.2.1 h.2.2.2 ((first_noFaultYet h).2 h1) hf

theorem first_panic {x : Str} :
    parseStr x = .panic ↔ ∃ pre rest text s, Split x pre rest text s ∧ First x pre rest ∧ Crash pre rest text s := by
  rw [parse_panic]
  constructor
  · rintro ⟨pre, rest, text, s, h1, h2, h3, h4, h5, h6⟩
    exact ⟨pre, rest, text, s, ⟨h1, h2, h3, h4⟩, (first_noFaultYet ⟨h1, h2, h3, h4⟩).1 h5, h6⟩
  · rintro ⟨pre, rest, text, s, h, h5, h6⟩
    exact ⟨pre, rest, text, s, h.1, h.2.1, h.2.2.1, h.2.2.2, (first_noFaultYet h).2 h5, h6⟩

/-- exact description of acceptance -/
theorem first_ok {x : Str} : (∃ d, parseStr x = .ok d) ↔ ∀ pre rest text s, Split x pre rest text s → ¬ Trouble pre rest text s := by
  constructor
  · rintro ⟨d, hd⟩
    by_contra hc
    push Not at hc
    have hex : ∃ n, ∃ pre rest text s, (pre ++ rest).length = n ∧ Split x pre rest text s ∧ Trouble pre rest text s := by
      obtain ⟨pre, rest, text, s, h1, h2⟩ := hc
      exact ⟨_, pre, rest, text, s, rfl, h1, h2⟩
    classical
    obtain ⟨pre, rest, text, s, hn, h1, h2⟩ := Nat.find_spec hex
    have hfirst : First x pre rest := by
      intro pre' rest' text' s' k1 k2
      rw [hn]
      exact Nat.find_min' hex ⟨pre', rest', text', s', rfl, k1, k2⟩
    rcases h2 with h2 | ⟨e, h2⟩
    · rw [first_panic.2 ⟨pre, rest, text, s, h1, hfirst, h2⟩] at hd; cases hd
    · obtain ⟨e', he, -⟩ := first_fault h1 hfirst h2
      rw [he] at hd; cases hd
  · intro h
    cases hp : parseStr x with
    | ok d => exact ⟨d, rfl⟩
    | err e =>
      obtain ⟨pre, rest, text, s, h1, -, h3⟩ := first_err hp
      exact absurd (.inr ⟨e, h3⟩) (h pre rest text s h1)
    | panic =>
      obtain ⟨pre, rest, text, s, h1, -, h3⟩ := first_panic.1 hp
      exact absurd (.inl h3) (h pre rest text s h1)
    | diverge => exact absurd hp (np_parseStr x).1

end KissXml
