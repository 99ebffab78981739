import Verif.Proofs.XmlRead
import Verif.Proofs.SyntaxExact
/-!
# Which XML documents are accepted: all that are accepted are concrete documents of `Spec/Syntax`
-/
namespace KissXml
open KissXml.Spec

/-! ## names -/

theorem plain_xml {n : Str} (h : PlainName n) (hn : '\u1680' ∉ n) : XmlName n := by
  obtain ⟨a, t, rfl, h1, h2⟩ := h
  refine ⟨a, t, rfl, h1, h2, fun x hx => ?_⟩
  have hx' : CodeIn startCodes x ∨ CodeIn moreCodes x := by
    rcases List.mem_cons.1 hx with rfl | hx
    · exact .inl h1
    · exact h2 x hx
  have hne : x.toNat ≠ 0x1680 := by
    intro h
    have : x = '\u1680' := by rw [← Char.ofNat_toNat x, h]
    exact hn (this ▸ hx)
  cases hw : isWs x with
  | false => rfl
  | true =>
    exfalso
    simp only [isWs, inRanges, wsRanges, List.any_cons, List.any_nil, Bool.or_false, Bool.or_eq_true, Bool.and_eq_true, decide_eq_true_eq] at hw
    simp only [CodeIn, startCodes, moreCodes, List.mem_cons, List.not_mem_nil, or_false, exists_eq_or_imp, exists_eq_left] at hx'
    omega

theorem xvalue_quote {q : Char} {s v : Str} (h : XValue q s v) (hq : q = '"' ∨ q = '\'') : q ∉ s := by
  induction h with
  | nil => simp
  | char _ _ _ h4 _ ih => simpa using ⟨Ne.symm h4, ih⟩
  | @ref r s t c h _ ih =>
    simp only [List.mem_append, not_or]
    refine ⟨?_, ih⟩
    cases h with
    | entity he => rcases hq with rfl | rfl <;> cases he <;> decide
    | dec hd _ =>
      have := decValue_no hd
      rcases hq with rfl | rfl
      · simpa using this.1
      · simpa using this.2
    | hex hd _ =>
      have : ∀ q, q = '"' ∨ q = '\'' → q ∉ _ := fun q hq hm => by
        obtain ⟨d, hd⟩ := hexValue_all hd q hm
        have := hexDigit_iff.2 hd
        rcases hq with rfl | rfl <;> (revert this; simp [hexDigit])
      have := this q hq
      rcases hq with rfl | rfl <;> simpa using this
where
  decValue_no {d : Str} {m : Nat} (h : DecValue d m) : '"' ∉ d ∧ '\'' ∉ d := by
    have h0 : '0'.toNat = 48 := rfl
    have h1 : '"'.toNat = 34 := rfl
    have h2 : '\''.toNat = 39 := rfl
    induction h with
    | one h3 h4 => constructor <;> (intro hm; simp at hm; subst hm; omega)
    | snoc _ h3 h4 ih =>
      constructor <;> (intro hm; rcases List.mem_append.1 hm with hm | hm)
      · exact ih.1 hm
      · simp at hm; subst hm; omega
      · exact ih.2 hm
      · simp at hm; subst hm; omega

/-- whatever the values and the layout -/
abbrev Spec.CTag.Any (t : CTag) : Prop := t.OkFor (fun _ => True) fun _ => True

/-- what `unescape` makes of texts -/
abbrev UnescTo (s t : Str) : Prop := Unesc s (some t)

theorem xattrs_any {s : Str} {l : List (Str × Str)} (h : XAttrs false s l) : '\u1680' ∉ s →
    ∃ as : List CAttr, as.flatMap CAttr.src = s ∧ (∀ a ∈ as, a.OkFor fun _ => True) ∧
      List.Forall₂ (fun a kv => a.name = kv.1 ∧ XValue a.quote a.raw kv.2) as l := by
  induction h with
  | nil => exact fun _ => ⟨[], rfl, by simp, .nil⟩
  | @cons w k e1 e2 raw v r q l h1 h2 h3 h4 h5 _ h7 h8 _ ih =>
    intro hn
    simp only [List.mem_append, not_or] at hn
    obtain ⟨as, g1, g2, g3⟩ := ih hn.2
    refine ⟨⟨w, k, e1, e2, q, raw⟩ :: as, by rw [List.flatMap_cons, g1]; simp [CAttr.src], ?_, .cons ⟨rfl, h8⟩ g3⟩
    intro a ha
    rcases List.mem_cons.1 ha with rfl | ha
    · exact ⟨⟨nice_ws h1, h2⟩, plain_xml h3 (by simp_all), nice_ws h4, nice_ws h5, h7, xvalue_quote h8 h7, trivial⟩
    · exact g2 a ha

theorem xtag_any {n s : Str} {l : List (Str × Str)} (h : XTag false n l s) (hs : '\u1680' ∉ s) :
    ∃ t : CTag, t.body = s ∧ t.name = n ∧ t.Any ∧
      ∀ e, (∀ a ∈ t.attrs, Given a.raw) → t.DenBy UnescTo e → qname e = n ∧ AttrsRead l e := by
  obtain ⟨a, w, h1, h2, h3, h4, rfl⟩ := h
  simp only [List.mem_append, not_or] at hs
  obtain ⟨as, g1, g2, g3⟩ := xattrs_any h2 hs.1.2
  have hm : as.map CAttr.name = l.map Prod.fst := by
    clear g1 g2 h2 h3
    induction g3 with
    | nil => rfl
    | cons h _ ih => rw [List.map_cons, List.map_cons, h.1, ih]
  refine ⟨⟨n, as, w⟩, by rw [CTag.body, g1], rfl, ⟨plain_xml h1 hs.1.1, g2, trivial, by rw [hm]; exact h3, nice_ws h4⟩,
    fun e hg hd => ⟨?_, ⟨?_, ?_⟩⟩⟩
  · by_cases hc : ':' ∈ n
    · obtain ⟨p, l, rfl, hp⟩ := mem_split_first hc
      obtain ⟨d1, d2⟩ := hd.prefixed p l rfl hp
      simp [qname, d1, d2]
    · obtain ⟨d1, d2⟩ := hd.plain hc
      simp [qname, d1, d2]
  · intro k v hkv
    obtain ⟨a, ha, h5, h6⟩ := forall₂_right g3 hkv
    obtain ⟨u, hu⟩ := hg a ha
    exact ⟨u, (hd.attrs k u).2 ⟨a, ha, h5, hu⟩, a.quote, a.raw, (g2 a ha).quote, h6, hu⟩
  · intro k u hu
    obtain ⟨a, ha, rfl, h6⟩ := (hd.attrs k u).1 hu
    obtain ⟨⟨k', v⟩, hkv, h7, h8⟩ := forall₂_left g3 ha
    simp only at h7
    exact ⟨v, h7 ▸ hkv, a.quote, a.raw, (g2 a ha).quote, h8, h6⟩

/-! ## readable content is concrete content -/

/-- some concrete content is written so, and it is read as the items say -/
def HasAny (s : Str) (l : List Item) : Prop :=
  ∃ c : Cst, c.src = s ∧ c.OkFor (fun _ => True) (fun _ => True) ∧ ∀ L ns, c.OkFor Given L → c.DenBy UnescTo ns → ItemsRead l ns

theorem readItems_append {a b : List Item} : ReadItems (a ++ b) ↔ ReadItems a ∧ ReadItems b := by
  induction a with
  | nil => simp [ReadItems]
  | cons x a ih => simp [ReadItems, ih, and_assoc]

theorem xrun_lt {s : Str} {l : List Item} (h : XRun s l) : '<' ∉ s := by
  obtain ⟨-, t, h1, -⟩ := h
  exact xtext_lt h1

theorem xrun_read {s : Str} {l : List Item} (h : XRun s l) : ReadItems l := by
  obtain ⟨-, t, h1, ⟨-, rfl⟩ | ⟨-, rfl⟩⟩ := h
  · trivial
  · exact ⟨trivial, trivial⟩

theorem xrun_as {s : Str} {l : List Item} (h : XRun s l) {tl : List Node} (ht : TextBit UnescTo s tl) {m : List Item} {ns : List Node}
    (hm : ItemsRead m ns) : ItemsRead (l ++ m) (tl ++ ns) := by
  obtain ⟨-, t, h1, ⟨rfl, rfl⟩ | ⟨-, rfl⟩⟩ := h
  · rcases ht with ⟨-, rfl⟩ | ⟨⟨c, hc, -⟩, -⟩
    · exact hm
    · cases hc
  · exact .text h1 ht hm

theorem xcontent_any {s : Str} {l : List Item} (h : XContent false s l) : '\u1680' ∉ s → ReadItems l → HasAny s l := by
  refine XContent.rec (tight := false)
    (motive_1 := fun p i _ => '\u1680' ∉ p → ReadItem i → ∀ s l r m, XRun s l → HasAny r m → HasAny (s ++ p ++ r) (l ++ i :: m))
    (motive_2 := fun s l _ => '\u1680' ∉ s → ReadItems l → HasAny s l) ?_ ?_ ?_ ?_ ?_ ?_ ?_ h
  · intro n b as ht hn _ s l r m hs ⟨c, c1, c2, c3⟩
    obtain ⟨t, t1, t2, t3, t4⟩ := xtag_any ht (by simp_all)
    refine ⟨.empty s t c, by simp [Cst.src, CTag.empty, t1, c1], ⟨⟨xrun_lt hs, trivial⟩, t3, c2⟩, fun L ns hok hd => ?_⟩
    cases hd with
    | @empty _ _ _ e _ _ d1 d2 d3 d4 =>
      obtain ⟨e1, e2⟩ := t4 e (fun a ha => (hok.2.1.attrs a ha).value) d2
      subst e1
      exact xrun_as hs d1 (.elem e2 (by rw [d3]; exact .nil) (c3 L _ hok.2.2 d4))
  · intro n b x w as i ht _ hw ih hn he s l r m hs ⟨c, c1, c2, c3⟩
    obtain ⟨t, t1, t2, t3, t4⟩ := xtag_any ht (by simp_all)
    obtain ⟨y, y1, y2, y3⟩ := ih (by simp_all) he
    refine ⟨.elem s t y w c, by simp [Cst.src, CTag.start, closing, t1, t2, y1, c1], ⟨⟨xrun_lt hs, trivial⟩, t3, y2, nice_ws hw, c2⟩,
      fun L ns hok hd => ?_⟩
    cases hd with
    | @elem _ _ _ _ _ e _ _ d1 d2 d3 d4 =>
      obtain ⟨e1, e2⟩ := t4 e (fun a ha => (hok.2.1.attrs a ha).value) d2
      subst e1
      exact xrun_as hs d1 (.elem e2 (y3 L _ hok.2.2.1 d3) (c3 L _ hok.2.2.2.2 d4))
  · intro x hx hn he s l r m hs ⟨c, c1, c2, c3⟩
    refine ⟨.comment s x c, by simp [Cst.src, c1], ⟨⟨xrun_lt hs, trivial⟩, xcomment_ok hx he, c2⟩, fun L ns hok hd => ?_⟩
    cases hd with
    | comment d1 d2 => exact xrun_as hs d1 (.comment (c3 L _ hok.2.2 d2))
  · intro x hx hn he s l r m hs ⟨c, c1, c2, c3⟩
    refine ⟨.cdata s x c, by simp [Cst.src, c1], ⟨⟨xrun_lt hs, trivial⟩, hx.2, c2⟩, fun L ns hok hd => ?_⟩
    cases hd with
    | cdata d1 d2 => exact xrun_as hs d1 (.cdata (c3 L _ hok.2.2 d2))
  · intro n d s h hn he
    exact he.elim
  · intro s l hs hn he
    refine ⟨.done s, rfl, ⟨xrun_lt hs, trivial⟩, fun L ns hok hd => ?_⟩
    cases hd with
    | done d => simpa using xrun_as hs d .nil
  · intro s p r l m i hs _ _ ih1 ih2 hn he
    simp only [List.mem_append, not_or] at hn
    obtain ⟨he1, he2⟩ := readItems_append.1 he
    exact ih1 hn.1.2 he2.1 s l r m hs (ih2 hn.2 he2.2)

/-! ## accepted tokens -/

/-- a tag that is accepted inside or after the root -/
def TokFine (tag : Str) : Prop :=
  c%"</" <+: tag ∨ (∃ c, tag = c%"<!--" ++ c ++ c%"-->") ∨ (∃ c, tag = c%"<![CDATA[" ++ c ++ c%"]]>") ∨ ∃ p e, Opens p tag e

theorem body_fine {e : Element} {toks : List (Str × Str)} {f : Forest} (h : Body e toks f) : ∀ t ∈ toks, TokFine t.2 := by
  induction h with
  | close hc _ =>
    intro t h
    cases List.mem_singleton.1 h
    exact .inl hc.slash
  | comment _ _ _ ih =>
    intro t h
    rcases List.mem_cons.1 h with rfl | h
    · exact .inr (.inl ⟨_, rfl⟩)
    · exact ih t h
  | cdata _ _ _ ih =>
    intro t h
    rcases List.mem_cons.1 h with rfl | h
    · exact .inr (.inr (.inl ⟨_, rfl⟩))
    · exact ih t h
  | empty hO _ _ _ ih =>
    intro t h
    rcases List.mem_cons.1 h with rfl | h
    · exact .inr (.inr (.inr ⟨_, _, hO⟩))
    · exact ih t h
  | elem hO _ _ _ _ ih1 ih2 =>
    intro t h
    rcases List.mem_cons.1 h with rfl | h
    · exact .inr (.inr (.inr ⟨_, _, hO⟩))
    · rcases List.mem_append.1 h with h | h
      · exact ih1 t h
      · exact ih2 t h

theorem tops_fine {toks : List (Str × Str)} {e E : Element} {f F : Forest} (h : Tops toks e f E F) : ∀ t ∈ toks, TokFine t.2 := by
  induction h with
  | nil => intro t h; cases h
  | more _ hO _ hB _ ih =>
    intro t h
    rcases List.mem_cons.1 h with rfl | h
    · exact .inr (.inr (.inr ⟨_, _, hO⟩))
    · rcases List.mem_append.1 h with h | h
      · exact body_fine hB t h
      · exact ih t h

theorem rootPart_fine {tag : Str} {rest : List (Str × Str)} {E : Element} {F : Forest} (h : RootPart tag rest E F) : ∀ t ∈ rest, TokFine t.2 := by
  cases h with
  | empty _ _ hr => subst hr; intro t h; cases h
  | elem _ _ hr hB hT =>
    subst hr
    intro t h
    rcases List.mem_append.1 h with h | h
    · exact body_fine hB t h
    · exact tops_fine hT t h

/-! ## processing instructions are not accepted -/

theorem qas_last {c : Char} (hw : isWs c = false) (hq : ¬ (c = '\'' ∨ c = '"')) (s : Str) : ∀ (b : Str) (q : Option Char),
    (q = some c → False) → ∃ l w, qasLoop b q (s ++ [c]) = l ++ [w ++ [c]] := by
  induction s with
  | nil =>
    intro b q hqc
    refine ⟨[], b, ?_⟩
    cases q with
    | none => simp [qasLoop, hq, hw]
    | some q =>
      have : ¬ c = q := fun h => hqc (by rw [h])
      simp [qasLoop, this]
  | cons d s ih =>
    intro b q hqc
    rw [List.cons_append]
    cases q with
    | none =>
      rw [qasLoop]
      split
      · rename_i h
        exact ih _ _ (fun e => by cases e; exact hq h)
      · split
        · split
          · exact ih _ _ (by simp)
          · obtain ⟨l, w, h⟩ := ih [] none (by simp)
            exact ⟨b :: l, w, by rw [h]; rfl⟩
        · exact ih _ _ (by simp)
    | some q =>
      rw [qasLoop]
      split
      · exact ih _ _ (by simp)
      · exact ih _ _ hqc

theorem join_last (c : Char) (n : Nat) : ∀ (l : List Str) (w : Str), l.length ≤ n → ∃ l' w', joinLoop (l ++ [w ++ [c]]) = l' ++ [w' ++ [c]] := by
  induction n with
  | zero =>
    intro l w hl
    have : l = [] := List.length_eq_zero_iff.1 (by omega)
    subst this
    exact ⟨[], w, by simp [joinLoop]⟩
  | succ n ih =>
    intro l w hl
    match l, hl with
    | [], _ => exact ⟨[], w, by simp [joinLoop]⟩
    | [a], _ =>
      simp only [List.cons_append, List.nil_append]
      rw [joinLoop]
      split
      · exact ⟨[], a ++ w, by simp⟩
      · exact ⟨[a], w, by simp [joinLoop]⟩
    | [a, b], hl =>
      simp only [List.cons_append, List.nil_append]
      rw [joinLoop]
      split
      · split
        · exact ⟨[], a ++ b ++ w, by simp [joinLoop]⟩
        · exact ⟨[a ++ b], w, by simp [joinLoop]⟩
      · obtain ⟨l', w', h⟩ := ih [b] w (by simp at hl ⊢; omega)
        exact ⟨a :: l', w', by rw [List.cons_append, ← h]; rfl⟩
    | a :: b :: d :: l, hl =>
      simp only [List.cons_append]
      rw [joinLoop]
      simp only [List.length_cons] at hl
      split
      · split
        · obtain ⟨l', w', h⟩ := ih l w (by omega)
          exact ⟨_ :: l', w', by rw [h]; rfl⟩
        · obtain ⟨l', w', h⟩ := ih (d :: l) w (by simp; omega)
          exact ⟨_ :: l', w', by rw [← List.cons_append, h]; rfl⟩
      · obtain ⟨l', w', h⟩ := ih (b :: d :: l) w (by simp; omega)
        exact ⟨_ :: l', w', by rw [← List.cons_append, ← List.cons_append, h]; rfl⟩

theorem parseAttrs_last {buffer : Str} {pos : Nat} {l : List Str} {w : Str} {c : Char} {m m' : SMap}
    (h : parseAttrs buffer pos (l ++ [w ++ [c]]) m = .ok m') : c = '"' ∨ c = '\'' := by
  induction l generalizing m with
  | nil =>
    rw [List.nil_append, parseAttrs_cons] at h
    obtain ⟨k, u, ⟨q, v, hq, -, he, -⟩, -⟩ := h
    have : w ++ [c] = (k ++ '=' :: q :: v) ++ [q] := by rw [he]; simp
    have := (List.append_inj' this rfl).2
    simp at this
    rw [this]; exact hq
  | cons a l ih =>
    rw [List.cons_append, parseAttrs_cons] at h
    obtain ⟨k, u, -, h⟩ := h
    exact ih h

/-- a target and white space: not accepted -/
theorem pi_space {n w u : Str} (hn : PlainName n) (hn' : '\u1680' ∉ n) (hw : XSpace w) (hw' : w ≠ []) {p : Option Element} {e : Element} :
    ¬ Opens p (c%"<?" ++ n ++ w ++ u ++ c%"?>") e := by
  intro h
  obtain ⟨t, attrs, n0, m, x, q, h1, hN⟩ := h.elem
  have hx := plain_xml hn hn'
  have hi : Inner (c%"<?" ++ n ++ w ++ u ++ c%"?>") (c%"?" ++ n ++ w ++ u ++ c%"?") := by
    refine ⟨c%"<", c%"?" ++ n ++ w ++ u ++ c%"?", c%">", [], [], by simp, .inr ⟨rfl, ?_⟩, .inr ⟨rfl, ?_⟩, by simp, by simp, by simp, ?_, ?_⟩
    · rintro ⟨r, hr⟩; simp at hr
    · rintro ⟨r, hr⟩
      have := (List.append_inj' hr rfl).2
      simp at this
    · intro c hc; simp at hc; subst hc; decide
    · intro c hc
      rw [List.getLast?_append_of_ne_nil _ (by simp)] at hc
      simp at hc; subst hc; decide
  have := (inner_iff.1 hi).1
  rw [h1] at this
  cases this
  obtain ⟨comps, buffer, pos, h2, h3⟩ := hN.attrs_ok
  cases w with
  | nil => exact hw' rfl
  | cons c w =>
    have hc : isWs c = true := nice_ws hw c (by simp)
    obtain ⟨a, r, rfl, hs⟩ := id hx
    have hnb : NoBreak none (c%"?" ++ a :: r) := by
      intro a' c' b hab _
      have hm : c' ∈ c%"?" ++ a :: r := by rw [hab]; simp
      rcases List.mem_append.1 hm with hm | hm
      · simp at hm; subst hm; decide
      · exact hs.2.2 c' hm
    have hq : qstate none (c%"?" ++ a :: r) = none := by
      refine noQuote_state fun c' hm => ?_
      rcases List.mem_append.1 hm with hm | hm
      · simp at hm; subst hm; decide
      · exact ⟨fun h => xmlName_not_mem hx '"' (by decide) (h ▸ hm), fun h => xmlName_not_mem hx '\'' (by decide) (h ▸ hm)⟩
    have he : c%"?" ++ a :: r ++ c :: w ++ u ++ c%"?" = (c%"?" ++ a :: r) ++ (c :: (w ++ u ++ c%"?")) := by simp
    rw [he, quoteAwareSplit, qas_word hnb, hq, qas_ws hc, if_neg (by simp)] at h2
    simp only [List.nil_append, List.cons.injEq] at h2
    obtain ⟨-, rfl⟩ := h2
    obtain ⟨l, v, hl⟩ := qas_last (c := '?') (by decide) (by decide) (w ++ u) [] none (by simp)
    rw [hl] at h3
    obtain ⟨l', v', hl'⟩ := join_last '?' l.length l v (le_refl _)
    rw [hl'] at h3
    have := parseAttrs_last h3
    revert this; decide

/-- only a target: not accepted -/
theorem pi_bare {n : Str} (hn : PlainName n) {p : Option Element} {e : Element} : ¬ Opens p (c%"<?" ++ n ++ c%"?>") e := by
  intro h
  refine not_bad.2 h.regex fun s hs hp => ?_
  obtain ⟨a, m, as, w, b, ha, hm, -, -, -, rfl⟩ := hp
  obtain ⟨u, v, huv⟩ := hs
  have hlt : '<' ∉ c%"?" ++ n ++ c%"?>" := by
    have : '<' ∉ n := by
      obtain ⟨d, t, rfl, h1, h2⟩ := hn
      intro hm
      rcases List.mem_cons.1 hm with h | hm
      · subst h; revert h1; decide
      · have := h2 _ hm; revert this; decide
    simpa using this
  obtain ⟨d, t, rfl, h1, -⟩ := hm
  cases u with
  | nil =>
    rcases ha with rfl | rfl
    · simp at huv
      rw [huv.1] at h1
      revert h1; decide
    · simp at huv
  | cons z u =>
    apply hlt
    have h2 := (List.cons.inj (show z :: (u ++ (a ++ d :: t ++ as.flatten ++ w ++ b) ++ v) = '<' :: (c%"?" ++ n ++ c%"?>") by
      simpa using huv)).2
    rw [← h2]
    rcases ha with rfl | rfl <;> simp

/-- The tag at a processing instruction, which may be longer than it is, is not accepted. -/
theorem pi_tag {n d s y tag : Str} (h : XPi n d s) (hs : '\u1680' ∉ s) (ht : TagAt (s ++ y) tag) : c%"<?" ++ n <+: tag ∧ ∀ p e, ¬ Opens p tag e := by
  obtain ⟨⟨hn, -⟩, -, -, hsh⟩ := h
  obtain ⟨r, hr⟩ : ∃ r, s ++ y = c%"<?" ++ r := by
    rcases hsh with ⟨-, rfl⟩ | ⟨w, -, -, rfl⟩
    · exact ⟨n ++ c%"?>" ++ y, by simp⟩
    · exact ⟨n ++ w ++ d ++ c%"?>" ++ y, by simp⟩
  have hnq : '?' ∉ n := by
    obtain ⟨d, t, rfl, h1, h2⟩ := hn
    intro hm
    rcases List.mem_cons.1 hm with h | hm
    · subst h; revert h1; decide
    · have := h2 _ hm; revert this; decide
  have hnn : qstate none n = none := by
    refine noQuote_state fun c hc => ?_
    obtain ⟨d, t, rfl, h1, h2⟩ := hn
    have : CodeIn startCodes c ∨ CodeIn moreCodes c := by
      rcases List.mem_cons.1 hc with rfl | hc
      · exact .inl h1
      · exact h2 c hc
    constructor <;> (rintro rfl; revert this; decide)
  rw [hr] at ht
  cases ht with
  | comment h1 _ => obtain ⟨v, hv⟩ := h1; simp at hv
  | cdata h1 _ => obtain ⟨v, hv⟩ := h1; simp at hv
  | decl h1 => simp at h1
  | elem h1 _ h3 _ =>
    exfalso
    simp at h1
    exact h3 ⟨r, by rw [← h1]; rfl⟩
  | @pi a u h1 h2 =>
    have := List.append_cancel_left h1
    subst this
    have key : ∀ b v, r = b ++ v → '?' ∉ b → b <+: a := by
      intro b v hb hq
      obtain ⟨k, hk⟩ := h2.here
      by_cases hl : b.length ≤ a.length
      · exact List.prefix_of_prefix_length_le (l₃ := r) ⟨v, hb.symm⟩ ⟨c%"?>" ++ k, by rw [← hk]; simp⟩ hl
      · exfalso
        obtain ⟨z, hz⟩ : a <+: b := List.prefix_of_prefix_length_le (l₃ := r) ⟨c%"?>" ++ k, by rw [← hk]; simp⟩ ⟨v, hb.symm⟩ (by omega)
        subst hz
        cases z with
        | nil => simp at hl
        | cons c z =>
          rw [hb, List.append_assoc, List.append_assoc, List.append_cancel_left_eq] at hk
          simp at hk
          exact hq (by rw [hk.1]; simp)
    rcases hsh with ⟨-, rfl⟩ | ⟨w, hw, hw', rfl⟩
    · have hr' : r = n ++ (c%"?>" ++ y) := by
        apply List.append_cancel_left (as := c%"<?"); rw [← hr]; simp
      obtain ⟨z, rfl⟩ := key n _ hr' hnq
      have hl := h2.first n ⟨y, by rw [hr']; simp⟩ hnn
      have : z = [] := by
        cases z with
        | nil => rfl
        | cons => simp at hl; omega
      subst this
      rw [List.append_nil]
      exact ⟨List.prefix_append .., fun p e => pi_bare hn⟩
    · have hr' : r = (n ++ w) ++ (d ++ c%"?>" ++ y) := by
        apply List.append_cancel_left (as := c%"<?"); rw [← hr]; simp
      obtain ⟨z, rfl⟩ := key (n ++ w) _ hr' (by
        have := (unmarked_state (unmarked_xspace hw)).2
        simp [hnq, this])
      have hn' : '\u1680' ∉ n := by simp_all
      refine ⟨⟨w ++ z ++ c%"?>", by simp⟩, fun p e h => ?_⟩
      rw [show c%"<?" ++ (n ++ w ++ z) ++ c%"?>" = c%"<?" ++ n ++ w ++ z ++ c%"?>" by simp] at h
      exact pi_space hn hn' hw hw' h

theorem pi_fine {n d s y tag : Str} (h : XPi n d s) (hs : '\u1680' ∉ s) (ht : TagAt (s ++ y) tag) : ¬ TokFine tag := by
  obtain ⟨⟨u, rfl⟩, h2⟩ := pi_tag h hs ht
  rintro (⟨v, hv⟩ | ⟨c, hv⟩ | ⟨c, hv⟩ | ⟨p, e, hO⟩)
  · simp at hv
  · simp at hv
  · simp at hv
  · exact h2 p e hO

/-- comments that begin with `>` or `->` are not accepted inside the root -/
theorem comment_fine {c y tag : Str} (ht : TagAt (c%"<!--" ++ c ++ c%"-->" ++ y) tag) (hf : TokFine tag) : EasyComment c := by
  have hsp : c%"<!--" <+: c%"<!--" ++ c ++ c%"-->" ++ y := by simp
  cases ht with
  | @comment a _ h2 =>
    have hlen : 4 ≤ a.length := by
      rcases hf with ⟨v, hv⟩ | ⟨k, hv⟩ | ⟨k, hv⟩ | ⟨p, e, hO⟩
      · obtain ⟨z, hz⟩ := h2.here
        rw [← hv] at hz
        simp at hz
      · have := List.append_cancel_right hv
        rw [this]; simp
      · have := (List.append_inj' hv rfl).2
        simp at this
      · exfalso
        obtain ⟨z, hz⟩ := h2.here
        apply hO.not_decl
        exact List.prefix_of_prefix_length_le (l₃ := c%"<!--" ++ c ++ c%"-->" ++ y) ⟨_, by simp; rfl⟩ ⟨z, hz⟩ (by simp)
    constructor
    · rintro ⟨v, rfl⟩
      have := h2.first c%"<!" ⟨v ++ c%"-->" ++ y, by simp⟩
      simp at this
      omega
    · rintro ⟨v, rfl⟩
      have := h2.first c%"<!-" ⟨v ++ c%"-->" ++ y, by simp⟩
      simp at this
      omega
  | pi h1 => simp at h1
  | cdata h1 _ => obtain ⟨v, hv⟩ := h1; simp at hv
  | decl _ h2 _ _ => exact absurd hsp h2
  | elem h1 h2 _ _ =>
    exfalso
    simp at h1
    exact h2 ⟨_, by rw [← h1]; rfl⟩

/-! ## walking along the tokens -/

/-- the tokens of `y` are accepted -/
def Walks (y : Str) : Prop := ∃ toks tail, Lexes y toks tail ∧ ∀ t ∈ toks, TokFine t.2

theorem lexes_lt {s tail : Str} {toks : List (Str × Str)} (hs : c%"<" <+: s) (h : Lexes s toks tail) :
    ∃ tag rest toks', TagAt s tag ∧ s = tag ++ rest ∧ toks = ([], tag) :: toks' ∧ Lexes rest toks' tail := by
  obtain ⟨u, hu⟩ := hs
  cases h with
  | done h => exact absurd (by rw [← hu]; simp) h
  | @tag text tag rest s' _ toks' h1 h2 h3 h4 =>
    cases text with
    | nil => exact ⟨tag, rest, toks', h2, h3, rfl, h4⟩
    | cons c text =>
      exfalso
      simp at hu
      exact h1 (by rw [hu.1]; simp)

theorem lexes_text {text s tail : Str} {toks : List (Str × Str)} (ht : '<' ∉ text) (hs : c%"<" <+: s) (h : Lexes (text ++ s) toks tail) :
    ∃ tag toks', toks = (text, tag) :: toks' ∧ Lexes s (([], tag) :: toks') tail := by
  obtain ⟨u, rfl⟩ := hs
  generalize hq : text ++ (c%"<" ++ u) = q at h
  cases h with
  | done h => subst hq; exact absurd (by simp) h
  | @tag text' tag rest s' _ toks' h1 h2 h3 h4 =>
    obtain ⟨r', hs'⟩ : ∃ r, s' = c%"<" ++ r := by
      cases h2 with
      | comment h _ => obtain ⟨v, hv⟩ := h; exact ⟨_, by rw [← hv]; rfl⟩
      | pi h _ => exact ⟨_, by rw [h]; rfl⟩
      | cdata h _ => obtain ⟨v, hv⟩ := h; exact ⟨_, by rw [← hv]; rfl⟩
      | decl h => exact ⟨_, by rw [h]; rfl⟩
      | elem h => exact ⟨_, by rw [h]⟩
    have : text = text' ∧ u = r' := by
      have h5 := splitOnce_eq_some.2 ⟨(show text' ++ s' = text ++ '<' :: u from hq.symm), ht⟩
      have h6 := splitOnce_eq_some.2 ⟨(show text' ++ s' = text' ++ '<' :: r' by rw [hs']; rfl), h1⟩
      rw [h5] at h6
      simpa using h6
    obtain ⟨rfl, rfl⟩ := this
    rw [← hs']
    exact ⟨tag, toks', rfl, .tag (text := []) (by simp) h2 h3 h4⟩

theorem lexes_tag {t y tail : Str} {toks : List (Str × Str)} (ht : TagAt t t) (hs : c%"<" <+: t) (h : Lexes (t ++ y) toks tail) :
    ∃ toks', toks = ([], t) :: toks' ∧ Lexes y toks' tail := by
  have hs' : c%"<" <+: t ++ y := hs.trans (List.prefix_append ..)
  obtain ⟨tag, rest, toks', h1, h2, rfl, h4⟩ := lexes_lt hs' h
  have := tagAt_unique hs' h1 (tagAt_append y ht)
  subst this
  cases List.append_cancel_left h2
  exact ⟨toks', rfl, h4⟩

theorem walks_text {text s : Str} (ht : '<' ∉ text) (hs : c%"<" <+: s) (h : Walks (text ++ s)) : Walks s := by
  obtain ⟨toks, tail, h1, h2⟩ := h
  obtain ⟨tag, toks', rfl, h3⟩ := lexes_text ht hs h1
  refine ⟨_, tail, h3, fun t ht => ?_⟩
  rcases List.mem_cons.1 ht with rfl | ht
  · exact h2 (text, tag) (List.mem_cons_self ..)
  · exact h2 t (List.mem_cons_of_mem _ ht)

theorem walks_tag {t y : Str} (ht : TagAt t t) (hs : c%"<" <+: t) (h : Walks (t ++ y)) : Walks y := by
  obtain ⟨toks, tail, h1, h2⟩ := h
  obtain ⟨toks', rfl, h3⟩ := lexes_tag ht hs h1
  exact ⟨_, tail, h3, fun t ht => h2 t (List.mem_cons_of_mem _ ht)⟩

theorem walks_here {s : Str} (hs : c%"<" <+: s) (h : Walks s) : ∃ tag, TagAt s tag ∧ TokFine tag := by
  obtain ⟨toks, tail, h1, h2⟩ := h
  obtain ⟨tag, rest, toks', h3, -, rfl, -⟩ := lexes_lt hs h1
  exact ⟨tag, h3, h2 _ (List.mem_cons_self ..)⟩

theorem xcontent_walk {s : Str} {l : List Item} (h : XContent false s l) : '\u1680' ∉ s → ∀ y, c%"<" <+: y → Walks (s ++ y) → ReadItems l ∧ Walks y := by
  refine XContent.rec (tight := false)
    (motive_1 := fun p i _ => '\u1680' ∉ p → c%"<" <+: p ∧ ∀ y, Walks (p ++ y) → ReadItem i ∧ Walks y)
    (motive_2 := fun s l _ => '\u1680' ∉ s → ∀ y, c%"<" <+: y → Walks (s ++ y) → ReadItems l ∧ Walks y) ?_ ?_ ?_ ?_ ?_ ?_ ?_ h
  · intro n b as ht hn
    obtain ⟨t, t1, t2, t3, -⟩ := xtag_any ht (by simp_all)
    refine ⟨by simp, fun y hy => ⟨trivial, ?_⟩⟩
    subst t1
    exact walks_tag (tagAt_empty t3) ⟨t.body ++ c%"/>", by simp [CTag.empty]⟩ hy
  · intro n b x w as i ht _ hw ih hn
    obtain ⟨t, t1, t2, t3, -⟩ := xtag_any ht (by simp_all)
    refine ⟨by simp, fun y hy => ?_⟩
    subst t1 t2
    have hy : Walks (t.start ++ (x ++ (closing t.name w ++ y))) := by
      simpa [CTag.start, closing] using hy
    obtain ⟨h1, h2⟩ := ih (by simp_all) _ ⟨c%"/" ++ t.name ++ w ++ c%">" ++ y, by simp [closing]⟩ (walks_tag (tagAt_start t3) ⟨t.body ++ c%">", by simp [CTag.start]⟩ hy)
    exact ⟨h1, walks_tag (tagAt_closing t3.name (nice_ws hw)) ⟨c%"/" ++ t.name ++ w ++ c%">", by simp [closing]⟩ h2⟩
  · intro x hx hn
    refine ⟨by simp, fun y hy => ?_⟩
    obtain ⟨tag, h1, h2⟩ := walks_here (by simp) hy
    have he := comment_fine h1 h2
    exact ⟨he, walks_tag (tagAt_comment (xcomment_ok hx he)) (by simp) hy⟩
  · intro x hx hn
    exact ⟨by simp, fun y hy => ⟨trivial, walks_tag (tagAt_cdata hx.2) (by simp) hy⟩⟩
  · intro n d s h hn
    have hs : c%"<" <+: s := by
      rcases h.2.2.2 with ⟨-, rfl⟩ | ⟨w, -, -, rfl⟩ <;> simp
    refine ⟨hs, fun y hy => ?_⟩
    obtain ⟨tag, h1, h2⟩ := walks_here (hs.trans (List.prefix_append ..)) hy
    exact absurd h2 (pi_fine h hn h1)
  · intro s l hs hn y hy hW
    exact ⟨xrun_read hs, walks_text (xrun_lt hs) hy hW⟩
  · intro s p r l m i hs _ _ ih1 ih2 hn y hy hW
    simp only [List.mem_append, not_or] at hn
    obtain ⟨hp, ih1⟩ := ih1 hn.1.2
    rw [List.append_assoc, List.append_assoc] at hW
    obtain ⟨h1, h2⟩ := ih1 (r ++ y) (walks_text (xrun_lt hs) (hp.trans (List.prefix_append ..)) hW)
    obtain ⟨h3, h4⟩ := ih2 hn.2 y hy h2
    exact ⟨readItems_append.2 ⟨xrun_read hs, h1, h3⟩, h4⟩

/-! ## before and after the root -/

theorem lexes_ws {w s tail : Str} {toks : List (Str × Str)} (hw : '<' ∉ w) (h : Lexes (w ++ s) toks tail) (hs : '<' ∈ s) :
    ∃ tx tg r, toks = (w ++ tx, tg) :: r ∧ Lexes s ((tx, tg) :: r) tail := by
  obtain ⟨a, b, rfl, ha⟩ := mem_split_first hs
  rw [← List.append_assoc] at h
  obtain ⟨tag, toks', rfl, h1⟩ := lexes_text (text := w ++ a) (by simp [hw, ha]) ⟨b, rfl⟩ h
  obtain ⟨tag', rest, toks'', h2, h3, h4, h5⟩ := lexes_lt ⟨b, rfl⟩ h1
  cases h4
  exact ⟨a, tag, toks', rfl, .tag ha h2 h3 h5⟩

theorem lexes_drop {l : List (Str × Str)} (hl : ∀ t ∈ l, TokOk t) {y tail : Str} {toks : List (Str × Str)}
    (h : Lexes (flatToks l ++ y) toks tail) : ∃ toks', toks = l ++ toks' ∧ Lexes y toks' tail := by
  induction l generalizing toks with
  | nil => exact ⟨toks, rfl, h⟩
  | cons t l ih =>
    obtain ⟨a, b⟩ := t
    obtain ⟨h1, h2⟩ := hl _ (List.mem_cons_self ..)
    obtain ⟨v, hv⟩ := tagAt_lt h2
    rw [flatToks_cons, List.append_assoc, List.append_assoc] at h
    obtain ⟨tag, toks', rfl, h3⟩ := lexes_text h1 (s := b ++ (flatToks l ++ y)) (List.IsPrefix.trans ⟨v, hv⟩ (List.prefix_append ..)) h
    obtain ⟨toks'', h4, h5⟩ := lexes_tag h2 ⟨v, hv⟩ h3
    cases h4
    obtain ⟨t2, rfl, h6⟩ := ih (fun t ht => hl t (List.mem_cons_of_mem _ ht)) h5
    exact ⟨t2, rfl, h6⟩
where
  tagAt_lt {s t : Str} (h : TagAt s t) : c%"<" <+: s := by
    cases h with
    | comment h _ => exact List.IsPrefix.trans (by decide) h
    | pi h _ => exact ⟨_, by rw [h]; rfl⟩
    | cdata h _ => exact List.IsPrefix.trans (by decide) h
    | decl h => exact ⟨_, by rw [h]; rfl⟩
    | elem h => exact ⟨_, by rw [h]⟩

theorem xpi_lt {n d s : Str} (h : XPi n d s) : c%"<" <+: s := by
  rcases h.2.2.2 with ⟨-, rfl⟩ | ⟨w, -, -, rfl⟩ <;> simp

/-- What the tokens are like at comments and processing instructions before the root: the tokens of comments are part of the prolog; if
there is a processing instruction, the first token after the prolog is not accepted. -/
theorem misc_walk {m : Str} {before : List Item} (h : XMisc m before) : (∀ p ∈ before, ClearMisc p) → '\u1680' ∉ m → ∀ y, c%"<" <+: y →
    ∀ toks tail, Lexes (m ++ y) toks tail →
      ((∀ p ∈ before, ∃ c, p = .comment c) ∧ ∃ a tx tg r, toks = a ++ (tx, tg) :: r ∧ (∀ t ∈ a, IsProlog t.2) ∧ Lexes y (([], tg) :: r) tail) ∨
      ∃ a t b, toks = a ++ t :: b ∧ (∀ t ∈ a, IsProlog t.2) ∧ ¬ IsProlog t.2 ∧ ∀ p e, ¬ Opens p t.2 e := by
  induction h with
  | nil =>
    intro _ _ y hy toks tail hl
    obtain ⟨tag, rest, toks', h1, h2, rfl, h3⟩ := lexes_lt hy hl
    exact .inl ⟨by simp, [], [], tag, toks', rfl, by simp, hl⟩
  | @space w r l hw _ ih =>
    intro hc hu y hy toks tail hl
    simp only [List.mem_append, not_or] at hu
    rw [List.append_assoc] at hl
    obtain ⟨v, hv⟩ := id hy
    obtain ⟨tx, tg, r', rfl, hl'⟩ := lexes_ws (allWs_lt (nice_ws hw)) hl (by rw [← hv]; simp)
    rcases ih hc hu.2 y hy _ _ hl' with ⟨h1, a, tx', tg', r2, h2, h3, h4⟩ | ⟨a, t, b, h2, h3, h4⟩
    · refine .inl ⟨h1, ?_⟩
      cases a with
      | nil => cases h2; exact ⟨[], w ++ tx, tg, r', rfl, by simp, h4⟩
      | cons x a =>
        obtain ⟨rfl, rfl⟩ := List.cons.inj h2
        refine ⟨(w ++ tx, tg) :: a, tx', tg', r2, rfl, fun t ht => ?_, h4⟩
        rcases List.mem_cons.1 ht with rfl | ht
        · exact h3 (tx, tg) (List.mem_cons_self ..)
        · exact h3 t (List.mem_cons_of_mem _ ht)
    · right
      cases a with
      | nil => cases h2; exact ⟨[], (w ++ tx, tg), r', rfl, by simp, h4⟩
      | cons x a =>
        obtain ⟨rfl, rfl⟩ := List.cons.inj h2
        refine ⟨(w ++ tx, tg) :: a, t, b, rfl, fun t ht => ?_, h4⟩
        rcases List.mem_cons.1 ht with rfl | ht
        · exact h3 (tx, tg) (List.mem_cons_self ..)
        · exact h3 t (List.mem_cons_of_mem _ ht)
  | @comment c r l hc _ ih =>
    intro hcm hu y hy toks tail hl
    simp only [List.mem_append, not_or] at hu
    rw [List.append_assoc] at hl
    obtain ⟨toks', rfl, hl'⟩ := lexes_tag (tagAt_comment (xcomment_ok hc (hcm (.comment c) (List.mem_cons_self ..)))) (by simp) hl
    have hp : ∀ a, (∀ t ∈ a, IsProlog t.2) → ∀ t ∈ (([], c%"<!--" ++ c ++ c%"-->") : Str × Str) :: a, IsProlog t.2 := by
      intro a ha t ht
      rcases List.mem_cons.1 ht with rfl | ht
      · exact .inr (by simp)
      · exact ha t ht
    rcases ih (fun p hp => hcm p (List.mem_cons_of_mem _ hp)) hu.2 y hy _ _ hl' with ⟨h1, a, tx', tg', r2, rfl, h3, h4⟩ | ⟨a, t, b, rfl, h3, h4⟩
    · refine .inl ⟨fun p hp => ?_, _ :: a, tx', tg', r2, rfl, hp a h3, h4⟩
      rcases List.mem_cons.1 hp with rfl | hp
      · exact ⟨c, rfl⟩
      · exact h1 p hp
    · exact .inr ⟨_ :: a, t, b, rfl, hp a h3, h4⟩
  | @pi n d s r l hx _ _ =>
    intro hcm hu y hy toks tail hl
    simp only [List.mem_append, not_or] at hu
    rw [List.append_assoc] at hl
    obtain ⟨tag, rest, toks', h1, h2, rfl, h3⟩ := lexes_lt ((xpi_lt hx).trans (List.prefix_append ..)) hl
    obtain ⟨⟨u, hu'⟩, h5⟩ := pi_tag hx hu.1 h1
    refine .inr ⟨[], _, toks', rfl, by simp, ?_, h5⟩
    have hn : ¬ c%"xml" <+: n := hcm (.pi n d) (List.mem_cons_self ..)
    obtain ⟨e, hs, hs'⟩ : ∃ e, s ++ (r ++ y) = c%"<?" ++ n ++ e ∧ ∀ c e', e = c :: e' → c ∉ ['x', 'm', 'l'] := by
      rcases hx.2.2.2 with ⟨-, rfl⟩ | ⟨w, hw, hw', rfl⟩
      · refine ⟨c%"?>" ++ (r ++ y), by simp, ?_⟩
        rintro c e' ⟨⟩; decide
      · refine ⟨w ++ d ++ c%"?>" ++ (r ++ y), by simp, ?_⟩
        cases w with
        | nil => exact absurd rfl hw'
        | cons z w =>
          intro c e' he
          have : z = c := (List.cons.inj he).1
          subst this
          rcases hw z (by simp) with rfl | rfl | rfl | rfl <;> decide
    have htag : tag <+: c%"<?" ++ n ++ e := ⟨rest, by rw [← hs, h2]⟩
    rintro (h | h)
    · obtain ⟨v, hv⟩ := h.trans htag
      have hv : c%"xml" ++ v = n ++ e := by simpa using hv
      apply hn
      match n, hv with
      | [], hv => exact absurd (by simp) (hs' 'x' _ (by simpa using hv.symm))
      | [a], hv =>
        simp at hv
        exact absurd (by simp) (hs' 'm' _ hv.2.symm)
      | [a, b], hv =>
        simp at hv
        exact absurd (by simp) (hs' 'l' _ hv.2.2.symm)
      | a :: b :: c :: n, hv =>
        simp at hv
        obtain ⟨rfl, rfl, rfl, -⟩ := hv
        exact ⟨n, rfl⟩
    · obtain ⟨v, hv⟩ := h.trans htag
      simp at hv

/-- after the root: a comment or processing instruction has a token that is not accepted -/
theorem misc_end {m : Str} {after : List Item} (h : XMisc m after) : '\u1680' ∉ m → ∀ toks tail, Lexes m toks tail →
    after = [] ∨ ∃ t r, toks = t :: r ∧ ∀ p e, ¬ Opens p t.2 e := by
  have hc : ∀ {s tag : Str}, c%"<!" <+: s → TagAt s tag → ∀ p e, ¬ Opens p tag e := by
    intro s tag hs ht p e hO
    obtain ⟨u, rfl⟩ := hs
    apply hO.not_decl
    cases ht with
    | @comment a h1 h2 =>
      obtain ⟨z, hz⟩ := h2.here
      exact List.prefix_of_prefix_length_le (l₃ := c%"<!" ++ u) ⟨u, rfl⟩ ⟨z, hz⟩ (by simp)
    | pi h => simp at h
    | @cdata a h1 h2 =>
      obtain ⟨z, hz⟩ := h2.here
      exact List.prefix_of_prefix_length_le (l₃ := c%"<!" ++ u) ⟨u, rfl⟩ ⟨z, hz⟩ (by simp)
    | decl => simp
    | elem h1 h2 =>
      exfalso
      simp at h1
      exact h2 ⟨u, by rw [← h1]; rfl⟩
  induction h with
  | nil => exact fun _ _ _ _ => .inl rfl
  | @space w r l hw hr ih =>
    intro hu toks tail hl
    simp only [List.mem_append, not_or] at hu
    by_cases hlt : '<' ∈ r
    · obtain ⟨tx, tg, r', rfl, hl'⟩ := lexes_ws (allWs_lt (nice_ws hw)) hl hlt
      rcases ih hu.2 _ _ hl' with h | ⟨t, r2, h1, h2⟩
      · exact .inl h
      · cases h1
        exact .inr ⟨_, r', rfl, h2⟩
    · left
      cases l with
      | nil => rfl
      | cons a l =>
        exfalso
        clear ih hl hu
        generalize hq : a :: l = q at hr
        induction hr with
        | nil => cases hq
        | space _ _ ih => exact ih (fun h => hlt (List.mem_append_right _ h)) hq
        | comment => exact hlt (by simp)
        | pi h _ =>
          obtain ⟨v, hv⟩ := xpi_lt h
          exact hlt (by rw [← hv]; simp)
  | @comment c r l _ _ _ =>
    intro _ toks tail hl
    obtain ⟨tag, rest, toks', h1, h2, rfl, h3⟩ := lexes_lt ⟨_, by simp; rfl⟩ hl
    exact .inr ⟨_, _, rfl, hc (by simp) h1⟩
  | @pi n d s r l hx _ _ =>
    intro hu toks tail hl
    simp only [List.mem_append, not_or] at hu
    obtain ⟨tag, rest, toks', h1, h2, rfl, h3⟩ := lexes_lt ((xpi_lt hx).trans (List.prefix_append ..)) hl
    exact .inr ⟨_, _, rfl, (pi_tag hx hu.1 h1).2⟩

/-! ## documents -/

theorem xdecl_decl {dec : Str} (h : dec = [] ∨ XDecl dec) :
    ∃ decl : Option (Str × Str), (match decl with | none => [] | some (sp, m) => sp ++ c%"<?xml" ++ m ++ c%"?>") = dec ∧
      (∀ sp m, decl = some (sp, m) → AllWs sp ∧ FirstUnquoted none c%"?>" (c%"xml" ++ m) (c%"xml" ++ m ++ c%"?>")) ∧
      ∀ o : Option Declaration, o.map Declaration.declStr = decl.map (fun s => c%"xml" ++ s.2) →
        dec = (match o with | none => [] | some x => x.display) := by
  rcases h with rfl | h
  · refine ⟨none, rfl, by simp, fun o ho => ?_⟩
    cases o with
    | none => rfl
    | some => cases ho
  · obtain ⟨mm, rfl, hf⟩ := xdecl_first h
    refine ⟨some ([], mm), rfl, ?_, fun o ho => ?_⟩
    · intro sp m h
      cases h
      exact ⟨by simp [AllWs], hf⟩
    · cases o with
      | none => cases ho
      | some y =>
        simp at ho
        simp [Declaration.display, ho]

/-- a document that can be read is a concrete document, and read as XML says -/
theorem xdoc_any {x dec : Str} {before i : List Item} {n : Str} {as : List (Str × Str)} (hx : XDocument false x dec before n as i [])
    (hu : '\u1680' ∉ x) (hb : ∀ p ∈ before, ∃ c, p = .comment c ∧ EasyComment c) (hi : ReadItems i) :
    ∃ c : CDoc, c.src = x ∧ c.Wf ∧ ∀ L d, c.OkFor Given L → c.DenBy UnescTo d →
      d.dtds = [] ∧ dec = (match d.declaration with | none => [] | some x => x.display) ∧ ItemsRead [.elem n as i] [.element d.root] := by
  obtain ⟨m, e, m', h1, h2, h3, h4, rfl⟩ := hx
  obtain ⟨misc, sp, m1, m2, m3, -⟩ := xmisc_cst h2 hb
  have htail := xmisc_nil h4 rfl
  obtain ⟨decl, d1, d2, d3⟩ := xdecl_decl h1
  have hdtd : ∀ d : Document, d.dtds.map DTD.dtdStr = misc.filterMap (fun s => s.2.dtd) → d.dtds = [] := by
    intro d h
    rw [List.filterMap_eq_nil_iff.2 fun x hx => (m2 x hx).2.2] at h
    simpa using h
  simp only [List.mem_append, not_or] at hu
  cases h3 with
  | @empty _ b _ ht =>
    obtain ⟨t, t1, t2, t3, t4⟩ := xtag_any ht (by simp_all)
    refine ⟨⟨decl, misc, sp, t, none, m'⟩, by rw [← d1, ← m1]; cases decl <;> simp [CDoc.src, CTag.empty, t1],
      ⟨d2, fun x hx => ⟨(m2 x hx).1, (m2 x hx).2.1⟩, m3, t3, by simp, htail⟩, fun L d hok hd => ⟨hdtd d hd.dtds, d3 _ hd.decl, ?_⟩⟩
    obtain ⟨e1, e2⟩ := t4 _ (fun a ha => (hok.root.attrs a ha).value) hd.root
    subst e1
    exact .elem e2 (by rw [show _ = _ from hd.body]; exact .nil) .nil
  | @elem _ b c w _ _ ht hc hw =>
    obtain ⟨t, t1, t2, t3, t4⟩ := xtag_any ht (by simp_all)
    obtain ⟨y, y1, y2, y3⟩ := xcontent_any hc (by simp_all) hi
    refine ⟨⟨decl, misc, sp, t, some (y, w), m'⟩, by rw [← d1, ← m1]; cases decl <;> simp [CDoc.src, CTag.start, closing, t1, t2, y1],
      ⟨d2, fun x hx => ⟨(m2 x hx).1, (m2 x hx).2.1⟩, m3, t3, ?_, htail⟩, fun L d hok hd => ⟨hdtd d hd.dtds, d3 _ hd.decl, ?_⟩⟩
    · intro c' sp' h
      cases h
      exact ⟨y2, nice_ws hw⟩
    · obtain ⟨e1, e2⟩ := t4 _ (fun a ha => (hok.root.attrs a ha).value) hd.root
      subst e1
      exact .elem e2 (y3 L _ (hok.body y w rfl).1 hd.body) .nil

theorem body_tags {e : Element} {toks : List (Str × Str)} {f : Forest} (h : Body e toks f) {a b : List Str} {t : Str}
    (hab : tagsOf toks = a ++ t :: b) : 0 ≤ depth a := by
  obtain ⟨l1, l2, rfl, rfl, h2⟩ := List.map_eq_append_iff.1 hab
  cases l2 with
  | nil => cases h2
  | cons y l2 => exact body_prefix h l1 l2 y rfl

/-- contents of elements are not the beginning of one another -/
theorem body_same {e e' : Element} {t1 t2 t1' t2' : List (Str × Str)} {f f' : Forest} (h : Body e t1 f) (h' : Body e' t1' f')
    (he : t1 ++ t2 = t1' ++ t2') : t2 = t2' := by
  have hd := body_depth h
  have hd' := body_depth h'
  rcases List.append_eq_append_iff.1 he with ⟨u, rfl, rfl⟩ | ⟨u, rfl, rfl⟩
  · cases u with
    | nil => rfl
    | cons y u =>
      have := body_prefix h' t1 u y rfl
      omega
  · cases u with
    | nil => rfl
    | cons y u =>
      have := body_prefix h t1' u y rfl
      omega

/-- What an accepted XML document is like. -/
theorem xml_needs {x dec : Str} {before i after : List Item} {n : Str} {as : List (Str × Str)} {d : Document}
    (hx : XDocument false x dec before n as i after) (hu : '\u1680' ∉ x) (hb : ∀ p ∈ before, ClearMisc p) (hd : parseStr x = .ok d) :
    after = [] ∧ (∀ p ∈ before, ∃ c, p = .comment c) ∧ ReadItems i := by
  obtain ⟨m, e, m', h1, h2, h3, h4, rfl⟩ := hx
  obtain ⟨toks, D, DS, tag, rest, E, F, hlex, hpro, hroot, -⟩ := (parse_iff.1 hd).ex
  obtain ⟨pre, text, hp⟩ := pro_split hpro
  obtain ⟨tail, hl⟩ := lex_lexes hlex
  obtain ⟨decl, d1, d2, -⟩ := xdecl_decl h1
  simp only [List.mem_append, not_or] at hu
  have hfine := rootPart_fine hroot
  obtain ⟨⟨er, hO⟩, hread⟩ := rootPart_read hroot
  -- the declaration
  obtain ⟨toks1, rfl, hl1, hpr⟩ : ∃ toks1, toks = declToks decl ++ toks1 ∧ Lexes (m ++ (e ++ m')) toks1 tail ∧ ∀ t ∈ declToks decl, IsProlog t.2 := by
    cases decl with
    | none => exact ⟨toks, rfl, by rw [← d1] at hl; simpa using hl, by simp [declToks]⟩
    | some y =>
      obtain ⟨sp, mm⟩ := y
      obtain ⟨g1, g2⟩ := d2 sp mm rfl
      have hok : ∀ t ∈ declToks (some (sp, mm)), TokOk t := by
        intro t ht
        simp only [declToks, List.mem_singleton] at ht
        subst ht
        exact ⟨allWs_lt g1, .pi (by simp) g2⟩
      have hl : Lexes (flatToks (declToks (some (sp, mm))) ++ (m ++ (e ++ m'))) toks tail := by
        rw [← d1] at hl
        simpa [declToks, flatToks_cons, flatToks_nil] using hl
      obtain ⟨toks1, rfl, hl1⟩ := lexes_drop hok hl
      refine ⟨toks1, rfl, hl1, fun t ht => ?_⟩
      simp only [declToks, List.mem_singleton] at ht
      subst ht
      exact .inl (by simp)
  have hel : c%"<" <+: e ++ m' := by
    cases h3 <;> simp
  have hsp := hp.split
  have hpre : ∀ t ∈ pre, IsProlog t.2 := fun t ht => (hp.prolog t ht).1
  have happ : ∀ a, (∀ t ∈ a, IsProlog t.2) → ∀ t ∈ declToks decl ++ a, IsProlog t.2 := by
    intro a ha t ht
    rcases List.mem_append.1 ht with ht | ht
    · exact hpr t ht
    · exact ha t ht
  rcases misc_walk h2 hb hu.1.1.2 _ hel _ _ hl1 with ⟨hbc, a, tx, tg, r, rfl, ha, hl2⟩ | ⟨a, t, b, rfl, ha, ht, hno⟩
  · obtain ⟨tag', rest', toks', g1, g2, g3, hl3⟩ := lexes_lt hel hl2
    cases g3
    have hnp : ¬ IsProlog tg ∧ ∃ t : CTag, t.Any ∧ ((tg = t.empty ∧ ReadItems i ∧ Lexes m' r tail) ∨
        (tg = t.start ∧ ReadItems i ∧ ∃ c w, c.OkFor (fun _ => True) (fun _ => True) ∧ AllWs w ∧ Lexes (flatToks (toksOf (closing t.name w) c) ++ m') r tail) ∨
        (tg = t.start ∧ ¬ Walks rest')) := by
      cases h3 with
      | @empty _ b _ ht =>
        obtain ⟨t, t1, t2, t3, -⟩ := xtag_any ht (by simp_all)
        subst t1
        obtain ⟨toks', g5, g6⟩ := lexes_tag (tagAt_empty t3) ⟨t.body ++ c%"/>", by simp [CTag.empty]⟩ hl2
        cases g5
        exact ⟨fun h => h.elim (name_not_xml t3 _) (name_not_mark t3 _).2, t, t3, .inl ⟨rfl, trivial, g6⟩⟩
      | @elem _ b c w _ _ ht hc hw =>
        obtain ⟨t, t1, t2, t3, -⟩ := xtag_any ht (by simp_all)
        subst t1 t2
        have hl2' : Lexes (t.start ++ (c ++ (closing t.name w ++ m'))) (([], tg) :: r) tail := by
          simpa [CTag.start, closing] using hl2
        obtain ⟨toks', g5, g6⟩ := lexes_tag (tagAt_start t3) ⟨t.body ++ c%">", by simp [CTag.start]⟩ hl2'
        cases g5
        have hr' : rest' = c ++ (closing t.name w ++ m') := by
          apply List.append_cancel_left (as := t.start)
          rw [← g2]; simp [CTag.start, closing]
        refine ⟨fun h => h.elim (name_not_xml t3 _) (name_not_mark t3 _).2, t, t3, .inr ?_⟩
        by_cases hW : Walks rest'
        · rw [hr'] at hW
          have hi := (xcontent_walk hc (by simp_all) _ ⟨c%"/" ++ t.name ++ w ++ c%">" ++ m', by simp [closing]⟩ hW).1
          obtain ⟨y, rfl, y2, -⟩ := xcontent_any hc (by simp_all) hi
          refine .inl ⟨rfl, hi, y, w, y2, nice_ws hw, ?_⟩
          rw [toksOf_src, List.append_assoc]
          exact g6
        · exact .inr ⟨rfl, hW⟩
    obtain ⟨hnp, t, t3, hcase⟩ := hnp
    rw [← List.append_assoc] at hsp
    obtain ⟨-, hs2⟩ := split_prolog hsp (happ a ha) hpre (by rintro t r ⟨⟩; exact hnp) (by rintro t r ⟨⟩; exact hp.root)
    cases hs2
    rcases hcase with ⟨rfl, hi, hl4⟩ | ⟨rfl, hi, c, w, c1, c2, hl4⟩ | ⟨rfl, hW⟩
    · refine ⟨?_, hbc, hi⟩
      cases hroot with
      | empty _ _ hr =>
        subst hr
        rcases misc_end h4 hu.2 _ _ hl4 with h | ⟨t, r, h, -⟩
        · exact h
        · cases h
      | elem _ hs => exact absurd ⟨c%"<" ++ t.body, rfl⟩ hs
    · refine ⟨?_, hbc, hi⟩
      obtain ⟨r2, rfl, hl5⟩ := lexes_drop (toksOf_ok c1 (tagAt_closing t3.name c2)) hl4
      have hg := cst_given c1 fun t ht => hread t (List.mem_append_left _ ht)
      have hB := body_of hg (mkElem none t.name (attrMap t.attrs)) (close := closing t.name w)
        ⟨⟨t.name ++ w ++ c%">", by simp [closing]⟩, closing_re t3.name c2, by rw [closing_strip t3.name c2, mkElem_tagName]⟩
      cases hroot with
      | empty _ hs => exact absurd hs (start_not_empty t3)
      | elem _ _ hr hB' hT =>
        have := body_same hB hB' hr
        subst this
        rcases misc_end h4 hu.2 _ _ hl5 with h | ⟨t, r, rfl, h⟩
        · exact h
        · exfalso
          cases hT with
          | more _ hO' => exact h _ _ hO'
    · exact absurd ⟨_, _, hl3, hfine⟩ hW
  · rw [← List.append_assoc] at hsp
    obtain ⟨-, hs2⟩ := split_prolog hsp (happ a ha) hpre (by rintro t r ⟨⟩; exact ht) (by rintro t r ⟨⟩; exact hp.root)
    cases hs2
    exact absurd hO (hno _ _)

end KissXml
