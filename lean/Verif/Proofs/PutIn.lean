import Verif.Spec.PutIn
import Verif.Proofs.Local
/-!
# Nodes put into a source, or taken out of it
-/
namespace KissXml
open Spec

/-! ## a list of nodes with the end of one of its lists open -/

/-- a list of nodes with a place for more nodes, at its end or at the end of the children of one of its elements -/
inductive Cut where
  | here (before : List Node)
  | under (before : List Node) (e : Element) (k : Cut) (after : List Node)

/-- put nodes there -/
def Cut.fill : Cut → List Node → List Node
  | .here l, m => l ++ m
  | .under l e k r, m => l ++ .element { e with children := k.fill m } :: r

/-- the hole between some nodes put there -/
def Cut.hole : Cut → List Node → List Node → Hole
  | .here l, b, a => .here (l ++ b) a
  | .under l e k r, b, a => .under l e (k.hole b a) r

/-- number of elements around the place -/
def Cut.level : Cut → Nat
  | .here _ => 0
  | .under _ _ k _ => k.level + 1

/-- number of elements, comments and CDATA sections before the place -/
def Cut.earlier : Cut → Nat
  | .here l => countMarks l
  | .under l _ k _ => countMarks l + 1 + k.earlier

/-- nodes in front -/
def Cut.shift (m : List Node) : Cut → Cut
  | .here l => .here (m ++ l)
  | .under l e k r => .under (m ++ l) e k r

theorem cut_plug (k : Cut) (b a : List Node) (n : Node) : (k.hole b a).plug n = k.fill (b ++ n :: a) := by
  induction k with
  | here l => simp [Cut.hole, Hole.plug, Cut.fill]
  | under l e k r ih => simp [Cut.hole, Hole.plug, Cut.fill, ih]

theorem cut_close (k : Cut) (b a : List Node) : (k.hole b a).close = k.fill (b ++ a) := by
  induction k with
  | here l => simp [Cut.hole, Hole.close, Cut.fill]
  | under l e k r ih => simp [Cut.hole, Hole.close, Cut.fill, ih]

theorem cut_level (k : Cut) (b a : List Node) : (k.hole b a).level = k.level := by
  induction k with
  | here l => rfl
  | under l e k r ih => simp [Cut.hole, Hole.level, Cut.level, ih]

theorem docOrderL_app (l m : List Node) : docOrderL (l ++ m) = docOrderL l ++ docOrderL m := by
  induction l with
  | nil => rfl
  | cons c l ih => simp [docOrderL, ih]

theorem countMarks_append (l m : List Node) : countMarks (l ++ m) = countMarks l + countMarks m := by
  simp [countMarks, docOrderL_app]

theorem cut_earlier (k : Cut) (b a : List Node) : (k.hole b a).earlier = k.earlier + countMarks b := by
  induction k with
  | here l => simp [Cut.hole, Hole.earlier, Cut.earlier, countMarks_append]
  | under l e k r ih => simp [Cut.hole, Hole.earlier, Cut.earlier, ih]; omega

theorem cut_next (k : Cut) (b a : List Node) : (k.hole b a).next = a.head? := by
  induction k with
  | here l => rfl
  | under l e k r ih => exact ih

theorem cut_shift_fill (m : List Node) (k : Cut) (n : List Node) : (k.shift m).fill n = m ++ k.fill n := by
  cases k <;> simp [Cut.shift, Cut.fill]

theorem cut_shift_level (m : List Node) (k : Cut) : (k.shift m).level = k.level := by cases k <;> rfl

theorem cut_shift_earlier (m : List Node) (k : Cut) : (k.shift m).earlier = countMarks m + k.earlier := by
  cases k <;> simp [Cut.shift, Cut.earlier, countMarks_append] <;> omega

/-! ## counting -/

theorem countMarks_element (e : Element) (l : List Node) :
    countMarks (.element e :: l) = 1 + countMarks e.children + countMarks l := by
  obtain ⟨n, cs, a, x, q, c⟩ := e
  unfold countMarks
  rw [docOrderL, docOrder, List.cons_append, List.filter_cons_of_pos (by rfl), List.filter_append, List.length_cons, List.length_append]
  simp only
  omega

theorem countMarks_comment (c : Str) (l : List Node) : countMarks (.comment c :: l) = 1 + countMarks l := by
  unfold countMarks
  rw [docOrderL, docOrder, List.singleton_append, List.filter_cons_of_pos (by rfl), List.length_cons, Nat.add_comm]

theorem countMarks_cdata (c : Str) (l : List Node) : countMarks (.cdata c :: l) = 1 + countMarks l := by
  unfold countMarks
  rw [docOrderL, docOrder, List.singleton_append, List.filter_cons_of_pos (by rfl), List.length_cons, Nat.add_comm]

theorem countMarks_text (c : Str) (l : List Node) : countMarks (.text c :: l) = countMarks l := by
  simp [countMarks, docOrderL, docOrder, isMarkup]

/-- tags other than closing tags -/
def marksIn (tags : List Str) : Nat := (tags.filter fun t => kind t != .close).length

theorem marksIn_append (a b : List Str) : marksIn (a ++ b) = marksIn a + marksIn b := by simp [marksIn]
theorem marksIn_cons_close {t : Str} (l : List Str) (h : kind t = .close) : marksIn (t :: l) = marksIn l := by simp [marksIn, h]
theorem marksIn_cons {t : Str} (l : List Str) (h : kind t ≠ .close) : marksIn (t :: l) = 1 + marksIn l := by
  simp [marksIn, h]; omega

/-- the nodes that a piece of text is read as -/
theorem withText_nodes {text : Str} {f f' : Forest} (h : WithText text f f') :
    ∃ l, countMarks l = 0 ∧ plain f' = l ++ plain f ∧ ∀ g, ∃ g', WithText text g g' ∧ plain g' = l ++ plain g := by
  obtain ⟨l, -, hl⟩ := withText_move h
  obtain ⟨g0, w0, e0⟩ := hl f
  obtain ⟨l', -, e1, e2⟩ := withText_plain h w0
  have : l' = l := by
    rw [e0] at e2
    exact (List.append_cancel_right e2).symm
  subst this
  refine ⟨l', ?_, e1, hl⟩
  cases h with
  | blank hw =>
    have : l' = [] := by simpa using e1.symm
    subst this; rfl
  | @text t hw hu =>
    rw [plain] at e1
    split at e1
    · have : l' = [] := by simpa using e1.symm
      subst this; rfl
    · have : l' = [.text t] := by
        rw [show (Node.text t :: plain f) = [Node.text t] ++ plain f from rfl] at e1
        exact (List.append_cancel_right e1).symm
      subst this
      simp [countMarks_text]; rfl

theorem comment_mark (c : Str) : kind (c%"<!--" ++ c ++ c%"-->") = .mark :=
  kind_mark (List.IsPrefix.trans (by decide : c%"<!" <+: c%"<!--") ⟨_, List.append_assoc _ _ _ |>.symm⟩)
theorem cdata_mark (c : Str) : kind (c%"<![CDATA[" ++ c ++ c%"]]>") = .mark :=
  kind_mark (List.IsPrefix.trans (by decide : c%"<!" <+: c%"<![CDATA[") ⟨_, List.append_assoc _ _ _ |>.symm⟩)

theorem delta_of_mark {t : Str} (h : kind t = .mark) : delta t = 0 := by rw [delta, h]

theorem mark_not_close {t : Str} (h : kind t = .mark) : kind t ≠ .close := by rw [h]; simp

theorem opens_not_close {p : Option Element} {tag : Str} {e : Element} (h : Opens p tag e) : kind tag ≠ .close := by
  by_cases hs : c%"/>" <:+ tag
  · rw [kind_empty h hs]; simp
  · rw [kind_start h hs]; simp

theorem body_countMarks {e : Element} {toks : List (Str × Str)} {f : Forest} (h : Body e toks f) :
    marksIn (tagsOf toks) = countMarks (plain f) := by
  induction h with
  | close hc hw =>
    obtain ⟨l, h0, h1, -⟩ := withText_nodes hw
    rw [h1, countMarks_append, h0, tagsOf_cons, marksIn_cons_close _ (kind_close hc.slash)]; rfl
  | comment hk _ hw ih =>
    obtain ⟨l, h0, h1, -⟩ := withText_nodes hw
    rw [h1, countMarks_append, h0, tagsOf_cons, marksIn_cons _ (by rw [comment_mark]; simp), plain, if_neg (by simp [isBlankText]),
      countMarks_comment, ih]
    omega
  | cdata hk _ hw ih =>
    obtain ⟨l, h0, h1, -⟩ := withText_nodes hw
    rw [h1, countMarks_append, h0, tagsOf_cons, marksIn_cons _ (by rw [cdata_mark]; simp), plain, if_neg (by simp [isBlankText]),
      countMarks_cdata, ih]
    omega
  | @empty _ c _ _ _ _ _ hO _ _ hw ih =>
    obtain ⟨l, h0, h1, -⟩ := withText_nodes hw
    rw [h1, countMarks_append, h0, tagsOf_cons, marksIn_cons _ (opens_not_close hO), plain, if_neg (by simp [isBlankText]),
      countMarks_element, ih, opens_children hO]
    have : countMarks [] = 0 := rfl
    omega
  | elem hO _ _ _ hw ih1 ih2 =>
    obtain ⟨l, h0, h1, -⟩ := withText_nodes hw
    rw [h1, countMarks_append, h0, tagsOf_cons, marksIn_cons _ (opens_not_close hO), tagsOf_append, marksIn_append, plain,
      countMarks_element, ih1, ih2]
    simp only
    omega

/-! ## the content of an element from some token on -/

/-- The tokens `r` that come after `a` in the content of `e`: the first ones, `b1`, are the rest of the content of one element `p`, and
these can be replaced. -/
def CutAt (e : Element) (f : Forest) (a r : List (Str × Str)) : Prop :=
  ∃ (p : Element) (b1 b2 : List (Str × Str)) (g : Forest) (k : Cut), r = b1 ++ b2 ∧ Body p b1 g ∧ plain f = k.fill (plain g) ∧
    (k.level : Int) = depth (tagsOf a) ∧ k.earlier = marksIn (tagsOf a) ∧
    ∀ b1' g', Body p b1' g' → ∃ f', Body e (a ++ (b1' ++ b2)) f' ∧ plain f' = k.fill (plain g')

theorem cutAt_leaf {e : Element} {f f' g : Forest} {a r : List (Str × Str)} {t1 g1 : Str} {n : Node}
    (h : CutAt e f a r) (hw : WithText t1 g f') (hg : plain g = n :: plain f) (mk : Forest → Forest)
    (hmk : ∀ f, plain (mk f) = n :: plain f) (hk : delta g1 = 0) (hc : kind g1 ≠ .close) (hn : countMarks [n] = 1)
    (hB : ∀ {toks f f'}, Body e toks f → WithText t1 (mk f) f' → Body e ((t1, g1) :: toks) f') : CutAt e f' ((t1, g1) :: a) r := by
  obtain ⟨p, b1, b2, g0, k, h1, h2, h3, h4, h5, h6⟩ := h
  obtain ⟨l, hl0, e1, hl⟩ := withText_nodes hw
  refine ⟨p, b1, b2, g0, k.shift (l ++ [n]), h1, h2, ?_, ?_, ?_, ?_⟩
  · rw [cut_shift_fill, e1, hg, h3]; simp
  · rw [cut_shift_level, h4, tagsOf_cons, depth_cons, hk, Int.zero_add]
  · rw [cut_shift_earlier, countMarks_append, hl0, hn, h5, tagsOf_cons, marksIn_cons _ hc]
  · intro b1' g' hB'
    obtain ⟨f1, i1, i2⟩ := h6 b1' g' hB'
    obtain ⟨f2, j1, j2⟩ := hl (mk f1)
    exact ⟨f2, hB i1 j1, by rw [j2, hmk, i2, cut_shift_fill]; simp⟩

theorem body_cut {e : Element} {toks : List (Str × Str)} {f : Forest} (h : Body e toks f) :
    ∀ a t r, toks = a ++ t :: r → CutAt e f a (t :: r) := by
  have front : ∀ {e : Element} {toks : List (Str × Str)} {f : Forest}, Body e toks f → ∀ r, toks = r → CutAt e f [] r := by
    rintro e toks f h r rfl
    exact ⟨e, toks, [], f, .here [], by simp, h, rfl, rfl, rfl, fun b1' g' h => ⟨g', by simpa using h, rfl⟩⟩
  induction h with
  | close hc hw =>
    intro a t r hs
    cases a with
    | nil => exact front (.close hc hw) _ hs
    | cons u a => simp at hs
  | @comment e t1 c toks f f' hk hB hw ih =>
    intro a t r hs
    cases a with
    | nil => exact front (.comment hk hB hw) _ hs
    | cons u a =>
      simp only [List.cons_append, List.cons.injEq] at hs
      obtain ⟨rfl, hs⟩ := hs
      refine cutAt_leaf (n := .comment c) (ih a t r hs) hw ?_ (.leaf (.comment c)) ?_ (delta_of_mark (comment_mark c))
        (mark_not_close (comment_mark c)) rfl (fun h w => .comment hk h w)
      · rw [plain, if_neg (by simp [isBlankText])]
      · intro f; rw [plain, if_neg (by simp [isBlankText])]
  | @cdata e t1 c toks f f' hk hB hw ih =>
    intro a t r hs
    cases a with
    | nil => exact front (.cdata hk hB hw) _ hs
    | cons u a =>
      simp only [List.cons_append, List.cons.injEq] at hs
      obtain ⟨rfl, hs⟩ := hs
      refine cutAt_leaf (n := .cdata c) (ih a t r hs) hw ?_ (.leaf (.cdata c)) ?_ (delta_of_mark (cdata_mark c))
        (mark_not_close (cdata_mark c)) rfl (fun h w => .cdata hk h w)
      · rw [plain, if_neg (by simp [isBlankText])]
      · intro f; rw [plain, if_neg (by simp [isBlankText])]
  | @empty e c t1 g1 toks f f' hO hs' hB hw ih =>
    intro a t r hs
    cases a with
    | nil => exact front (.empty hO hs' hB hw) _ hs
    | cons u a =>
      simp only [List.cons_append, List.cons.injEq] at hs
      obtain ⟨rfl, hs⟩ := hs
      refine cutAt_leaf (n := .element c) (ih a t r hs) hw ?_ (.leaf (.element c)) ?_ (by rw [delta, kind_empty hO hs'])
        (opens_not_close hO) ?_ (fun h w => .empty hO hs' h w)
      · rw [plain, if_neg (by simp [isBlankText])]
      · intro f; rw [plain, if_neg (by simp [isBlankText])]
      · rw [countMarks_element, opens_children hO]; rfl
  | @elem e c t1 g1 toks1 toks2 k f f' hO hs' hB1 hB2 hw ih1 ih2 =>
    intro a t r hs
    have hE : ElemToks (some e) g1 toks1 { c with children := plain k } := .start hO hs' hB1
    have hp : plain (.elem c k f) = .element { c with children := plain k } :: plain f := by rw [plain]
    obtain ⟨l, hl0, e1, hl⟩ := withText_nodes hw
    cases a with
    | nil => exact front (.elem hO hs' hB1 hB2 hw) _ hs
    | cons u a =>
      simp only [List.cons_append, List.cons.injEq] at hs
      obtain ⟨rfl, hs⟩ := hs
      have late : ∀ a', a = toks1 ++ a' → toks2 = a' ++ t :: r → CutAt e f' ((t1, g1) :: a) (t :: r) := by
        rintro a' rfl h2
        obtain ⟨p, b1, b2, g0, K, i1, i2, i3, i4, i5, i6⟩ := ih2 a' t r h2
        refine ⟨p, b1, b2, g0, K.shift (l ++ [.element { c with children := plain k }]), i1, i2, ?_, ?_, ?_, ?_⟩
        · rw [cut_shift_fill, e1, hp, i3]; simp
        · rw [cut_shift_level, i4, tagsOf_cons, depth_cons, delta_start (kind_start hO hs'), tagsOf_append, depth_append,
            body_depth hB1]
          omega
        · rw [cut_shift_earlier, countMarks_append, hl0, countMarks_element, i5, tagsOf_cons, marksIn_cons _ (opens_not_close hO),
            tagsOf_append, marksIn_append, (body_countMarks hB1 : marksIn (tagsOf toks1) = _)]
          have : countMarks [] = 0 := rfl
          simp only
          omega
        · intro b1' g' hB'
          obtain ⟨f1, i7, i8⟩ := i6 b1' g' hB'
          obtain ⟨f2, j1, j2⟩ := elem_front hE i7 hl
          exact ⟨f2, by simpa using j1, by rw [j2, i8, cut_shift_fill]; simp⟩
      rcases List.append_eq_append_iff.1 hs with ⟨c', h2, h3⟩ | ⟨c', h2, h3⟩
      · exact late c' h2 h3
      · cases c' with
        | nil => exact late [] (by simpa using h2.symm) (by simpa using h3.symm)
        | cons u c' =>
          simp only [List.cons_append, List.cons.injEq] at h3
          obtain ⟨rfl, rfl⟩ := h3
          obtain ⟨p, b1, b2, g0, K, i1, i2, i3, i4, i5, i6⟩ := ih1 a _ c' h2
          refine ⟨p, b1, b2 ++ toks2, g0, .under l c K (plain f), ?_, i2, ?_, ?_, ?_, ?_⟩
          · rw [← List.cons_append, i1, List.append_assoc]
          · rw [e1, hp, i3]; rfl
          · rw [tagsOf_cons, depth_cons, delta_start (kind_start hO hs'), ← i4, Cut.level]; simp [Int.add_comm]
          · rw [tagsOf_cons, marksIn_cons _ (opens_not_close hO), ← i5, Cut.earlier, hl0]
          · intro b1' g' hB'
            obtain ⟨f1, i7, i8⟩ := i6 b1' g' hB'
            obtain ⟨f2, j1, j2⟩ := elem_front (.start hO hs' i7) hB2 hl
            exact ⟨f2, by simpa using j1, by rw [j2, i8]; rfl⟩

/-! ## one step of the content -/

/-- the text before the first tag can be replaced -/
theorem body_retext {p : Element} {text tag : Str} {b : List (Str × Str)} {f : Forest} (h : Body p ((text, tag) :: b) f) :
    ∃ g, WithText text g f ∧ (∀ t' g', WithText t' g g' → Body p ((t', tag) :: b) g') ∧ ∀ t, (plain g).head? ≠ some (.text t) := by
  generalize hx : (text, tag) :: b = toks at h
  cases h with
  | close hc hw =>
    cases hx
    exact ⟨_, hw, fun _ _ w => .close hc w, by simp [plain]⟩
  | comment hk hB hw =>
    cases hx
    exact ⟨_, hw, fun _ _ w => .comment hk hB w, by simp [plain, isBlankText]⟩
  | cdata hk hB hw =>
    cases hx
    exact ⟨_, hw, fun _ _ w => .cdata hk hB w, by simp [plain, isBlankText]⟩
  | empty hO hs hB hw =>
    cases hx
    exact ⟨_, hw, fun _ _ w => .empty hO hs hB w, by simp [plain, isBlankText]⟩
  | elem hO hs hB1 hB2 hw =>
    cases hx
    exact ⟨_, hw, fun _ _ w => .elem hO hs hB1 hB2 w, by simp [plain]⟩

/-- one node in the content of `p` -/
inductive NodeToks (p : Element) : Str → List (Str × Str) → Node → Prop
  | element {tag : Str} {body : List (Str × Str)} {c : Element} : ElemToks (some p) tag body c → NodeToks p tag body (.element c)
  | comment {c : Str} : ¬ c%"-->" <:+: c → NodeToks p (c%"<!--" ++ c ++ c%"-->") [] (.comment c)
  | cdata {c : Str} : ¬ c%"]]>" <:+: c → NodeToks p (c%"<![CDATA[" ++ c ++ c%"]]>") [] (.cdata c)

theorem node_front {p : Element} {text tag : Str} {body b : List (Str × Str)} {n : Node} {f : Forest} (h : NodeToks p tag body n)
    (hB : Body p b f) {l : List Node} (hl : ∀ g, ∃ g', WithText text g g' ∧ plain g' = l ++ plain g) :
    ∃ f', Body p ((text, tag) :: (body ++ b)) f' ∧ plain f' = l ++ n :: plain f := by
  cases h with
  | element hE => exact elem_front hE hB hl
  | comment hc =>
    obtain ⟨g', h1, h2⟩ := hl (.leaf (.comment _) f)
    exact ⟨g', .comment hc hB h1, by rw [h2, plain, if_neg (by simp [isBlankText])]⟩
  | cdata hc =>
    obtain ⟨g', h1, h2⟩ := hl (.leaf (.cdata _) f)
    exact ⟨g', .cdata hc hB h1, by rw [h2, plain, if_neg (by simp [isBlankText])]⟩

/-- the first node of some content -/
theorem body_first {p : Element} {text tag : Str} {body b : List (Str × Str)} {f : Forest}
    (h : Body p ((text, tag) :: (body ++ b)) f) (h1 : OneNode tag body) :
    ∃ n g l, NodeToks p tag body n ∧ Body p b g ∧ plain f = l ++ n :: plain g ∧ countMarks l = 0 ∧
      (∀ g, ∃ g', WithText text g g' ∧ plain g' = l ++ plain g) := by
  generalize hx : (text, tag) :: (body ++ b) = toks at h
  have hk : kind tag ≠ .close := by
    cases h1 with
    | mark h => rw [h]; simp
    | element h _ _ => rcases h with h | h <;> rw [h] <;> simp
  cases h with
  | close hc hw =>
    simp only [List.cons.injEq, Prod.mk.injEq] at hx
    obtain ⟨⟨rfl, rfl⟩, -⟩ := hx
    exact absurd (kind_close hc.slash) hk
  | comment hc hB hw =>
    simp only [List.cons.injEq, Prod.mk.injEq] at hx
    obtain ⟨⟨rfl, rfl⟩, rfl⟩ := hx
    cases h1 with
    | element h _ _ => rcases h with h | h <;> rw [comment_mark] at h <;> cases h
    | mark _ =>
      obtain ⟨l, h0, e1, hl⟩ := withText_nodes hw
      exact ⟨_, _, l, .comment hc, hB, by rw [e1, plain, if_neg (by simp [isBlankText])], h0, hl⟩
  | cdata hc hB hw =>
    simp only [List.cons.injEq, Prod.mk.injEq] at hx
    obtain ⟨⟨rfl, rfl⟩, rfl⟩ := hx
    cases h1 with
    | element h _ _ => rcases h with h | h <;> rw [cdata_mark] at h <;> cases h
    | mark _ =>
      obtain ⟨l, h0, e1, hl⟩ := withText_nodes hw
      exact ⟨_, _, l, .cdata hc, hB, by rw [e1, plain, if_neg (by simp [isBlankText])], h0, hl⟩
  | @empty _ c _ _ _ _ _ hO hs hB hw =>
    simp only [List.cons.injEq, Prod.mk.injEq] at hx
    obtain ⟨⟨rfl, rfl⟩, hx⟩ := hx
    have hE : ElemToks (some p) tag [] c := .empty hO hs
    cases h1 with
    | mark h => rw [kind_empty hO hs] at h; cases h
    | element _ h1 h0 =>
      obtain ⟨rfl, rfl⟩ := body_eq_of_one (body := []) hx.symm (elemToks_one hE) (elemToks_depth hE) h1 h0
      obtain ⟨l, h0, e1, hl⟩ := withText_nodes hw
      exact ⟨_, _, l, .element hE, hB, by rw [e1, plain, if_neg (by simp [isBlankText])], h0, hl⟩
  | @elem _ c _ _ toks1 _ k _ _ hO hs hB1 hB2 hw =>
    simp only [List.cons.injEq, Prod.mk.injEq] at hx
    obtain ⟨⟨rfl, rfl⟩, hx⟩ := hx
    have hE : ElemToks (some p) tag toks1 { c with children := plain k } := .start hO hs hB1
    cases h1 with
    | mark h => rw [kind_start hO hs] at h; cases h
    | element _ h1 h0 =>
      obtain ⟨rfl, rfl⟩ := body_eq_of_one hx.symm (elemToks_one hE) (elemToks_depth hE) h1 h0
      obtain ⟨l, h0, e1, hl⟩ := withText_nodes hw
      exact ⟨_, _, l, .element hE, hB2, by rw [e1, plain], h0, hl⟩

/-! ## whole documents -/

/-- an accepted document with one top-level element, from some token inside of the root on -/
theorem root_cut {x : Str} {d : Document} {pre rest a r : List (Str × Str)} {t : Str × Str} {tail : Str} (h : parseStr x = .ok d)
    (hp : Parts x pre rest) (hl : Lexes x (pre ++ rest) tail) (h1 : OneRoot (tagsOf rest)) (hs : rest = a ++ t :: r) (ha : a ≠ []) :
    ∃ (p : Element) (b1 b2 : List (Str × Str)) (g : Forest) (k : Cut), t :: r = b1 ++ b2 ∧ Body p b1 g ∧
      [.element d.root] = k.fill (plain g) ∧ (k.level : Int) = depth (tagsOf a) ∧ k.earlier = marksIn (tagsOf a) ∧
      (∀ t ∈ a ++ (b1 ++ b2), TokOk t) ∧
      ∀ b1' g', Body p b1' g' → (∀ t ∈ b1', TokOk t) → ∃ d', parseStr (srcOf (pre ++ a ++ (b1' ++ b2)) ++ tail) = .ok d' ∧
        [.element d'.root] = k.fill (plain g') ∧ d'.declaration = d.declaration ∧ d'.dtds = d.dtds := by
  obtain ⟨toks, D, DS, tg, rs, E, F, hL, hP, hR, rfl⟩ := parse_iff.1 h
  obtain ⟨q, tx, hq, hq1, hq2, htx, hsw⟩ := pro_swap hP
  obtain ⟨tail', hT⟩ := lex_lexes hL
  have hparts : Parts x q ((tx, tg) :: rs) := ⟨⟨tail', hq ▸ hT⟩, hq1, by rintro t r ⟨⟩; exact hq2⟩
  obtain ⟨rfl, rfl⟩ := parts_unique hparts hp
  have htok := lexes_toks hl
  have htail : '<' ∉ tail := lexes_tail_free hl
  cases a with
  | nil => exact absurd rfl ha
  | cons u a =>
    simp only [List.cons_append, List.cons.injEq] at hs
    obtain ⟨rfl, hs⟩ := hs
    obtain ⟨hO, ⟨-, rfl, -⟩ | ⟨hns, hB⟩⟩ := root_one hR h1
    · simp at hs
    · have hroot : (addRev E F).reverseChildren = { E with children := plain F } := body_dom hB (opens_children hO)
      obtain ⟨p, b1, b2, g, k, i1, i2, i3, i4, i5, i6⟩ := body_cut hB a t r hs
      refine ⟨p, b1, b2, g, .under [] E k [], i1, i2, ?_, ?_, ?_, ?_, ?_⟩
      · show [Node.element (addRev E F).reverseChildren] = _
        rw [hroot, i3]; rfl
      · rw [tagsOf_cons, depth_cons, delta_start (kind_start hO hns), ← i4, Cut.level]; simp [Int.add_comm]
      · rw [tagsOf_cons, marksIn_cons _ (opens_not_close hO), ← i5, Cut.earlier]
        rw [show countMarks [] = 0 from rfl, Nat.zero_add]
      · intro t ht
        refine htok t ?_
        rw [hs, i1]
        simp only [List.cons_append, List.mem_append, List.mem_cons] at ht ⊢
        tauto
      · intro b1' g' hB' hTok
        obtain ⟨f', i7, i8⟩ := i6 b1' g' hB'
        obtain ⟨E', F', hR', hc⟩ := root_of_elemToks (.start hO hns i7)
        have hlex := lexes_flat (l := q ++ (tx, tg) :: (a ++ (b1' ++ b2))) (tail := tail) (by
          intro v hv
          simp only [List.mem_append, List.mem_cons] at hv
          rcases hv with hv | hv | hv | hv | hv
          · exact htok v (by simp [hv])
          · exact htok v (by simp [hv])
          · exact htok v (by rw [hs]; simp [hv])
          · exact hTok v hv
          · exact htok v (by rw [hs, i1]; simp [hv])) htail
        have hTag := (htok (tx, tg) (by simp)).2
        have hpro := hsw tx tg (a ++ (b1' ++ b2)) htx
          (fun h => opens_not_pi hO hTag (List.IsPrefix.trans ⟨c%"xml", rfl⟩ h)) hO.not_decl hO.not_close hO.regex
        refine ⟨_, parse_iff.2 ⟨_, D, DS, tg, _, E', F', ?_, hpro, hR', rfl⟩, ?_, rfl, rfl⟩
        · have hx : srcOf (q ++ (tx, tg) :: a ++ (b1' ++ b2)) ++ tail = flatToks (q ++ (tx, tg) :: (a ++ (b1' ++ b2))) ++ tail := by
            rw [List.append_assoc]; rfl
          rw [hx]
          exact lexes_lex hlex 0
        · show [Node.element (addRev E' F').reverseChildren] = _
          rw [hc, i8]; rfl

theorem withText_nil (g : Forest) : WithText [] g g := .blank rfl

/-- a node put before a tag -/
theorem node_inserted {x : Str} {d : Document} {pre rest a b : List (Str × Str)} {text tag tail : Str} (h : parseStr x = .ok d)
    (hp : Parts x pre rest) (hl : Lexes x (pre ++ rest) tail) (h1 : OneRoot (tagsOf rest)) (hs : PlaceIn rest a text tag b) :
    ∃ (H : Hole) (p : Element), [.element d.root] = H.close ∧ H.After (tagsOf a) ∧ (∀ t, H.next ≠ some (.text t)) ∧
      ∀ tag' body' n, NodeToks p tag' body' n → TagAt tag' tag' → (∀ t ∈ body', TokOk t) →
        ∃ d', parseStr (srcOf (pre ++ a ++ (text, tag') :: (body' ++ ([], tag) :: b)) ++ tail) = .ok d' ∧
          [.element d'.root] = H.plug n ∧ d'.declaration = d.declaration ∧ d'.dtds = d.dtds := by
  obtain ⟨p, b1, b2, g, k, i1, i2, i3, i4, i5, i6, i7⟩ := root_cut h hp hl h1 hs.split hs.inside
  cases b1 with
  | nil => cases i2
  | cons u b1 =>
    simp only [List.cons_append, List.cons.injEq] at i1
    obtain ⟨rfl, rfl⟩ := i1
    obtain ⟨g0, hw, hre, hne⟩ := body_retext i2
    obtain ⟨l, hl0, e1, hlt⟩ := withText_nodes hw
    refine ⟨k.hole l (plain g0), p, ?_, ⟨?_, ?_⟩, ?_, ?_⟩
    · rw [cut_close, i3, e1]
    · rw [cut_level, i4]
    · rw [cut_earlier, hl0, i5]; rfl
    · rw [cut_next]; exact hne
    · intro tag' body' n hN hT hTok
      obtain ⟨f', j1, j2⟩ := node_front hN (hre [] g0 (withText_nil g0)) hlt
      have ht := i6 (text, tag) (by simp)
      obtain ⟨d', m1, m2, m3⟩ := i7 _ _ j1 (by
        intro v hv
        simp only [List.mem_cons, List.mem_append] at hv
        rcases hv with rfl | hv | rfl | hv
        · exact ⟨ht.1, hT⟩
        · exact hTok v hv
        · exact ⟨by simp, ht.2⟩
        · exact i6 v (by simp [hv]))
      refine ⟨d', ?_, by rw [m2, j2, cut_plug], m3⟩
      rw [← m1]
      simp

/-- a text put where there is only white space -/
theorem text_inserted {x : Str} {d : Document} {pre rest a b : List (Str × Str)} {text tag tail : Str} (h : parseStr x = .ok d)
    (hp : Parts x pre rest) (hl : Lexes x (pre ++ rest) tail) (h1 : OneRoot (tagsOf rest)) (hs : PlaceIn rest a text tag b)
    (hb : AllWs text) : ∃ H : Hole, [.element d.root] = H.close ∧ H.After (tagsOf a) ∧
      ∀ t u, TextFor t u → ∃ d', parseStr (srcOf (pre ++ a ++ (t, tag) :: b) ++ tail) = .ok d' ∧
          [.element d'.root] = H.plug (.text u) ∧ d'.declaration = d.declaration ∧ d'.dtds = d.dtds := by
  obtain ⟨p, b1, b2, g, k, i1, i2, i3, i4, i5, i6, i7⟩ := root_cut h hp hl h1 hs.split hs.inside
  cases b1 with
  | nil => cases i2
  | cons v b1 =>
    simp only [List.cons_append, List.cons.injEq] at i1
    obtain ⟨rfl, rfl⟩ := i1
    obtain ⟨g0, hw, hre, -⟩ := body_retext i2
    have e1 : g = g0 := by
      cases hw with
      | blank _ => rfl
      | text hf _ =>
        have : text.all isWs = true := by simpa [AllWs] using hb
        rw [this] at hf; cases hf
    subst e1
    refine ⟨k.hole [] (plain g), ?_, ⟨?_, ?_⟩, ?_⟩
    · rw [cut_close, i3]; rfl
    · rw [cut_level, i4]
    · rw [cut_earlier, i5]; rfl
    · rintro t u ⟨ht1, ht2, ht3, ht4⟩
      have hw' : WithText t g (.leaf (.text u) g) := .text (by
        cases hx : t.all isWs with
        | false => rfl
        | true => exact absurd (by simpa [AllWs] using hx) ht1) (unescape_ok_iff.2 ht3)
      obtain ⟨d', m1, m2, m3⟩ := i7 _ _ (hre t _ hw') (by
        intro v hv
        simp only [List.mem_cons] at hv
        rcases hv with rfl | hv
        · exact ⟨ht2, (i6 (text, tag) (by simp)).2⟩
        · exact i6 v (by simp [hv]))
      refine ⟨d', by rw [← m1]; simp, ?_, m3⟩
      rw [m2, cut_plug, plain, if_neg (by simpa [isBlankText] using ht4)]
      rfl

theorem begins_with {p : Element} {text tag : Str} {body : List (Str × Str)} {n : Node} (h : NodeToks p tag body n) (ht : TokOk (text, tag)) :
    BeginsWith tag n := by
  cases h with
  | element hE =>
    refine ⟨opening_start hE, ?_⟩
    obtain ⟨c0, hO, hc⟩ := elemToks_opens hE
    rw [hc.tagName]
    exact opens_name hO (tokOk_angled ht)
  | comment _ => rfl
  | cdata _ => rfl

theorem cut_holefill (k : Cut) (b a m : List Node) : (k.hole b a).fill m = k.fill (b ++ m ++ a) := by
  induction k with
  | here l => simp [Cut.hole, Hole.fill, Cut.fill]
  | under l e k r ih => simp [Cut.hole, Hole.fill, Cut.fill, ih]

theorem ws_all {t : Str} : AllWs t ↔ t.all isWs = true := by simp [AllWs]
theorem not_ws_all {t : Str} : ¬ AllWs t ↔ t.all isWs = false := by rw [ws_all]; simp

/-- texts stand for nodes -/
theorem stands_iff {t : Str} {l : List Node} : StandsFor t l ↔ ∀ g, ∃ g', WithText t g g' ∧ plain g' = l ++ plain g := by
  constructor
  · intro h g
    cases h with
    | blank h => exact ⟨g, .blank (ws_all.1 h), rfl⟩
    | unseen h h1 h2 =>
      exact ⟨_, .text (not_ws_all.1 h) (unescape_ok_iff.2 h1), by rw [plain, if_pos (by simpa [isBlankText] using h2)]; rfl⟩
    | text h h1 h2 =>
      exact ⟨_, .text (not_ws_all.1 h) (unescape_ok_iff.2 h1), by rw [plain, if_neg (by simpa [isBlankText] using h2)]; rfl⟩
  · intro h
    obtain ⟨g', h1, h2⟩ := h .nil
    cases h1 with
    | blank hw =>
      obtain rfl : l = [] := by simpa [plain] using h2.symm
      exact .blank (ws_all.2 hw)
    | @text u hw h1 =>
      rw [show plain (Forest.leaf (Node.text u) Forest.nil) = _ from plain.eq_2 _ _] at h2
      split at h2
      · rename_i hb
        obtain rfl : l = [] := by simpa [plain] using h2.symm
        exact .unseen (not_ws_all.2 hw) (unescape_ok_iff.1 h1) (by simpa [isBlankText] using hb)
      · rename_i hb
        obtain rfl : l = [.text u] := by simpa [plain] using h2.symm
        exact .text (not_ws_all.2 hw) (unescape_ok_iff.1 h1) (by simpa [isBlankText] using hb)

/-- a node taken out, with the texts around it; another text in its place -/
theorem node_replaced {x : Str} {d : Document} {pre rest a body b : List (Str × Str)} {text tag text' tag' tail : Str}
    (h : parseStr x = .ok d) (hp : Parts x pre rest) (hl : Lexes x (pre ++ rest) tail) (h1 : OneRoot (tagsOf rest))
    (hs : PlaceIn rest a text tag (body ++ (text', tag') :: b)) (hn : OneNode tag body) :
    ∃ (H : Hole) (n : Node) (l l' : List Node), [.element d.root] = H.fill (l ++ n :: l') ∧ BeginsWith tag n ∧ StandsFor text l ∧
      StandsFor text' l' ∧ H.After (tagsOf a) ∧ ∀ kept m, StandsFor kept m → '<' ∉ kept → ∃ d',
        parseStr (srcOf (pre ++ a ++ (kept, tag') :: b) ++ tail) = .ok d' ∧ [.element d'.root] = H.fill m ∧
        d'.declaration = d.declaration ∧ d'.dtds = d.dtds := by
  obtain ⟨p, b1, b2, g, k, i1, i2, i3, i4, i5, i6, i7⟩ := root_cut h hp hl h1 hs.split hs.inside
  -- the node is in the content of `p`
  obtain ⟨b0, rfl, hb0⟩ : ∃ b0, b1 = (text, tag) :: (body ++ b0) ∧ (text', tag') :: b = b0 ++ b2 := by
    cases b1 with
    | nil => cases i2
    | cons v b1 =>
      simp only [List.cons_append, List.cons.injEq] at i1
      obtain ⟨rfl, i1⟩ := i1
      rcases List.append_eq_append_iff.1 i1 with ⟨c, rfl, hc⟩ | ⟨c, rfl, -⟩
      · exact ⟨c, rfl, hc⟩
      · exfalso
        have hd := body_depth i2
        rw [tagsOf_cons] at hd
        generalize hx : b1 ++ c = body at hn
        cases hn with
        | mark hm =>
          have : b1 = [] := (List.append_eq_nil_iff.1 hx).1
          subst this
          rw [depth_cons, delta_of_mark hm] at hd
          simp [depth, tagsOf] at hd
        | element _ h1 h0 =>
          subst hx
          cases c with
          | nil => rw [List.append_nil] at h0; unfold tagsOf at hd; omega
          | cons v c =>
            have := h1 (tag :: tagsOf b1) (tagsOf (v :: c)) (by simp [tagsOf]) (by simp) (by simp [tagsOf])
            omega
  obtain ⟨n, g1, l, j1, j2, j3, j4, j5⟩ := body_first i2 hn
  cases b0 with
  | nil => cases j2
  | cons v b0 =>
    simp only [List.cons_append, List.cons.injEq] at hb0
    obtain ⟨rfl, rfl⟩ := hb0
    have ht := i6 (text, tag) (by simp)
    have ht' := i6 (text', tag') (by simp)
    obtain ⟨g0, w0, hre, -⟩ := body_retext j2
    obtain ⟨l', -, e1, e2⟩ := withText_nodes w0
    refine ⟨k.hole [] (plain g0), n, l, l', ?_, begins_with j1 ht, stands_iff.2 j5, stands_iff.2 e2, ⟨by rw [cut_level, i4], ?_⟩, ?_⟩
    · rw [cut_holefill, i3, j3, e1]; simp
    · rw [cut_earlier, i5]; rfl
    · intro kept m hm hkt
      obtain ⟨g2, w2, e3⟩ := stands_iff.1 hm g0
      obtain ⟨d', m1, m2, m3⟩ := i7 _ _ (hre kept g2 w2) (by
        intro v hv
        simp only [List.mem_cons] at hv
        rcases hv with rfl | hv
        · exact ⟨hkt, ht'.2⟩
        · exact i6 v (by simp [hv]))
      refine ⟨d', by rw [← m1]; simp, ?_, m3⟩
      rw [m2, e3, cut_holefill]; simp

/-- a node taken out, with the white space on one side of it -/
theorem node_removed {x : Str} {d : Document} {pre rest a body b : List (Str × Str)} {text tag text' tag' kept tail : Str}
    (h : parseStr x = .ok d) (hp : Parts x pre rest) (hl : Lexes x (pre ++ rest) tail) (h1 : OneRoot (tagsOf rest))
    (hs : PlaceIn rest a text tag (body ++ (text', tag') :: b)) (hn : OneNode tag body)
    (hk : AllWs text ∧ kept = text' ∨ AllWs text' ∧ kept = text) :
    ∃ (H : Hole) (n : Node) (d' : Document), [.element d.root] = H.plug n ∧ BeginsWith tag n ∧ H.After (tagsOf a) ∧
      parseStr (srcOf (pre ++ a ++ (kept, tag') :: b) ++ tail) = .ok d' ∧ [.element d'.root] = H.close ∧
      d'.declaration = d.declaration ∧ d'.dtds = d.dtds := by
  obtain ⟨p, b1, b2, g, k, i1, i2, i3, i4, i5, i6, i7⟩ := root_cut h hp hl h1 hs.split hs.inside
  -- the node is in the content of `p`
  obtain ⟨b0, rfl, hb0⟩ : ∃ b0, b1 = (text, tag) :: (body ++ b0) ∧ (text', tag') :: b = b0 ++ b2 := by
    cases b1 with
    | nil => cases i2
    | cons v b1 =>
      simp only [List.cons_append, List.cons.injEq] at i1
      obtain ⟨rfl, i1⟩ := i1
      rcases List.append_eq_append_iff.1 i1 with ⟨c, rfl, hc⟩ | ⟨c, rfl, -⟩
      · exact ⟨c, rfl, hc⟩
      · exfalso
        have hd := body_depth i2
        rw [tagsOf_cons] at hd
        generalize hx : b1 ++ c = body at hn
        cases hn with
        | mark hm =>
          have : b1 = [] := (List.append_eq_nil_iff.1 hx).1
          subst this
          rw [depth_cons, delta_of_mark hm] at hd
          simp [depth, tagsOf] at hd
        | element _ h1 h0 =>
          subst hx
          cases c with
          | nil => rw [List.append_nil] at h0; unfold tagsOf at hd; omega
          | cons v c =>
            have := h1 (tag :: tagsOf b1) (tagsOf (v :: c)) (by simp [tagsOf]) (by simp) (by simp [tagsOf])
            omega
  obtain ⟨n, g1, l, j1, j2, j3, j4, j5⟩ := body_first i2 hn
  cases b0 with
  | nil => cases j2
  | cons v b0 =>
    simp only [List.cons_append, List.cons.injEq] at hb0
    obtain ⟨rfl, rfl⟩ := hb0
    have ht := i6 (text, tag) (by simp)
    have ht' := i6 (text', tag') (by simp)
    have fin : ∀ kept g', Body p ((kept, tag') :: b0) g' → '<' ∉ kept → plain g' = l ++ plain g1 →
        ∃ (H : Hole) (n : Node) (d' : Document), [.element d.root] = H.plug n ∧ BeginsWith tag n ∧ H.After (tagsOf a) ∧
          parseStr (srcOf (pre ++ a ++ (kept, tag') :: (b0 ++ b2)) ++ tail) = .ok d' ∧ [.element d'.root] = H.close ∧
          d'.declaration = d.declaration ∧ d'.dtds = d.dtds := by
      intro kept g' hB hkt hg
      obtain ⟨d', m1, m2, m3⟩ := i7 _ _ hB (by
        intro v hv
        simp only [List.mem_cons] at hv
        rcases hv with rfl | hv
        · exact ⟨hkt, ht'.2⟩
        · exact i6 v (by simp [hv]))
      refine ⟨k.hole l (plain g1), n, d', by rw [cut_plug, i3, j3], begins_with j1 ht, ⟨by rw [cut_level, i4], by rw [cut_earlier, j4, i5]; rfl⟩,
        by rw [← m1]; simp, by rw [m2, cut_close, hg], m3⟩
    rcases hk with ⟨hw, rfl⟩ | ⟨hw, rfl⟩
    · -- no text before the node
      refine fin _ g1 j2 ht'.1 ?_
      obtain ⟨g2, w2, e2⟩ := j5 g1
      cases w2 with
      | blank _ => exact e2
      | text hf _ =>
        have : text.all isWs = true := by simpa [AllWs] using hw
        rw [this] at hf; cases hf
    · obtain ⟨g0, w0, hre, -⟩ := body_retext j2
      have e0 : g1 = g0 := by
        cases w0 with
        | blank _ => rfl
        | text hf _ =>
          have : text'.all isWs = true := by simpa [AllWs] using hw
          rw [this] at hf; cases hf
      subst e0
      obtain ⟨g2, w2, e2⟩ := j5 g1
      exact fin _ g2 (hre _ _ w2) ht.1 e2

end KissXml
