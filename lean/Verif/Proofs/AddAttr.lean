import Verif.Proofs.Retag
import Verif.Proofs.SyntaxExact
/-!
# An attribute put into a tag
-/
namespace KissXml
open Spec

/-! ## quotes -/

theorem unquoted_app (x : Char) (q : Option Char) (a b : Str) : unquoted x q (a ++ b) = unquoted x q a + unquoted x (qstate q a) b := by
  induction a generalizing q with
  | nil => simp [unquoted]
  | cons c a ih => rw [List.cons_append, unquoted, unquoted, ih, qstate_cons]; omega

theorem firstUnquoted_gt {q : Option Char} {a : Str} : FirstUnquoted q c%">" a (a ++ c%">") ↔ qstate q a = none ∧ unquoted '>' q a = 0 := by
  induction a generalizing q with
  | nil => rw [firstUnquoted_nil]; simp [unquoted]
  | cons c a ih =>
    rw [List.cons_append, firstUnquoted_cons, ih, qstate_cons, unquoted]
    simp only [true_and, List.cons_prefix_cons, List.nil_prefix, and_true, Nat.add_eq_zero_iff, ite_eq_right_iff]
    constructor
    · rintro ⟨h1, h2, h3⟩
      exact ⟨h2, by simpa using fun a b => h1 ⟨a, b.symm⟩, h3⟩
    · rintro ⟨h1, h2, h3⟩
      exact ⟨fun ⟨a, b⟩ => by simpa using h2 ⟨a, b.symm⟩, h1, h3⟩

theorem qstate_calm {s : Str} (h : '"' ∉ s) (h' : '\'' ∉ s) : qstate none s = none := by
  induction s with
  | nil => rfl
  | cons c s ih =>
    simp only [List.mem_cons, not_or] at h h'
    rw [qstate_cons, qstep, if_neg (by rintro (rfl | rfl); exacts [h.1 rfl, h'.1 rfl]), ih h.2 h'.2]

theorem unquoted_none {x : Char} {s : Str} {q : Option Char} (h : x ∉ s) : unquoted x q s = 0 := by
  induction s generalizing q with
  | nil => rfl
  | cons c s ih =>
    simp only [List.mem_cons, not_or] at h
    rw [unquoted, ih h.2, if_neg (by rintro ⟨-, rfl⟩; exact h.1 rfl)]

theorem qstate_inside {s : Str} (h : '"' ∉ s) : qstate (some '"') s = some '"' ∧ ∀ x, unquoted x (some '"') s = 0 := by
  induction s with
  | nil => exact ⟨rfl, fun _ => rfl⟩
  | cons c s ih =>
    simp only [List.mem_cons, not_or] at h
    have hq : qstep (some '"') c = some '"' := by rw [qstep, if_neg (Ne.symm h.1)]
    exact ⟨by rw [qstate_cons, hq, (ih h.2).1], fun x => by rw [unquoted, hq, (ih h.2).2]; simp⟩

theorem qstate_quote (t : Str) : qstate none t = none ∨ qstate none t = some '"' ∨ qstate none t = some '\'' := by
  induction t using List.reverseRecOn with
  | nil => exact .inl rfl
  | append_singleton t c ih =>
    rw [qstate_append]
    show qstep (qstate none t) c = none ∨ qstep (qstate none t) c = some '"' ∨ qstep (qstate none t) c = some '\''
    rcases ih with ih | ih | ih <;> rw [ih, qstep] <;> split
    · rename_i h; rcases h with rfl | rfl <;> simp
    all_goals simp

theorem qstate_ws {w : Str} {q : Option Char} (hw : AllWs w) (hq : q = none ∨ q = some '"' ∨ q = some '\'') : qstate q w = q := by
  induction w with
  | nil => rfl
  | cons c w ih =>
    have hc : ¬ (c = '"' ∨ c = '\'') := by
      have := hw c (by simp)
      rintro (rfl | rfl) <;> revert this <;> decide
    have : qstep q c = q := by
      rcases hq with rfl | rfl | rfl
      · rw [qstep, if_neg hc]
      · rw [qstep, if_neg fun h => hc (.inl h)]
      · rw [qstep, if_neg fun h => hc (.inr h)]
    rw [qstate_cons, this]
    exact ih fun c hc => hw c (by simp [hc])

/-- the attribute as it is put in -/
def attrPiece (k raw : Str) : Str := k ++ c%"=\"" ++ raw ++ c%"\""

/-- a name has no character of this kind -/
structure CalmName (k : Str) : Prop where
  ne : k ≠ []
  dquote : '"' ∉ k
  squote : '\'' ∉ k
  gt : '>' ∉ k
  eq : '=' ∉ k
  ws : ∀ c ∈ k, isWs c = false

theorem piece_qstate {k raw : Str} (hk : CalmName k) (hr : '"' ∉ raw) : qstate none (attrPiece k raw) = none := by
  rw [attrPiece, qstate_append, qstate_append, qstate_append, qstate_calm hk.dquote hk.squote]
  show qstate (qstate (some '"') raw) c%"\"" = none
  rw [(qstate_inside hr).1]; rfl

theorem piece_unquoted {k raw : Str} (hk : CalmName k) (hr : '"' ∉ raw) : unquoted '>' none (attrPiece k raw) = 0 := by
  rw [attrPiece, unquoted_app, unquoted_app, unquoted_app, qstate_append (b := raw), qstate_append (b := c%"=\""),
    qstate_calm hk.dquote hk.squote, unquoted_none hk.gt]
  show 0 + 0 + unquoted '>' (some '"') raw + unquoted '>' (qstate (some '"') raw) c%"\"" = 0
  rw [(qstate_inside hr).1, (qstate_inside hr).2]; rfl

theorem nobreak_append {q : Option Char} {a b : Str} (ha : NoBreak q a) (hb : NoBreak (qstate q a) b) : NoBreak q (a ++ b) := by
  intro u c v h hq
  rcases List.append_eq_append_iff.1 h with ⟨d, h1, h2⟩ | ⟨d, h1, h2⟩
  · subst h1
    rw [qstate_append] at hq
    exact hb d c v h2 hq
  · cases d with
    | nil =>
      rw [List.append_nil] at h1
      subst h1
      exact hb [] c v h2.symm hq
    | cons x d =>
      obtain ⟨rfl, -⟩ := List.cons.inj h2
      exact ha u c d h1 hq

theorem nobreak_inside {s : Str} (h : '"' ∉ s) : NoBreak (some '"') s := by
  rintro a c b rfl hq
  rw [(qstate_inside (fun h' => h (by simp [h']))).1] at hq
  cases hq

theorem piece_nobreak {k raw : Str} (hk : CalmName k) (hr : '"' ∉ raw) : NoBreak none (attrPiece k raw) := by
  have h1 : NoBreak none k := by
    rintro a c b rfl -
    exact hk.ws c (by simp)
  have e1 : qstate none k = none := qstate_calm hk.dquote hk.squote
  have h2 : NoBreak none c%"=\"" := by
    intro a c b h _
    cases a with
    | nil => cases h; rfl
    | cons x a =>
      cases a with
      | nil => cases h; rfl
      | cons y a => simp at h
  have h3 : NoBreak (some '"') c%"\"" := by
    intro a c b h hq
    cases a with
    | nil => cases hq
    | cons x a => simp at h
  have g1 : NoBreak none (k ++ c%"=\"") := nobreak_append h1 (by rw [e1]; exact h2)
  have e2 : qstate none (k ++ c%"=\"") = some '"' := by rw [qstate_append, e1]; rfl
  have g2 : NoBreak none (k ++ c%"=\"" ++ raw) := nobreak_append g1 (by rw [e2]; exact nobreak_inside hr)
  exact nobreak_append g2 (by rw [qstate_append, e2, (qstate_inside hr).1]; exact h3)

/-! ## words and pieces -/

theorem words_add {s w x : Str} {l : List Str} (h : Words s l) (hq : qstate none s = none) (hw : AllWs w) (hw0 : w ≠ []) (hx : x ≠ [])
    (hb : NoBreak none x) : Words (s ++ w ++ x) (l ++ [x]) := by
  have hws : ∀ {u : Str}, AllWs u → qstate none u = none := by
    intro u hu
    exact qstate_calm (fun h => by have := hu _ h; revert this; decide) (fun h => by have := hu _ h; revert this; decide)
  induction h with
  | @done s hs =>
    have : Words (s ++ w ++ x ++ []) [x] := .word (by intro c hc; rcases List.mem_append.1 hc with hc | hc; exacts [hs c hc, hw c hc])
      ⟨hx, hb, [], rfl, .inl rfl⟩ (.done (by intro c hc; cases hc))
    simpa using this
  | @word u n r l h1 h2 h3 ih =>
    rw [qstate_append, qstate_append, hws h1] at hq
    obtain ⟨k1, k2, r', k3, k4⟩ := h2
    obtain rfl := List.append_cancel_left k3
    have hn : qstate none n = none := by
      rcases k4 with rfl | ⟨_, _, _, _, h⟩
      · exact hq
      · exact h
    rw [hn] at hq
    have : Words (u ++ n ++ (r ++ w ++ x)) (n :: (l ++ [x])) := by
      refine .word h1 ⟨k1, k2, _, rfl, .inr ?_⟩ (ih hq)
      rcases k4 with rfl | ⟨c, r', rfl, hc, -⟩
      · cases w with
        | nil => exact absurd rfl hw0
        | cons c w => exact ⟨c, w ++ x, rfl, hw c (by simp), hn⟩
      · exact ⟨c, r' ++ w ++ x, by simp, hc, hn⟩
    simpa using this

theorem joined_add {ws ps : List Str} {x : Str} (h : Joined ws ps) (hp : ∀ p ∈ ps, ∃ k raw, Quoted k raw p) (hx : ¬ c%"=" <+: x) :
    Joined (ws ++ [x]) (ps ++ [x]) := by
  have no : ∀ {p : Str}, (∃ k raw, Quoted k raw p) → ¬ Touch p x := by
    rintro p ⟨k, raw, -, q, hq, rfl⟩ (⟨u, hu⟩ | h)
    · have := (List.append_inj' hu rfl).2
      simp only [List.cons.injEq, and_true] at this
      subst this
      rcases hq with hq | hq <;> cases hq
    · exact hx h
  induction h with
  | nil => exact .one (by simp) .nil
  | @one a l ps h1 _ ih =>
    refine .one ?_ (ih fun p hp' => hp p (by simp [hp']))
    intro b r h
    cases l with
    | nil => cases h; exact no (hp a (by simp))
    | cons c l => cases h; exact h1 _ _ rfl
  | @two a b l ps h1 h2 _ ih =>
    refine .two h1 ?_ (ih fun p hp' => hp p (by simp [hp']))
    intro c r h
    cases l with
    | nil => cases h; exact no (hp _ (by simp))
    | cons c' l => cases h; exact h2 _ _ rfl
  | three h1 h2 _ ih => exact .three h1 h2 (ih fun p hp' => hp p (by simp [hp']))

/-! ## the tag -/

theorem otherName_calm {k : Str} (h : OtherName k) : CalmName k := by
  obtain ⟨c, t, rfl, hc, ht⟩ := h.plain
  obtain ⟨c', t', he, hc', ht'⟩ := h.api
  obtain ⟨rfl, rfl⟩ := List.cons.inj he
  have no : ∀ x : Char, ¬ CodeIn startCodes x → ¬ CodeIn moreCodes x → x ∉ c :: t := by
    intro x h1 h2 hx
    rcases List.mem_cons.1 hx with rfl | hx
    · exact h1 hc
    · exact (ht x hx).elim h1 h2
  refine ⟨by simp, no _ (by decide) (by decide), no _ (by decide) (by decide), no _ (by decide) (by decide), no _ (by decide) (by decide), ?_⟩
  intro x hx
  rcases List.mem_cons.1 hx with rfl | hx
  · rcases hc' with rfl | ⟨h1, h2⟩ | ⟨h1, h2⟩
    · rfl
    all_goals
      simp only [isWs, inRanges, wsRanges, List.any_cons, List.any_nil, Bool.or_eq_false_iff, Bool.and_eq_false_iff, decide_eq_false_iff_not]
      simp at h1 h2 ⊢
      omega
  · exact ht' x hx

/-- the end of a tag -/
def TagEnd (s b : Str) : Prop := b = c%"/>" ∨ b = c%">" ∧ ¬ c%"/" <:+ s

theorem tagEnd_unique {a s b m b' : Str} (h : TagEnd s b) (h' : TagEnd m b') (he : a ++ s ++ b = a ++ m ++ b') : s = m ∧ b = b' := by
  rw [List.append_assoc, List.append_assoc, List.append_cancel_left_eq] at he
  rcases h with rfl | ⟨rfl, h⟩ <;> rcases h' with rfl | ⟨rfl, h'⟩
  · exact ⟨List.append_cancel_right he, rfl⟩
  · exact absurd ⟨s, List.append_cancel_right (bs := c%">") (by rw [← he]; simp)⟩ h'
  · exact absurd ⟨m, List.append_cancel_right (bs := c%">") (by rw [he]; simp)⟩ h
  · exact ⟨List.append_cancel_right he, rfl⟩

theorem suffix_one {u v : Str} {c d : Char} (h : c ≠ d) : ¬ [c] <:+ u ++ v ++ [d] := by
  rintro ⟨w, hw⟩
  have := (List.append_inj' hw rfl).2
  exact h (List.cons.inj this).1

theorem suffix_gt {u : Str} : c%"/>" <:+ u ++ c%">" ↔ c%"/" <:+ u := by
  constructor
  · rintro ⟨v, hv⟩
    exact ⟨v, List.append_cancel_right (bs := c%">") (by rw [← hv]; simp)⟩
  · rintro ⟨v, rfl⟩
    exact ⟨v, by simp⟩

theorem suffix_lt {c : Char} {s : Str} (h : c%"/" <:+ c%"<" ++ (c :: s)) : c%"/" <:+ c :: s := by
  rcases List.suffix_cons_iff.1 (show c%"/" <:+ '<' :: c :: s from h) with h | h
  · cases h
  · exact h

theorem put_kind {s b y : Str} (hb : TagEnd s b) (hs : s ≠ []) : kind (c%"<" ++ s ++ (y ++ c%"\"") ++ b) = kind (c%"<" ++ s ++ b) := by
  obtain ⟨c, s, rfl⟩ := List.exists_cons_of_ne_nil hs
  have hsuf : c%"/>" <:+ c%"<" ++ (c :: s) ++ (y ++ c%"\"") ++ b ↔ c%"/>" <:+ c%"<" ++ (c :: s) ++ b := by
    rcases hb with rfl | ⟨rfl, hb⟩
    · exact ⟨fun _ => ⟨_, rfl⟩, fun _ => ⟨_, rfl⟩⟩
    · rw [suffix_gt, suffix_gt]
      constructor
      · intro h
        rw [← List.append_assoc] at h
        exact absurd h (suffix_one (by decide))
      · intro h
        exact absurd (suffix_lt h) hb
  unfold kind
  simp only [hsuf]
  simp

theorem put_whole {s b y : Str} (hb : TagEnd s b) (hs : s ≠ []) (hq : qstate none y = none) (hy : unquoted '>' none y = 0)
    (h : TagAt (c%"<" ++ s ++ b) (c%"<" ++ s ++ b)) (h1 : ¬ c%"<!" <+: c%"<" ++ s ++ b) (h2 : ¬ c%"<?" <+: c%"<" ++ s ++ b) :
    qstate none s = none ∧ TagAt (c%"<" ++ s ++ y ++ b) (c%"<" ++ s ++ y ++ b) := by
  obtain ⟨b0, rfl, hb0⟩ : ∃ b0, b = b0 ++ c%">" ∧ (b0 = c%"/" ∨ b0 = []) := by
    rcases hb with rfl | ⟨rfl, -⟩
    exacts [⟨c%"/", rfl, .inl rfl⟩, ⟨[], rfl, .inr rfl⟩]
  have hst := qstate_quote s
  have hu : ∀ {q}, (q = none ∨ q = some '"' ∨ q = some '\'') → qstate q b0 = none → q = none := by
    rintro q (rfl | rfl | rfl)
    · simp
    · rcases hb0 with rfl | rfl <;> decide
    · rcases hb0 with rfl | rfl <;> decide
  have hb1 : qstate none b0 = none ∧ unquoted '>' none b0 = 0 := by rcases hb0 with rfl | rfl <;> decide
  have pre1 : ∀ {u : Str}, ¬ c%"!" <+: s ++ u := by
    rintro u ⟨v, hv⟩
    obtain ⟨c, s, rfl⟩ := List.exists_cons_of_ne_nil hs
    obtain ⟨rfl, -⟩ := List.cons.inj hv
    exact h1 ⟨s ++ (b0 ++ c%">"), by simp⟩
  have pre2 : ∀ {u : Str}, ¬ c%"?" <+: s ++ u := by
    rintro u ⟨v, hv⟩
    obtain ⟨c, s, rfl⟩ := List.exists_cons_of_ne_nil hs
    obtain ⟨rfl, -⟩ := List.cons.inj hv
    exact h2 ⟨s ++ (b0 ++ c%">"), by simp⟩
  have key : qstate none (s ++ b0) = none ∧ unquoted '>' none (s ++ b0) = 0 := by
    generalize ht : c%"<" ++ s ++ (b0 ++ c%">") = t at h
    generalize ht' : t = t' at h
    rw [ht] at h1 h2
    cases h with
    | comment h _ => exact absurd ((List.prefix_append c%"<!" c%"--").trans h) (by rw [ht'] at h1; exact h1)
    | pi h _ => exact absurd (List.prefix_append _ _) (by rw [ht', h] at h2; exact h2)
    | cdata h _ => exact absurd ((List.prefix_append c%"<!" c%"[CDATA[").trans h) (by rw [ht'] at h1; exact h1)
    | decl h => exact absurd (List.prefix_append _ _) (by rw [ht', h] at h1; exact h1)
    | @elem a u h _ _ hf =>
      have e1 : s ++ b0 = a := List.append_cancel_right (bs := c%">") (List.append_cancel_left (as := c%"<") (by simpa using ht.trans ht'))
      have e2 : u = a ++ c%">" := List.append_cancel_left (as := c%"<") (by rw [← h]; simp)
      subst e2
      rw [e1]
      exact firstUnquoted_gt.1 hf
  rw [qstate_append, unquoted_app] at key
  have hs0 := hu hst key.1
  refine ⟨hs0, ?_⟩
  have : TagAt (c%"<" ++ (s ++ y ++ b0 ++ c%">")) (c%"<" ++ (s ++ y ++ b0) ++ c%">") := by
    refine .elem rfl ?_ ?_ (firstUnquoted_gt.2 ⟨?_, ?_⟩)
    · simpa using pre1 (u := y ++ (b0 ++ c%">"))
    · simpa using pre2 (u := y ++ (b0 ++ c%">"))
    · rw [qstate_append, qstate_append, hs0, hq, hb1.1]
    · rw [unquoted_app, unquoted_app, qstate_append, hs0, hq, hy, hb1.2]; omega
  simpa using this

theorem put_good {s b w k raw : Str} (hb : TagEnd s b) (hw : AllWs w) (hw0 : w ≠ []) (hk : PlainName k)
    (h : ¬ BadTag (c%"<" ++ s ++ b)) : ¬ BadTag (c%"<" ++ s ++ (w ++ attrPiece k raw) ++ b) := by
  simp only [BadTag, not_forall, not_not] at h ⊢
  obtain ⟨t, ⟨u, v, hv⟩, ht⟩ := h
  obtain ⟨t1, rfl, -⟩ := tagPattern_gt ht
  rcases List.eq_nil_or_concat v with rfl | ⟨v, d, rfl⟩
  · -- the part ends where the tag ends
    obtain ⟨a, n, as, w', b', ha, hn, has, hw', hb', he⟩ := ht
    have hend : TagEnd (a ++ n ++ as.flatten ++ w') b' := by
      rcases hb' with rfl | rfl
      · exact .inr ⟨rfl, tagPattern_last hn has hw'⟩
      · exact .inl rfl
    have hend' : TagEnd (u ++ (a ++ n ++ as.flatten ++ w')) b' := by
      rcases hend with h | ⟨h, h'⟩
      · exact .inl h
      · refine .inr ⟨h, ?_⟩
        rintro ⟨z, hz⟩
        have : (a ++ n ++ as.flatten ++ w') ≠ [] := by
          obtain ⟨c, t, rfl, -⟩ := hn
          simp
        obtain ⟨y, c, hy⟩ : ∃ y c, a ++ n ++ as.flatten ++ w' = y ++ [c] := ⟨_, _, (List.dropLast_append_getLast this).symm⟩
        rw [hy, ← List.append_assoc] at hz
        have := (List.append_inj' hz rfl).2
        simp only [List.cons.injEq, and_true] at this
        subst this
        exact h' ⟨y, hy.symm⟩
    have hb2 : TagEnd (c%"<" ++ s) b := by
      refine hb.imp id fun ⟨h, h'⟩ => ⟨h, fun hs => h' ?_⟩
      rcases List.suffix_cons_iff.1 (show c%"/" <:+ '<' :: s from hs) with h | h
      · cases h
      · exact h
    have hh : [] ++ (u ++ (a ++ n ++ as.flatten ++ w')) ++ b' = [] ++ (c%"<" ++ s) ++ b := by
      rw [he, List.append_nil] at hv
      simpa using hv
    obtain ⟨e1, rfl⟩ := tagEnd_unique hend' hb2 hh
    refine ⟨a ++ n ++ (as ++ [w' ++ w ++ k ++ c%"=" ++ ['"'] ++ raw ++ ['"']]).flatten ++ [] ++ b', ?_, a, n, _, [], b', ha, hn, ?_, by simp [AllWs], hb', rfl⟩
    · refine ⟨u, [], ?_⟩
      rw [← e1]
      simp [attrPiece]
    · intro p hp
      rcases List.mem_append.1 hp with hp | hp
      · exact has p hp
      · simp only [List.mem_singleton] at hp
        subst hp
        refine ⟨w' ++ w, k, '"', raw, ?_, by simp [hw0], hk, .inl rfl, rfl⟩
        intro c hc
        rcases List.mem_append.1 hc with hc | hc
        exacts [hw' c hc, hw c hc]
  · refine ⟨t1 ++ c%">", ?_, ht⟩
    have key : t1 ++ c%">" <:+: c%"<" ++ s := by
      rw [List.concat_eq_append] at hv
      rcases hb with rfl | ⟨rfl, hb⟩
      · have h1 : u ++ (t1 ++ c%">") ++ v = c%"<" ++ s ++ c%"/" := (List.append_inj' (t₁ := [d]) (t₂ := c%">") (by simpa using hv) rfl).1
        rcases List.eq_nil_or_concat v with rfl | ⟨v, d, rfl⟩
        · have := (List.append_inj' (show (u ++ t1) ++ c%">" = (c%"<" ++ s) ++ c%"/" by simpa using h1) rfl).2
          cases this
        · rw [List.concat_eq_append] at h1
          exact ⟨u, v, (List.append_inj' (t₁ := [d]) (t₂ := c%"/") (by simpa using h1) rfl).1⟩
      · exact ⟨u, v, (List.append_inj' (t₁ := [d]) (t₂ := c%">") (by simpa using hv) rfl).1⟩
    exact key.trans ⟨[], (w ++ attrPiece k raw) ++ b, by simp⟩

theorem words_nil {n : Str} {ws : List Str} (h : Words [] (n :: ws)) : False := by
  generalize he : ([] : Str) = e at h
  cases h with
  | word _ hf _ =>
    have := congrArg List.length he
    have := List.length_pos_of_ne_nil hf.1
    simp at *
    omega

theorem put_pieces {s b w n k raw : Str} {ps : List Str} (hb : TagEnd s b) (hw : AllWs w) (hw0 : w ≠ []) (hk : CalmName k) (hr : '"' ∉ raw)
    (hc : ¬ c%"</" <+: c%"<" ++ s ++ b) (hc' : ¬ c%"</" <+: c%"<" ++ s ++ (w ++ attrPiece k raw) ++ b) (hq : qstate none s = none) (hp : ∀ p ∈ ps, ∃ k raw, Quoted k raw p)
    (h : Pieces (c%"<" ++ s ++ b) n ps) : Pieces (c%"<" ++ s ++ (w ++ attrPiece k raw) ++ b) n (ps ++ [attrPiece k raw]) := by
  obtain ⟨s0, ws, ⟨a, m, b', w1, w2, h1, h2, h3, rfl, h4, h5, h6⟩, h7, h8⟩ := h
  have ha : a = c%"<" := by
    rcases h2 with rfl | ⟨rfl, -⟩
    · exact absurd ⟨_, (by simpa using h1.symm)⟩ hc
    · rfl
  subst ha
  obtain ⟨rfl, rfl⟩ := tagEnd_unique hb h3 h1
  have hws : ∀ {u : Str}, AllWs u → qstate none u = none := by
    intro u hu
    exact qstate_calm (fun h => by have := hu _ h; revert this; decide) (fun h => by have := hu _ h; revert this; decide)
  have hq0 : qstate none s0 = none := by
    rw [qstate_append, qstate_append, hws h4, qstate_ws h5 (qstate_quote s0)] at hq
    exact hq
  have hs0 : s0 ≠ [] := by
    rintro rfl
    exact words_nil h7
  have hpiece : attrPiece k raw = (k ++ c%"=\"" ++ raw) ++ ['"'] := rfl
  refine ⟨s0 ++ (w2 ++ w) ++ attrPiece k raw, ws ++ [attrPiece k raw], ⟨c%"<", w1 ++ (s0 ++ (w2 ++ w) ++ attrPiece k raw), b, w1, [], ?_, .inr ⟨rfl, hc'⟩, ?_, by simp, h4, by simp, ?_, ?_⟩, ?_, joined_add h8 hp ?_⟩
  · simp
  · refine hb.imp id fun ⟨h, _⟩ => ⟨h, ?_⟩
    have := suffix_one (u := w1 ++ (s0 ++ (w2 ++ w))) (v := k ++ c%"=\"" ++ raw) (c := '/') (d := '"') (by decide)
    intro hs
    exact this (by simpa [attrPiece] using hs)
  · intro c hc
    obtain ⟨d, s0, rfl⟩ := List.exists_cons_of_ne_nil hs0
    exact h6.1 c (by simpa using hc)
  · intro c hc
    rw [hpiece, ← List.append_assoc, List.getLast?_append_of_ne_nil _ (by simp)] at hc
    simp only [List.getLast?_singleton, Option.some.injEq] at hc
    subst hc
    rfl
  · exact words_add h7 hq0 (by intro c hc; rcases List.mem_append.1 hc with hc | hc; exacts [h5 c hc, hw c hc]) (by simp [hw0]) (by simp [attrPiece]) (piece_nobreak hk hr)
  · rintro ⟨v, hv⟩
    obtain ⟨c, k, rfl⟩ := List.exists_cons_of_ne_nil hk.ne
    obtain ⟨rfl, -⟩ := List.cons.inj hv
    exact hk.eq (by simp)

/-! ## the document -/

theorem gives_exists {ps : List Str} (hg : GoodPieces ps) {p k raw : Str} (hp : p ∈ ps) (hq : Quoted k raw p) : ∃ v, Gives ps k v := by
  induction ps using List.reverseRecOn with
  | nil => simp at hp
  | append_singleton l x ih =>
    by_cases hx : ∃ raw', Quoted k raw' x
    · obtain ⟨raw', hx⟩ := hx
      obtain ⟨k2, raw2, h2, v, hv⟩ := hg x (by simp)
      obtain ⟨rfl, rfl⟩ := quoted_unique hx h2
      exact ⟨v, l, x, [], _, rfl, hx, by simp, hv⟩
    · rcases List.mem_append.1 hp with hp | hp
      · obtain ⟨v, a, p, b, raw, rfl, h1, h2, h3⟩ := ih (fun p hp => hg p (by simp [hp])) hp
        refine ⟨v, a, p, b ++ [x], raw, by simp, h1, ?_, h3⟩
        intro p' hp' raw' h'
        rcases List.mem_append.1 hp' with hp' | hp'
        · exact h2 p' hp' raw' h'
        · simp only [List.mem_singleton] at hp'
          subst hp'
          exact hx ⟨_, h'⟩
      · simp only [List.mem_singleton] at hp
        subst hp
        exact absurd ⟨_, hq⟩ hx

theorem gives_add {ps : List Str} {x k raw v : Str} (hx : Quoted k raw x) (hv : Unesc raw (some v)) (k' v' : Str) :
    Gives (ps ++ [x]) k' v' ↔ if k' = k then v' = v else Gives ps k' v' := by
  have split : ∀ {a b : List Str} {p : Str}, ps ++ [x] = a ++ p :: b → (b = [] ∧ p = x ∧ ps = a) ∨ ∃ b', b = b' ++ [x] ∧ ps = a ++ p :: b' := by
    intro a b p h
    rcases List.eq_nil_or_concat b with rfl | ⟨b, y, rfl⟩
    · obtain ⟨h1, h2⟩ := List.append_inj' h rfl
      simp only [List.cons.injEq, and_true] at h2
      exact .inl ⟨rfl, h2.symm, h1⟩
    · rw [List.concat_eq_append] at *
      obtain ⟨h1, h2⟩ := List.append_inj' (show ps ++ [x] = (a ++ p :: b) ++ [y] by rw [h]; simp) rfl
      simp only [List.cons.injEq, and_true] at h2
      exact .inr ⟨b, by rw [h2], h1⟩
  split
  · rename_i hk
    subst hk
    constructor
    · rintro ⟨a, p, b, raw', h1, h2, h3, h4⟩
      rcases split h1 with ⟨-, rfl, -⟩ | ⟨b', rfl, -⟩
      · obtain ⟨-, rfl⟩ := quoted_unique hx h2
        exact Option.some.inj (unesc_unique h4 hv)
      · exact absurd hx (h3 x (by simp) raw)
    · rintro rfl
      exact ⟨ps, x, [], raw, rfl, hx, by simp, hv⟩
  · rename_i hk
    constructor
    · rintro ⟨a, p, b, raw', h1, h2, h3, h4⟩
      rcases split h1 with ⟨-, rfl, -⟩ | ⟨b', rfl, rfl⟩
      · exact absurd (quoted_unique h2 hx).1 hk
      · exact ⟨a, p, b', raw', rfl, h2, fun p' hp' => h3 p' (by simp [hp']), h4⟩
    · rintro ⟨a, p, b, raw', rfl, h2, h3, h4⟩
      refine ⟨a, p, b ++ [x], raw', by simp, h2, ?_, h4⟩
      intro p' hp' raw'' h'
      rcases List.mem_append.1 hp' with hp' | hp'
      · exact h3 p' hp' raw'' h'
      · simp only [List.mem_singleton] at hp'
        subst hp'
        exact hk (quoted_unique h' hx).1

theorem opens_facts {p : Option Element} {tag : Str} {e : Element} (h : Opens p tag e) (ha : Angled tag) :
    ∃ ps, Pieces tag e.tagName ps ∧ GoodPieces ps ∧ ¬ BadTag tag ∧ (∀ p ∈ ps, ∀ k raw, Quoted k raw p → ApiName k) ∧ ApiName e.name ∧
      SamePrefix e.tagName e.tagName e.name := by
  obtain ⟨-, -, hr, t, attrs, n1, n', x, q, g1, hN⟩ := h
  obtain ⟨comps, buf, pos, g2, g3⟩ := hN.attrs_ok
  obtain ⟨f1, f2, -⟩ := newElem_fields hN
  rw [newElem_tagName hN]
  have hg := goodPieces_ok g3
  refine ⟨_, pieces_split (inner_iff.2 ⟨g1, ha⟩) g2, hg, not_bad.2 hr, ?_, ?_, ?_⟩
  · intro p hp k raw hq
    obtain ⟨v, hv⟩ := gives_exists hg hp hq
    exact validName_iff.1 (hN.attrs_valid k (by rw [(gives_iff g3 k v).2 hv]; rfl))
  · rw [f1]; exact validName_iff.1 hN.valid
  · rw [f1]
    cases hN.name with
    | plain h => exact .plain h h rfl
    | own h1 h2 _ => exact .prefixed h2 h1 h1
    | inh h1 h2 _ _ => exact .prefixed h2 h1 h1

theorem put_retag {tag tag' n l k raw v : Str} {ps : List Str} (hput : AttrPut tag k raw tag') (hk : OtherName k) (hr : '"' ∉ raw)
    (hv : Unesc raw (some v)) (ho : Opening tag) (hpi : ¬ c%"<?" <+: tag) (ht : TagAt tag tag)
    (h1 : Pieces tag n ps) (h2 : GoodPieces ps) (h3 : ¬ BadTag tag) (h4 : ∀ p ∈ ps, ∀ k raw, Quoted k raw p → ApiName k) (h5 : ApiName l)
    (h6 : SamePrefix n n l) : Retag tag tag' n n l ps (ps ++ [attrPiece k raw]) ∧ Quoted k raw (attrPiece k raw) := by
  obtain ⟨s, b, rfl, rfl, hb⟩ := hput
  have hc := otherName_calm hk
  have hbb : TagEnd s b := hb
  obtain ⟨k1, k2, -⟩ := kind_prefix ho
  have hs : s ≠ [] := by
    rintro rfl
    rcases hbb with rfl | ⟨rfl, -⟩
    · exact k1 ⟨c%">", rfl⟩
    · obtain ⟨s0, ws, ⟨a, m, b', w1, w2, g1, g2, g3, rfl, -⟩, g4, -⟩ := h1
      have := congrArg List.length g1
      have hs0 : s0 = [] := by
        apply List.eq_nil_of_length_eq_zero
        rcases g2 with rfl | ⟨rfl, -⟩ <;> rcases g3 with rfl | ⟨rfl, -⟩ <;> simp at this <;> omega
      subst hs0
      exact words_nil g4
  have hq : qstate none (c%" " ++ attrPiece k raw) = none ∧ unquoted '>' none (c%" " ++ attrPiece k raw) = 0 := by
    rw [qstate_append, unquoted_app]
    exact ⟨piece_qstate hc hr, by show 0 + unquoted '>' none (attrPiece k raw) = 0; rw [piece_unquoted hc hr]⟩
  have hquo : Quoted k raw (attrPiece k raw) := ⟨hc.eq, '"', .inl rfl, by simp [attrPiece]⟩
  have e1 : c%"<" ++ s ++ c%" " ++ (k ++ c%"=\"" ++ raw ++ c%"\"") ++ b = c%"<" ++ s ++ (c%" " ++ attrPiece k raw) ++ b := by simp [attrPiece]
  rw [e1]
  obtain ⟨q1, q2⟩ := put_whole hbb hs hq.1 hq.2 ht k2 hpi
  have hkind : kind (c%"<" ++ s ++ (c%" " ++ attrPiece k raw) ++ b) = kind (c%"<" ++ s ++ b) := by
    have := put_kind (y := c%" " ++ (k ++ c%"=\"" ++ raw)) hbb hs
    rw [← this]; simp [attrPiece]
  have hcl : ¬ c%"</" <+: c%"<" ++ s ++ (c%" " ++ attrPiece k raw) ++ b := (kind_prefix (tag := _) (by unfold Opening; rw [hkind]; exact ho)).1
  have hws : AllWs c%" " := by intro c hc; simp at hc; subst hc; rfl
  refine ⟨⟨hkind, put_good hbb hws (by simp) hk.plain h3, q2,
    put_pieces hbb hws (by simp) hc hr k1 hcl q1 (fun p hp => let ⟨k, raw, h, _⟩ := h2 p hp; ⟨k, raw, h⟩) h1, ?_, h5, ?_, h1, h6, ?_⟩, hquo⟩
  · intro p hp
    rcases List.mem_append.1 hp with hp | hp
    · exact h2 p hp
    · simp only [List.mem_singleton] at hp
      subst hp
      exact ⟨k, raw, hquo, v, hv⟩
  · intro p hp k' raw' hq'
    rcases List.mem_append.1 hp with hp | hp
    · exact h4 p hp k' raw' hq'
    · simp only [List.mem_singleton] at hp
      subst hp
      rw [(quoted_unique hq' hquo).1]
      exact hk.api
  · rw [List.filter_append]
    have : declares (attrPiece k raw) = false := by
      rw [Bool.eq_false_iff]
      intro hd
      rw [declares_iff hquo] at hd
      simp only [nsKey, Bool.or_eq_true, List.isPrefixOf_iff_prefix, beq_iff_eq] at hd
      exact hd.elim hk.notPrefix hk.notDefault
    simp [this]

theorem parse_addAttr {x : Str} {d : Document} {pre rest a body b : List (Str × Str)} {text tag tag' k raw v tail : Str}
    (h : parseStr x = .ok d) (hp : Parts x pre rest) (hl : Lexes x (pre ++ rest) tail) (h1 : OneRoot (tagsOf rest))
    (he : ElementIn rest a text tag body b) (hpi : ¬ c%"<?" <+: tag) (hput : AttrPut tag k raw tag') (hk : OtherName k) (hr : '"' ∉ raw)
    (hv : Unesc raw (some v)) :
    ∃ (H : Hole) (e : Element) (m : SMap) (d' : Document), [.element d.root] = H.plug (.element e) ∧ H.count = (openTags (tagsOf a)).length ∧
      (∀ k', m.get k' = if k' = k then some v else e.attrs.get k') ∧
      parseStr (srcOf (pre ++ a ++ (text, tag') :: (body ++ b)) ++ tail) = .ok d' ∧
      [.element d'.root] = H.plug (.element { e with attrs := m }) ∧ d'.declaration = d.declaration ∧ d'.dtds = d.dtds := by
  obtain ⟨p, c, H, i1, i2, i3, i4⟩ := root_at h hp hl h1 he
  have htok := lexes_toks hl
  have ht : TokOk (text, tag) := htok _ (by rw [he.split]; simp)
  have hang := tokOk_angled ht
  obtain ⟨ps, o1, o2, o3, o4, o5, o6⟩ : ∃ ps, Pieces tag c.tagName ps ∧ GoodPieces ps ∧ ¬ BadTag tag ∧
      (∀ p ∈ ps, ∀ k raw, Quoted k raw p → ApiName k) ∧ ApiName c.name ∧ SamePrefix c.tagName c.tagName c.name := by
    cases i1 with
    | empty hO _ => exact opens_facts hO hang
    | start hO _ _ =>
      have := opens_facts hO hang
      exact this
  obtain ⟨hret, hquo⟩ := put_retag hput hk hr hv he.opening hpi ht.2 o1 o2 o3 o4 o5 o6
  have hcl : Reclosed c.tagName body body := by
    cases i1 with
    | empty => exact .empty
    | @start c0 _ _ _ _ hB =>
      obtain ⟨l, t, cl, rfl, j1, -⟩ := body_retag hB
      have hcl : TokOk (t, cl) := htok _ (by rw [he.split]; simp)
      exact .close (kind_close j1.slash) (not_bad.2 j1.regex) hcl.2 (inner_iff.2 ⟨j1.name, tokOk_angled hcl⟩)
  obtain ⟨m, j1, j2, j3, j4, -⟩ := elemToks_retag i1 he.opening hang hret hcl
  obtain ⟨d', k1, k2, k3⟩ := i4 _ _ _ j1 hret.whole (fun t ht => htok t (by rw [he.split]; simp [ht]))
  refine ⟨H, c, m, d', i2, i3, ?_, k1, k2, k3⟩
  intro k'
  apply Option.ext
  intro v'
  rw [j2, gives_add hquo hv]
  split
  · simp [eq_comm]
  · rw [j3]

end KissXml
