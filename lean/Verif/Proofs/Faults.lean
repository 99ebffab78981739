import Verif.Spec.Errors
import Verif.Proofs.Written
import Verif.Proofs.TagNames
import Verif.Proofs.Where
import Verif.Proofs.UnescapeExact
/-!
# What is wrong with rejected inputs
-/
namespace KissXml
open Spec

/-! ## the pattern for tags -/

theorem re_plainName {n : Str} : Re.Matches nameRe n ↔ PlainName n := by
  constructor
  · intro h
    obtain ⟨a, t, rfl, h1, h2⟩ := Re.matches_seq.1 h
    obtain ⟨c, rfl, hc⟩ := Re.matches_cls.1 h1
    have ht := Re.matches_star_cls.1 h2
    rw [List.all_eq_true] at ht
    exact ⟨c, t, rfl, nameStart_iff.2 hc, fun x hx => nameChar_iff.2 (ht x hx)⟩
  · rintro ⟨c, t, rfl, h1, h2⟩
    refine Re.matches_seq.2 ⟨[c], t, rfl, Re.matches_cls.2 ⟨c, rfl, nameStart_iff.1 h1⟩, Re.matches_star_cls.2 ?_⟩
    rw [List.all_eq_true]
    exact fun x hx => nameChar_iff.1 (h2 x hx)

theorem plainName_append {a b : Str} (ha : PlainName a) (hb : PlainName b) : PlainName (a ++ ':' :: b) := by
  obtain ⟨c, t, rfl, g1, g2⟩ := ha
  obtain ⟨d, u, rfl, k1, k2⟩ := hb
  refine ⟨c, t ++ ':' :: d :: u, by simp, g1, ?_⟩
  intro x hx
  simp only [List.mem_append, List.mem_cons] at hx
  rcases hx with hx | rfl | rfl | hx
  · exact g2 x hx
  · exact .inl (by decide)
  · exact .inl k1
  · exact k2 x hx

theorem re_attr {p : Str} : Re.Matches attrRe p ↔ AttrPattern p := by
  constructor
  · intro h
    obtain ⟨w, u, rfl, k1, k2⟩ := Re.matches_seq.1 h
    obtain ⟨k, u, rfl, k3, k4⟩ := Re.matches_seq.1 k2
    obtain ⟨e, v, rfl, k5, k6⟩ := Re.matches_seq.1 k4
    rw [Re.matches_lit] at k5
    subst k5
    obtain ⟨g1, g2⟩ := re_ws_plus k1
    have hv : ∃ q raw, (q = '"' ∨ q = '\'') ∧ v = [q] ++ raw ++ [q] := by
      rcases Re.matches_alt.1 k6 with h | h
      · obtain ⟨a, b, rfl, h1, h2⟩ := Re.matches_seq.1 h
        obtain ⟨r, c, rfl, -, h3⟩ := Re.matches_seq.1 h2
        rw [Re.matches_lit] at h1 h3
        exact ⟨'"', r, .inl rfl, by simp [h1, h3]⟩
      · obtain ⟨a, b, rfl, h1, h2⟩ := Re.matches_seq.1 h
        obtain ⟨r, c, rfl, -, h3⟩ := Re.matches_seq.1 h2
        rw [Re.matches_lit] at h1 h3
        exact ⟨'\'', r, .inr rfl, by simp [h1, h3]⟩
    obtain ⟨q, raw, hq, rfl⟩ := hv
    exact ⟨w, k, q, raw, g1, g2, re_plainName.1 k3, hq, by simp⟩
  · rintro ⟨w, k, q, raw, h1, h2, h3, h4, rfl⟩
    refine Re.matches_seq.2 ⟨w, k ++ ('=' :: ([q] ++ raw ++ [q])), by simp, Re.matches_plus_cls.2 ⟨h2, List.all_eq_true.2 h1⟩,
      Re.matches_seq.2 ⟨k, '=' :: ([q] ++ raw ++ [q]), rfl, re_plainName.2 h3,
        Re.matches_seq.2 ⟨c%"=", [q] ++ raw ++ [q], rfl, Re.matches_lit.2 rfl, Re.matches_alt.2 ?_⟩⟩⟩
    rcases h4 with rfl | rfl
    · exact .inl (Re.matches_seq.2 ⟨_, _, List.append_assoc _ _ _, Re.matches_lit.2 rfl,
        Re.matches_seq.2 ⟨_, _, rfl, Re.matches_star_any _, Re.matches_lit.2 rfl⟩⟩)
    · exact .inr (Re.matches_seq.2 ⟨_, _, List.append_assoc _ _ _, Re.matches_lit.2 rfl,
        Re.matches_seq.2 ⟨_, _, rfl, Re.matches_star_any _, Re.matches_lit.2 rfl⟩⟩)

theorem re_star {r : Re} {s : Str} : Re.Matches (.star r) s ↔ ∃ l : List Str, s = l.flatten ∧ ∀ p ∈ l, Re.Matches r p := by
  constructor
  · intro h
    generalize hr : Re.star r = r' at h
    induction h with
    | starNil => exact ⟨[], rfl, by simp⟩
    | starCons h1 h2 _ ih2 =>
      cases hr
      obtain ⟨l, rfl, hl⟩ := ih2 rfl
      refine ⟨_ :: l, by simp; rfl, ?_⟩
      intro p hp
      rcases List.mem_cons.1 hp with rfl | hp
      · exact h1
      · exact hl p hp
    | _ => cases hr
  · rintro ⟨l, rfl, hl⟩
    induction l with
    | nil => exact .starNil
    | cons p l ih => exact .starCons (hl p (by simp)) (ih (fun q hq => hl q (by simp [hq])))

theorem re_tag {t : Str} : Re.Matches elemRe t ↔ TagPattern t := by
  constructor
  · intro h
    obtain ⟨a, t1, rfl, h1, h2⟩ := Re.matches_seq.1 h
    rw [Re.matches_lit] at h1
    subst h1
    obtain ⟨a, t2, rfl, h3, h4⟩ := Re.matches_seq.1 h2
    obtain ⟨n1, t3, rfl, h5, h6⟩ := Re.matches_seq.1 h4
    obtain ⟨n2, t4, rfl, h7, h8⟩ := Re.matches_seq.1 h6
    obtain ⟨A, t5, rfl, h9, h10⟩ := Re.matches_seq.1 h8
    obtain ⟨w, t6, rfl, h11, h12⟩ := Re.matches_seq.1 h10
    obtain ⟨s, t7, rfl, h13, h14⟩ := Re.matches_seq.1 h12
    rw [Re.matches_lit] at h14
    subst h14
    have hn : PlainName (n1 ++ n2) := by
      rcases Re.matches_opt.1 h7 with rfl | h
      · simpa using re_plainName.1 h5
      · obtain ⟨a, b, rfl, hl, hb⟩ := Re.matches_seq.1 h
        rw [Re.matches_lit] at hl
        subst hl
        exact plainName_append (re_plainName.1 h5) (re_plainName.1 hb)
    obtain ⟨l, rfl, hl⟩ := re_star.1 h9
    refine ⟨'<' :: a, n1 ++ n2, l, w, s ++ c%">", ?_, hn, fun p hp => re_attr.1 (hl p hp), re_ws h11, ?_, by simp⟩
    · rcases Re.matches_opt.1 h3 with rfl | h
      · exact .inl rfl
      · rw [Re.matches_lit] at h; subst h; exact .inr rfl
    · rcases Re.matches_opt.1 h13 with rfl | h
      · exact .inl rfl
      · rw [Re.matches_lit] at h; subst h; exact .inr rfl
  · rintro ⟨a, n, as, w, b, h1, h2, h3, h4, h5, rfl⟩
    obtain ⟨a', ha, rfl⟩ : ∃ a', Re.Matches (Re.opt (Re.lit '/')) a' ∧ a = '<' :: a' := by
      rcases h1 with rfl | rfl
      · exact ⟨[], Re.matches_opt.2 (.inl rfl), rfl⟩
      · exact ⟨c%"/", Re.matches_opt.2 (.inr (Re.matches_lit.2 rfl)), rfl⟩
    obtain ⟨b', hb, rfl⟩ : ∃ b', Re.Matches (Re.opt (Re.lit '/')) b' ∧ b = b' ++ c%">" := by
      rcases h5 with rfl | rfl
      · exact ⟨[], Re.matches_opt.2 (.inl rfl), rfl⟩
      · exact ⟨c%"/", Re.matches_opt.2 (.inr (Re.matches_lit.2 rfl)), rfl⟩
    refine Re.matches_seq.2 ⟨c%"<", a' ++ (n ++ ([] ++ (as.flatten ++ (w ++ (b' ++ c%">"))))), by simp, Re.matches_lit.2 rfl,
      Re.matches_seq.2 ⟨a', _, rfl, ha, Re.matches_seq.2 ⟨n, _, rfl, re_plainName.2 h2, Re.matches_seq.2 ⟨[], _, rfl,
        Re.matches_opt.2 (.inl rfl), Re.matches_seq.2 ⟨as.flatten, _, rfl, re_star.2 ⟨as, rfl, fun p hp => re_attr.2 (h3 p hp)⟩,
          Re.matches_seq.2 ⟨w, _, rfl, Re.matches_star_cls.2 (List.all_eq_true.2 h4), Re.matches_seq.2 ⟨b', _, rfl, hb, Re.matches_lit.2 rfl⟩⟩⟩⟩⟩⟩⟩

theorem badTag_iff {tag : Str} : BadTag tag ↔ Re.isMatch elemRe tag = false := by
  rw [Bool.eq_false_iff, Ne, Re.isMatch_iff]
  constructor
  · rintro h ⟨t, h1, h2⟩
    exact h t h1 (re_tag.1 h2)
  · intro h t h1 h2
    exact h ⟨t, h1, re_tag.2 h2⟩

/-! ## the stack -/

/-- the names of the open elements -/
inductive Stack (d : List (Nat × PTNode)) : Option Nat → List Str → Prop
  | nil : Stack d none []
  | cons {p : Nat} {e : Element} {q : Option Nat} {ns : List Str} : LMap.get d p = some ⟨.element e, q⟩ → Stack d q ns →
      Stack d (some p) (e.tagName :: ns)

/-- the arena has the keys `0 … n-1`, and elements with names `ns` are open -/
structure Opened (st : ParseTree) (ns : List Str) : Prop where
  keys : ∀ p, (LMap.get st.data p).isSome ↔ p < st.data.length
  stack : Stack st.data st.pos ns

theorem stack_insert {d : List (Nat × PTNode)} {i : Nat} {v : PTNode} (hi : LMap.get d i = none) {p : Option Nat} {ns : List Str}
    (h : Stack d p ns) : Stack (LMap.insert d i v) p ns := by
  induction h with
  | nil => exact .nil
  | @cons p e q ns h1 h2 ih =>
    refine .cons ?_ ih
    rw [LMap.get_insert, if_neg, h1]
    rintro rfl
    rw [hi] at h1; cases h1

theorem length_insert_new {d : List (Nat × PTNode)} {i : Nat} {v : PTNode} (hi : LMap.get d i = none) :
    (LMap.insert d i v).length = d.length + 1 := by
  induction d with
  | nil => rfl
  | cons kv d ih =>
    obtain ⟨k, w⟩ := kv
    unfold LMap.get at hi
    unfold LMap.insert
    split at hi
    · cases hi
    · rename_i h
      rw [if_neg h, List.length_cons, ih hi, List.length_cons]

theorem length_insert_old {d : List (Nat × PTNode)} {i : Nat} {v : PTNode} (hi : (LMap.get d i).isSome) :
    (LMap.insert d i v).length = d.length := by
  induction d with
  | nil => simp [LMap.get] at hi
  | cons kv d ih =>
    obtain ⟨k, w⟩ := kv
    unfold LMap.get at hi
    unfold LMap.insert
    split
    · rfl
    · rename_i h
      rw [if_neg h] at hi
      rw [List.length_cons, ih hi, List.length_cons]

theorem opened_fresh {st : ParseTree} {ns : List Str} (h : Opened st ns) : LMap.get st.data st.data.length = none := by
  have := (h.keys st.data.length).not.2 (by omega)
  simpa using this

theorem opened_grow {st : ParseTree} {ns : List Str} (h : Opened st ns) (v : PTNode) :
    ∀ p, (LMap.get (LMap.insert st.data st.data.length v) p).isSome ↔ p < (LMap.insert st.data st.data.length v).length := by
  intro p
  rw [length_insert_new (opened_fresh h), LMap.get_insert]
  split
  · rename_i hp; subst hp; simp
  · rw [h.keys]; omega

theorem opened_append {st st' : ParseTree} {ns : List Str} (h : Opened st ns) {n : Node} (ha : st.append n = .ok st') :
    Opened st' ns ∧ ns ≠ [] := by
  unfold ParseTree.append at ha
  have hs := h.stack
  cases hp : st.pos with
  | none => rw [hp] at ha; cases ha
  | some p =>
    rw [hp] at ha hs
    obtain ⟨v, h1, h2⟩ := bind_eq_ok.1 ha
    cases h2
    refine ⟨⟨opened_grow h _, ?_⟩, ?_⟩
    · exact stack_insert (opened_fresh h) hs
    · cases hs; simp

theorem opened_push {st st' : ParseTree} {ns : List Str} (h : Opened st ns) {e : Element} (ha : st.push e = .ok st') :
    Opened st' (e.tagName :: ns) := by
  unfold ParseTree.push at ha
  have hs := h.stack
  cases hp : st.pos with
  | none =>
    rw [hp] at ha hs
    cases ha
    cases hs
    refine ⟨fun p => ?_, .cons (by rw [LMap.get_insert, if_pos rfl]) .nil⟩
    rw [LMap.get_insert]
    by_cases h0 : 0 < st.data.length
    · rw [length_insert_old ((h.keys 0).2 h0)]
      split
      · rename_i hp; subst hp; simpa using h0
      · exact h.keys p
    · have h1 : LMap.get st.data 0 = none := by
        have := (h.keys 0).not.2 h0
        simpa using this
      rw [length_insert_new h1]
      split
      · rename_i hp; subst hp; simp
      · rw [h.keys p]; omega
  | some p =>
    rw [hp] at ha hs
    obtain ⟨v, h1, h2⟩ := bind_eq_ok.1 ha
    cases h2
    exact ⟨opened_grow h _, .cons (by rw [LMap.get_insert, if_pos rfl]) (stack_insert (opened_fresh h) hs)⟩

theorem opened_pop {st st' : ParseTree} {ns : List Str} (h : Opened st ns) (ha : st.pop = .ok st') :
    ∃ n ns', ns = n :: ns' ∧ Opened st' ns' := by
  unfold ParseTree.pop at ha
  have hs := h.stack
  cases hp : st.pos with
  | none => rw [hp] at ha; cases ha
  | some p =>
    rw [hp] at ha hs
    obtain ⟨v, h1, h2⟩ := bind_eq_ok.1 ha
    cases h2
    cases hs with
    | cons h3 h4 =>
      rw [unwrap_eq_ok, h3] at h1
      cases h1
      exact ⟨_, _, rfl, h.keys, h4⟩

theorem opened_top {st : ParseTree} {ns : List Str} (h : Opened st ns) :
    (ns = [] ∧ st.topElement = .ok none) ∨ ∃ e ns', ns = e.tagName :: ns' ∧ st.topElement = .ok (some e) := by
  unfold ParseTree.topElement
  have hs := h.stack
  cases hp : st.pos with
  | none => rw [hp] at hs; cases hs; exact .inl ⟨rfl, rfl⟩
  | some p =>
    rw [hp] at hs
    cases hs with
    | cons h3 h4 =>
      refine .inr ⟨_, _, rfl, ?_⟩
      simp only [h3, Res.unwrap_some, Res.bind_ok]
      rfl

theorem opened_step {st st' : ParseTree} {ns : List Str} {tag : Str} (h : Opened st ns) (ht : TagStep tag st st') (ha : Angled tag) :
    ∃ ns', Opened st' ns' ∧ ∀ l, OpenAfter l ns → OpenAfter (l ++ [tag]) ns' := by
  cases ht with
  | comment h1 _ h3 =>
    exact ⟨ns, (opened_append h h3).1, fun l hl => .mark hl (kind_mark (h1 ▸ ⟨_, by simp; rfl⟩))⟩
  | cdata h1 _ h3 =>
    exact ⟨ns, (opened_append h h3).1, fun l hl => .mark hl (kind_mark (h1 ▸ ⟨_, by simp; rfl⟩))⟩
  | close h1 h2 h3 h4 h5 =>
    obtain ⟨n, ns', rfl, h6⟩ := opened_pop h h5
    refine ⟨ns', h6, fun l hl => .close hl (kind_close h1) ?_⟩
    rcases opened_top h with ⟨h7, -⟩ | ⟨e, ns2, h7, h8⟩
    · cases h7
    · rw [h3] at h8
      cases h8
      cases h7
      exact inner_iff.2 ⟨h4, ha⟩
  | empty h1 h0 h2 h3 h4 h5 h6 h7 =>
    exact ⟨ns, (opened_append h h7).1, fun l hl => .empty hl (by unfold kind; rw [if_neg h0, if_neg h1, if_pos h2])⟩
  | @start parent t attrs n0 n x q e h1 h0 h2 h3 h4 h5 h6 h7 =>
    refine ⟨_, opened_push h h7, fun l hl => .start hl (by unfold kind; rw [if_neg h0, if_neg h1, if_neg h2]) ?_⟩
    exact opens_name (parent := parent) ⟨h1, h0, h3, t, attrs, n0, n, x, q, h4, h6⟩ ha

/-! ## errors -/

/-- errors of the computation satisfy `P` -/
def EP {α : Type} (P : Err → Prop) (r : R α) : Prop := ∀ e, r = .err e → P e

theorem ep_ok {α : Type} {P : Err → Prop} (a : α) : EP P (.ok a : R α) := by intro e h; cases h
theorem ep_unwrap {α : Type} {P : Err → Prop} (o : Option α) : EP P (Res.unwrap o : R α) := by
  cases o <;> intro e h <;> cases h
theorem ep_err {α : Type} {P : Err → Prop} {e : Err} (h : P e) : EP P (.err e : R α) := by
  rintro _ ⟨⟩; exact h
theorem ep_bind {α β : Type} {P : Err → Prop} {r : R α} {f : α → R β} (h : EP P r) (hf : ∀ a, r = .ok a → EP P (f a)) :
    EP P (r >>= f) := by
  cases r with
  | ok a => exact hf a rfl
  | err e => rintro e' ⟨⟩; exact h e rfl
  | panic => intro e h; cases h
  | diverge => intro e h; cases h
theorem ep_mapErr {α : Type} {P : Err → Prop} {r : R α} {f : Err → Err} (h : EP (fun e => P (f e)) r) : EP P (r.mapErr f) := by
  cases r with
  | ok a => exact ep_ok a
  | err e => rintro e' ⟨⟩; exact h e rfl
  | panic => intro e h; cases h
  | diverge => intro e h; cases h
theorem ep_unescape {P : Err → Prop} {s : Str} : EP P (unescape s : R Str) := by
  intro e h
  exact absurd h ((unescapeLoop_bound _ _ _ (by omega) (by omega)).2.1 e)
theorem ep_realText {P : Err → Prop} {s : Str} : EP P (realText s) := by
  unfold realText
  split
  · exact ep_ok _
  · exact ep_bind ep_unescape (fun _ _ => ep_ok _)
/-! ## text -/

theorem panics_iff {s : Str} : Panics s ↔ (unescape s : R Str) = .panic := unescape_panic_iff.symm
theorem returns_iff {s : Str} : Returns s ↔ ∃ t, (unescape s : R Str) = .ok t := by simp only [Returns, unescape_ok_iff]

theorem unescape_cases (s : Str) : Returns s ∨ Panics s := by
  obtain ⟨t, h⟩ := unesc_total s
  cases t with
  | none => exact .inr h
  | some t => exact .inl ⟨t, h⟩

theorem unescape_cases' (s : Str) : (∃ t, (unescape s : R Str) = .ok t) ∨ Panics s :=
  (unescape_cases s).imp returns_iff.1 id

theorem abbreviate_some {t s : Str} : abbreviate t 32 = some s ↔ Shortened t s := by
  unfold abbreviate Shortened
  rw [show (32 / 2 - 1 : Nat) = 15 from rfl, show (32 / 2 : Nat) = 16 from rfl]
  by_cases hl : 32 < blen t
  · rw [if_neg (by omega)]
    constructor
    · intro h
      obtain ⟨a, h1, h2⟩ := Option.bind_eq_some_iff.1 h
      obtain ⟨b, h3, rfl⟩ := Option.map_eq_some_iff.1 h2
      obtain ⟨z, r, h4, h5, h6⟩ := sliceB_eq_some.1 h1
      have hz : z = [] := blen_eq_zero.1 h5
      subst hz
      obtain ⟨u, h7, h8⟩ := dropB_eq_some.1 h3
      have hb : blen b = 16 := by
        rw [h7] at h8 hl; simp at h8 hl; omega
      simp only [List.nil_append, blen_nil, Nat.zero_add] at h4 h6
      have hu : a <+: u := by
        refine List.prefix_of_prefix_length_le (l₃ := t) ⟨r, h4.symm⟩ ⟨b, h7.symm⟩ ?_
        by_contra hlt
        have hp : u <+: a := List.prefix_of_prefix_length_le (l₃ := t) ⟨b, h7.symm⟩ ⟨r, h4.symm⟩ (by omega)
        obtain ⟨v, rfl⟩ := hp
        simp at h6
        omega
      obtain ⟨m, rfl⟩ := hu
      exact .inr ⟨hl, a, m, b, h7, h6, hb, rfl⟩
    · rintro (⟨h, -⟩ | ⟨-, a, m, b, rfl, ha, hb, rfl⟩)
      · omega
      · have h1 : sliceB 0 15 (a ++ m ++ b) = some a :=
          sliceB_eq_some.2 ⟨[], m ++ b, by simp, rfl, by simpa using ha⟩
        have h2 : dropB (blen (a ++ m ++ b) - 16) (a ++ m ++ b) = some b :=
          dropB_eq_some.2 ⟨a ++ m, rfl, by simp; omega⟩
        rw [h1, Option.bind_some, h2]
        rfl
  · rw [if_pos (by omega)]
    constructor
    · intro h
      cases h
      exact .inl ⟨by omega, rfl⟩
    · rintro (⟨-, rfl⟩ | ⟨h, -⟩)
      · rfl
      · omega

theorem realText_ws {text : Str} (h : AllWs text) : realText text = .ok none := by
  unfold realText
  rw [if_pos (List.all_eq_true.2 h)]

theorem realText_not_ws {text : Str} (h : ¬ AllWs text) : realText text = (unescape text >>= fun s => pure (some s)) := by
  unfold realText
  rw [if_neg (fun h' => h (List.all_eq_true.1 h'))]

theorem ep_append {P : Err → Prop} {st : ParseTree} {ns : List Str} (h : Opened st ns) {n : Node}
    (hp : ns = [] → P (.parsing .noRootElement none)) : EP P (st.append n) := by
  unfold ParseTree.append
  have hs := h.stack
  split
  · rename_i hpos
    rw [hpos] at hs
    cases hs
    exact ep_err (hp rfl)
  · exact ep_bind (ep_unwrap _) (fun _ _ => ep_ok _)
theorem ep_push {P : Err → Prop} (st : ParseTree) (e : Element) : EP P (st.push e) := by
  unfold ParseTree.push
  split
  · exact ep_ok _
  · exact ep_bind (ep_unwrap _) (fun _ _ => ep_ok _)
theorem ep_pop {P : Err → Prop} {st : ParseTree} {ns : List Str} (h : Opened st ns) (hn : ns ≠ []) : EP P st.pop := by
  unfold ParseTree.pop
  have hs := h.stack
  split
  · rename_i hpos
    rw [hpos] at hs
    cases hs
    exact absurd rfl hn
  · exact ep_bind (ep_unwrap _) (fun _ _ => ep_ok _)
theorem ep_expect {α : Type} {P : Err → Prop} (r : R α) : EP P (expect r) := by
  cases r <;> intro e h <;> cases h
theorem ep_toDomLoop {P : Err → Prop} (n : Nat) (d : List (Nat × PTNode)) : EP P (ParseTree.toDomLoop n d) := by
  induction n generalizing d with
  | zero => exact ep_ok _
  | succ n ih =>
    unfold ParseTree.toDomLoop
    refine ep_bind (ep_unwrap _) (fun _ _ => ep_bind (ep_unwrap _) (fun _ _ => ep_bind (ep_unwrap _) (fun _ _ =>
      ep_bind (ep_expect _) (fun e _ => ep_bind ?_ (fun _ _ => ih _)))))
    rw [append_eq]
    exact ep_ok _

/-! ## start tags -/

theorem not_contains_eq {kv : Str} (h : (!contains kv c%"=") = true) : '=' ∉ kv := by
  intro hm
  have : contains kv c%"=" = true := contains_iff.2 ((List.singleton_infix_iff _ _).2 hm)
  rw [this] at h; cases h

theorem quoted_ends {k raw v : Str} {p : Str} (h : Quoted k raw p) (hp : p = k ++ '=' :: v) :
    ¬ blen v < 2 ∧ ((startsWith v c%"\"" && endsWith v c%"\"") || (startsWith v c%"'" && endsWith v c%"'")) = true := by
  obtain ⟨hk, q, hq, rfl⟩ := h
  have hv : v = q :: (raw ++ [q]) := by
    have : k ++ '=' :: ([q] ++ raw ++ [q]) = k ++ '=' :: v := by simpa using hp
    have := List.append_cancel_left this
    simp at this
    exact this.symm
  subst hv
  have hw : q.utf8Size = 1 := by rcases hq with rfl | rfl <;> decide
  constructor
  · simp [hw]; omega
  · simp only [Bool.or_eq_true, Bool.and_eq_true, startsWith_iff, endsWith_iff]
    rcases hq with rfl | rfl
    · exact .inl ⟨⟨_, rfl⟩, ⟨'"' :: raw, by simp⟩⟩
    · exact .inr ⟨⟨_, rfl⟩, ⟨'\'' :: raw, by simp⟩⟩

theorem ep_parseAttrs {o : List Str} {tag : Str} {x : Str} {pos : Nat} {n : Str} (l a : List Str) (m : SMap)
    (hP : Pieces tag n (a ++ l)) (hg : GoodPieces a) : EP (TagFault o tag (lineAndColumn x pos)) (parseAttrs x pos l m) := by
  induction l generalizing a m with
  | nil => exact ep_ok _
  | cons kv l ih =>
    unfold parseAttrs
    split
    · rename_i h
      exact ep_err (.form hP hg (not_contains_eq h))
    · refine ep_bind (ep_unwrap _) ?_
      rintro ⟨k, v⟩ hs
      obtain ⟨rfl, hk⟩ := splitOnce_eq_some.1 (unwrap_eq_ok.1 hs)
      simp only
      split
      · rename_i h0
        have : v = [] := blen_eq_zero.1 h0
        subst this
        exact ep_err (.noValue hP hg hk)
      · rename_i h0
        split
        · rename_i h1
          refine ep_err (.unquoted (k := k) (v := v) (by simpa using hP) hg hk (by rintro rfl; simp at h0) ?_)
          intro k' raw hq
          have hkk : k' = k := by
            obtain ⟨hk', q, hq, he⟩ := hq
            have h2 : splitOnce '=' (k ++ '=' :: v) = some (k, v) := splitOnce_eq_some.2 ⟨rfl, hk⟩
            have h3 : splitOnce '=' (k ++ '=' :: v) = some (k', [q] ++ raw ++ [q]) :=
              splitOnce_eq_some.2 ⟨by simpa using he, hk'⟩
            rw [h2] at h3
            simp at h3
            exact h3.1.symm
          subst hkk
          obtain ⟨g1, g2⟩ := quoted_ends hq (v := v) (by simp)
          rw [g2] at h1
          simp at h1
          omega
        · rename_i h1
          simp only [Bool.or_eq_true, decide_eq_true_eq, not_or] at h1
          obtain ⟨q, w, hq, hv, hsl⟩ := quoted_form h1.1 (by simpa only [Bool.not_eq_true', Bool.not_eq_false] using h1.2)
          rw [hsl]
          refine ep_bind (ep_ok _) (fun _ hw => ep_bind ep_unescape (fun u hu => ih (a ++ [k ++ '=' :: v]) _ (by simpa using hP) ?_))
          cases hw
          intro p hp
          rcases List.mem_append.1 hp with hp | hp
          · exact hg p hp
          · rw [List.mem_singleton.1 hp]
            exact ⟨k, _, ⟨hk, q, hq, by rw [hv]; simp⟩, u, unescape_ok_iff.1 hu⟩

theorem ep_new {P : Err → Prop} (name : Str) (attrs : SMap) (xmlns pfx : Option Str) (h1 : ¬ ApiName name → P (.invalidElementName name))
    (h2 : ∀ k, ApiName name → (attrs.get k).isSome → ¬ ApiName k → P (.invalidAttributeName k)) :
    EP P (ElementF.new name none (some attrs) xmlns pfx none) := by
  rw [new_plain]
  split
  · rename_i h
    exact ep_err (h1 (fun hn => by rw [validName_iff.2 hn] at h; cases h))
  · rename_i hv
    split
    · rename_i kv hf
      have h3 := List.find?_some hf
      have h4 := List.mem_of_find?_eq_some hf
      exact ep_err (h2 kv.1 (validName_iff.1 (by simpa using hv)) (lmap_get_isSome.2 ⟨kv.2, h4⟩) (fun hn => by rw [validName_iff.2 hn] at h3; cases h3))
    · exact ep_ok _

/-- the last piece with a given attribute name -/
theorem exists_last {k : Str} {l : List Str} (h : ∃ p ∈ l, ∃ raw, Quoted k raw p) : ∃ u p' v raw', l = u ++ p' :: v ∧
    Quoted k raw' p' ∧ ∀ p'' ∈ v, ∀ raw'', ¬ Quoted k raw'' p'' := by
  induction l with
  | nil => obtain ⟨p, hp, -⟩ := h; simp at hp
  | cons y l ih =>
    by_cases hl : ∃ p' ∈ l, ∃ raw', Quoted k raw' p'
    · obtain ⟨u, p2, v, raw2, rfl, h1, h2⟩ := ih hl
      exact ⟨y :: u, p2, v, raw2, rfl, h1, h2⟩
    · obtain ⟨p, hp, raw, hq⟩ := h
      rcases List.mem_cons.1 hp with rfl | hp
      · exact ⟨[], p, l, raw, rfl, hq, fun p'' h1 raw'' h2 => hl ⟨p'', h1, raw'', h2⟩⟩
      · exact absurd ⟨p, hp, raw, hq⟩ hl

theorem goodPieces_ok {b : Str} {pos : Nat} {l : List Str} {m m' : SMap} (h : parseAttrs b pos l m = .ok m') : GoodPieces l := by
  induction l generalizing m with
  | nil => intro p hp; simp at hp
  | cons kv l ih =>
    obtain ⟨k, u, hA, h2⟩ := parseAttrs_cons.1 h
    obtain ⟨raw, hq, hu⟩ := attrOf_quoted hA
    intro p hp
    rcases List.mem_cons.1 hp with rfl | hp
    · exact ⟨k, raw, hq, u, unescape_ok_iff.1 hu⟩
    · exact ih h2 p hp

theorem attrs_isSome {b : Str} {pos : Nat} {l : List Str} {m : SMap} (h : parseAttrs b pos l SMap.empty = .ok m) (k : Str) :
    (m.get k).isSome ↔ ∃ p ∈ l, ∃ raw, Quoted k raw p := by
  obtain ⟨-, h2, -, h4⟩ := parseAttrs_written h
  constructor
  · intro hk
    obtain ⟨v, hv⟩ := Option.isSome_iff_exists.1 hk
    rcases h2 k v hv with h | ⟨raw, p, hp, hq⟩
    · simp [SMap.get, SMap.empty, LMap.get] at h
    · exact ⟨p, hp, raw, hq⟩
  · intro hk
    obtain ⟨u, p', v, raw', h5, h6, h7⟩ := exists_last hk
    obtain ⟨w, hw, -⟩ := h4 u p' v _ raw' h5 h6 h7
    rw [hw]; rfl

theorem nameSplit_local {parent : Option Element} {attrs : SMap} {name n : Str} {x q : Option Str} (h : NameSplit parent attrs name n x q) :
    LocalPart name n := by
  cases h with
  | plain h => exact .inl ⟨h, rfl⟩
  | own h1 h2 h3 => exact .inr ⟨_, h2, h1⟩
  | inh h1 h2 h3 h4 => exact .inr ⟨_, h2, h1⟩

theorem prefix_unique {a b a' b' : Str} (h : a ++ ':' :: b = a' ++ ':' :: b') (h1 : ':' ∉ a) (h2 : ':' ∉ a') : a = a' ∧ b = b' := by
  have e1 := splitOnce_eq_some.2 ⟨h, h2⟩
  rw [splitOnce_eq_some.2 ⟨rfl, h1⟩] at e1
  simpa using e1

theorem localPart_unique {n l l' : Str} (h : LocalPart n l) (h' : LocalPart n l') : l = l' := by
  rcases h with ⟨h, rfl⟩ | ⟨p, h, rfl⟩ <;> rcases h' with ⟨h', e⟩ | ⟨p', h', e⟩
  · exact e.symm
  · exact absurd (by rw [e]; simp) h
  · exact absurd (by simp) h'
  · exact (prefix_unique e h h').2

theorem nameSplit_bound {parent : Option Element} {l : List Str} {attrs : SMap} {name n : Str} {x q : Option Str} {b : Str} {pos : Nat}
    (h : NameSplit parent attrs name n x q) (ha : parseAttrs b pos l SMap.empty = .ok attrs) {o : List Str} (ho : o = [] → parent = none) :
    Bound o name l := by
  intro a c hn hc h0
  cases h with
  | plain h => exact absurd (by rw [hn]; simp) h
  | own h1 h2 h3 =>
    obtain ⟨rfl, rfl⟩ := prefix_unique (hn.symm.trans h1) hc h2
    exact (attrs_isSome ha _).1 (by rw [h3]; rfl)
  | inh h1 h2 h3 h4 => rw [ho h0] at h4; cases h4

theorem newElem_fine {tag t : Str} (hi : Inner tag t) {parent : Option Element} {attrs : SMap} {n0 n : Str} {x q : Option Str}
    {e : Element} (h : NewElem t parent attrs n0 n x q e) {o : List Str} (ho : o = [] → parent = none) : TagFine o tag := by
  obtain ⟨comps, b, pos, h1, h2⟩ := h.attrs_ok
  refine ⟨n0, n, _, pieces_split hi h1, goodPieces_ok h2, nameSplit_bound h.name h2 ho, nameSplit_local h.name, validName_iff.1 h.valid, ?_⟩
  intro p hp k raw hq
  exact validName_iff.1 (h.attrs_valid k ((attrs_isSome h2 k).2 ⟨p, hp, raw, hq⟩))

theorem ep_parseNewElement {o : List Str} {tag t : Str} (hi : Inner tag t) (x : Str) (pos : Nat) (parent : Option Element)
    (ho : parent = none ↔ o = []) : EP (TagFault o tag (lineAndColumn x pos)) (parseNewElement t x pos parent) := by
  rw [parseNewElement_eq]
  have hw := words_split _ t (le_refl _)
  cases hq : quoteAwareSplit t with
  | nil =>
    rw [hq] at hw
    cases hw with
    | done h => exact ep_err (.blank hi h)
  | cons n0 comps =>
    rw [hq] at hw
    have hP : Pieces tag n0 (joinLoop comps) := pieces_split hi hq
    refine ep_bind (ep_parseAttrs _ [] _ hP (by intro p hp; simp at hp)) (fun attrs hattrs => ep_bind ?_ (fun nxq hn => ep_bind ?_ (fun _ _ => ep_ok _)))
    · unfold nameSplit
      split
      · refine ep_bind (ep_unwrap _) ?_
        rintro ⟨a, b⟩ hs
        obtain ⟨rfl, ha⟩ := splitOnce_eq_some.1 (unwrap_eq_ok.1 hs)
        simp only
        split
        · exact ep_ok _
        · rename_i hk
          split
          · rename_i hpar
            have hpar : parent = none := by simpa using hpar
            refine ep_err (.pfx hP (goodPieces_ok hattrs) ?_ rfl ha)
            intro hb
            exact hk ((attrs_isSome hattrs _).2 (hb a b rfl ha (ho.1 hpar)))
          · exact ep_ok _
      · exact ep_ok _
    · obtain ⟨n, y, q⟩ := nxq
      have hns := nameSplit_ok.1 hn
      have hb : Bound o n0 (joinLoop comps) := nameSplit_bound hns hattrs ho.2
      refine ep_new _ _ _ _ (fun hbad => .name hP (goodPieces_ok hattrs) hb (nameSplit_local hns) hbad) ?_
      intro k hn hk hbad
      obtain ⟨p, hp, raw, hqd⟩ := (attrs_isSome hattrs k).1 hk
      exact .attrName hP (goodPieces_ok hattrs) hb (nameSplit_local hns) hn hp hqd hbad

/-! ## tags after the root tag -/

theorem tagAt_angled {s tag : Str} (h : TagAt s tag) : Angled tag := by
  obtain ⟨r, hr⟩ := tagAt_prefix h
  have h1 : Lexes (tag ++ r) [([], tag)] r ∨ True := .inr trivial
  clear h1
  cases h with
  | @comment a h1 h2 =>
    obtain ⟨u, rfl⟩ := h1
    obtain ⟨v, hv⟩ := h2.here
    cases a with
    | nil => simp at hv
    | cons c a => simp at hv; exact ⟨a ++ c%"--", by simp [hv.1]⟩
  | @cdata a h1 h2 =>
    obtain ⟨u, rfl⟩ := h1
    obtain ⟨v, hv⟩ := h2.here
    cases a with
    | nil => simp at hv
    | cons c a => simp at hv; exact ⟨a ++ c%"]]", by simp [hv.1]⟩
  | @pi a u => exact ⟨'?' :: a ++ c%"?", by simp⟩
  | @decl a u => exact ⟨'!' :: a, by simp⟩
  | @elem a u => exact ⟨a, by simp⟩

/-- the comment in a tag ends at its first `-->` -/
theorem comment_body {s tag m : Str} (h : TagAt s tag) (hm : tag = c%"<!--" ++ m ++ c%"-->") : ¬ c%"-->" <:+: m := by
  rintro ⟨u, v, rfl⟩
  have hs : c%"<!--" <+: s := List.IsPrefix.trans ⟨u ++ c%"-->" ++ v ++ c%"-->", by rw [hm]; simp⟩ (tagAt_prefix h)
  have key : ∀ a, FirstAt c%"-->" a s → tag = a ++ c%"-->" → False := by
    intro a ha ht
    have h1 := ha.first (c%"<!--" ++ u) (List.IsPrefix.trans ⟨v ++ c%"-->", by rw [hm]; simp⟩ (tagAt_prefix h))
    have h2 := congrArg List.length (ht.symm.trans hm)
    simp at h1 h2
    omega
  cases h with
  | comment h1 h2 => exact key _ h2 rfl
  | cdata h1 h2 =>
    obtain ⟨u', rfl⟩ := hs
    obtain ⟨v', hv'⟩ := h1
    simp at hv'
  | pi hu _ => obtain ⟨u', rfl⟩ := hs; simp at hu
  | decl hu h1 => exact absurd hs h1
  | elem hu h1 => obtain ⟨u', rfl⟩ := hs; simp at hu; subst hu; exact absurd ⟨_, rfl⟩ h1

/-- a CDATA section ends at its first `]]>` -/
theorem cdata_body {s tag : Str} (h : TagAt s tag) (ht : c%"<![CDATA[" <+: tag) :
    ∃ m, tag = c%"<![CDATA[" ++ m ++ c%"]]>" ∧ ¬ c%"]]>" <:+: m := by
  have hs := ht.trans (tagAt_prefix h)
  cases h with
  | @cdata a h1 h2 =>
    have he : c%"]]>" <:+ a ++ c%"]]>" := ⟨a, rfl⟩
    obtain ⟨m, hm⟩ := prefix_suffix_head ht he (by decide)
    refine ⟨m, hm, ?_⟩
    rintro ⟨u, v, rfl⟩
    have h3 := h2.first (c%"<![CDATA[" ++ u) (List.IsPrefix.trans ⟨v ++ c%"]]>", by rw [hm]; simp⟩ h2.here)
    have h4 := congrArg List.length hm
    simp at h3 h4
    omega
  | comment h1 h2 =>
    obtain ⟨u', rfl⟩ := hs
    obtain ⟨v', hv'⟩ := h1
    simp at hv'
  | pi hu _ => obtain ⟨u', rfl⟩ := hs; simp at hu
  | decl hu h1 h2 => exact absurd hs h2
  | elem hu h1 => obtain ⟨u', rfl⟩ := hs; simp at hu; subst hu; exact absurd ⟨_, rfl⟩ h1

theorem comment_ends {s tag : Str} (h : TagAt s tag) (ht : c%"<!--" <+: tag) : c%"-->" <:+ tag := by
  have hs := ht.trans (tagAt_prefix h)
  cases h with
  | comment h1 h2 => exact ⟨_, rfl⟩
  | cdata h1 h2 =>
    obtain ⟨u', rfl⟩ := hs
    obtain ⟨v', hv'⟩ := h1
    simp at hv'
  | pi hu _ => obtain ⟨u', rfl⟩ := hs; simp at hu
  | decl hu h1 => exact absurd hs h1
  | elem hu h1 => obtain ⟨u', rfl⟩ := hs; simp at hu; subst hu; exact absurd ⟨_, rfl⟩ h1

theorem ep_handleTag {st : ParseTree} {o : List Str} {tag s : Str} (hst : Opened st o) (hT : TagAt s tag) (x : Str) (pos : Nat) :
    EP (InnerFault o tag (lineAndColumn x pos)) (handleTag x pos tag st) := by
  unfold handleTag
  split
  · rename_i hc
    simp only [Bool.and_eq_true, startsWith_iff, endsWith_iff] at hc
    have hk : kind tag = .mark := kind_mark (List.IsPrefix.trans (by decide) hc.1)
    simp only
    split
    · rename_i hlt
      refine ep_bind (ep_unwrap _) (fun body hb => ?_)
      have hform : tag = c%"<!--" ++ body ++ c%"-->" := by
        obtain ⟨a, b, e1, e2, e3⟩ := sliceB_eq_some.1 (unwrap_eq_ok.1 hb)
        obtain ⟨u, hu⟩ := hc.1
        obtain ⟨v, hv⟩ := hc.2
        have ha : a = c%"<!--" ∧ body ++ b = u := by
          apply append_inj_blen (by rw [hu, e1]; simp)
          rw [e2]; rfl
        have hlen := congrArg blen hv
        have hlen2 := congrArg blen e1
        simp only [blen_append] at hlen hlen2
        have hb3 : blen b = blen c%"-->" := by
          have h7 : blen c%"-->" = 3 := rfl
          omega
        have hv' : v ++ c%"-->" = (a ++ body) ++ b := by rw [hv, e1]
        have hbb : b = c%"-->" := (append_inj_blen hv' (by simp only [blen_append]; omega)).2.symm
        rw [e1, ha.1, hbb]
      refine ep_bind ?_ (fun c _ => ep_mapErr (ep_append hst (fun h => .outside h (.inl ⟨hc.1, ?_⟩))))
      rotate_left
      · have hl := congrArg blen hform
        simp only [blen_append] at hl
        have h7 : blen c%"-->" = 3 := rfl
        have h8 : blen c%"<!--" = 4 := rfl
        have h9 : body ≠ [] := by rintro rfl; simp only [blen_nil] at hl; omega
        have h10 := List.length_pos_of_ne_nil h9
        rw [hform]
        simp
        omega
      unfold commentNew
      split
      · rename_i hcont
        exact absurd (contains_iff.1 hcont) (comment_body hT hform)
      · exact ep_ok _
    · split
      · rename_i hlt heq
        refine ep_bind (ep_ok _) (fun c _ => ep_append hst (fun h => .outside0 h ?_))
        obtain ⟨u, hu⟩ := hc.1
        obtain ⟨v, hv⟩ := hc.2
        have hlen := congrArg blen hv
        simp only [blen_append] at hlen
        have h7 : blen c%"-->" = 3 := rfl
        have h8 : blen c%"<!--" = 4 := rfl
        have := append_inj_blen (hv.trans hu.symm) (by omega)
        rw [← hv, this.1]; rfl
      · rename_i h1 h2
        refine ep_err (.comment hc.1 ?_)
        have := length_le_blen tag
        omega
  · rename_i hnc
    have hnc : ¬ c%"<!--" <+: tag := by
      intro h
      simp only [Bool.and_eq_true, startsWith_iff, endsWith_iff, not_and] at hnc
      exact hnc h (comment_ends hT h)
    split
    · rename_i hcd
      have hcd := startsWith_iff.1 hcd
      obtain ⟨m, hm, hno⟩ := cdata_body hT hcd
      have hk : kind tag = .mark := kind_mark (List.IsPrefix.trans (by decide) hcd)
      split
      · rename_i he
        rw [endsWith_iff.2 ⟨c%"<![CDATA[" ++ m, hm.symm⟩] at he
        cases he
      · have hsl : sliceB 9 (blen tag - 3) tag = some m :=
          sliceB_eq_some.2 ⟨c%"<![CDATA[", c%"]]>", hm, rfl, by
            have h7 : blen c%"]]>" = 3 := rfl
            have h8 : blen c%"<![CDATA[" = 9 := rfl
            rw [hm]; simp only [blen_append]; omega⟩
        rw [hsl]
        refine ep_bind (ep_ok _) (fun a ha => ep_bind ?_ (fun c _ => ep_mapErr (ep_append hst (fun h => .outside h (.inr hcd)))))
        cases ha
        unfold cdataNew
        split
        · rename_i hcont
          exact absurd (contains_iff.1 hcont) hno
        · exact ep_ok _
    · rename_i hncd
      have hncd := not_true_prefix hncd
      split
      · rename_i hb
        exact ep_bind (ep_unwrap _) (fun _ ha => ep_err (.unsupported (startsWith_iff.1 hb) hnc hncd (abbreviate_some.1 (unwrap_eq_ok.1 ha))))
      · rename_i hb
        have hb := not_true_prefix hb
        refine ep_bind (ep_unwrap _) (fun t ht => ep_bind (ep_mapErr ?_) (fun _ hre => ?_))
        · unfold checkElementTag
          split
          · exact ep_ok _
          · rename_i hre
            exact ep_err (.syntax hb (badTag_iff.2 (by simpa using hre)))
        · have hi : Inner tag t := inner_iff.2 ⟨unwrap_eq_ok.1 ht, tagAt_angled hT⟩
          have hgood : ¬ BadTag tag := by
            intro hbad
            have h := checkElementTag_ok.1 (mapErr_eq_ok.1 hre)
            rw [badTag_iff.1 hbad] at h
            cases h
          split
          · rename_i hcl
            have hkc := kind_close (startsWith_iff.1 hcl)
            rcases opened_top hst with ⟨h1, h2⟩ | ⟨e, ns', h1, h2⟩
            · rw [h2]
              exact ep_err (.closed h1 hkc hgood)
            · rw [h2]
              simp only [Res.bind_ok]
              split
              · rename_i hne
                exact ep_err (.mismatch h1 hkc hgood hi hne)
              · exact ep_pop hst (by rw [h1]; simp)
          · rename_i hcl
            have hcl := not_true_prefix hcl
            have hop : Opening tag := by
              unfold Opening kind
              rw [if_neg hb, if_neg hcl]
              by_cases h : c%"/>" <:+ tag
              · exact .inr (by rw [if_pos h])
              · exact .inl (by rw [if_neg h])
            have hrest : ∀ parent, (parent = none ↔ o = []) → EP (InnerFault o tag (lineAndColumn x pos)) (parseNewElement t x pos parent >>= fun e =>
                (if endsWith tag c%"/>" then (st.append (.element e)).mapErr (rewrap x pos) else st.push e)) := by
              intro parent ho
              refine ep_bind (fun e he => .elem hop hgood (ep_parseNewElement hi x pos parent ho e he)) (fun e hel => ?_)
              split
              · rename_i he
                refine ep_mapErr (ep_append hst (fun h => .element h ?_ hgood ?_))
                · unfold kind
                  rw [if_neg hb, if_neg hcl, if_pos (endsWith_iff.1 he)]
                · obtain ⟨attrs, n0, n, y, q, hN⟩ := parseNewElement_ok hel
                  exact newElem_fine hi hN ho.2
              · exact ep_push _ _
            rcases opened_top hst with ⟨h1, h2⟩ | ⟨e, ns', h1, h2⟩
            · rw [h2]
              exact ep_bind (ep_ok _) (fun p hp => by cases hp; exact hrest none (by simp [h1]))
            · rw [h2]
              exact ep_bind (ep_ok _) (fun p hp => by cases hp; exact hrest (some e) (by simp [h1]))

/-! ## positions -/

theorem located {x a b : Str} {c : Char} (h : x = a ++ c :: b) (hc : c ≠ '\n') : Located a (lineAndColumn x (blen a)) := by
  obtain ⟨u, v, huv, hu, hv⟩ := lastLine_exists a
  refine ⟨u, v, huv, hu, hv, ?_⟩
  rw [h, lineAndColumn_eq a c b hc, huv, lastLine_split u v hu hv, List.count_append, List.count_eq_zero.2 hv, Nat.add_zero]

theorem lineColLoop_nl (pos i line col : Nat) (a b : Str) (hi : i + blen a = pos) :
    lineColLoop pos i line col (a ++ '\n' :: b) = (line + a.count '\n' + 1, 1) := by
  induction a generalizing i line col with
  | nil =>
    simp only [List.nil_append, lineColLoop, if_true]
    rw [if_pos (by simp at hi; omega)]
    simp
  | cons d a ih =>
    have hd : 0 < d.utf8Size := Char.utf8Size_pos d
    simp only [blen_cons] at hi
    rw [List.cons_append, lineColLoop]
    by_cases hn : d = '\n'
    · subst hn
      simp only [if_true]
      rw [if_neg (by omega), ih _ _ _ (by omega)]
      simp; omega
    · simp only [if_neg hn]
      rw [if_neg (by omega), ih _ _ _ (by omega), List.count_cons_of_ne (by simpa using hn)]

theorem locatedText {x a t b : Str} (h : x = a ++ (t ++ b)) (ht : t ≠ []) : LocatedText a t (lineAndColumn x (blen a)) := by
  cases t with
  | nil => exact absurd rfl ht
  | cons c t =>
    by_cases hc : c = '\n'
    · subst hc
      refine .inr ⟨⟨t, rfl⟩, ?_⟩
      have := lineColLoop_nl (blen a) 0 1 1 a (t ++ b) (by simp)
      rw [h]
      unfold lineAndColumn
      rw [List.cons_append, this]
      simp; omega
    · refine .inl ⟨?_, located (b := t ++ b) h hc⟩
      rintro ⟨u, hu⟩
      simp at hu
      exact hc hu.1.symm

/-! ## one tag of the prolog -/

theorem lexesTo_src {x r : Str} {toks : List (Str × Str)} (h : LexesTo x toks r) : x = srcOf toks ++ r := by
  induction h with
  | done => rfl
  | tag h1 h2 h3 _ ih => rw [h3, ih]; simp [srcOf]

theorem opened_addText {st st' : ParseTree} {o : List Str} {x : Str} {pos : Nat} {text : Str} (h : Opened st o)
    (ha : addText x pos text st = .ok st') : Opened st' o := by
  rcases addText_ok ha with ⟨-, rfl⟩ | ⟨-, t, -, h2⟩
  · exact h
  · exact (opened_append h h2).1

/-- one tag of the prolog -/
theorem ep_prologTag {x : Str} {pre : List (Str × Str)} {text tag s : Str} {pos : Nat} (hx : LexesTo x pre (text ++ s))
    (h2 : c%"<" <+: s) (ht : TagAt s tag) (hpos : pos = blen (srcOf pre)) (st : Prolog)
    (hst : ¬ Late pre → st.tagSpan.1 = 0) :
    EP (Fault pre [] text s) (prologTag x pos text tag st) ∧
    ∀ st' b, prologTag x pos text tag st = .ok (st', b) → st'.tagSpan = (pos + blen text, pos + blen text + blen tag) ∧
      if b then ¬ IsProlog tag ∧ ¬ c%"</" <+: tag else IsProlog tag := by
  have hloc : Located (srcOf pre ++ text) (lineAndColumn x (pos + blen text)) := by
    obtain ⟨u, hu⟩ := h2
    have := located (x := x) (a := srcOf pre ++ text) (b := u) (c := '<') (by rw [lexesTo_src hx, ← hu]; simp) (by decide)
    rwa [hpos, ← blen_append]
  refine ⟨?_, fun st' b h => ⟨prologTag_span h, ?_⟩⟩
  · unfold prologTag
    refine ep_bind ep_realText ?_
    intro ot hot
    simp only
    split
    · rename_i hsome
      have hws : ¬ AllWs text := by
        intro hall
        rw [realText_ws hall] at hot
        cases hot
        cases hsome
      refine ep_err (.text rfl ht hws ?_ ?_)
      · rw [realText_not_ws hws] at hot
        obtain ⟨u, hu, -⟩ := bind_eq_ok.1 hot
        exact ⟨u, unescape_ok_iff.1 hu⟩
      · rw [hpos]
        refine locatedText (by rw [← lexesTo_src hx]) ?_
        rintro rfl
        simp [realText] at hot
        subst hot; cases hsome
    · rename_i hnone
      have hws : AllWs text := by
        by_contra hws
        rw [realText_not_ws hws] at hot
        obtain ⟨u, -, hot⟩ := bind_eq_ok.1 hot
        cases hot
        simp at hnone
      split
      · rename_i hd
        split
        · rename_i hne
          exact ep_err (.decl rfl ht hws (startsWith_iff.1 hd) (by by_contra h; exact hne (hst h)) hloc)
        · obtain ⟨m, rfl⟩ := tagAt_pi_form ht (List.IsPrefix.trans (by decide) (startsWith_iff.1 hd))
          rw [fromStr_tag]
          exact ep_bind (ep_ok _) (fun _ _ => ep_ok _)
      · split
        · refine ep_bind ?_ (fun _ _ => ep_ok _)
          split
          · exact ep_unwrap _
          · exact ep_ok _
        · split
          · rename_i hd
            obtain ⟨m, rfl⟩ := tagAt_doctype_form ht (startsWith_iff.1 hd)
            rw [dtd_tag]
            exact ep_bind (ep_ok _) (fun _ _ => ep_ok _)
          · split
            · exact ep_ok _
            · split
              · rename_i hcl
                exact ep_err (.closing rfl ht hws (startsWith_iff.1 hcl) hloc)
              · rename_i hn1 _ _ hn2 hcl
                refine ep_bind (ep_mapErr ?_) (fun _ _ => ep_ok _)
                unfold checkElementTag
                split
                · exact ep_ok _
                · rename_i hre
                  refine ep_err (.notTag rfl ht hws ?_ (not_true_prefix hcl) (badTag_iff.2 (by simpa using hre)) hloc)
                  rintro (h | h)
                  · exact hn1 (startsWith_iff.2 h)
                  · exact hn2 (startsWith_iff.2 h)
  · unfold prologTag at h
    obtain ⟨ot, -, h⟩ := bind_eq_ok.1 h
    simp only at h
    split at h
    · cases h
    · split at h
      · rename_i hd
        split at h
        · cases h
        · obtain ⟨d, -, h⟩ := bind_eq_ok.1 h
          cases h
          exact .inl (startsWith_iff.1 hd)
      · rename_i hd
        split at h
        · rename_i hc
          obtain ⟨d, -, h⟩ := bind_eq_ok.1 h
          cases h
          exact .inr (List.IsPrefix.trans (by decide) (startsWith_iff.1 hc))
        · split at h
          · rename_i hc
            obtain ⟨d, -, h⟩ := bind_eq_ok.1 h
            cases h
            exact .inr (List.IsPrefix.trans (by decide) (startsWith_iff.1 hc))
          · split at h
            · rename_i hc
              cases h
              exact .inr (startsWith_iff.1 hc)
            · rename_i hb
              split at h
              · cases h
              · rename_i hcl
                obtain ⟨d, -, h⟩ := bind_eq_ok.1 h
                cases h
                refine ⟨?_, not_true_prefix hcl⟩
                rintro (h | h)
                · exact hd (startsWith_iff.2 h)
                · exact hb (startsWith_iff.2 h)

/-- whether a result is a given error can be decided -/
instance decEqErr {α : Type} (r : R α) (e : Err) : Decidable (r = .err e) :=
  match r with
  | .err e' => if h : e' = e then isTrue (h ▸ rfl) else isFalse (fun h' => h (by cases h'; rfl))
  | .ok _ => isFalse nofun
  | .panic => isFalse nofun
  | .diverge => isFalse nofun

end KissXml
