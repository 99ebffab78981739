import Verif.Proofs.Nest
import Verif.Proofs.UnescapeExact
/-!
# Around the root: prolog, and what follows
-/
namespace KissXml
open Spec

/-! ## tokens -/

theorem lex_lexes {pos : Nat} {x : Str} {toks : List (Str × Str)} (h : Lex pos x toks none) : ∃ tail, Lexes x toks tail := by
  generalize he : (none : Option Nat) = e at h
  induction h with
  | done h => exact ⟨_, .done h⟩
  | fail => cases he
  | tag h1 _ ht hs _ ih =>
    obtain ⟨tail, hl⟩ := ih he
    exact ⟨tail, .tag h1 ht hs hl⟩

theorem tagAt_lt {s t : Str} (h : TagAt s t) : c%"<" <+: s := by
  cases h with
  | comment h _ => exact List.IsPrefix.trans (by decide) h
  | pi h _ => exact ⟨_, h.symm⟩
  | cdata h _ => exact List.IsPrefix.trans (by decide) h
  | decl h _ _ _ => exact ⟨_, h.symm⟩
  | elem h _ _ _ => exact ⟨_, h.symm⟩

theorem lexes_lex {x tail : Str} {toks : List (Str × Str)} (h : Lexes x toks tail) (pos : Nat) : Lex pos x toks none := by
  induction h generalizing pos with
  | done h => exact .done h
  | tag h1 ht hs _ ih => exact .tag h1 (tagAt_lt ht) ht hs (ih _)

theorem prefix_shorter {a b s g : Str} (h1 : a <+: s ++ g) (h2 : b <+: s) (hl : a.length ≤ b.length) : a <+: s := by
  have : a <+: b := List.prefix_of_prefix_length_le h1 (h2.trans (List.prefix_append s g)) hl
  exact this.trans h2

theorem firstAt_append {pat a s : Str} (g : Str) (h : FirstAt pat a s) : FirstAt pat a (s ++ g) := by
  refine ⟨h.here.trans (List.prefix_append ..), fun a' ha' => ?_⟩
  by_cases hl : a.length ≤ a'.length
  · exact hl
  · exact h.first a' (prefix_shorter ha' h.here (by simp; omega))

theorem firstUnquoted_append {q : Option Char} {pat a s : Str} (g : Str) (h : FirstUnquoted q pat a s) :
    FirstUnquoted q pat a (s ++ g) := by
  refine ⟨h.here.trans (List.prefix_append ..), h.outside, fun a' ha' hq => ?_⟩
  by_cases hl : a.length ≤ a'.length
  · exact hl
  · exact h.first a' (prefix_shorter ha' h.here (by simp; omega)) hq

theorem firstClosing_append {a s : Str} (g : Str) (h : FirstClosing a s) : FirstClosing a (s ++ g) :=
  ⟨h.here.trans (List.prefix_append ..), h.outside, h.balanced, fun a' ha' hq hl =>
    h.first a' (prefix_shorter ha' h.here (by simp; omega)) hq hl⟩

theorem no_new_prefix {p t s g : Str} (hp : '>' ∉ p) (ht : t ++ c%">" <+: s) (h : ¬ p <+: s) : ¬ p <+: s ++ g := by
  intro hps
  by_cases hl : p.length ≤ (t ++ c%">").length
  · exact h (prefix_shorter hps ht hl)
  · have : t ++ c%">" <+: p := List.prefix_of_prefix_length_le (ht.trans (List.prefix_append s g)) hps (by omega)
    obtain ⟨u, rfl⟩ := this
    simp at hp

theorem tagAt_append {s t : Str} (g : Str) (h : TagAt s t) : TagAt (s ++ g) t := by
  cases h with
  | comment h1 h2 => exact .comment (h1.trans (List.prefix_append ..)) (firstAt_append g h2)
  | pi h1 h2 => subst h1; exact .pi (List.append_assoc _ _ _) (firstUnquoted_append g h2)
  | cdata h1 h2 => exact .cdata (h1.trans (List.prefix_append ..)) (firstAt_append g h2)
  | @decl a u h1 h2 h3 h4 =>
    subst h1
    have ht : (c%"<!" ++ a) ++ c%">" <+: c%"<!" ++ u := by
      rw [List.append_assoc]; exact (List.prefix_append_right_inj _).2 h4.here
    exact .decl (List.append_assoc _ _ _) (no_new_prefix (by decide) ht h2) (no_new_prefix (by decide) ht h3)
      (firstClosing_append g h4)
  | @elem a u h1 h2 h3 h4 =>
    subst h1
    exact .elem (List.append_assoc _ _ _) (no_new_prefix (by decide) h4.here h2) (no_new_prefix (by decide) h4.here h3)
      (firstUnquoted_append g h4)

theorem lex_trailing {pos : Nat} {x g : Str} {toks : List (Str × Str)} (h : Lex pos x toks none) (hg : '<' ∉ g) :
    Lex pos (x ++ g) toks none := by
  generalize he : (none : Option Nat) = e at h
  induction h with
  | done h => exact .done (by simp [h, hg])
  | fail => cases he
  | @tag pos text tag rest s toks e h1 h2 ht hs _ ih =>
    subst hs
    rw [List.append_assoc]
    exact .tag h1 (h2.trans (List.prefix_append ..)) (tagAt_append g ht) (List.append_assoc _ _ _) (ih he)

/-! ## prolog -/

/-- the facts about a prolog -/
structure ProFacts (pos prev : Nat) (d : Option Declaration) (ds : List DTD) (toks : List (Str × Str)) (D : Option Declaration)
    (DS : List DTD) (tag : Str) (rest pre : List (Str × Str)) (text : Str) : Prop where
  split : toks = pre ++ (text, tag) :: rest
  prolog : ∀ t ∈ pre, IsProlog t.2 ∧ ∀ c ∈ t.1, isWs c = true
  blank : ∀ c ∈ text, isWs c = true
  root : ¬ IsProlog tag
  decl : D.map Declaration.display = ((tagsOf pre).filter (fun t => c%"<?xml".isPrefixOf t)).getLast?.or (d.map Declaration.display)
  dtds : DS.map (fun m => c%"<!DOCTYPE" ++ m.dtdStr ++ c%">") =
    ds.map (fun m => c%"<!DOCTYPE" ++ m.dtdStr ++ c%">") ++ (tagsOf pre).filter (fun t => c%"<!DOCTYPE".isPrefixOf t)
  order : ∀ a tx t b, pre = a ++ (tx, t) :: b → c%"<?xml" <+: t → (a = [] ∧ prev = 0) ∨ ∃ l, a = [l] ∧ pos + blen l.1 = 0

theorem proFacts_cons {pos prev : Nat} {d d' : Option Declaration} {ds ds' : List DTD} {toks : List (Str × Str)}
    {D : Option Declaration} {DS : List DTD} {tag : Str} {rest pre : List (Str × Str)} {text tx t : Str}
    (h : ProFacts (pos + blen tx + blen t) (pos + blen tx) d' ds' toks D DS tag rest pre text)
    (hp : IsProlog t) (hw : tx.all isWs = true) (h1 : c%"<?xml" <+: t → prev = 0)
    (h2 : d'.map Declaration.display = if c%"<?xml" <+: t then some t else d.map Declaration.display)
    (h3 : ds'.map (fun m => c%"<!DOCTYPE" ++ m.dtdStr ++ c%">") = ds.map (fun m => c%"<!DOCTYPE" ++ m.dtdStr ++ c%">") ++
      if c%"<!DOCTYPE" <+: t then [t] else []) :
    ProFacts pos prev d ds ((tx, t) :: toks) D DS tag rest ((tx, t) :: pre) text := by
  refine ⟨by rw [h.split]; rfl, ?_, h.blank, h.root, ?_, ?_, ?_⟩
  · intro t' ht'
    rcases List.mem_cons.1 ht' with rfl | ht'
    · exact ⟨hp, all_iff.1 hw⟩
    · exact h.prolog t' ht'
  · rw [h.decl, h2]
    simp only [tagsOf, List.map_cons]
    rw [List.filter_cons]
    by_cases hx : c%"<?xml" <+: t
    · rw [if_pos hx, if_pos (List.isPrefixOf_iff_prefix.2 hx)]
      rw [List.getLast?_cons]
      cases ((List.map Prod.snd pre).filter (fun t => c%"<?xml".isPrefixOf t)).getLast? <;> simp
    · rw [if_neg hx, if_neg (by rwa [List.isPrefixOf_iff_prefix])]
  · rw [h.dtds, h3]
    simp only [tagsOf, List.map_cons]
    rw [List.filter_cons]
    by_cases hx : c%"<!DOCTYPE" <+: t
    · rw [if_pos hx, if_pos (List.isPrefixOf_iff_prefix.2 hx)]; simp
    · rw [if_neg hx, if_neg (by rwa [List.isPrefixOf_iff_prefix])]; simp
  · intro a tx' t' b hab hx
    cases a with
    | nil =>
      simp only [List.nil_append, List.cons.injEq, Prod.mk.injEq] at hab
      obtain ⟨⟨rfl, rfl⟩, -⟩ := hab
      exact .inl ⟨rfl, h1 hx⟩
    | cons l a =>
      simp only [List.cons_append, List.cons.injEq] at hab
      obtain ⟨rfl, hab⟩ := hab
      rcases h.order a tx' t' b hab hx with ⟨rfl, h0⟩ | ⟨l, rfl, h0⟩
      · exact .inr ⟨_, rfl, h0⟩
      · have : 0 < blen t := by
          rcases hp with ⟨u, rfl⟩ | ⟨u, rfl⟩ <;> rw [blen_append] <;> exact Nat.lt_of_lt_of_le (by decide) (Nat.le_add_right _ _)
        omega

theorem pro_split {pos prev : Nat} {w : Bool} {d : Option Declaration} {ds : List DTD} {toks : List (Str × Str)}
    {D : Option Declaration} {DS : List DTD} {tag : Str} {rest : List (Str × Str)}
    (h : Pro pos prev w d ds toks D DS tag rest) : ∃ pre text, ProFacts pos prev d ds toks D DS tag rest pre text := by
  induction h with
  | root hw h1 h2 => exact ⟨[], _, rfl, by simp, all_iff.1 hw, fun h => h.elim h1 h2, by simp, by simp, by simp⟩
  | @decl pos w d ds text m _ _ _ _ _ hw hm _ ih =>
    obtain ⟨pre, tx, ih⟩ := ih
    have hx : c%"<?xml" <+: c%"<?" ++ m ++ c%"?>" := by
      obtain ⟨u, rfl⟩ := hm
      exact ⟨u ++ c%"?>", by simp⟩
    refine ⟨_, _, proFacts_cons ih (.inl hx) hw (fun _ => rfl) ?_ ?_⟩
    · rw [if_pos hx]; rfl
    · rw [if_neg (by rintro ⟨u, hu⟩; simp at hu)]; simp
  | @comment _ _ _ _ _ _ tag _ _ _ _ _ hw hc _ _ ih =>
    obtain ⟨pre, tx, ih⟩ := ih
    obtain ⟨u, rfl⟩ := hc
    have hx : ¬ c%"<?xml" <+: c%"<!--" ++ u := by rintro ⟨u, hu⟩; simp at hu
    refine ⟨_, _, proFacts_cons ih (.inr ⟨c%"--" ++ u, rfl⟩) hw (fun h => absurd h hx) ?_ ?_⟩
    · rw [if_neg hx]
    · rw [if_neg (by rintro ⟨u, hu⟩; simp at hu)]; simp
  | @doctype pos prev w d ds text m _ _ _ _ _ hw _ ih =>
    obtain ⟨pre, tx, ih⟩ := ih
    have hx : ¬ c%"<?xml" <+: c%"<!DOCTYPE" ++ m ++ c%">" := by rintro ⟨u, hu⟩; simp at hu
    have hy : c%"<!DOCTYPE" <+: c%"<!DOCTYPE" ++ m ++ c%">" := ⟨m ++ c%">", by simp⟩
    refine ⟨_, _, proFacts_cons ih (.inr (List.IsPrefix.trans (by decide) hy)) hw (fun h => absurd h hx) ?_ ?_⟩
    · rw [if_neg hx]
    · rw [if_pos hy]; simp
  | @other _ _ _ _ _ _ tag _ _ _ _ _ hw hc h1 h2 _ ih =>
    obtain ⟨pre, tx, ih⟩ := ih
    have hx : ¬ c%"<?xml" <+: tag := by obtain ⟨u, rfl⟩ := hc; rintro ⟨u, hu⟩; simp at hu
    refine ⟨_, _, proFacts_cons ih (.inr hc) hw (fun h => absurd h hx) ?_ ?_⟩
    · rw [if_neg hx]
    · rw [if_neg h2]; simp

/-! ## depth -/

theorem append_split {α : Type} {a b c d : List α} {x : α} (h : a ++ x :: b = c ++ d) :
    (∃ c', c = a ++ x :: c' ∧ b = c' ++ d) ∨ ∃ a', a = c ++ a' ∧ d = a' ++ x :: b := by
  rcases List.append_eq_append_iff.1 h with ⟨u, rfl, h2⟩ | ⟨u, rfl, h2⟩
  · cases u with
    | nil => exact .inr ⟨[], by simp, by simpa using h2.symm⟩
    | cons y u =>
      simp only [List.cons_append, List.cons.injEq] at h2
      obtain ⟨rfl, rfl⟩ := h2
      exact .inl ⟨u, by simp, rfl⟩
  · exact .inr ⟨u, rfl, h2⟩

theorem delta_start {t : Str} (h : kind t = .start) : delta t = 1 := by rw [delta, h]
theorem depth_cons (t : Str) (l : List Str) : depth (t :: l) = delta t + depth l := by simp [depth]
theorem depth_append (a b : List Str) : depth (a ++ b) = depth a + depth b := by simp [depth]

theorem body_prefix {e : Element} {toks : List (Str × Str)} {f : Forest} (h : Body e toks f) :
    ∀ (a b : List (Str × Str)) (t : Str × Str), toks = a ++ t :: b → 0 ≤ depth (tagsOf a) := by
  have key : ∀ {tt : Str × Str} {toks : List (Str × Str)}, 0 ≤ delta tt.2 →
      (∀ (a b : List (Str × Str)) (t : Str × Str), toks = a ++ t :: b → 0 ≤ depth (tagsOf a)) →
      ∀ (a b : List (Str × Str)) (t : Str × Str), tt :: toks = a ++ t :: b → 0 ≤ depth (tagsOf a) := by
    intro tt toks h0 ih a b t hab
    cases a with
    | nil => exact Int.le_refl _
    | cons l a =>
      simp only [List.cons_append, List.cons.injEq] at hab
      obtain ⟨rfl, hab⟩ := hab
      have := ih a b t hab
      rw [tagsOf, List.map_cons, depth_cons]
      exact Int.add_nonneg h0 this
  induction h with
  | close _ _ =>
    intro a b t hab
    cases a with
    | nil => exact Int.le_refl _
    | cons l a => simp at hab
  | comment _ _ _ ih =>
    refine key ?_ ih
    simp only
    rw [delta, kind_mark (List.IsPrefix.trans (by decide) ⟨_, List.append_assoc _ _ _ |>.symm⟩)]
  | cdata _ _ _ ih =>
    refine key ?_ ih
    simp only
    rw [delta, kind_mark (List.IsPrefix.trans (by decide) ⟨_, List.append_assoc _ _ _ |>.symm⟩)]
  | empty hO hs _ _ ih =>
    refine key ?_ ih
    simp only
    rw [delta, kind_empty hO hs]
  | @elem e c text tag toks1 toks2 k f f' hO hs hB _ _ ih1 ih2 =>
    intro a b t hab
    cases a with
    | nil => exact Int.le_refl _
    | cons l a =>
      simp only [List.cons_append, List.cons.injEq] at hab
      obtain ⟨rfl, hab⟩ := hab
      rw [tagsOf, List.map_cons, depth_cons]
      simp only
      rw [delta_start (kind_start hO hs)]
      rcases append_split hab.symm with ⟨c', h1, -⟩ | ⟨a', rfl, h2⟩
      · have := ih1 a c' t h1
        simp only [tagsOf] at this
        omega
      · have := ih2 a' b t h2
        have hd := body_depth hB
        simp only [tagsOf] at this hd
        rw [List.map_append, depth_append]
        omega

theorem body_not_done {e : Element} {toks : List (Str × Str)} {f : Forest} (h : Body e toks f) {a b : List (Str × Str)}
    {t : Str × Str} (ht : toks = a ++ t :: b) : 0 ≤ depth (tagsOf a) := body_prefix h a b t ht

theorem tops_blank {toks : List (Str × Str)} {e E : Element} {f F : Forest} (h : Tops toks e f E F) :
    ∀ (a b : List (Str × Str)) (text tag : Str), toks = a ++ (text, tag) :: b → depth (tagsOf a) = 0 →
      ∀ c ∈ text, isWs c = true := by
  induction h with
  | nil => intro a b text tag hab; simp at hab
  | @more text0 tag0 toks rest e e' E f k F hw hO hs hB hT ih =>
    intro a b text tag hab hd
    cases a with
    | nil =>
      simp only [List.nil_append, List.cons.injEq, Prod.mk.injEq] at hab
      obtain ⟨⟨rfl, rfl⟩, -⟩ := hab
      exact all_iff.1 hw
    | cons l a =>
      simp only [List.cons_append, List.cons.injEq] at hab
      obtain ⟨rfl, hab⟩ := hab
      rw [tagsOf, List.map_cons, depth_cons] at hd
      simp only at hd
      rw [delta_start (kind_start hO hs)] at hd
      rcases append_split hab.symm with ⟨c', h1, -⟩ | ⟨a', rfl, h2⟩
      · have := body_not_done hB h1
        simp only [tagsOf] at this
        omega
      · have hb := body_depth hB
        simp only [tagsOf] at hb
        rw [List.map_append, depth_append] at hd
        exact ih a' b text tag h2 (by simp only [tagsOf]; omega)

theorem root_blank {tag : Str} {rest : List (Str × Str)} {E : Element} {F : Forest} (h : RootPart tag rest E F) :
    ∀ (a b : List (Str × Str)) (text t : Str), rest = a ++ (text, t) :: b → depth (tag :: tagsOf a) = 0 →
      ∀ c ∈ text, isWs c = true := by
  intro a b text t hab hd
  cases h with
  | empty _ _ hr => subst hr; simp at hab
  | @elem e _ f _ t1 t2 hO hs hr hB hT =>
    subst hr
    rw [depth_cons, delta_start (kind_start hO hs)] at hd
    rcases append_split hab.symm with ⟨c', h1, -⟩ | ⟨a', rfl, h2⟩
    · have := body_not_done hB h1
      omega
    · have hb := body_depth hB
      rw [tagsOf, List.map_append, depth_append] at hd
      simp only [tagsOf] at hb
      exact tops_blank hT a' b text t h2 (by simp only [tagsOf]; omega)

/-! ## parts of the input -/

theorem lexes_unique {x tail tail' : Str} {toks toks' : List (Str × Str)} (h : Lexes x toks tail) (h' : Lexes x toks' tail') :
    toks = toks' := (lex_unique (lexes_lex h 0) (lexes_lex h' 0)).1

theorem split_prolog {a b c d : List (Str × Str)} (h : a ++ b = c ++ d) (ha : ∀ t ∈ a, IsProlog t.2) (hc : ∀ t ∈ c, IsProlog t.2)
    (hb : ∀ t r, b = t :: r → ¬ IsProlog t.2) (hd : ∀ t r, d = t :: r → ¬ IsProlog t.2) : a = c ∧ b = d := by
  induction a generalizing c with
  | nil =>
    cases c with
    | nil => exact ⟨rfl, h⟩
    | cons t c => exact absurd (hc t (by simp)) (hb t _ h)
  | cons t a ih =>
    cases c with
    | nil => exact absurd (ha t (by simp)) (hd t _ h.symm)
    | cons t' c =>
      simp only [List.cons_append, List.cons.injEq] at h
      obtain ⟨rfl, h⟩ := h
      obtain ⟨rfl, rfl⟩ := ih h (fun t ht => ha t (by simp [ht])) (fun t ht => hc t (by simp [ht]))
      exact ⟨rfl, rfl⟩

theorem parts_unique {x : Str} {pre rest pre' rest' : List (Str × Str)} (h : Parts x pre rest) (h' : Parts x pre' rest') :
    pre = pre' ∧ rest = rest' := by
  obtain ⟨t, ht⟩ := h.lexes
  obtain ⟨t', ht'⟩ := h'.lexes
  exact split_prolog (lexes_unique ht ht') h.prolog h'.prolog h.root h'.root

/-- all there is to know about an accepted document -/
theorem accepted {x : Str} {d : Document} (h : parseStr x = .ok d) : ∃ pre text tag rest E F,
    Parts x pre ((text, tag) :: rest) ∧ ProFacts 0 0 none [] (pre ++ (text, tag) :: rest) d.declaration d.dtds tag rest pre text ∧
    RootPart tag rest E F ∧ d.root = (addRev E F).reverseChildren ∧ (∀ t ∈ pre ++ (text, tag) :: rest, Angled t.2) := by
  obtain ⟨toks, D, DS, tag, rest, E, F, hL, hP, hR, rfl⟩ := parse_iff.1 h
  obtain ⟨pre, text, hF⟩ := pro_split hP
  obtain ⟨tail, hT⟩ := lex_lexes hL
  have hs := hF.split
  subst hs
  refine ⟨pre, text, tag, rest, E, F, ⟨⟨tail, hT⟩, fun t ht => (hF.prolog t ht).1, ?_⟩, hF, hR, rfl, lex_angled hL⟩
  rintro t r ⟨⟩
  exact hF.root

theorem accepted_parts {x : Str} {d : Document} {pre rest : List (Str × Str)} (h : parseStr x = .ok d) (hp : Parts x pre rest) :
    ∃ text tag rest' E F, rest = (text, tag) :: rest' ∧
    ProFacts 0 0 none [] (pre ++ rest) d.declaration d.dtds tag rest' pre text ∧
    RootPart tag rest' E F ∧ d.root = (addRev E F).reverseChildren ∧ (∀ t ∈ pre ++ rest, Angled t.2) := by
  obtain ⟨pre', text, tag, rest', E, F, h1, h2, h3, h4, h5⟩ := accepted h
  obtain ⟨rfl, rfl⟩ := parts_unique h1 hp
  exact ⟨text, tag, rest', E, F, rfl, h2, h3, h4, h5⟩

theorem addRev_tagName (E : Element) (F : Forest) : (addRev E F).reverseChildren.tagName = E.tagName := by
  obtain ⟨h1, -, -, h4, -⟩ := addRev_fields E F
  show ElementF.tagName _ = _
  unfold ElementF.tagName ElementF.reverseChildren
  rw [h1, h4]

/-! ## decoding of texts -/

theorem unescapes_readAs {text t : Str} (h : Unescapes text t) : ReadAs text t := by
  refine ⟨unescape_ok_iff.1 h, fun hl => ?_⟩
  obtain ⟨t', ht⟩ := decodes_total text
  have := unesc_unique (unescape_ok_iff.1 h) (hl t' ht)
  cases this
  exact ht

theorem content_mono {D D' : Str → Str → Prop} (h : ∀ s t, D s t → D' s t) {n : Str} {toks : List (Str × Str)} {l : List Node}
    (hc : Content D n toks l) : Content D' n toks l := by
  have ht : ∀ {s l}, TextBit D s l → TextBit D' s l := by
    rintro s l (h1 | ⟨h1, t, h2, h3⟩)
    · exact .inl h1
    · exact .inr ⟨h1, t, h _ _ h2, h3⟩
  induction hc with
  | close h1 h2 h3 => exact .close h1 h2 (ht h3)
  | comment h1 _ ih => exact .comment (ht h1) ih
  | cdata h1 _ ih => exact .cdata (ht h1) ih
  | empty h1 h2 h3 h4 _ ih => exact .empty h1 h2 h3 (ht h4) ih
  | elem h1 h2 _ h4 _ ih1 ih2 => exact .elem h1 h2 ih1 (ht h4) ih2

end KissXml
