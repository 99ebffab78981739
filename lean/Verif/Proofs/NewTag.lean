import Verif.Proofs.Prefixes
import Verif.Proofs.Variant
/-!
# Other prefixes in the source
-/
namespace KissXml
open Spec

theorem newName_unique {ρ : Str → Str} {n a b : Str} (h : NewName ρ n a) (h' : NewName ρ n b) : a = b := by
  cases h with
  | plain h1 =>
    cases h' with
    | plain => rfl
    | prefixed => simp at h1
  | @prefixed p l h1 h2 =>
    generalize hn : p ++ ':' :: l = n at h'
    cases h' with
    | plain h => rw [← hn] at h; simp at h
    | @prefixed p' l' h3 h4 =>
      obtain ⟨rfl, rfl⟩ := prefix_unique hn h1 h3
      rfl

/-- what is known about an element and the one that is read in its place -/
structure NewElement (ρ : Str → Str) (e e' : Element) : Prop where
  other : OtherPrefix ρ e e'
  name : NewName ρ e.tagName e'.tagName
  once : NoTwice e
  once' : NoTwice e'

theorem newElement_children {ρ : Str → Str} {e e' : Element} (h : NewElement ρ e e') (cs cs' : List Node) :
    NewElement ρ { e with children := cs } { e' with children := cs' } :=
  ⟨h.other, h.name, h.once, h.once'⟩

theorem noTwice_of {x : Str} {pos : Nat} {ps : List Str} {m : SMap} (h : parseAttrs x pos ps SMap.empty = .ok m)
    (ho : ∀ p ∈ ps, ∀ k raw, Quoted k raw p → ¬ c%"xmlns:xmlns:" <+: k) (p : Str) : m.get (c%"xmlns:xmlns:" ++ p) = none := by
  rw [Option.eq_none_iff_forall_ne_some]
  intro v hv
  obtain ⟨a, p', b, raw, rfl, h6, -⟩ := (gives_iff h _ v).1 hv
  exact ho p' (by simp) _ raw h6 ⟨_, rfl⟩

theorem mark_prefix {tag : Str} (h : kind tag = .mark) : c%"<!" <+: tag := by
  unfold kind at h
  by_contra hn
  rw [if_neg hn] at h
  split at h
  · cases h
  · split at h <;> cases h

theorem nameSplit_new {ρ : Str → Str} {p p' : Option Element} {attrs attrs' : SMap} {n0 n1 n : Str} {x q : Option Str}
    (h : NameSplit p attrs n0 n x q) (hn : NewName ρ n0 n1) (ha : ∀ k, attrs'.get (c%"xmlns:" ++ ρ k) = attrs.get (c%"xmlns:" ++ k))
    (hp : p' = none → p = none) : ∃ x', NameSplit p' attrs' n1 n x' (q.map ρ) := by
  cases h with
  | plain hc =>
    cases hn with
    | plain _ => exact ⟨_, .plain hc⟩
    | prefixed => simp at hc
  | own h1 h2 h3 =>
    cases hn with
    | plain hc => rw [h1] at hc; simp at hc
    | prefixed h4 h5 =>
      obtain ⟨rfl, rfl⟩ := prefix_unique h1.symm h2 h4
      exact ⟨_, .own rfl h5 (by rw [ha]; exact h3)⟩
  | inh h1 h2 h3 h4 =>
    cases hn with
    | plain hc => rw [h1] at hc; simp at hc
    | prefixed h6 h5 =>
      obtain ⟨rfl, rfl⟩ := prefix_unique h1.symm h2 h6
      cases p' with
      | none => rw [hp rfl] at h4; cases h4
      | some p' => exact ⟨_, .inh rfl h5 (by rw [ha]; exact h3) rfl⟩

theorem opens_new {ρ : Str → Str} {p : Option Element} {tag tag' : Str} {e : Element} (h : Opens p tag e) (hv : NewTag ρ tag tag')
    (ha : Angled tag) (p' : Option Element) (hp : p' = none → p = none) :
    ∃ e', Opens p' tag' e' ∧ NewElement ρ e e' ∧ (c%"/>" <:+ tag' ↔ c%"/>" <:+ tag) := by
  cases hv with
  | mark hm _ => exact absurd (mark_prefix hm) h.not_decl
  | close hc _ _ _ _ _ => exact absurd (close_prefix hc).2 h.not_close
  | @opening n n' ps ps' ho hk hb h4 h5 hn hps =>
    have ho' : Opening tag' := by unfold Opening; rw [hk]; exact ho
    obtain ⟨-, -, -, t, attrs, n1, l, x, q, g1, hN⟩ := h
    obtain ⟨comps, buf, pos, g2, g3⟩ := hN.attrs_ok
    obtain ⟨comps', g4, rfl⟩ := split_of_pieces (inner_iff.2 ⟨g1, ha⟩) h4
    cases g2.symm.trans g4
    obtain ⟨t', wt, hi', -, -⟩ := id h5
    obtain ⟨comps'', g5, rfl⟩ := split_of_pieces hi' h5
    obtain ⟨attrs', g6⟩ := parseAttrs_all hps.readable buf pos
    have hd : attrs'.get c%"xmlns" = attrs.get c%"xmlns" :=
      Option.ext fun v => by rw [gives_iff g3, gives_iff g6]; exact hps.default v
    have hg : ∀ k, attrs'.get (c%"xmlns:" ++ ρ k) = attrs.get (c%"xmlns:" ++ k) :=
      fun k => Option.ext fun v => by rw [gives_iff g3, gives_iff g6]; exact hps.declared k v
    obtain ⟨x', hs⟩ := nameSplit_new (p' := p') hN.name hn hg hp
    have hA : ∀ k, (attrs'.get k).isSome → validName k = true := by
      intro k hk
      obtain ⟨v, hv⟩ := Option.isSome_iff_exists.1 hk
      obtain ⟨a, r, b, raw, e1, e2, -⟩ := (gives_iff g6 k v).1 hv
      exact validName_iff.2 (hps.names r (by rw [e1]; simp) k raw e2)
    have hN' : NewElem t' p' attrs' n' l x' (q.map ρ) _ := ⟨⟨_, buf, pos, g5, g6⟩, hs, hN.valid, hA, rfl⟩
    obtain ⟨k1, k2, k3⟩ := kind_prefix ho'
    obtain ⟨-, -, k4⟩ := kind_prefix ho
    obtain ⟨f1, f2, f3⟩ := newElem_fields hN
    obtain ⟨g1', g2', g3'⟩ := newElem_fields hN'
    refine ⟨_, ⟨k1, k2, goodTag_match hb, t', attrs', n', l, x', q.map ρ, (inner_iff.1 hi').1, hN'⟩,
      ⟨⟨by rw [f1, g1'], by rw [f3, g3'], by rw [f2, g2', hd], fun k => by rw [f2, g2', hg]⟩, ?_, ?_, ?_⟩, by rw [k3, k4, hk]⟩
    · rw [newElem_tagName hN, newElem_tagName hN']; exact hn
    · intro s; rw [f2]; exact noTwice_of g3 (fun r hr => hps.once r (by simp [hr])) s
    · intro s; rw [g2']; exact noTwice_of g6 (fun r hr => hps.once r (by simp [hr])) s

theorem closes_new {ρ : Str → Str} {e e' : Element} {tag tag' : Str} (h : Closes e tag) (hv : NewTag ρ tag tag') (hl : NewElement ρ e e') :
    Closes e' tag' := by
  have hk := kind_close h.slash
  cases hv with
  | mark hm _ => rw [hk] at hm; cases hm
  | close _ h2 h3 h4 h5 h6 =>
    refine ⟨(close_prefix h2).2, goodTag_match h3, ?_⟩
    have h7 := (inner_iff.1 h4).1
    rw [h.name] at h7
    cases h7
    rw [(inner_iff.1 h5).1, newName_unique h6 hl.name]
  | opening h1 => rcases h1 with h1 | h1 <;> rw [hk] at h1 <;> cases h1

theorem mark_new {ρ : Str → Str} {tag tag' : Str} (h : kind tag = .mark) (hv : NewTag ρ tag tag') : tag' = tag := by
  cases hv with
  | mark _ h => exact h
  | close h1 => rw [h] at h1; cases h1
  | opening h1 => rcases h1 with h1 | h1 <;> rw [h] at h1 <;> cases h1

theorem pairsL_append {P : Element → Element → Prop} {a b : List Node} : ∀ l : List Node, (∀ n ∈ l, ∃ t, n = .text t) → PairsL P a b →
    PairsL P (l ++ a) (l ++ b)
  | [], _, h => h
  | n :: l, hl, h => by
    obtain ⟨t, rfl⟩ := hl n (List.mem_cons_self ..)
    exact .cons (.text t) (pairsL_append l (fun m hm => hl m (List.mem_cons_of_mem _ hm)) h)

theorem withText_same {text : Str} {f f' : Forest} (h : WithText text f f') :
    ∃ l : List Node, (∀ n ∈ l, ∃ t, n = .text t) ∧ plain f' = l ++ plain f ∧ ∀ g, ∃ g', WithText text g g' ∧ plain g' = l ++ plain g := by
  cases h with
  | blank hw => exact ⟨[], by simp, rfl, fun g => ⟨g, .blank hw, rfl⟩⟩
  | @text t hw hu =>
    have put : ∀ g : Forest, plain (.leaf (.text t) g) = (if Blank t then [] else [.text t]) ++ plain g := by
      intro g
      rw [plain]
      by_cases hb : Blank t <;> simp [isBlankText, hb]
    refine ⟨_, ?_, put f, fun g => ⟨_, .text hw hu, put g⟩⟩
    intro n hn
    split at hn
    · cases hn
    · exact ⟨t, by simpa using hn⟩

theorem forall2_split {α β : Type} {R : α → β → Prop} : ∀ {a b : List α} {l : List β}, List.Forall₂ R (a ++ b) l →
    ∃ c d, l = c ++ d ∧ List.Forall₂ R a c ∧ List.Forall₂ R b d
  | [], _, l, h => ⟨[], l, rfl, .nil, h⟩
  | _ :: a, b, _, h => by
    cases h with
    | cons h1 h2 =>
      obtain ⟨c, d, rfl, h3, h4⟩ := forall2_split (a := a) (b := b) h2
      exact ⟨_ :: c, d, rfl, .cons h1 h3, h4⟩

theorem body_new {ρ : Str → Str} {e : Element} {toks : List (Str × Str)} {f : Forest} (h : Body e toks f) :
    ∀ toks' e', NewElement ρ e e' → List.Forall₂ (NewTok ρ) toks toks' → (∀ t ∈ toks, Angled t.2) →
      ∃ f', Body e' toks' f' ∧ PairsL (NewElement ρ) (plain f) (plain f') := by
  induction h with
  | @close e text tag f hc hw =>
    intro toks' e' hl hv ha
    cases hv with
    | @cons _ t' _ _ hv hr =>
      cases hr
      obtain ⟨t', g'⟩ := t'
      obtain ⟨rfl, hv⟩ := hv
      obtain ⟨l, h1, h2, h3⟩ := withText_same hw
      obtain ⟨g', h4, h5⟩ := h3 .nil
      refine ⟨g', .close (closes_new hc hv hl) h4, ?_⟩
      rw [h2, h5]
      exact pairsL_append l h1 .nil
  | @comment e text c toks f f' hk _ hw ih =>
    intro toks' e' hl hv ha
    have hm : kind (c%"<!--" ++ c ++ c%"-->") = .mark := kind_mark ⟨c%"--" ++ c ++ c%"-->", by simp⟩
    cases hv with
    | @cons _ t' _ toks' hv hr =>
      obtain ⟨t', g'⟩ := t'
      obtain ⟨rfl, hv⟩ := hv
      obtain ⟨f1, i1, i2⟩ := ih toks' e' hl hr (angled_cons ha).2
      obtain ⟨l, h1, h2, h3⟩ := withText_same hw
      obtain ⟨f2, h4, h5⟩ := h3 (.leaf (.comment c) f1)
      obtain rfl : g' = _ := mark_new hm hv
      refine ⟨f2, .comment hk i1 h4, ?_⟩
      rw [h2, h5, plain, plain, if_neg (by simp [isBlankText]), if_neg (by simp [isBlankText])]
      exact pairsL_append l h1 (.cons (.comment c) i2)
  | @cdata e text c toks f f' hk _ hw ih =>
    intro toks' e' hl hv ha
    have hm : kind (c%"<![CDATA[" ++ c ++ c%"]]>") = .mark := kind_mark ⟨c%"[CDATA[" ++ c ++ c%"]]>", by simp⟩
    cases hv with
    | @cons _ t' _ toks' hv hr =>
      obtain ⟨t', g'⟩ := t'
      obtain ⟨rfl, hv⟩ := hv
      obtain ⟨f1, i1, i2⟩ := ih toks' e' hl hr (angled_cons ha).2
      obtain ⟨l, h1, h2, h3⟩ := withText_same hw
      obtain ⟨f2, h4, h5⟩ := h3 (.leaf (.cdata c) f1)
      obtain rfl : g' = _ := mark_new hm hv
      refine ⟨f2, .cdata hk i1 h4, ?_⟩
      rw [h2, h5, plain, plain, if_neg (by simp [isBlankText]), if_neg (by simp [isBlankText])]
      exact pairsL_append l h1 (.cons (.cdata c) i2)
  | @empty e c text tag toks f f' hO hs _ hw ih =>
    intro toks' e' hl hv ha
    cases hv with
    | @cons _ t' _ toks' hv hr =>
      obtain ⟨t', g'⟩ := t'
      obtain ⟨rfl, hv⟩ := hv
      obtain ⟨f1, i1, i2⟩ := ih toks' e' hl hr (angled_cons ha).2
      obtain ⟨c', hO', hc, hk⟩ := opens_new hO hv (angled_cons ha).1 (some e') (by rintro ⟨⟩)
      obtain ⟨l, h1, h2, h3⟩ := withText_same hw
      obtain ⟨f2, h4, h5⟩ := h3 (.leaf (.element c') f1)
      refine ⟨f2, .empty hO' (hk.2 hs) i1 h4, ?_⟩
      rw [h2, h5, plain, plain, if_neg (by simp [isBlankText]), if_neg (by simp [isBlankText])]
      exact pairsL_append l h1 (.cons (.element hc (by rw [opens_children hO, opens_children hO']; exact .nil)) i2)
  | @elem e c text tag toks1 toks2 k f f' hO hs hB1 _ hw ih1 ih2 =>
    intro toks' e' hl hv ha
    have ha1 := (angled_cons ha).1
    have a1 := (angled_cons ha).2
    cases hv with
    | @cons _ t' _ toks' hv hr =>
      obtain ⟨t', g'⟩ := t'
      obtain ⟨rfl, hv⟩ := hv
      obtain ⟨m1, m2, rfl, r1, r2⟩ := forall2_split hr
      obtain ⟨f1, i1, i2⟩ := ih2 m2 e' hl r2 (fun t ht => a1 t (by simp [ht]))
      obtain ⟨c', hO', hc, hk⟩ := opens_new hO hv ha1 (some e') (by rintro ⟨⟩)
      obtain ⟨k1, j1, j2⟩ := ih1 m1 c' hc r1 (fun t ht => a1 t (by simp [ht]))
      obtain ⟨l, h1, h2, h3⟩ := withText_same hw
      obtain ⟨f2, h4, h5⟩ := h3 (.elem c' k1 f1)
      refine ⟨f2, .elem hO' (fun h => hs (hk.1 h)) j1 i1 h4, ?_⟩
      rw [h2, h5, plain, plain]
      exact pairsL_append l h1 (.cons (.element (newElement_children hc _ _) j2) i2)

theorem elemToks_new {ρ : Str → Str} {tag tag' : Str} {body body' : List (Str × Str)} {c : Element} (h : ElemToks none tag body c)
    (hv : NewTag ρ tag tag') (hr : List.Forall₂ (NewTok ρ) body body') (ha : Angled tag) (hb1 : ∀ t ∈ body, Angled t.2) :
    ∃ c', ElemToks none tag' body' c' ∧ Pairs (NewElement ρ) (.element c) (.element c') := by
  cases h with
  | empty hO hs =>
    cases hr
    obtain ⟨c', hO', hc, hk⟩ := opens_new hO hv ha none (fun _ => rfl)
    exact ⟨c', .empty hO' (hk.2 hs), .element hc (by rw [opens_children hO, opens_children hO']; exact .nil)⟩
  | @start c0 k _ hO hs hB =>
    obtain ⟨c', hO', hc, hk⟩ := opens_new hO hv ha none (fun _ => rfl)
    obtain ⟨k', hB', hk2⟩ := body_new hB _ c' hc hr hb1
    exact ⟨_, .start hO' (fun h => hs (hk.1 h)) hB', .element (newElement_children hc _ _) hk2⟩

/-- the whole document -/
theorem parse_new {ρ : Str → Str} {x x' : Str} {d : Document} {pre rest rest' : List (Str × Str)} (h : parseStr x = .ok d)
    (hp : Parts x pre rest) (hp' : Parts x' pre rest') (h1 : OneRoot (tagsOf rest)) (hv : List.Forall₂ (NewTok ρ) rest rest') :
    ∃ d', parseStr x' = .ok d' ∧ d'.declaration = d.declaration ∧ d'.dtds = d.dtds ∧ OneRoot (tagsOf rest') ∧
      Pairs (NewElement ρ) (.element d.root) (.element d'.root) := by
  obtain ⟨toks, D, DS, tg, rs, E, F, hL, hP, hR, rfl⟩ := parse_iff.1 h
  obtain ⟨q, tx, hq, hq1, hq2, htx, hsw⟩ := pro_swap hP
  obtain ⟨tail', hT⟩ := lex_lexes hL
  obtain ⟨tail, hl⟩ := hp.lexes
  have hparts : Parts x q ((tx, tg) :: rs) := ⟨⟨tail', hq ▸ hT⟩, hq1, by rintro t r ⟨⟩; exact hq2⟩
  obtain ⟨rfl, rfl⟩ := parts_unique hparts hp
  have htok := lexes_toks hl
  obtain ⟨tl, hl'⟩ := hp'.lexes
  have hE := elemToks_of_root hR h1
  cases hv with
  | @cons _ t' _ rs' hv hr =>
    obtain ⟨tx', tg'⟩ := t'
    obtain ⟨hx, hv⟩ := hv
    obtain rfl : tx' = tx := hx
    obtain ⟨c', hE', hs⟩ := elemToks_new hE hv hr (tokOk_angled (htok (tx', tg) (by simp))) (fun t ht => tokOk_angled (htok t (by simp [ht])))
    obtain ⟨E', F', hR', hc⟩ := root_of_elemToks hE'
    obtain ⟨c0, hO, -⟩ := elemToks_opens hE'
    have hpro := hsw tx' tg' rs' htx (fun h => hp'.root (tx', tg') rs' rfl (.inl h)) hO.not_decl hO.not_close hO.regex
    refine ⟨_, parse_iff.2 ⟨_, D, DS, tg', rs', E', F', lexes_lex hl' 0, hpro, hR', rfl⟩, rfl, rfl, elemToks_one hE', ?_⟩
    rw [hc]
    exact hs

/-! ## all elements -/

theorem pairs_below {P : Element → Element → Prop} : ∀ {l l' : List Node}, PairsL P l l' →
    (∀ c, Node.element c ∈ l → ∃ c', Pairs P (.element c) (.element c')) ∧ ∀ c', Node.element c' ∈ l' → ∃ c, Pairs P (.element c) (.element c')
  | _, _, .nil => ⟨by simp, by simp⟩
  | _, _, .cons (n := n) (n' := n') h1 h2 => by
    obtain ⟨i1, i2⟩ := pairs_below h2
    constructor
    · intro c hc
      rcases List.mem_cons.1 hc with rfl | hc
      · cases h1 with
        | element a b => exact ⟨_, .element a b⟩
      · exact i1 c hc
    · intro c hc
      rcases List.mem_cons.1 hc with rfl | hc
      · cases h1 with
        | element a b => exact ⟨_, .element a b⟩
      · exact i2 c hc

theorem pairs_left {P : Element → Element → Prop} {r r' : Element} (h : Pairs P (.element r) (.element r')) {up : List Element} {e : Element}
    (he : Above r up e) : ∃ e', Pairs P (.element e) (.element e') := by
  induction he with
  | here => exact ⟨r', h⟩
  | down _ hc ih =>
    obtain ⟨e', ih⟩ := ih
    cases ih with
    | element _ hl => exact (pairs_below hl).1 _ hc

theorem pairs_right {P : Element → Element → Prop} {r r' : Element} (h : Pairs P (.element r) (.element r')) {up : List Element} {e' : Element}
    (he : Above r' up e') : ∃ e, Pairs P (.element e) (.element e') := by
  induction he with
  | here => exact ⟨r, h⟩
  | down _ hc ih =>
    obtain ⟨e', ih⟩ := ih
    cases ih with
    | element _ hl => exact (pairs_below hl).2 _ hc

theorem pairs_holds {P : Element → Element → Prop} {e e' : Element} (h : Pairs P (.element e) (.element e')) : P e e' := by
  cases h with
  | element h _ => exact h

mutual
theorem pairs_imp {P Q : Element → Element → Prop} (hPQ : ∀ e e', P e e' → Q e e') : ∀ {n n' : Node}, Pairs P n n' → Pairs Q n n'
  | _, _, .element h1 h2 => .element (hPQ _ _ h1) (pairsL_imp hPQ h2)
  | _, _, .text t => .text t
  | _, _, .comment t => .comment t
  | _, _, .cdata t => .cdata t
theorem pairsL_imp {P Q : Element → Element → Prop} (hPQ : ∀ e e', P e e' → Q e e') : ∀ {l l' : List Node}, PairsL P l l' → PairsL Q l l'
  | _, _, .nil => .nil
  | _, _, .cons h1 h2 => .cons (pairs_imp hPQ h1) (pairsL_imp hPQ h2)
end

/-! ## making them -/

theorem quoted_get {x : Str} {pos : Nat} {ps : List Str} {m : SMap} (h : parseAttrs x pos ps SMap.empty = .ok m) {p k raw : Str} (hp : p ∈ ps)
    (hq : Quoted k raw p) : ∃ v, (k, v) ∈ m.entries := by
  obtain ⟨a, p', b, raw', h5, h6, h7⟩ := exists_last ⟨p, hp, raw, hq⟩
  obtain ⟨u, h8, -⟩ := (parseAttrs_written h).2.2.2 a p' b k raw' h5 h6 h7
  exact lmap_get_isSome.1 (by rw [show LMap.get m.entries k = m.get k from rfl, h8]; rfl)

/-- what the library reads in a tag -/
theorem newTag_of {ρ : Str → Str} {tag tag' t t' n n' : Str} {cs cs' : List Str} {m m' : SMap} (ho : Opening tag) (hk : kind tag' = kind tag)
    (hr : Re.isMatch elemRe tag' = true) (ha : Angled tag) (ha' : Angled tag') (hs : stripTag tag = some t) (hs' : stripTag tag' = some t')
    (hq : quoteAwareSplit t = n :: cs) (hq' : quoteAwareSplit t' = n' :: cs') (hm : parseAttrs [] 0 (joinLoop cs) SMap.empty = .ok m)
    (hm' : parseAttrs [] 0 (joinLoop cs') SMap.empty = .ok m') (hn : NewName ρ n n')
    (hv : ∀ kv ∈ m'.entries, validName kv.1 = true) (hx : ∀ kv ∈ m.entries ++ m'.entries, ¬ c%"xmlns:xmlns:" <+: kv.1)
    (hd : m'.get c%"xmlns" = m.get c%"xmlns") (hg : ∀ q, m'.get (c%"xmlns:" ++ ρ q) = m.get (c%"xmlns:" ++ q)) : NewTag ρ tag tag' := by
  refine .opening ho hk (fun h => by rw [badTag_iff.1 h] at hr; cases hr) (pieces_split (inner_iff.2 ⟨hs, ha⟩) hq)
    (pieces_split (inner_iff.2 ⟨hs', ha'⟩) hq') hn ⟨goodPieces_ok hm', fun p hp k raw hq => ?_, fun p hp k raw hq => ?_, fun v => ?_, fun q v => ?_⟩
  · obtain ⟨v, h⟩ := quoted_get hm' hp hq
    exact validName_iff.1 (hv _ h)
  · rcases List.mem_append.1 hp with hp | hp
    · obtain ⟨v, h⟩ := quoted_get hm hp hq
      exact hx _ (List.mem_append_left _ h)
    · obtain ⟨v, h⟩ := quoted_get hm' hp hq
      exact hx _ (List.mem_append_right _ h)
  · rw [← gives_iff hm, ← gives_iff hm', hd]
  · rw [← gives_iff hm, ← gives_iff hm', hg]

end KissXml
