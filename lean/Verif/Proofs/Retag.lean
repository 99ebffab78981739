import Verif.Spec.Retag
import Verif.Proofs.Variant
/-!
# An element with another name and other attributes in its tags
-/
namespace KissXml
open Spec

/-! ## attributes that declare namespaces -/

/-- `xmlns` or `xmlns:p` -/
def nsKey (k : Str) : Bool := c%"xmlns:".isPrefixOf k || k == c%"xmlns"

theorem prefix_before {s k r : Str} (hs : '=' ∉ s) : s <+: k ++ '=' :: r ↔ s <+: k := by
  induction s generalizing k with
  | nil => simp
  | cons c s ih =>
    simp only [List.mem_cons, not_or] at hs
    cases k with
    | nil => simp only [List.nil_append, List.cons_prefix_cons, List.prefix_nil]; constructor
             · rintro ⟨h, -⟩; exact absurd h.symm hs.1
             · rintro ⟨⟩
    | cons d k => simp only [List.cons_append, List.cons_prefix_cons, ih hs.2]

theorem prefix_exact {s k r : Str} (hs : '=' ∉ s) (hk : '=' ∉ k) : s ++ c%"=" <+: k ++ '=' :: r ↔ k = s := by
  induction s generalizing k with
  | nil =>
    cases k with
    | nil => simp
    | cons d k =>
      simp only [List.mem_cons, not_or] at hk
      simp [hk.1]
  | cons c s ih =>
    simp only [List.mem_cons, not_or] at hs
    cases k with
    | nil => simp [Ne.symm hs.1]
    | cons d k =>
      simp only [List.mem_cons, not_or] at hk
      simp only [List.cons_append, List.cons_prefix_cons, ih hs.2 hk.2, List.cons.injEq]
      exact and_congr_left fun _ => eq_comm

theorem declares_iff {k raw p : Str} (h : Quoted k raw p) : declares p = nsKey k := by
  obtain ⟨hk, q, -, rfl⟩ := h
  rw [Bool.eq_iff_iff]
  simp only [declares, nsKey, Bool.or_eq_true, List.isPrefixOf_iff_prefix, beq_iff_eq]
  have he : k ++ c%"=" ++ [q] ++ raw ++ [q] = k ++ '=' :: (q :: raw ++ [q]) := by simp
  rw [he, prefix_before (by decide), ← prefix_exact (s := c%"xmlns") (r := q :: raw ++ [q]) (by decide) hk]
  rfl

theorem insert_filter (l : List (Str × Str)) (k v : Str) : (LMap.insert l k v).filter (fun kv => nsKey kv.1) =
    if nsKey k then LMap.insert (l.filter fun kv => nsKey kv.1) k v else l.filter fun kv => nsKey kv.1 := by
  induction l with
  | nil => by_cases h : nsKey k <;> simp [LMap.insert, h]
  | cons kv l ih =>
    obtain ⟨k', v'⟩ := kv
    rw [LMap.insert]
    by_cases he : k' = k
    · subst he
      by_cases h : nsKey k' <;> simp [h, LMap.insert]
    · rw [if_neg he, List.filter_cons, ih]
      by_cases h : nsKey k <;> by_cases h' : nsKey k' <;> simp [h, h', LMap.insert, he]

/-- the entries that declare namespaces come from the pieces that declare them -/
theorem parseAttrs_declares {b : Str} {pos : Nat} {ps : List Str} : ∀ {m m' m0 : SMap}, parseAttrs b pos ps m = .ok m' →
    m0.entries = m.entries.filter (fun kv => nsKey kv.1) →
    ∃ m1, parseAttrs b pos (ps.filter declares) m0 = .ok m1 ∧ m1.entries = m'.entries.filter (fun kv => nsKey kv.1) := by
  induction ps with
  | nil => intro m m' m0 h h0; cases h; exact ⟨m0, rfl, h0⟩
  | cons p ps ih =>
    intro m m' m0 h h0
    by_cases hq : ∃ k raw, Quoted k raw p
    · obtain ⟨k, raw, hq⟩ := hq
      rw [parseAttrs_quoted hq] at h
      obtain ⟨u, hu, h⟩ := bind_eq_ok.1 h
      rw [List.filter_cons, declares_iff hq]
      by_cases hn : nsKey k
      · rw [if_pos hn, parseAttrs_quoted hq, hu]
        exact ih h (by
          show LMap.insert m0.entries k u = (LMap.insert m.entries k u).filter _
          rw [insert_filter, if_pos hn, h0])
      · rw [if_neg hn]
        exact ih h (by
          show m0.entries = (LMap.insert m.entries k u).filter _
          rw [insert_filter, if_neg hn, h0])
    · obtain ⟨e, he⟩ := parseAttrs_unquoted hq b pos ps m
      rw [he] at h; cases h

theorem lmap_get_filter (l : List (Str × Str)) {k : Str} (hk : nsKey k = true) :
    LMap.get (l.filter fun kv => nsKey kv.1) k = LMap.get l k := by
  induction l with
  | nil => rfl
  | cons kv l ih =>
    obtain ⟨k', v'⟩ := kv
    rw [List.filter_cons]
    by_cases h' : nsKey k'
    · rw [if_pos h', LMap.get, LMap.get, ih]
    · rw [if_neg h', ih, LMap.get, if_neg]
      rintro rfl; exact h' hk

theorem context_filter (m : SMap) (l : List (Str × Str)) (m0 : SMap) : l.foldl (fun m kv =>
      if startsWith kv.1 c%"xmlns:" then m.insert (kv.1.drop 6) kv.2 else m) m0 =
    (l.filter fun kv => nsKey kv.1).foldl (fun m kv =>
      if startsWith kv.1 c%"xmlns:" then m.insert (kv.1.drop 6) kv.2 else m) m0 := by
  induction l generalizing m0 with
  | nil => rfl
  | cons kv l ih =>
    rw [List.foldl_cons, List.filter_cons]
    by_cases h : nsKey kv.1
    · rw [if_pos h, List.foldl_cons, ih]
    · rw [if_neg h, ih]
      have : ¬ startsWith kv.1 c%"xmlns:" = true := by
        intro hs
        apply h
        rw [startsWith_iff] at hs
        simp [nsKey, List.isPrefixOf_iff_prefix, hs]
      rw [if_neg this]

/-- what depends on the declarations of namespaces only -/
theorem same_declares {b : Str} {pos : Nat} {ps ps' : List Str} {m m' : SMap} (h : parseAttrs b pos ps .empty = .ok m)
    (h' : parseAttrs b pos ps' .empty = .ok m') (hd : ps.filter declares = ps'.filter declares) :
    (∀ k, nsKey k = true → m.get k = m'.get k) ∧ ElementF.xmlnsContextFromAttributes m = ElementF.xmlnsContextFromAttributes m' := by
  obtain ⟨m1, h1, h2⟩ := parseAttrs_declares (m0 := .empty) h rfl
  obtain ⟨m1', h1', h2'⟩ := parseAttrs_declares (m0 := .empty) h' rfl
  rw [hd] at h1
  cases h1.symm.trans h1'
  rw [h2] at h2'
  refine ⟨fun k hk => ?_, ?_⟩
  · show LMap.get m.entries k = LMap.get m'.entries k
    rw [← lmap_get_filter _ hk, h2', lmap_get_filter _ hk]
  · unfold ElementF.xmlnsContextFromAttributes
    rw [context_filter m, h2', ← context_filter m]

/-! ## tags -/

theorem setContext_retag (n n' : Str) (cs : List Node) (a a' : SMap) (x q : Option Str) (c : SMap) (d : Option Str) (ps : Option SMap) :
    ElementF.setNamespaceContext (⟨n', cs, a', x, q, c⟩ : Element) d ps =
      { ElementF.setNamespaceContext (⟨n, cs, a, x, q, c⟩ : Element) d ps with name := n', attrs := a' } := by
  unfold ElementF.setNamespaceContext ElementF.defaultNamespace
  cases q <;> cases x <;> cases ps <;> cases d <;> simp <;> split <;> rfl

theorem nsKey_prefix (a : Str) : nsKey (c%"xmlns:" ++ a) = true := by
  simp [nsKey, List.isPrefixOf_iff_prefix]

theorem opens_retag {p : Option Element} {tag tag' n n' l : Str} {ps ps' : List Str} {e : Element} (h : Opens p tag e) (ho : Opening tag)
    (ha : Angled tag) (hr : Retag tag tag' n n' l ps ps') : ∃ m : SMap, Opens p tag' { e with name := l, attrs := m } ∧
      (∀ k v, m.get k = some v ↔ Gives ps' k v) ∧ ({ e with name := l, attrs := m } : Element).tagName = n' ∧
      (∀ k v, e.attrs.get k = some v ↔ Gives ps k v) ∧ e.tagName = n := by
  obtain ⟨hk, hb, -, h5, h6, hl, hnames, h4, hsp, hd⟩ := hr
  obtain ⟨-, -, -, t, attrs, n1, n0, x, q, g1, hN⟩ := h
  obtain ⟨comps, buf, pos, g2, g3⟩ := hN.attrs_ok
  obtain ⟨comps', g4, rfl⟩ := split_of_pieces (inner_iff.2 ⟨g1, ha⟩) h4
  cases g2.symm.trans g4
  obtain ⟨t', wt, hi', -, -⟩ := id h5
  obtain ⟨comps'', g5, rfl⟩ := split_of_pieces hi' h5
  obtain ⟨attrs', g6⟩ := parseAttrs_all h6 buf pos
  obtain ⟨hg, hc⟩ := same_declares g3 g6 hd
  have hs : NameSplit p attrs' n' l x q := by
    have key : ∀ {a b a' b' : Str}, a ++ ':' :: b = a' ++ ':' :: b' → ':' ∉ a → ':' ∉ a' → a = a' ∧ b = b' := by
      intro a b a' b' h ha ha'
      have h1 := splitOnce_eq_some.2 ⟨(rfl : a ++ ':' :: b = a ++ ':' :: b), ha⟩
      have h2 := splitOnce_eq_some.2 ⟨(rfl : a' ++ ':' :: b' = a' ++ ':' :: b'), ha'⟩
      rw [h, h2] at h1
      cases h1
      exact ⟨rfl, rfl⟩
    cases hsp with
    | plain c1 c2 c3 =>
      subst c3
      cases hN.name with
      | plain _ => exact .plain c2
      | own h1 _ _ => exact absurd (by rw [h1]; simp) c1
      | inh h1 _ _ _ => exact absurd (by rw [h1]; simp) c1
    | @prefixed a l0 c1 c2 c3 =>
      cases hN.name with
      | plain h1 => exact absurd (by rw [c2]; simp) h1
      | own h1 h2 h3 =>
        obtain ⟨rfl, rfl⟩ := key (c2.symm.trans h1) c1 h2
        exact .own c3 c1 (by rw [← hg _ (nsKey_prefix _)]; exact h3)
      | inh h1 h2 h3 h4 =>
        obtain ⟨rfl, rfl⟩ := key (c2.symm.trans h1) c1 h2
        exact .inh c3 c1 (by rw [← hg _ (nsKey_prefix _)]; exact h3) h4
  have hown : ownNs attrs' q = ownNs attrs q := by
    cases q with
    | none => exact (hg _ (by decide)).symm
    | some a => exact (hg _ (nsKey_prefix a)).symm
  have hN' : NewElem t' p attrs' n' l x q { e with name := l, attrs := attrs' } := by
    refine ⟨⟨_, buf, pos, g5, g6⟩, hs, validName_iff.2 hl, ?_, ?_⟩
    · intro k hk
      obtain ⟨v, hv⟩ := Option.isSome_iff_exists.1 hk
      obtain ⟨a, p, b, raw, h1, h2, -⟩ := (gives_iff g6 k v).1 hv
      exact validName_iff.2 (hnames p (by rw [h1]; simp) k raw h2)
    · rw [hown, ← hc, hN.eq]
      exact (setContext_retag n0 l [] attrs attrs' _ q _ _ _).symm
  obtain ⟨k1, k2, -⟩ := kind_prefix (tag := tag') (by unfold Opening; rw [hk]; exact ho)
  exact ⟨attrs', ⟨k1, k2, goodTag_match hb, t', attrs', n', l, x, q, (inner_iff.1 hi').1, hN'⟩, gives_iff g6, newElem_tagName hN',
    by rw [(newElem_fields hN).2.1]; exact gives_iff g3, newElem_tagName hN⟩

/-- the content of an element does not depend on its name and its other attributes -/
theorem body_retag {e : Element} {toks : List (Str × Str)} {f : Forest} (h : Body e toks f) :
    ∃ l t c, toks = l ++ [(t, c)] ∧ Closes e c ∧ ∀ e' c', e'.defaultNamespace = e.defaultNamespace → e'.ctx = e.ctx → Closes e' c' →
      Body e' (l ++ [(t, c')]) f := by
  have op : ∀ {e e' c : Element} {tag : Str}, e'.defaultNamespace = e.defaultNamespace → e'.ctx = e.ctx → Opens (some e) tag c →
      Opens (some e') tag c := by
    intro e e' c tag h1 h2 ⟨a1, a2, a3, t, attrs, n0, n, x, q, a4, hN⟩
    refine ⟨a1, a2, a3, t, attrs, n0, n, x, q, a4, hN.attrs_ok, ?_, hN.valid, hN.attrs_valid, ?_⟩
    · cases hN.name with
      | plain h => exact .plain h
      | own h3 h4 h5 => exact .own h3 h4 h5
      | inh h3 h4 h5 h6 => cases h6; rw [← h2]; exact .inh h3 h4 h5 rfl
    · rw [hN.eq]; simp [h1, h2]
  induction h with
  | close hc hw => exact ⟨[], _, _, rfl, hc, fun e' c' _ _ h => .close h hw⟩
  | comment hk _ hw ih =>
    obtain ⟨l, t, c, rfl, h1, h2⟩ := ih
    exact ⟨_ :: l, t, c, rfl, h1, fun e' c' a b h => .comment hk (h2 e' c' a b h) hw⟩
  | cdata hk _ hw ih =>
    obtain ⟨l, t, c, rfl, h1, h2⟩ := ih
    exact ⟨_ :: l, t, c, rfl, h1, fun e' c' a b h => .cdata hk (h2 e' c' a b h) hw⟩
  | empty hO hs _ hw ih =>
    obtain ⟨l, t, c, rfl, h1, h2⟩ := ih
    exact ⟨_ :: l, t, c, rfl, h1, fun e' c' a b h => .empty (op a b hO) hs (h2 e' c' a b h) hw⟩
  | @elem e c0 text tag toks1 toks2 k f f' hO hs hB _ hw _ ih =>
    obtain ⟨l, t, c, rfl, h1, h2⟩ := ih
    refine ⟨(text, tag) :: (toks1 ++ l), t, c, by simp, h1, fun e' c' a b h => ?_⟩
    have := Body.elem (op a b hO) hs hB (h2 e' c' a b h) hw
    simpa using this

theorem elemToks_retag {p : Option Element} {tag tag' n n' l : Str} {ps ps' : List Str} {body body' : List (Str × Str)} {c : Element}
    (h : ElemToks p tag body c) (ho : Opening tag) (ha : Angled tag) (hr : Retag tag tag' n n' l ps ps') (hc : Reclosed n' body body') :
    ∃ m : SMap, ElemToks p tag' body' { c with name := l, attrs := m } ∧ (∀ k v, m.get k = some v ↔ Gives ps' k v) ∧
      (∀ k v, c.attrs.get k = some v ↔ Gives ps k v) ∧ c.tagName = n ∧ ({ c with name := l, attrs := m } : Element).tagName = n' := by
  have ho' : Opening tag' := by unfold Opening; rw [hr.kind]; exact ho
  have hslash : c%"/>" <:+ tag' ↔ c%"/>" <:+ tag := by
    rw [(kind_prefix ho').2.2, (kind_prefix ho).2.2, hr.kind]
  cases h with
  | empty hO hs =>
    obtain ⟨m, h1, h2, h3, h4, h5⟩ := opens_retag hO ho ha hr
    generalize hb : ([] : List (Str × Str)) = b0 at hc
    cases hc with
    | empty => exact ⟨m, .empty h1 (hslash.2 hs), h2, h4, h5, h3⟩
    | close => simp at hb
  | @start c0 k _ hO hs hB =>
    obtain ⟨m, h1, h2, h3, h4, h5⟩ := opens_retag hO ho ha hr
    obtain ⟨l0, t, cl, rfl, j1, j2⟩ := body_retag hB
    generalize hb : l0 ++ [(t, cl)] = b0 at hc
    cases hc with
    | empty => simp at hb
    | close k1 k2 k3 k4 =>
      obtain ⟨e1, e2⟩ := List.append_inj' hb rfl
      simp only [List.cons.injEq, Prod.mk.injEq, and_true] at e2
      obtain ⟨rfl, rfl⟩ := e2
      subst e1
      refine ⟨m, ?_, h2, h4, h5, h3⟩
      exact .start h1 (fun h => hs (hslash.1 h)) (j2 { c0 with name := l, attrs := m } _ rfl rfl (closes_of k1 k2 (by rw [h3]; exact k4)))

/-- the whole document -/
theorem parse_retag {x : Str} {d : Document} {pre rest a body body' b : List (Str × Str)} {text tag tag' n n' l tail : Str} {ps ps' : List Str}
    (h : parseStr x = .ok d) (hp : Parts x pre rest) (hl : Lexes x (pre ++ rest) tail) (h1 : OneRoot (tagsOf rest))
    (he : ElementIn rest a text tag body b) (hr : Retag tag tag' n n' l ps ps') (hc : Reclosed n' body body') :
    ∃ (H : Hole) (e : Element) (m : SMap) (d' : Document), [.element d.root] = H.plug (.element e) ∧ H.count = (openTags (tagsOf a)).length ∧
      e.tagName = n ∧ ({ e with name := l, attrs := m } : Element).tagName = n' ∧ (∀ k v, e.attrs.get k = some v ↔ Gives ps k v) ∧ (∀ k v, m.get k = some v ↔ Gives ps' k v) ∧
      parseStr (srcOf (pre ++ a ++ (text, tag') :: (body' ++ b)) ++ tail) = .ok d' ∧
      [.element d'.root] = H.plug (.element { e with name := l, attrs := m }) ∧ d'.declaration = d.declaration ∧ d'.dtds = d.dtds := by
  obtain ⟨p, c, H, i1, i2, i3, i4⟩ := root_at h hp hl h1 he
  have htok := lexes_toks hl
  have ht : TokOk (text, tag) := htok _ (by rw [he.split]; simp)
  obtain ⟨m, j1, j2, j3, j4, j5⟩ := elemToks_retag i1 he.opening (tokOk_angled ht) hr hc
  have hbody : ∀ t ∈ body', TokOk t := by
    have hb : ∀ t ∈ body, TokOk t := fun t ht => htok t (by rw [he.split]; simp [ht])
    cases hc with
    | empty => simp
    | @close l0 t c c' _ _ k3 _ =>
      intro v hv
      rcases List.mem_append.1 hv with hv | hv
      · exact hb v (by simp [hv])
      · simp only [List.mem_singleton] at hv
        subst hv
        exact ⟨(hb (t, c) (by simp)).1, k3⟩
  obtain ⟨d', k1, k2, k3⟩ := i4 _ _ _ j1 hr.whole hbody
  exact ⟨H, c, m, d', i2, i3, j4, j5, j3, j2, k1, k2, k3⟩

end KissXml
