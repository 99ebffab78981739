import Verif.Proofs.PutIn
import Verif.Proofs.Retag
/-!
# The content of an element in a source
-/
namespace KissXml
open Spec

theorem opens_unique {p : Option Element} {tag : Str} {e e' : Element} (h : Opens p tag e) (h' : Opens p tag e') : e = e' := by
  obtain ⟨-, -, -, t, attrs, n0, n, x, q, h4, hN⟩ := h
  obtain ⟨-, -, -, t', attrs', n0', n', x', q', h4', hN'⟩ := h'
  cases h4.symm.trans h4'
  have := (parseNewElement_of hN [] 0).symm.trans (parseNewElement_of hN' [] 0)
  cases this
  rfl

/-- two elements with the same first tag in the same place differ in their content only -/
theorem elemToks_content {p : Option Element} {tag : Str} {body body' : List (Str × Str)} {c c' : Element} (h : ElemToks p tag body c)
    (h' : ElemToks p tag body' c') : ∃ l, c' = { c with children := l } := by
  cases h with
  | empty hO hs =>
    cases h' with
    | empty hO' hs' => exact ⟨_, opens_unique hO' hO⟩
    | start _ hs' _ => exact absurd hs hs'
  | start hO hs hB =>
    cases h' with
    | empty _ hs' => exact absurd hs' hs
    | @start c1 k _ hO' hs' hB' => cases opens_unique hO hO'; exact ⟨_, rfl⟩

/-- the condition of `elemToks_move` -/
theorem opens_none_pfx {tag : Str} {e : Element} (h : Opens none tag e) :
    ∀ p, e.pfx = some p → (e.attrs.get (c%"xmlns:" ++ p)).isSome := by
  intro q hq
  have := (opens_ns_root h).1 q hq
  rw [← this.1]
  exact this.2

theorem lexes_source {x tail : Str} {toks : List (Str × Str)} (h : Lexes x toks tail) : x = srcOf toks ++ tail := by
  induction h with
  | done h => rfl
  | tag _ _ _ hx ih => subst ih; simp [srcOf, *]

/-- an element replaced among the tags of a document with one root -/
theorem oneRoot_swap {a m m' b : List Str} (h : OneRoot (a ++ (m ++ b))) (hne : m ≠ []) (h0 : depth m = 0) (hm' : OneRoot m')
    (h0' : depth m' = 0) : OneRoot (a ++ (m' ++ b)) := by
  have hb : a = [] → b = [] := by
    rintro rfl
    by_contra hb
    have := h m b rfl hne hb
    omega
  have ha : a ≠ [] → 0 < depth a := fun ha => h a (m ++ b) rfl ha (by simp [hne])
  intro u v huv hu hv
  rcases List.append_eq_append_iff.1 huv with ⟨w, rfl, hw⟩ | ⟨w, rfl, rfl⟩
  · rcases List.append_eq_append_iff.1 hw with ⟨z, rfl, rfl⟩ | ⟨z, rfl, rfl⟩
    · have := h (a ++ (m ++ z)) v (by simp) (by simp [hne]) hv
      simp only [depth_append] at this ⊢
      omega
    · by_cases ha0 : a = []
      · subst ha0
        have hz : z ≠ [] := by
          rintro rfl
          simp [hb rfl] at hv
        exact hm' w z rfl (by simpa using hu) hz
      · have h2 := ha ha0
        rw [depth_append]
        by_cases hw : w = []
        · subst hw; simpa [depth] using h2
        · by_cases hz : z = []
          · subst hz; simp only [List.append_nil] at h0'; omega
          · have := hm' w z rfl hw hz
            omega
  · by_cases hw : w = []
    · subst hw
      exact by simpa using ha (by simpa using hu)
    · exact h u (w ++ (m ++ b)) (by simp) hu (by simp [hw])

/-- the same element in two documents that differ in it only -/
theorem content_frame {x x' : Str} {d d' : Document} {pre rest rest' a body body' b : List (Str × Str)} {text tag tag' tail : Str}
    (h : parseStr x = .ok d) (hp : Parts x pre rest) (hl : Lexes x (pre ++ rest) tail) (h1 : OneRoot (tagsOf rest))
    (he : ElementIn rest a text tag body b)
    (h' : parseStr x' = .ok d') (hp' : Parts x' pre rest') (hl' : Lexes x' (pre ++ rest') tail) (h1' : OneRoot (tagsOf rest'))
    (he' : ElementIn rest' a text tag' body' b) :
    ∃ (H : Hole) (e e' : Element), [.element d.root] = H.plug (.element e) ∧ [.element d'.root] = H.plug (.element e') ∧
      H.count = (openTags (tagsOf a)).length ∧ d'.declaration = d.declaration ∧ d'.dtds = d.dtds ∧
      (tag' = tag → ∃ l, e' = { e with children := l }) := by
  obtain ⟨p, c, H, i0, i1, i2, i3, i4⟩ := root_at_parent h hp hl h1 he
  obtain ⟨p', c', H', j0, j1, j2, j3, j4⟩ := root_at_parent h' hp' hl' h1' he'
  have htok := lexes_toks hl'
  have hpfx : p = none → ∀ q, c'.pfx = some q → (c'.attrs.get (c%"xmlns:" ++ q)).isSome := by
    intro hn
    obtain rfl := j0.2 (i0.1 hn)
    obtain ⟨c0, hO, hc0⟩ := elemToks_opens j1
    intro q hq
    rw [hc0.attrs]
    exact opens_none_pfx hO q (by rw [← hc0.pfx, hq])
  obtain ⟨c'', k1, -⟩ := elemToks_move j1 p hpfx
  obtain ⟨d'', k2, k3, k4, k5⟩ := i4 _ _ _ k1 (htok (text, tag') (by simp [he'.split])).2 (fun t ht => htok t (by simp [he'.split, ht]))
  have hx : x' = srcOf (pre ++ a ++ (text, tag') :: (body' ++ b)) ++ tail := by
    rw [lexes_source hl', he'.split]; simp
  rw [← hx, h'] at k2
  cases k2
  refine ⟨H, c, c'', i2, k3, i3, k4, k5, ?_⟩
  rintro rfl
  exact elemToks_content i1 k1

/-- another text in the place of all the content -/
theorem content_text {x : Str} {d : Document} {pre rest a c b : List (Str × Str)} {text tag t0 close tail : Str}
    (h : parseStr x = .ok d) (hp : Parts x pre rest) (hl : Lexes x (pre ++ rest) tail) (h1 : OneRoot (tagsOf rest))
    (he : ElementIn rest a text tag (c ++ [(t0, close)]) b) :
    ∃ (H : Hole) (e : Element), [.element d.root] = H.plug (.element e) ∧ H.count = (openTags (tagsOf a)).length ∧
      ∀ t l, StandsFor t l → '<' ∉ t → ∃ d', parseStr (srcOf (pre ++ a ++ (text, tag) :: (t, close) :: b) ++ tail) = .ok d' ∧
        [.element d'.root] = H.plug (.element { e with children := l }) ∧ d'.declaration = d.declaration ∧ d'.dtds = d.dtds := by
  obtain ⟨p, e, H, i1, i2, i3, i4⟩ := root_at h hp hl h1 he
  have htok := lexes_toks hl
  refine ⟨H, e, i2, i3, ?_⟩
  intro t l ht hlt
  generalize hb : c ++ [(t0, close)] = body at i1
  cases i1 with
  | empty _ _ => simp at hb
  | @start c0 k _ hO hs hB =>
    obtain ⟨l0, t1, cl, e1, hcl, -⟩ := body_retag hB
    rw [← hb] at e1
    obtain ⟨rfl, e2⟩ := List.append_inj' e1 rfl
    simp only [List.cons.injEq, Prod.mk.injEq, and_true] at e2
    obtain ⟨rfl, rfl⟩ := e2
    obtain ⟨g, w1, w2⟩ := stands_iff.1 ht .nil
    obtain ⟨d', k1, k2, k3⟩ := i4 tag [(t, close)] _ (.start hO hs (.close hcl w1)) (htok (text, tag) (by simp [he.split])).2 (by
      intro v hv
      simp only [List.mem_singleton] at hv
      subst hv
      exact ⟨hlt, (htok (t0, close) (by simp [he.split])).2⟩)
    refine ⟨d', by simpa using k1, ?_, k3⟩
    rw [k2, w2]
    simp [plain]

/-- and it must stand for a text -/
theorem content_text_out {x : Str} {d : Document} {pre rest a c b : List (Str × Str)} {text tag t0 close tail : Str}
    (h : parseStr x = .ok d) (hp : Parts x pre rest) (hl : Lexes x (pre ++ rest) tail) (h1 : OneRoot (tagsOf rest))
    (he : ElementIn rest a text tag (c ++ [(t0, close)]) b) {t : Str} (hlt : '<' ∉ t) {d' : Document}
    (h' : parseStr (srcOf (pre ++ a ++ (text, tag) :: (t, close) :: b) ++ tail) = .ok d') : ∃ l, StandsFor t l := by
  have htok := lexes_toks hl
  have hk : kind tag = .start ∧ depth [close] = -1 := by
    obtain ⟨p, e, H, i1, -⟩ := root_at h hp hl h1 he
    generalize hb : c ++ [(t0, close)] = body at i1
    cases i1 with
    | empty _ _ => simp at hb
    | @start c0 k _ hO hs hB =>
      refine ⟨kind_start hO hs, ?_⟩
      obtain ⟨l0, t1, cl, e1, hcl, -⟩ := body_retag hB
      rw [← hb] at e1
      obtain ⟨rfl, e2⟩ := List.append_inj' e1 rfl
      simp only [List.cons.injEq, Prod.mk.injEq, and_true] at e2
      obtain ⟨rfl, rfl⟩ := e2
      simp [depth, delta, kind_close hcl.slash]
  have hd0 : depth [tag, close] = 0 := by
    rw [show [tag, close] = [tag] ++ [close] from rfl, depth_append, hk.2, depth_cons, delta_start hk.1]
    rfl
  have hone : OneRoot [tag, close] := by
    intro u v huv hu hv
    match u, v, huv with
    | [_], _, huv =>
      cases huv
      simp [depth, delta, hk.1]
    | [], _, _ => exact absurd rfl hu
    | [_, _], [], _ => exact absurd rfl hv
  have hlex : Lexes (srcOf (pre ++ a ++ (text, tag) :: (t, close) :: b) ++ tail) (pre ++ (a ++ (text, tag) :: (t, close) :: b)) tail := by
    have := lexes_flat (l := pre ++ (a ++ (text, tag) :: (t, close) :: b)) (tail := tail) (by
      intro v hv
      simp only [List.mem_append, List.mem_cons] at hv
      rcases hv with hv | hv | rfl | rfl | hv
      · exact htok v (by simp [hv])
      · exact htok v (by simp [he.split, hv])
      · exact htok _ (by simp [he.split])
      · exact ⟨hlt, (htok (t0, close) (by simp [he.split])).2⟩
      · exact htok v (by simp [he.split, hv])) (lexes_tail_free hl)
    rw [List.append_assoc]
    exact this
  have hparts : Parts (srcOf (pre ++ a ++ (text, tag) :: (t, close) :: b) ++ tail) pre (a ++ (text, tag) :: (t, close) :: b) := by
    refine ⟨⟨_, hlex⟩, hp.prolog, ?_⟩
    intro v r hv
    cases a with
    | nil => cases hv; exact hp.root (text, tag) _ (by rw [he.split]; rfl)
    | cons u a => cases hv; exact hp.root _ _ (by rw [he.split]; rfl)
  have hroot : OneRoot (tagsOf (a ++ (text, tag) :: (t, close) :: b)) := by
    have := oneRoot_swap (a := tagsOf a) (m := tag :: tagsOf (c ++ [(t0, close)])) (b := tagsOf b)
      (by rw [he.split] at h1; simpa [tagsOf] using h1) (by simp) he.closed hone hd0
    simpa [tagsOf] using this
  obtain ⟨p, e, H, i1, -⟩ := root_at (a := a) (text := text) (tag := tag) (body := [(t, close)]) (b := b) h' hparts hlex hroot
    ⟨rfl, he.opening, hone, hd0⟩
  generalize hb : [(t, close)] = body at i1
  cases i1 with
  | empty _ _ => simp at hb
  | @start c0 k _ hO hs hB =>
    subst hb
    obtain ⟨g, hw, -⟩ := body_retext hB
    obtain ⟨l, -, -, hl⟩ := withText_nodes hw
    exact ⟨l, stands_iff.2 hl⟩

end KissXml
