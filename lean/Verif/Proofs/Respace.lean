import Verif.Spec.Respace
import Verif.Proofs.Doctype
/-!
# Other white space: strings
-/
namespace KissXml
open Spec

variable {σ : Char → Str}

@[simp] theorem respace_nil : respace σ [] = [] := rfl

theorem respace_cons (c : Char) (s : Str) : respace σ (c :: s) = σ c ++ respace σ s := rfl

theorem respace_append (a b : Str) : respace σ (a ++ b) = respace σ a ++ respace σ b := List.flatMap_append ..

theorem sp_ws {c : Char} (h : Sp c) : isWs c = true := by rcases h with rfl | rfl | rfl | rfl <;> decide

theorem sp_quote {c : Char} (h : Sp c) : c ≠ '"' ∧ c ≠ '\'' := by rcases h with rfl | rfl | rfl | rfl <;> decide

theorem sp_size {c : Char} (h : Sp c) : c.utf8Size = 1 := by rcases h with rfl | rfl | rfl | rfl <;> decide

namespace Spec.Respacing
variable (hσ : Respacing σ)
include hσ

theorem fix {p : Str} (h : ∀ c ∈ p, ¬ Sp c) : respace σ p = p := by
  induction p with
  | nil => rfl
  | cons c p ih =>
    rw [respace_cons, hσ.other c (h c (by simp)), ih (fun x hx => h x (by simp [hx]))]; rfl

theorem cons_other {c : Char} (h : ¬ Sp c) (s : Str) : respace σ (c :: s) = c :: respace σ s := by
  rw [respace_cons, hσ.other c h]; rfl

theorem eq_nil {s : Str} (h : respace σ s = []) : s = [] := by
  cases s with
  | nil => rfl
  | cons c s =>
    rw [respace_cons, List.append_eq_nil_iff] at h
    by_cases hc : Sp c
    · exact absurd h.1 (hσ.nonempty c hc)
    · rw [hσ.other c hc] at h; cases h.1

/-- what stands at a place of the new string -/
theorem at_any {s a' r' : Str} {c : Char} (h : respace σ s = a' ++ c :: r') :
    ∃ a d r u v, s = a ++ d :: r ∧ σ d = u ++ c :: v ∧ a' = respace σ a ++ u ∧ r' = v ++ respace σ r := by
  induction s generalizing a' with
  | nil => simp at h
  | cons d s ih =>
    rw [respace_cons, List.append_eq_append_iff] at h
    rcases h with ⟨l, rfl, h⟩ | ⟨l, hd, h⟩
    · obtain ⟨a, d', r, u, v, rfl, h1, rfl, rfl⟩ := ih h
      exact ⟨d :: a, d', r, u, v, rfl, h1, by rw [respace_cons, List.append_assoc], rfl⟩
    · cases l with
      | nil =>
        rw [List.nil_append] at h
        obtain ⟨a, d', r, u, v, rfl, h1, h2, rfl⟩ := ih (a' := []) h.symm
        exact ⟨d :: a, d', r, u, v, rfl, h1, by rw [respace_cons, hd, List.append_nil, List.append_assoc, ← h2, List.append_nil], rfl⟩
      | cons x l =>
        rw [List.cons_append, List.cons.injEq] at h
        obtain ⟨rfl, rfl⟩ := h
        exact ⟨[], d, s, a', l, rfl, hd, rfl, rfl⟩

theorem at_char {s a' r' : Str} {c : Char} (hc : ¬ Sp c) (h : respace σ s = a' ++ c :: r') :
    ∃ a r, s = a ++ c :: r ∧ a' = respace σ a ∧ r' = respace σ r := by
  obtain ⟨a, d, r, u, v, rfl, h1, rfl, rfl⟩ := hσ.at_any h
  by_cases hd : Sp d
  · exact absurd (hσ.space d hd c (by rw [h1]; simp)) hc
  · rw [hσ.other d hd] at h1
    cases u with
    | nil =>
      simp only [List.nil_append, List.cons.injEq] at h1
      obtain ⟨rfl, rfl⟩ := h1
      exact ⟨a, r, rfl, by simp, by simp⟩
    | cons x u => simp at h1

theorem at_start {p : Str} (hp : ∀ c ∈ p, ¬ Sp c) {s r' : Str} (h : respace σ s = p ++ r') : ∃ r, s = p ++ r ∧ r' = respace σ r := by
  induction p generalizing s with
  | nil => exact ⟨s, rfl, h.symm⟩
  | cons c p ih =>
    obtain ⟨a, r, rfl, h1, h2⟩ := hσ.at_char (a' := []) (hp c (by simp)) h
    obtain rfl := hσ.eq_nil h1.symm
    obtain ⟨r1, rfl, h3⟩ := ih (fun x hx => hp x (by simp [hx])) h2.symm
    exact ⟨r1, rfl, h3⟩

theorem at_pat {p : Str} (hp : ∀ c ∈ p, ¬ Sp c) (hn : p ≠ []) {s a' r' : Str} (h : respace σ s = a' ++ p ++ r') :
    ∃ a r, s = a ++ p ++ r ∧ a' = respace σ a ∧ r' = respace σ r := by
  cases p with
  | nil => exact absurd rfl hn
  | cons c p =>
    rw [List.append_assoc] at h
    obtain ⟨a, r, rfl, h1, h2⟩ := hσ.at_char (hp c (by simp)) h
    obtain ⟨r1, rfl, h3⟩ := hσ.at_start (fun x hx => hp x (by simp [hx])) h2.symm
    exact ⟨a, r1, by simp, h1, h3⟩

theorem pre_iff {p : Str} (hp : ∀ c ∈ p, ¬ Sp c) {s : Str} : p <+: respace σ s ↔ p <+: s := by
  constructor
  · rintro ⟨r', h⟩
    obtain ⟨r, rfl, -⟩ := hσ.at_start hp h.symm
    exact ⟨r, rfl⟩
  · rintro ⟨r, rfl⟩
    exact ⟨respace σ r, by rw [respace_append, hσ.fix hp]⟩

theorem suf_iff {p : Str} (hp : ∀ c ∈ p, ¬ Sp c) {s : Str} : p <:+ respace σ s ↔ p <:+ s := by
  constructor
  · rintro ⟨r', h⟩
    by_cases hn : p = []
    · subst hn; exact List.nil_suffix
    · obtain ⟨a, r, rfl, -, h3⟩ := hσ.at_pat hp hn (r' := []) (by rw [List.append_nil]; exact h.symm)
      rw [hσ.eq_nil h3.symm]
      exact ⟨a, by simp⟩
  · rintro ⟨r, rfl⟩
    exact ⟨respace σ r, by rw [respace_append, hσ.fix hp]⟩

theorem inf_iff {p : Str} (hp : ∀ c ∈ p, ¬ Sp c) {s : Str} : p <:+: respace σ s ↔ p <:+: s := by
  constructor
  · rintro ⟨a', r', h⟩
    by_cases hn : p = []
    · subst hn; exact List.nil_infix
    · obtain ⟨a, r, rfl, -, -⟩ := hσ.at_pat hp hn h.symm
      exact ⟨a, r, rfl⟩
  · rintro ⟨a, r, rfl⟩
    exact ⟨respace σ a, respace σ r, by rw [respace_append, respace_append, hσ.fix hp]⟩

theorem mem_iff {c : Char} (hc : ¬ Sp c) {s : Str} : c ∈ respace σ s ↔ c ∈ s := by
  rw [← List.singleton_infix_iff, ← List.singleton_infix_iff]
  exact hσ.inf_iff (by simpa using hc)

theorem infix_of {t s : Str} (h : t <:+: s) : respace σ t <:+: respace σ s := by
  obtain ⟨a, b, rfl⟩ := h
  exact ⟨respace σ a, respace σ b, by rw [respace_append, respace_append]⟩

/-- where a character of the new string comes from -/
theorem mem {c : Char} {s : Str} (h : c ∈ respace σ s) : (c ∈ s ∧ ¬ Sp c) ∨ (Sp c ∧ ∃ d ∈ s, Sp d) := by
  unfold respace at h
  obtain ⟨d, hd, hc⟩ := List.mem_flatMap.1 h
  by_cases hs : Sp d
  · exact .inr ⟨hσ.space d hs c hc, d, hd, hs⟩
  · rw [hσ.other d hs, List.mem_singleton] at hc
    subst hc
    exact .inl ⟨hd, hs⟩

theorem allWs {s : Str} (h : AllWs s) : AllWs (respace σ s) := by
  intro c hc
  rcases hσ.mem hc with ⟨h1, -⟩ | ⟨h1, -⟩
  · exact h c h1
  · exact sp_ws h1

theorem all_ws (s : Str) : (respace σ s).all isWs = s.all isWs := by
  rw [Bool.eq_iff_iff, List.all_eq_true, List.all_eq_true]
  constructor
  · intro h c hc
    by_cases hs : Sp c
    · exact sp_ws hs
    · exact h c ((hσ.mem_iff hs).2 hc)
  · exact fun h => hσ.allWs h

/-- the quote state is that of a quote, if any -/
def _root_.KissXml.QOk (q : Option Char) : Prop := ∀ x, q = some x → x = '"' ∨ x = '\''

omit hσ in
theorem _root_.KissXml.qok_step {q : Option Char} (h : QOk q) (c : Char) : QOk (qstep q c) := by
  cases q with
  | none =>
    intro x hx
    simp only [qstep] at hx
    split at hx
    · rename_i hc; cases hx; exact hc
    · cases hx
  | some y =>
    intro x hx
    simp only [qstep] at hx
    split at hx
    · cases hx
    · cases hx; exact h _ rfl

omit hσ in
theorem _root_.KissXml.qok_none : QOk none := fun _ h => by cases h

omit hσ in
theorem _root_.KissXml.qstep_sp {q : Option Char} (h : QOk q) {c : Char} (hc : Sp c) : qstep q c = q := by
  obtain ⟨h1, h2⟩ := sp_quote hc
  cases q with
  | none => simp [qstep, h1, h2]
  | some y =>
    have : c ≠ y := by
      rcases h y rfl with rfl | rfl
      · exact h1
      · exact h2
    simp [qstep, this]

omit hσ in
theorem _root_.KissXml.qstate_sp {q : Option Char} (h : QOk q) {u : Str} (hu : ∀ c ∈ u, Sp c) : qstate q u = q := by
  induction u with
  | nil => rfl
  | cons c u ih =>
    rw [qstate_cons, qstep_sp h (hu c (by simp))]
    exact ih (fun x hx => hu x (by simp [hx]))

omit hσ in
theorem _root_.KissXml.unquoted_sp {q : Option Char} (h : QOk q) {x : Char} (hx : ¬ Sp x) {u : Str} (hu : ∀ c ∈ u, Sp c) :
    unquoted x q u = 0 := by
  induction u with
  | nil => rfl
  | cons c u ih =>
    have : c ≠ x := fun e => hx (e ▸ hu c (by simp))
    simp only [unquoted, qstep_sp h (hu c (by simp)), this, and_false, if_false]
    simpa using ih (fun x hx => hu x (by simp [hx]))

theorem qstate_eq {q : Option Char} (h : QOk q) (s : Str) : qstate q (respace σ s) = qstate q s := by
  induction s generalizing q with
  | nil => rfl
  | cons c s ih =>
    rw [respace_cons, qstate_append, qstate_cons]
    by_cases hc : Sp c
    · rw [qstate_sp h (hσ.space c hc), qstep_sp h hc]
      exact ih h
    · rw [hσ.other c hc]
      exact ih (qok_step h c)

theorem unquoted_eq {q : Option Char} (h : QOk q) {x : Char} (hx : ¬ Sp x) (s : Str) :
    unquoted x q (respace σ s) = unquoted x q s := by
  induction s generalizing q with
  | nil => rfl
  | cons c s ih =>
    rw [respace_cons, unquoted_app]
    by_cases hc : Sp c
    · have : c ≠ x := fun e => hx (e ▸ hc)
      rw [qstate_sp h (hσ.space c hc), unquoted_sp h hx (hσ.space c hc), ih h]
      simp [unquoted, this, qstep_sp h hc]
    · rw [hσ.other c hc]
      show _ + unquoted x (qstep q c) _ = _
      rw [ih (qok_step h c)]
      simp [unquoted]

theorem length_le {a b s : Str} (ha : a <+: s) (hb : b <+: s) (h : a.length ≤ b.length) : (respace σ a).length ≤ (respace σ b).length := by
  obtain ⟨t, rfl⟩ := List.prefix_of_prefix_length_le ha hb h
  rw [respace_append, List.length_append]; omega

omit hσ in
theorem _root_.KissXml.gt_not_sp : ∀ c ∈ c%">", ¬ Sp c := by decide

theorem firstAt {p a s : Str} (hp : ∀ c ∈ p, ¬ Sp c) (hn : p ≠ []) (h : FirstAt p a s) : FirstAt p (respace σ a) (respace σ s) := by
  constructor
  · obtain ⟨t, ht⟩ := h.here
    exact ⟨respace σ t, by rw [← ht, respace_append, respace_append, hσ.fix hp]⟩
  · rintro a' ⟨t', ht'⟩
    obtain ⟨b, t, rfl, rfl, -⟩ := hσ.at_pat hp hn ht'.symm
    exact hσ.length_le ((List.prefix_append a p).trans h.here) ⟨p ++ t, by simp⟩ (h.first b ⟨t, rfl⟩)

theorem firstUnquoted {p a s : Str} (hp : ∀ c ∈ p, ¬ Sp c) (hn : p ≠ []) (h : FirstUnquoted none p a s) :
    FirstUnquoted none p (respace σ a) (respace σ s) := by
  constructor
  · obtain ⟨t, ht⟩ := h.here
    exact ⟨respace σ t, by rw [← ht, respace_append, respace_append, hσ.fix hp]⟩
  · rw [hσ.qstate_eq qok_none]; exact h.outside
  · rintro a' ⟨t', ht'⟩ hq
    obtain ⟨b, t, rfl, rfl, -⟩ := hσ.at_pat hp hn ht'.symm
    rw [hσ.qstate_eq qok_none] at hq
    exact hσ.length_le ((List.prefix_append a p).trans h.here) ⟨p ++ t, by simp⟩ (h.first b ⟨t, rfl⟩ hq)

theorem firstClosing {a s : Str} (h : FirstClosing a s) : FirstClosing (respace σ a) (respace σ s) := by
  have hp : ∀ c ∈ ['>'], ¬ Sp c := by decide
  constructor
  · obtain ⟨t, ht⟩ := h.here
    exact ⟨respace σ t, by rw [← ht, respace_append, respace_append, hσ.fix hp]⟩
  · rw [hσ.qstate_eq qok_none]; exact h.outside
  · rw [hσ.unquoted_eq qok_none (by decide), hσ.unquoted_eq qok_none (by decide)]; exact h.balanced
  · rintro a' ⟨t', ht'⟩ hq hlt
    obtain ⟨b, t, rfl, rfl, -⟩ := hσ.at_pat hp (by simp) ht'.symm
    rw [hσ.qstate_eq qok_none] at hq
    rw [hσ.unquoted_eq qok_none (by decide), hσ.unquoted_eq qok_none (by decide)]
    refine h.first b ⟨t, rfl⟩ hq ?_
    by_contra hle
    have := hσ.length_le ((List.prefix_append a _).trans h.here) (b := b) ⟨['>'] ++ t, by simp⟩ (by omega)
    omega

theorem tagAt {s t : Str} (h : TagAt s t) : TagAt (respace σ s) (respace σ t) := by
  cases h with
  | @comment a h1 h2 =>
    rw [respace_append, hσ.fix (p := c%"-->") (by decide)]
    exact .comment ((hσ.pre_iff (by decide)).2 h1) (hσ.firstAt (by decide) (by decide) h2)
  | @pi a u h1 h2 =>
    subst h1
    rw [respace_append, respace_append, respace_append, hσ.fix (p := c%"<?") (by decide), hσ.fix (p := c%"?>") (by decide)]
    exact .pi rfl (hσ.firstUnquoted (by decide) (by decide) h2)
  | @cdata a h1 h2 =>
    rw [respace_append, hσ.fix (p := c%"]]>") (by decide)]
    exact .cdata ((hσ.pre_iff (by decide)).2 h1) (hσ.firstAt (by decide) (by decide) h2)
  | @decl a u h1 h2 h3 h4 =>
    have e : respace σ s = c%"<!" ++ respace σ u := by rw [h1, respace_append, hσ.fix (p := c%"<!") (by decide)]
    rw [respace_append, respace_append, hσ.fix (p := c%"<!") (by decide), hσ.fix (p := c%">") (by decide)]
    exact .decl e (by rwa [hσ.pre_iff (by decide)]) (by rwa [hσ.pre_iff (by decide)]) (hσ.firstClosing h4)
  | @elem a u h1 h2 h3 h4 =>
    have e : respace σ s = c%"<" ++ respace σ u := by rw [h1, respace_append, hσ.fix (p := c%"<") (by decide)]
    rw [respace_append, respace_append, hσ.fix (p := c%"<") (by decide), hσ.fix (p := c%">") (by decide)]
    exact .elem e (by rwa [hσ.pre_iff (by decide)]) (by rwa [hσ.pre_iff (by decide)]) (hσ.firstUnquoted (by decide) (by decide) h4)

/-- the tokens with their white space replaced -/
def _root_.KissXml.respaceToks (σ : Char → Str) (toks : List (Str × Str)) : List (Str × Str) :=
  toks.map fun t => (respace σ t.1, respace σ t.2)

theorem lexes {x tail : Str} {toks : List (Str × Str)} (h : Lexes x toks tail) : Lexes (respace σ x) (respaceToks σ toks) (respace σ tail) := by
  induction h with
  | done h => exact .done (by rwa [hσ.mem_iff (by decide)])
  | tag h1 h2 h3 _ ih =>
    rw [respace_append]
    exact .tag (by rwa [hσ.mem_iff (by decide)]) (hσ.tagAt h2) (by rw [h3, respace_append]) ih

/-! ## tags -/

theorem firstWord {s n : Str} (h : FirstWord s n) : FirstWord (respace σ s) (respace σ n) := by
  obtain ⟨h1, h2, r, rfl, h3⟩ := h
  refine ⟨fun e => h1 (hσ.eq_nil e), ?_, respace σ r, respace_append .., ?_⟩
  · intro a' c b' he hq
    obtain ⟨a, d, b, u, v, rfl, hd, rfl, -⟩ := hσ.at_any he
    by_cases hs : Sp d
    · exfalso
      have hu : ∀ x ∈ u, Sp x := fun x hx => hσ.space d hs x (by rw [hd]; simp [hx])
      rw [qstate_append, hσ.qstate_eq qok_none] at hq
      have hqa : QOk (qstate none a) := by
        have : ∀ (a : Str) (q : Option Char), QOk q → QOk (qstate q a) := by
          intro a
          induction a with
          | nil => exact fun q h => h
          | cons c a ih => exact fun q h => ih _ (qok_step h c)
        exact this a none qok_none
      rw [qstate_sp hqa hu] at hq
      have := h2 a d b rfl hq
      rw [sp_ws hs] at this
      cases this
    · rw [hσ.other d hs] at hd
      cases u with
      | nil =>
        simp only [List.nil_append, List.cons.injEq] at hd
        obtain ⟨rfl, -⟩ := hd
        rw [List.append_nil, hσ.qstate_eq qok_none] at hq
        exact h2 a d b rfl hq
      | cons x u => simp at hd
  · rcases h3 with rfl | ⟨c, r', rfl, hc, hq⟩
    · exact .inl rfl
    · right
      by_cases hs : Sp c
      · have hne := hσ.nonempty c hs
        cases hc' : σ c with
        | nil => exact absurd hc' hne
        | cons y l =>
          exact ⟨y, l ++ respace σ r', by rw [respace_cons, hc']; rfl, sp_ws (hσ.space c hs y (by rw [hc']; simp)), by
            rw [hσ.qstate_eq qok_none]; exact hq⟩
      · exact ⟨c, respace σ r', hσ.cons_other hs _, hc, by rw [hσ.qstate_eq qok_none]; exact hq⟩

theorem words {s : Str} {l : List Str} (h : Words s l) : Words (respace σ s) (l.map (respace σ)) := by
  induction h with
  | done h => exact .done (hσ.allWs h)
  | word h1 h2 _ ih =>
    rw [respace_append, respace_append]
    have := hσ.firstWord h2
    rw [respace_append] at this
    exact .word (hσ.allWs h1) this ih

theorem split (s : Str) : quoteAwareSplit (respace σ s) = (quoteAwareSplit s).map (respace σ) :=
  words_unique (words_split _ _ (le_refl _)) (hσ.words (words_split _ _ (le_refl _)))

theorem needsMerge_eq (s : Str) (l : List Str) : needsMerge (respace σ s) (l.map (respace σ)) = needsMerge s l := by
  cases l with
  | nil => rfl
  | cons f l =>
    show (endsWith _ _ || startsWith _ _) = (endsWith _ _ || startsWith _ _)
    have h1 : endsWith (respace σ s) c%"=" = endsWith s c%"=" := by
      rw [Bool.eq_iff_iff, endsWith_iff, endsWith_iff, hσ.suf_iff (by decide)]
    have h2 : startsWith (respace σ f) c%"=" = startsWith f c%"=" := by
      rw [Bool.eq_iff_iff, startsWith_iff, startsWith_iff, hσ.pre_iff (by decide)]
    rw [h1, h2]

theorem join (l : List Str) : joinLoop (l.map (respace σ)) = (joinLoop l).map (respace σ) := by
  induction l using joinLoop.induct with
  | case1 => rfl
  | case2 s => rfl
  | case3 s a h =>
    have h' := hσ.needsMerge_eq s [a]
    simp only [List.map_cons, List.map_nil] at h'
    simp [joinLoop, h', h, respace_append]
  | case4 s a h ih =>
    have h' := hσ.needsMerge_eq s [a]
    simp only [List.map_cons, List.map_nil] at h' ih
    simp [joinLoop, h', h]
  | case5 s a b rest h h2 ih =>
    have h' := hσ.needsMerge_eq s (a :: b :: rest)
    have h2' := hσ.needsMerge_eq (s ++ a) (b :: rest)
    simp only [List.map_cons, respace_append] at h' h2'
    simp [joinLoop, h', h, h2', h2, respace_append, ih]
  | case6 s a b rest h h2 ih =>
    have h' := hσ.needsMerge_eq s (a :: b :: rest)
    have h2' := hσ.needsMerge_eq (s ++ a) (b :: rest)
    simp only [List.map_cons, respace_append] at h' h2' ih
    simp [joinLoop, h', h, h2', h2, respace_append, ih]
  | case7 s a b rest h ih =>
    have h' := hσ.needsMerge_eq s (a :: b :: rest)
    simp only [List.map_cons] at h' ih
    simp [joinLoop, h', h, ih]

theorem trimmed {s : Str} (h : Trimmed s) : Trimmed (respace σ s) := by
  constructor
  · intro c hc
    cases s with
    | nil => simp at hc
    | cons d s =>
      have hd := h.1 d rfl
      have hs : ¬ Sp d := fun hs => by rw [sp_ws hs] at hd; cases hd
      rw [hσ.cons_other hs] at hc
      cases hc; exact hd
  · intro c hc
    rcases List.eq_nil_or_concat s with rfl | ⟨s, d, rfl⟩
    · simp at hc
    · have hd := h.2 d (by simp)
      have hs : ¬ Sp d := fun hs => by rw [sp_ws hs] at hd; cases hd
      rw [List.concat_eq_append, respace_append, hσ.fix (p := [d]) (by simpa using hs)] at hc
      simp at hc
      subst hc; exact hd

theorem inner {tag s : Str} (h : Inner tag s) : Inner (respace σ tag) (respace σ s) := by
  obtain ⟨a, m, b, w1, w2, rfl, ha, hb, rfl, h1, h2, ht⟩ := h
  have fa : respace σ a = a := hσ.fix (by rcases ha with rfl | ⟨rfl, -⟩ <;> decide)
  have fb : respace σ b = b := hσ.fix (by rcases hb with rfl | ⟨rfl, -⟩ <;> decide)
  refine ⟨a, respace σ (w1 ++ s ++ w2), b, respace σ w1, respace σ w2, ?_, ?_, ?_, ?_, hσ.allWs h1, hσ.allWs h2, hσ.trimmed ht⟩
  · rw [respace_append, respace_append, fa, fb]
  · rcases ha with rfl | ⟨rfl, ha⟩
    · exact .inl rfl
    · exact .inr ⟨rfl, by rwa [hσ.pre_iff (by decide)]⟩
  · rcases hb with rfl | ⟨rfl, hb⟩
    · exact .inl rfl
    · exact .inr ⟨rfl, by rwa [hσ.suf_iff (by decide)]⟩
  · rw [respace_append, respace_append]

theorem angled {t : Str} (h : Angled t) : Angled (respace σ t) := by
  obtain ⟨u, rfl⟩ := h
  exact ⟨respace σ u, by rw [respace_append, respace_append, hσ.fix (p := c%"<") (by decide), hσ.fix (p := c%">") (by decide)]⟩

theorem strip {tag s : Str} (ha : Angled tag) (h : stripTag tag = some s) : stripTag (respace σ tag) = some (respace σ s) :=
  (inner_iff.1 (hσ.inner (inner_iff.2 ⟨h, ha⟩))).1

omit hσ in
theorem _root_.KissXml.code_not_sp {c : Char} (h : CodeIn startCodes c ∨ CodeIn moreCodes c) : ¬ Sp c := by
  intro hs
  rcases hs with rfl | rfl | rfl | rfl <;> exact absurd h (by decide)

omit hσ in
theorem _root_.KissXml.plainName_not_sp {n : Str} (h : PlainName n) : ∀ c ∈ n, ¬ Sp c := by
  obtain ⟨c, t, rfl, hc, ht⟩ := h
  intro x hx
  rw [List.mem_cons] at hx
  rcases hx with rfl | hx
  · exact code_not_sp (.inl hc)
  · exact code_not_sp (ht x hx)

omit hσ in
theorem _root_.KissXml.validName_not_sp {n : Str} (h : validName n = true) : ∀ c ∈ n, ¬ Sp c := by
  obtain ⟨c, t, rfl, hc, ht⟩ := validName_iff.1 h
  intro x hx hs
  rw [List.mem_cons] at hx
  rcases hx with rfl | hx
  · rcases hs with rfl | rfl | rfl | rfl <;> revert hc <;> decide
  · have := ht x hx
    rw [sp_ws hs] at this; cases this

theorem tagPattern {t : Str} (h : TagPattern t) : TagPattern (respace σ t) := by
  obtain ⟨a, n, as, w, b, ha, hn, has, hw, hb, rfl⟩ := h
  refine ⟨a, n, as.map (respace σ), respace σ w, b, ha, hn, ?_, hσ.allWs hw, hb, ?_⟩
  · intro p hp
    obtain ⟨p0, hp0, rfl⟩ := List.mem_map.1 hp
    obtain ⟨w, k, q, raw, h1, h2, h3, h4, rfl⟩ := has p0 hp0
    refine ⟨respace σ w, k, q, respace σ raw, hσ.allWs h1, fun e => h2 (hσ.eq_nil e), h3, h4, ?_⟩
    have hq : respace σ [q] = [q] := hσ.fix (by rcases h4 with rfl | rfl <;> decide)
    simp only [respace_append, hσ.fix (plainName_not_sp h3), hσ.fix (p := c%"=") (by decide), hq]
  · have fa : respace σ a = a := hσ.fix (by rcases ha with rfl | rfl <;> decide)
    have fb : respace σ b = b := hσ.fix (by rcases hb with rfl | rfl <;> decide)
    have ff : respace σ as.flatten = (as.map (respace σ)).flatten := by
      clear has
      induction as with
      | nil => rfl
      | cons p as ih => simp [respace_append, ih]
    simp only [respace_append, fa, fb, ff, hσ.fix (plainName_not_sp hn)]

theorem regex {t : Str} (h : Re.isMatch elemRe t = true) : Re.isMatch elemRe (respace σ t) = true := by
  have hb : ¬ BadTag t := fun hb => by rw [badTag_iff.1 hb] at h; cases h
  rw [← Bool.not_eq_false, ← badTag_iff]
  intro hb'
  refine hb (fun u hu hp => hb' _ (hσ.infix_of hu) (hσ.tagPattern hp))

/-! ## references -/

omit hσ in
theorem _root_.KissXml.ref_entity {r s : Str} {c : Char} (h : Ref r c) (hs : ¬ c%"&#" <:+: s) (hr : r <:+: s) : Entity r c := by
  cases h with
  | entity h => exact h
  | hex h => exact absurd ((List.IsPrefix.isInfix ⟨_, by simp; rfl⟩).trans hr) hs
  | hexPlus h => exact absurd ((List.IsPrefix.isInfix ⟨_, by simp; rfl⟩).trans hr) hs

omit hσ in
theorem _root_.KissXml.entity_not_sp {r : Str} {c : Char} (h : Entity r c) : (∀ x ∈ r, ¬ Sp x) ∧ ¬ Sp c ∧ c.utf8Size = 1 := by
  cases h <;> decide

theorem reads {s : Str} {t : Option Str} (h : Reads 1 s t) (hs : ¬ c%"&#" <:+: s) : ∀ u, t = some u → Reads 1 (respace σ s) (some (respace σ u)) := by
  induction h with
  | plain h =>
    rintro _ ⟨⟩
    exact .plain (by rwa [hσ.mem_iff (by decide)])
  | @last a r c ha hr =>
    rintro _ ⟨⟩
    have he := ref_entity hr hs ⟨a, [], by simp⟩
    obtain ⟨h1, h2, -⟩ := entity_not_sp he
    rw [respace_append, respace_append, hσ.fix h1, hσ.fix (p := [c]) (by simpa using h2)]
    exact .last (by rwa [hσ.mem_iff (by decide)]) hr
  | @go a s u v t ha hA hu _ ih =>
    intro w hw
    cases t with
    | none => cases hw
    | some t =>
      simp only [Option.map_some, Option.some.injEq] at hw
      subst hw
      have hn : '&' ∉ respace σ a := by rwa [hσ.mem_iff (by decide)]
      have h4 : ∃ y, u = [y] := by
        cases u with
        | nil => simp at hu
        | cons y u =>
          cases u with
          | nil => exact ⟨y, rfl⟩
          | cons z u =>
            rw [blen_cons, blen_cons] at hu
            have := Char.utf8Size_pos y
            have := Char.utf8Size_pos z
            omega
      obtain ⟨y, rfl⟩ := h4
      have key : ¬ Sp y ∧ AtAmp (respace σ s) ([y] ++ respace σ v) ∧ v <:+: s := by
        rcases hA with ⟨r, c, rest, hr, hne, rfl, he⟩ | ⟨hp, hno, he⟩
        · simp only [List.cons_append, List.nil_append, List.cons.injEq] at he
          obtain ⟨rfl, rfl⟩ := he
          obtain ⟨h1, h2, -⟩ := entity_not_sp (ref_entity hr hs ⟨a, v, by simp⟩)
          refine ⟨h2, .inl ⟨r, y, respace σ v, hr, fun e => hne (hσ.eq_nil e), ?_, rfl⟩, ⟨r, [], by simp⟩⟩
          rw [respace_append, hσ.fix h1]
        · subst he
          obtain ⟨z, hz⟩ := hp
          simp only [List.cons_append, List.nil_append, List.cons.injEq] at hz
          obtain ⟨rfl, rfl⟩ := hz
          refine ⟨by decide, .inr ⟨(hσ.pre_iff (by decide)).2 ⟨z, rfl⟩, ?_, ?_⟩, ⟨['&'], [], by simp⟩⟩
          · intro r c hr hpre
            have hs' : ¬ c%"&#" <:+: respace σ ([ '&' ] ++ z) := by
              rw [hσ.inf_iff (by decide)]
              exact fun h => hs (h.trans ⟨a, [], by simp⟩)
            obtain ⟨h1, -, -⟩ := entity_not_sp (ref_entity hr hs' hpre.isInfix)
            exact hno r c hr ((hσ.pre_iff h1).1 hpre)
          · rw [respace_append, hσ.fix (p := ['&']) (by decide)]
      obtain ⟨h1, h2, h3⟩ := key
      have := ih (fun h => hs ((h.trans h3).trans ⟨a, [], by simp⟩)) t rfl
      have := Reads.go hn h2 hu this
      rw [respace_append, respace_append, respace_append, hσ.fix (p := [y]) (by simpa using h1)]
      simpa using this
  | cut _ _ _ => intro u hu; cases hu

theorem asciiEnd {s : Str} (h : AsciiEnd s) : AsciiEnd (respace σ s) := by
  intro c hc
  rcases List.eq_nil_or_concat s with rfl | ⟨s, d, rfl⟩
  · simp at hc
  · rw [List.concat_eq_append, respace_append, respace_cons, respace_nil, List.append_nil] at hc
    by_cases hs : Sp d
    · have hne := hσ.nonempty d hs
      rw [List.getLast?_append_of_ne_nil _ hne] at hc
      exact sp_size (hσ.space d hs c (List.mem_of_getLast? hc))
    · rw [hσ.other d hs] at hc
      simp at hc
      subst hc
      exact h d (by simp)

omit hσ in
theorem _root_.KissXml.unesc_noamp {s : Str} (h : '&' ∉ s) : Unesc s (some s) := by
  cases hl : s.getLast? with
  | none => exact ⟨1, fun c hc => (by rw [hl] at hc; cases hc), .plain h⟩
  | some y => exact ⟨y.utf8Size, fun c hc => (by rw [hl] at hc; cases hc; rfl), .plain h⟩

theorem unesc {s t : Str} (hs : SimpleRefs s) (h : (unescape s : R Str) = .ok t) : (unescape (respace σ s) : R Str) = .ok (respace σ t) := by
  rw [unescape_ok_iff] at h ⊢
  rcases hs with hs | ⟨h1, h2⟩
  · obtain rfl : t = s := by simpa using unesc_unique h (unesc_noamp hs)
    exact unesc_noamp (by rwa [hσ.mem_iff (by decide)])
  · refine ⟨1, fun c hc => (hσ.asciiEnd h1 c hc).symm, ?_⟩
    obtain ⟨w, hw, hr⟩ := h
    rcases List.eq_nil_or_concat s with rfl | ⟨s', d, hd⟩
    · have : t = [] := by
        have := unesc_unique ⟨w, hw, hr⟩ (unesc_noamp (s := []) (by simp))
        simpa using this
      subst this
      exact .plain (by simp)
    · obtain rfl : w = 1 := by
        rw [hw d (by rw [hd]; simp)]
        exact h1 d (by rw [hd]; simp)
      exact hσ.reads hr h2 t rfl

/-! ## maps -/

theorem get_map (m : SMap) (k : Str) : (respaceMap σ m).get k = (m.get k).map (respace σ) := by
  obtain ⟨l, h⟩ := m
  show LMap.get (l.map _) k = (LMap.get l k).map _
  clear h
  induction l with
  | nil => rfl
  | cons p l ih =>
    obtain ⟨k', v⟩ := p
    simp only [List.map_cons, LMap.get]
    split
    · rfl
    · exact ih

omit hσ in
theorem _root_.KissXml.smap_ext {m n : SMap} (h : m.entries = n.entries) : m = n := by
  cases m; cases n; cases h; rfl

theorem insert_map (m : SMap) (k v : Str) : respaceMap σ (m.insert k v) = (respaceMap σ m).insert k (respace σ v) := by
  apply smap_ext
  obtain ⟨l, h⟩ := m
  show (LMap.insert l k v).map _ = LMap.insert (l.map _) k (respace σ v)
  clear h
  induction l with
  | nil => rfl
  | cons p l ih =>
    obtain ⟨k', v'⟩ := p
    simp only [List.map_cons, LMap.insert]
    split
    · rfl
    · rw [List.map_cons, ih]

/-- no key has white space in it -/
def _root_.KissXml.KeysPlain (m : SMap) : Prop := ∀ k, (m.get k).isSome → ∀ c ∈ k, ¬ Sp c

omit hσ in
theorem _root_.KissXml.keysPlain_insert {m : SMap} (h : KeysPlain m) {k v : Str} (hk : ∀ c ∈ k, ¬ Sp c) : KeysPlain (m.insert k v) := by
  intro x hx
  rw [SMap.get_insert] at hx
  split at hx
  · rename_i e; subst e; exact hk
  · exact h x hx

theorem keysPlain {m : SMap} (h : KeysPlain m) : KeysPlain (respaceMap σ m) := by
  intro k hk
  rw [hσ.get_map, Option.isSome_map] at hk
  exact h k hk

/-- a key without white space, or no key at all -/
theorem get_key {m : SMap} (h : KeysPlain m) (k : Str) : m.get (respace σ k) = m.get k := by
  by_cases hk : ∀ c ∈ k, ¬ Sp c
  · rw [hσ.fix hk]
  · have h1 : m.get k = none := by
      rw [← Option.not_isSome_iff_eq_none]
      exact fun hs => hk (h k hs)
    have h2 : m.get (respace σ k) = none := by
      rw [← Option.not_isSome_iff_eq_none]
      intro hs
      have := h _ hs
      push_neg at hk
      obtain ⟨c, hc, hsp⟩ := hk
      cases hσc : σ c with
      | nil => exact hσ.nonempty c hsp hσc
      | cons y l =>
        refine this y ?_ (hσ.space c hsp y (by rw [hσc]; simp))
        exact List.mem_flatMap.2 ⟨c, hc, by rw [hσc]; simp⟩
    rw [h1, h2]

theorem get_both {m : SMap} (h : KeysPlain m) (k : Str) : (respaceMap σ m).get (respace σ k) = (m.get k).map (respace σ) := by
  rw [hσ.get_map, hσ.get_key h]

theorem ctx_map (m : SMap) : ElementF.xmlnsContextFromAttributes (respaceMap σ m) = respaceMap σ (ElementF.xmlnsContextFromAttributes m) := by
  unfold ElementF.xmlnsContextFromAttributes
  show List.foldl _ SMap.empty (m.entries.map _) = _
  generalize m.entries = l
  have : ∀ (l : List (Str × Str)) (a : SMap),
      List.foldl (fun (m : SMap) kv => if startsWith kv.1 c%"xmlns:" then m.insert (kv.1.drop 6) kv.2 else m) (respaceMap σ a)
        (l.map fun kv => (kv.1, respace σ kv.2)) =
      respaceMap σ (List.foldl (fun (m : SMap) kv => if startsWith kv.1 c%"xmlns:" then m.insert (kv.1.drop 6) kv.2 else m) a l) := by
    intro l
    induction l with
    | nil => intro a; rfl
    | cons p l ih =>
      intro a
      simp only [List.map_cons, List.foldl_cons]
      split
      · rw [← hσ.insert_map, ih]
      · rw [ih]
  exact this l SMap.empty

omit hσ in
theorem _root_.KissXml.ctx_plain {m : SMap} (h : KeysPlain m) : KeysPlain (ElementF.xmlnsContextFromAttributes m) := by
  unfold ElementF.xmlnsContextFromAttributes
  have hm : ∀ kv ∈ m.entries, ∀ c ∈ kv.1, ¬ Sp c := by
    rintro ⟨k, v⟩ hkv
    exact h k (lmap_get_isSome.2 ⟨v, hkv⟩)
  clear h
  have : ∀ (l : List (Str × Str)), (∀ kv ∈ l, ∀ c ∈ kv.1, ¬ Sp c) → ∀ (a : SMap), KeysPlain a →
      KeysPlain (List.foldl (fun (m : SMap) kv => if startsWith kv.1 c%"xmlns:" then m.insert (kv.1.drop 6) kv.2 else m) a l) := by
    intro l
    induction l with
    | nil => intro _ a ha; exact ha
    | cons p l ih =>
      intro hl a ha
      simp only [List.foldl_cons]
      refine ih (fun kv hkv => hl kv (by simp [hkv])) _ ?_
      split
      · exact keysPlain_insert ha (fun c hc => hl p (by simp) c (List.mem_of_mem_drop hc))
      · exact ha
  exact this _ hm _ (fun k hk => by simp at hk)

/-- prefixes handed down -/
def _root_.KissXml.handCtx (a : SMap) (l : List (Str × Str)) : SMap :=
  l.foldl (fun m kv => if m.containsKey kv.1 then m else m.insert kv.1 kv.2) a

theorem hand_map (l : List (Str × Str)) : ∀ a : SMap, handCtx (respaceMap σ a) (l.map fun kv => (kv.1, respace σ kv.2)) =
    respaceMap σ (handCtx a l) := by
  induction l with
  | nil => intro a; rfl
  | cons p l ih =>
    intro a
    simp only [handCtx, List.map_cons, List.foldl_cons] at ih ⊢
    have : (respaceMap σ a).containsKey p.1 = a.containsKey p.1 := by
      unfold SMap.containsKey
      rw [hσ.get_map, Option.isSome_map]
    rw [this]
    split
    · exact ih a
    · rw [← hσ.insert_map]; exact ih _

omit hσ in
theorem _root_.KissXml.hand_plain (l : List (Str × Str)) (h : ∀ kv ∈ l, ∀ c ∈ kv.1, ¬ Sp c) : ∀ a : SMap, KeysPlain a → KeysPlain (handCtx a l) := by
  induction l with
  | nil => intro a ha; exact ha
  | cons p l ih =>
    intro a ha
    simp only [handCtx, List.foldl_cons] at ih ⊢
    refine ih (fun kv hkv => h kv (by simp [hkv])) _ ?_
    split
    · exact ha
    · exact keysPlain_insert ha (h p (by simp))

omit hσ in
theorem _root_.KissXml.keysPlain_entries {m : SMap} (h : KeysPlain m) : ∀ kv ∈ m.entries, ∀ c ∈ kv.1, ¬ Sp c := by
  rintro ⟨k, v⟩ hkv
  exact h k (lmap_get_isSome.2 ⟨v, hkv⟩)

/-! ## elements -/

omit hσ in
theorem _root_.KissXml.respaceNode_element (e : Element) : respaceNode σ (.element e) = .element (respaceElement σ e) := by
  obtain ⟨n, cs, a, x, q, c⟩ := e
  simp only [respaceNode, respaceElement]

omit hσ in
theorem _root_.KissXml.respaceNodes_map (l : List Node) : respaceNodes σ l = l.map (respaceNode σ) := by
  induction l with
  | nil => simp [respaceNodes]
  | cons n l ih => simp [respaceNodes, ih]

theorem default_map (e : Element) : (respaceElement σ e).defaultNamespace = e.defaultNamespace.map (respace σ) := by
  obtain ⟨n, cs, a, x, q, c⟩ := e
  cases q <;> rfl

omit hσ in
theorem _root_.KissXml.setNs_plain {e : Element} {d : Option Str} {ps : Option SMap} (he : KeysPlain e.ctx) (hp : ∀ m, ps = some m → KeysPlain m) :
    KeysPlain (e.setNamespaceContext d ps).ctx := by
  have : (e.setNamespaceContext d ps).ctx = match ps with | none => e.ctx | some m => handCtx e.ctx m.entries := by
    obtain ⟨n, cs, a, x, q, c⟩ := e
    cases q <;> cases x <;> cases ps <;> simp [ElementF.setNamespaceContext, ElementF.defaultNamespace, handCtx] <;> split <;> rfl
  rw [this]
  cases ps with
  | none => exact he
  | some m => exact hand_plain _ (keysPlain_entries (hp m rfl)) _ he

theorem setNs {e : Element} {d : Option Str} {ps : Option SMap} (he : KeysPlain e.ctx) (hp : ∀ m, ps = some m → KeysPlain m) :
    respaceElement σ (e.setNamespaceContext d ps) =
      (respaceElement σ e).setNamespaceContext (d.map (respace σ)) (ps.map (respaceMap σ)) := by
  obtain ⟨n, cs, a, x, q, c⟩ := e
  have hh := hσ.hand_map
  cases ps with
  | none =>
    cases q with
    | none => cases x <;> cases d <;> rfl
    | some q =>
      cases x with
      | none =>
        simp only [ElementF.setNamespaceContext, ElementF.defaultNamespace, respaceElement, Option.map_none, Option.map_some,
          Option.isNone_none, if_true, hσ.get_both he]
      | some x => rfl
  | some m =>
    have e1 : List.foldl (fun (m : SMap) kv => if m.containsKey kv.1 then m else m.insert kv.1 kv.2) (respaceMap σ c) (respaceMap σ m).entries
        = respaceMap σ (handCtx c m.entries) := hσ.hand_map m.entries c
    have e2 : List.foldl (fun (m : SMap) kv => if m.containsKey kv.1 then m else m.insert kv.1 kv.2) c m.entries = handCtx c m.entries := rfl
    have hk := hand_plain _ (keysPlain_entries (hp m rfl)) _ he
    cases q with
    | none =>
      cases x <;> cases d <;>
        simp only [ElementF.setNamespaceContext, ElementF.defaultNamespace, respaceElement, Option.map_none, Option.map_some,
          Option.isNone_none, Option.isNone_some, if_true, Bool.false_eq_true, if_false, e1, e2]
    | some q =>
      cases x <;>
        simp only [ElementF.setNamespaceContext, ElementF.defaultNamespace, respaceElement, Option.map_none, Option.map_some,
          Option.isNone_none, Option.isNone_some, if_true, Bool.false_eq_true, if_false, e1, e2, hσ.get_both hk]

end Spec.Respacing
end KissXml
