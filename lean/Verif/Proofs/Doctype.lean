import Verif.Spec.Doctype
import Verif.Proofs.AddAttr
import Verif.Proofs.Prolog
import Verif.Proofs.XmlRead
import Verif.Proofs.Outer
/-!
# Lemmas: document type declarations
-/
namespace KissXml
open Spec

/-! ## strings without effect -/

theorem unquoted_absent {x : Char} {s : Str} (h : x ∉ s) (q : Option Char) : unquoted x q s = 0 := by
  induction s generalizing q with
  | nil => rfl
  | cons c s ih =>
    simp only [List.mem_cons, not_or] at h
    rw [unquoted, ih h.2, if_neg (fun hc => h.1 hc.2.symm)]

theorem unquoted_mono {x : Char} {q : Option Char} {a s : Str} (h : a <+: s) : unquoted x q a ≤ unquoted x q s := by
  obtain ⟨b, rfl⟩ := h
  rw [unquoted_app]; omega

theorem neutral_nil : Neutral [] := ⟨rfl, rfl, fun a h => by rw [List.prefix_nil.1 h]; exact Nat.le_refl _⟩

theorem prefix_app {α : Type} {a s t : List α} (h : a <+: s ++ t) : a <+: s ∨ ∃ b, b <+: t ∧ a = s ++ b := by
  rcases Nat.le_total a.length s.length with hl | hl
  · exact .inl (List.prefix_of_prefix_length_le h (List.prefix_append s t) hl)
  · obtain ⟨b, rfl⟩ := List.prefix_of_prefix_length_le (List.prefix_append s t) h hl
    exact .inr ⟨b, (List.prefix_append_right_inj s).1 h, rfl⟩

theorem neutral_app {s t : Str} (hs : Neutral s) (ht : Neutral t) : Neutral (s ++ t) := by
  refine ⟨by rw [qstate_append, hs.quotes, ht.quotes], by rw [unquoted_app, unquoted_app, hs.quotes, hs.closed, ht.closed], fun a ha => ?_⟩
  rcases prefix_app ha with h | ⟨b, h, rfl⟩
  · exact hs.order a h
  · rw [unquoted_app, unquoted_app, hs.quotes, hs.closed]
    have := ht.order b h
    omega

/-- no quotes and no angle brackets -/
def CalmChar (c : Char) : Prop := c ≠ '"' ∧ c ≠ '\'' ∧ c ≠ '<' ∧ c ≠ '>'

theorem neutral_calm {s : Str} (h : ∀ c ∈ s, CalmChar c) : Neutral s := by
  have h1 : '<' ∉ s := fun hm => (h _ hm).2.2.1 rfl
  have h2 : '>' ∉ s := fun hm => (h _ hm).2.2.2 rfl
  refine ⟨qstate_calm (fun hm => (h _ hm).1 rfl) (fun hm => (h _ hm).2.1 rfl), by rw [unquoted_absent h1, unquoted_absent h2], fun a ha => ?_⟩
  rw [unquoted_absent (fun hm => h2 (ha.mem hm))]
  exact Nat.zero_le _

theorem quotes_inside {q : Char} {s : Str} (h : q ∉ s) : qstate (some q) s = some q ∧ ∀ x, unquoted x (some q) s = 0 := by
  induction s with
  | nil => exact ⟨rfl, fun _ => rfl⟩
  | cons c s ih =>
    simp only [List.mem_cons, not_or] at h
    have hq : qstep (some q) c = some q := by rw [qstep, if_neg (Ne.symm h.1)]
    exact ⟨by rw [qstate_cons, hq, (ih h.2).1], fun x => by rw [unquoted, hq, (ih h.2).2]; simp⟩

theorem neutral_quoted {q : Char} {s : Str} (hq : q = '"' ∨ q = '\'') (h : q ∉ s) : Neutral ([q] ++ s ++ [q]) := by
  obtain ⟨h1, h2⟩ := quotes_inside h
  have hs : qstate none [q] = some q := by rcases hq with rfl | rfl <;> rfl
  have hqq : qstate (some q) [q] = none := by simp [qstate, qstep]
  have hn : ∀ x, x = '<' ∨ x = '>' → unquoted x none ([q] ++ s ++ [q]) = 0 := by
    intro x hx
    rw [unquoted_app, unquoted_app, qstate_append, hs, h1, h2]
    rcases hq with rfl | rfl <;> rcases hx with rfl | rfl <;> rfl
  refine ⟨by rw [qstate_append, qstate_append, hs, h1, hqq], by rw [hn _ (.inl rfl), hn _ (.inr rfl)], fun a ha => ?_⟩
  have := unquoted_mono (x := '>') (q := none) ha
  rw [hn _ (.inr rfl)] at this
  omega

theorem neutral_angles {s : Str} (h : Neutral s) : Neutral (c%"<" ++ s ++ c%">") := by
  refine ⟨by rw [qstate_append, qstate_append, show qstate none c%"<" = none from rfl, h.quotes]; rfl, ?_, fun a ha => ?_⟩
  · rw [unquoted_app, unquoted_app, unquoted_app, unquoted_app, qstate_append, show qstate none c%"<" = none from rfl, h.quotes, h.closed,
      show unquoted '<' none c%"<" = 1 from rfl, show unquoted '>' none c%"<" = 0 from rfl, show unquoted '<' none c%">" = 0 from rfl,
      show unquoted '>' none c%">" = 1 from rfl]
    omega
  · rw [List.append_assoc] at ha
    rcases a with _ | ⟨c, a⟩
    · exact Nat.le_refl _
    · obtain ⟨rfl, ha'⟩ := List.cons_prefix_cons.1 (show c :: a <+: '<' :: (s ++ c%">") from ha)
      rw [unquoted, unquoted, show qstep none '<' = none from rfl]
      simp only [true_and, if_true, Char.reduceEq, if_false]
      rcases prefix_app (show a <+: s ++ c%">" from ha') with hp | ⟨b, hp, rfl⟩
      · have := h.order a hp
        omega
      · rw [unquoted_app, unquoted_app, h.quotes, h.closed]
        have := unquoted_mono (x := '>') (q := none) hp
        rw [show unquoted '>' none c%">" = 1 from rfl] at this
        omega

/-! ## languages -/

/-- without quotes and angle brackets -/
def Calms (A : Lang) : Prop := ∀ s, A s → ∀ c ∈ s, CalmChar c
/-- without effect -/
def Neutrals (A : Lang) : Prop := ∀ s, A s → Neutral s
/-- without a character -/
def Lacks (q : Char) (A : Lang) : Prop := ∀ s, A s → q ∉ s

theorem Calms.neutrals {A : Lang} (h : Calms A) : Neutrals A := fun s hs => neutral_calm (h s hs)
theorem Calms.lacks {A : Lang} (h : Calms A) {q : Char} (hq : q = '"' ∨ q = '\'') : Lacks q A := by
  intro s hs hm
  have := h s hs _ hm
  rcases hq with rfl | rfl
  exacts [this.1 rfl, this.2.1 rfl]

theorem all_nil {P : Lang → Prop} : ∀ A ∈ ([] : List Lang), P A := by simp
theorem all_cons {P : Lang → Prop} {A : Lang} {l : List Lang} (h : P A) (hl : ∀ A ∈ l, P A) : ∀ B ∈ A :: l, P B := by
  intro B hB
  rcases List.mem_cons.1 hB with rfl | hB
  exacts [h, hl B hB]

theorem calms_order : {l : List Lang} → (∀ A ∈ l, Calms A) → Calms (inOrder l)
  | [], _ => fun s hs => by cases hs; simp
  | A :: l, h => by
    rintro s ⟨a, b, h1, h2, rfl⟩ c hc
    rcases List.mem_append.1 hc with hc | hc
    · exact h A (List.mem_cons_self ..) a h1 c hc
    · exact calms_order (fun B hB => h B (List.mem_cons_of_mem _ hB)) b h2 c hc
theorem calms_any {l : List Lang} (h : ∀ A ∈ l, Calms A) : Calms (anyOf l) := fun s ⟨A, hA, hs⟩ => h A hA s hs
theorem calms_maybe {A : Lang} (h : Calms A) : Calms (maybe A) := by
  rintro s (rfl | hs)
  · simp
  · exact h s hs
theorem calms_many {A : Lang} (h : Calms A) : Calms (Many A) := by
  intro s hs
  induction hs with
  | nil => simp
  | cons ha _ ih =>
    intro c hc
    rcases List.mem_append.1 hc with hc | hc
    exacts [h _ ha c hc, ih c hc]
theorem calms_word {w : Str} (h : ∀ c ∈ w, CalmChar c) : Calms (word w) := by rintro s rfl; exact h
instance (c : Char) : Decidable (CalmChar c) := inferInstanceAs (Decidable (_ ∧ _))

theorem neutrals_order : {l : List Lang} → (∀ A ∈ l, Neutrals A) → Neutrals (inOrder l)
  | [], _ => fun s hs => by cases hs; exact neutral_nil
  | A :: l, h => by
    rintro s ⟨a, b, h1, h2, rfl⟩
    exact neutral_app (h A (List.mem_cons_self ..) a h1) (neutrals_order (fun B hB => h B (List.mem_cons_of_mem _ hB)) b h2)
theorem neutrals_any {l : List Lang} (h : ∀ A ∈ l, Neutrals A) : Neutrals (anyOf l) := fun s ⟨A, hA, hs⟩ => h A hA s hs
theorem neutrals_maybe {A : Lang} (h : Neutrals A) : Neutrals (maybe A) := by
  rintro s (rfl | hs)
  · exact neutral_nil
  · exact h s hs
theorem neutrals_many {A : Lang} (h : Neutrals A) : Neutrals (Many A) := by
  intro s hs
  induction hs with
  | nil => exact neutral_nil
  | cons ha _ ih => exact neutral_app (h _ ha) ih

theorem inOrder_snoc {l : List Lang} {A : Lang} {s : Str} (h : inOrder (l ++ [A]) s) : ∃ a b, inOrder l a ∧ A b ∧ s = a ++ b := by
  induction l generalizing s with
  | nil =>
    obtain ⟨a, b, h1, rfl, rfl⟩ := h
    exact ⟨[], a, rfl, h1, by simp⟩
  | cons B l ih =>
    obtain ⟨a, b, h1, h2, rfl⟩ := h
    obtain ⟨c, d, h3, h4, rfl⟩ := ih h2
    exact ⟨a ++ c, d, ⟨a, c, h1, h3, rfl⟩, h4, by simp⟩

/-- `<…>` around something without effect -/
theorem neutrals_angles {w : Str} {l : List Lang} (hw : ∀ c ∈ w, CalmChar c) (h : ∀ A ∈ l, Neutrals A) :
    Neutrals (inOrder (word ('<' :: w) :: (l ++ [word c%">"]))) := by
  rintro s ⟨a, b, rfl, h2, rfl⟩
  obtain ⟨c, d, h3, rfl, rfl⟩ := inOrder_snoc h2
  have := neutral_angles (neutral_app (neutral_calm hw) (neutrals_order h c h3))
  simpa using this

theorem lacks_many {q : Char} {A : Lang} (h : Lacks q A) : Lacks q (Many A) := by
  intro s hs
  induction hs with
  | nil => simp
  | cons ha _ ih =>
    rw [List.mem_append, not_or]
    exact ⟨h _ ha, ih⟩
theorem lacks_any {q : Char} {l : List Lang} (h : ∀ A ∈ l, Lacks q A) : Lacks q (anyOf l) := fun s ⟨A, hA, hs⟩ => h A hA s hs
theorem lacks_char {q : Char} {p : Char → Prop} (h : ∀ c, p c → c ≠ q) : Lacks q (oneChar p) := by
  rintro s ⟨c, hc, rfl⟩ hm
  exact h c hc (List.mem_singleton.1 hm).symm

theorem neutrals_quoted {A : Char → Lang} (h : ∀ q, q = '"' ∨ q = '\'' → Lacks q (A q)) : Neutrals (dtQuoted A) := by
  rintro s ⟨B, hB, hs⟩
  simp only [List.mem_cons, List.not_mem_nil, or_false] at hB
  rcases hB with rfl | rfl
  · obtain ⟨a, b, rfl, ⟨c, d, h1, ⟨e, f, rfl, rfl, rfl⟩, rfl⟩, rfl⟩ := hs
    simpa using neutral_quoted (.inl rfl) (h _ (.inl rfl) c h1)
  · obtain ⟨a, b, rfl, ⟨c, d, h1, ⟨e, f, rfl, rfl, rfl⟩, rfl⟩, rfl⟩ := hs
    simpa using neutral_quoted (.inr rfl) (h _ (.inr rfl) c h1)

/-! ## the grammar -/

theorem calm_name {c : Char} (h : CodeIn startCodes c ∨ CodeIn moreCodes c) : CalmChar c := by
  refine ⟨?_, ?_, ?_, ?_⟩ <;> (rintro rfl; revert h; decide)

theorem calms_name : Calms PlainName := by
  rintro s ⟨c, t, rfl, h1, h2⟩ x hx
  rcases List.mem_cons.1 hx with rfl | hx
  · exact calm_name (.inl h1)
  · exact calm_name (h2 x hx)
theorem calms_token : Calms dtToken := fun _ h c hc => calm_name (h.2 c hc)
theorem calms_spaces : Calms dtSpaces := by
  intro s h c hc
  rcases h c hc with rfl | rfl | rfl | rfl <;> decide
theorem calms_space : Calms dtSpace := fun s h => calms_spaces s h.1
theorem calms_digit : Calms (oneChar (CodeIn [(0x30, 0x39)])) := by
  rintro s ⟨c, h, rfl⟩ x hx
  rw [List.mem_singleton.1 hx]
  refine ⟨?_, ?_, ?_, ?_⟩ <;> (rintro rfl; revert h; decide)
theorem calms_hex : Calms (oneChar (CodeIn [(0x30, 0x39), (0x41, 0x46), (0x61, 0x66)])) := by
  rintro s ⟨c, h, rfl⟩ x hx
  rw [List.mem_singleton.1 hx]
  refine ⟨?_, ?_, ?_, ?_⟩ <;> (rintro rfl; revert h; decide)

/-- go through the grammar -/
local macro "calms" : tactic => `(tactic| repeat' first
  | exact calms_name | exact calms_token | exact calms_spaces | exact calms_space | exact calms_digit | exact calms_hex
  | exact calms_word (by decide) | apply calms_order | apply calms_any | apply calms_maybe | apply calms_many | exact all_nil | apply all_cons)

theorem calms_pe : Calms dtPe := by unfold dtPe; calms
theorem calms_ref : Calms dtRef := by unfold dtRef; calms
theorem calms_times : Calms dtTimes := by unfold dtTimes; calms
theorem calms_mixed : Calms dtMixed := by unfold dtMixed; calms
theorem calms_attType : Calms dtAttType := by unfold dtAttType; calms

theorem calm_join {a b : Str} (ha : ∀ c ∈ a, CalmChar c) (hb : ∀ c ∈ b, CalmChar c) : ∀ c ∈ a ++ b, CalmChar c := by
  intro c hc
  rcases List.mem_append.1 hc with hc | hc
  exacts [ha c hc, hb c hc]

mutual
theorem calms_cp : {s : Str} → DtCp s → ∀ c ∈ s, CalmChar c
  | _, .name h1 h2 => calm_join (calms_name _ h1) (calms_times _ h2)
  | _, .group h1 h2 => calm_join (calms_group h1) (calms_times _ h2)
theorem calms_group : {s : Str} → DtGroup s → ∀ c ∈ s, CalmChar c
  | _, .choice h1 h2 h3 _ h5 => calm_join (calm_join (calm_join (calm_join (calm_join (by decide) (calms_spaces _ h1)) (calms_cp h2))
      (calms_more (.inl rfl) h3)) (calms_spaces _ h5)) (by decide)
  | _, .seq h1 h2 h3 h5 => calm_join (calm_join (calm_join (calm_join (calm_join (by decide) (calms_spaces _ h1)) (calms_cp h2))
      (calms_more (.inr rfl) h3)) (calms_spaces _ h5)) (by decide)
theorem calms_more : {sep : Char} → {s : Str} → (sep = '|' ∨ sep = ',') → DtMore sep s → ∀ c ∈ s, CalmChar c
  | _, _, _, .nil => by simp
  | _, _, hs, .cons h1 h2 h3 h4 => calm_join (calm_join (calm_join (calm_join (calms_spaces _ h1) (by rcases hs with rfl | rfl <;> decide))
      (calms_spaces _ h2)) (calms_cp h3)) (calms_more hs h4)
end

theorem calms_content : Calms dtContent := by
  refine calms_any (all_cons (calms_word (by decide)) (all_cons (calms_word (by decide)) (all_cons calms_mixed (all_cons ?_ all_nil))))
  exact calms_order (all_cons (fun _ h => calms_group h) (all_cons calms_times all_nil))

theorem neutrals_entityValue : Neutrals dtEntityValue := neutrals_quoted fun q hq => lacks_many (lacks_any
  (all_cons (lacks_char fun _ h => h.2.2.2) (all_cons (calms_pe.lacks hq) (all_cons (calms_ref.lacks hq) all_nil))))
theorem neutrals_attValue : Neutrals dtAttValue := neutrals_quoted fun q hq => lacks_many (lacks_any
  (all_cons (lacks_char fun _ h => h.2.2.2) (all_cons (calms_ref.lacks hq) all_nil)))
theorem neutrals_system : Neutrals dtSystem := neutrals_quoted fun q _ => lacks_many (lacks_char fun _ h => h.2)
theorem neutrals_pubid : Neutrals dtPubid := neutrals_quoted fun q _ => lacks_many (lacks_char fun _ h => h.2)

/-- go through the grammar -/
local macro "neutrals" : tactic => `(tactic| repeat' first
  | exact calms_name.neutrals | exact calms_spaces.neutrals | exact calms_space.neutrals | exact calms_attType.neutrals
  | exact calms_content.neutrals | exact calms_pe.neutrals
  | exact neutrals_entityValue | exact neutrals_attValue | exact neutrals_system | exact neutrals_pubid
  | exact (calms_word (by decide)).neutrals
  | apply neutrals_order | apply neutrals_any | apply neutrals_maybe | apply neutrals_many | exact all_nil | apply all_cons)

theorem neutrals_external : Neutrals dtExternal := by unfold dtExternal; neutrals
theorem neutrals_public : Neutrals dtPublic := by unfold dtPublic; neutrals
theorem neutrals_default : Neutrals dtDefault := by unfold dtDefault; neutrals
theorem neutrals_element : Neutrals dtElement :=
  neutrals_angles (w := c%"!ELEMENT") (l := [dtSpace, PlainName, dtSpace, dtContent, dtSpaces]) (by decide) (by neutrals)
theorem neutrals_attlist : Neutrals dtAttlist :=
  neutrals_angles (w := c%"!ATTLIST") (l := [dtSpace, PlainName, Many (inOrder [dtSpace, PlainName, dtSpace, dtAttType, dtSpace, dtDefault]), dtSpaces])
    (by decide) (by neutrals)
theorem neutrals_entity : Neutrals dtEntity := by
  refine neutrals_any (all_cons ?_ (all_cons ?_ all_nil))
  · exact neutrals_angles (w := c%"!ENTITY") (l := [dtSpace, PlainName, dtSpace,
      anyOf [dtEntityValue, inOrder [dtExternal, maybe (inOrder [dtSpace, word c%"NDATA", dtSpace, PlainName])]], dtSpaces]) (by decide)
      (by neutrals)
  · exact neutrals_angles (w := c%"!ENTITY") (l := [dtSpace, word c%"%", dtSpace, PlainName, dtSpace, anyOf [dtEntityValue, dtExternal], dtSpaces])
      (by decide) (by neutrals)
theorem neutrals_notation : Neutrals dtNotation :=
  neutrals_angles (w := c%"!NOTATION") (l := [dtSpace, PlainName, dtSpace, anyOf [dtExternal, dtPublic], dtSpaces]) (by decide)
    (by neutrals)

theorem neutral_xpi {n d s : Str} (h : XPi n d s) (hd : Neutral d) : Neutral s := by
  obtain ⟨h1, -, -, ⟨rfl, rfl⟩ | ⟨w, h2, -, rfl⟩⟩ := h
  · have := neutral_angles (neutral_calm (s := c%"?" ++ n ++ c%"?") (calm_join (calm_join (by decide) (calms_name _ h1.1)) (by decide)))
    simpa using this
  · have := neutral_angles (neutral_app (neutral_app (neutral_calm (s := c%"?" ++ n ++ w) (calm_join (calm_join (by decide) (calms_name _ h1.1)) (calms_spaces _ h2))) hd)
      (neutral_calm (s := c%"?") (by decide)))
    simpa using this

theorem neutral_comment {c : Str} (h : Neutral c) : Neutral (c%"<!--" ++ c ++ c%"-->") := by
  have := neutral_angles (neutral_app (neutral_app (neutral_calm (s := c%"!--") (by decide)) h) (neutral_calm (s := c%"--") (by decide)))
  simpa using this

theorem neutral_subset {s : Str} {l : List Item} (h : DtSubset s l) : (∀ i ∈ l, NeutralItem i) → Neutral s := by
  induction h with
  | nil => exact fun _ => neutral_nil
  | other ha _ ih =>
    refine fun hl => neutral_app (neutrals_any (all_cons calms_space.neutrals (all_cons calms_pe.neutrals (all_cons neutrals_element (all_cons neutrals_attlist
      (all_cons neutrals_entity (all_cons neutrals_notation all_nil)))))) _ ha) (ih hl)
  | comment _ _ ih =>
    exact fun hl => neutral_app (neutral_comment (hl _ (List.mem_cons_self ..))) (ih fun i hi => hl i (List.mem_cons_of_mem _ hi))
  | pi hp _ ih =>
    exact fun hl => neutral_app (neutral_xpi hp (hl _ (List.mem_cons_self ..))) (ih fun i hi => hl i (List.mem_cons_of_mem _ hi))

theorem neutral_doctype {m : Str} {l : List Item} (h : Doctype m l) (hl : ∀ i ∈ l, NeutralItem i) : Neutral m := by
  obtain ⟨a, b, h1, h2, rfl⟩ := h
  refine neutral_app (neutrals_order (by neutrals) a h1) ?_
  rcases h2 with ⟨rfl, -⟩ | ⟨s, w, h2, h3, rfl⟩
  · exact neutral_nil
  · exact neutral_app (neutral_app (neutral_app (neutral_calm (by decide)) (neutral_subset h2 hl)) (neutral_calm (by decide))) (neutral_calm (calms_spaces _ h3))

/-! ## where the library sees the end -/

theorem firstClosing_neutral {a : Str} : FirstClosing a (a ++ c%">") ↔ Neutral a := by
  constructor
  · rintro ⟨-, h2, h3, h4⟩
    refine ⟨h2, h3, fun b hb => ?_⟩
    induction b using List.reverseRecOn with
    | nil => exact Nat.le_refl _
    | append_singleton b c ih =>
      have hb' : b <+: a := (List.prefix_append b [c]).trans hb
      have := ih hb'
      rw [unquoted_app, unquoted_app]
      by_cases hc : qstate none b = none ∧ c = '>'
      · obtain ⟨hq, rfl⟩ := hc
        have hl : b.length < a.length := by
          have := hb.length_le
          simp at this
          omega
        have := h4 b (hb.trans (List.prefix_append a _)) hq hl
        rw [hq, show unquoted '>' none ['>'] = 1 from rfl, show unquoted '<' none ['>'] = 0 from rfl]
        omega
      · have : unquoted '>' (qstate none b) [c] = 0 := by simp [unquoted, hc]
        omega
  · rintro ⟨h1, h2, h3⟩
    refine ⟨List.prefix_rfl, h1, h2, fun b hb hq hl => ?_⟩
    have hb' : b ++ c%">" <+: a := List.prefix_of_prefix_length_le hb (List.prefix_append a _) (by rw [List.length_append]; exact hl)
    have := h3 _ hb'
    rw [unquoted_app, unquoted_app, hq, show unquoted '>' none c%">" = 1 from rfl, show unquoted '<' none c%">" = 0 from rfl] at this
    omega

theorem neutral_word {m : Str} : Neutral (c%"DOCTYPE" ++ m) ↔ Neutral m := by
  refine ⟨fun h => ⟨?_, ?_, fun a ha => ?_⟩, fun h => neutral_app (neutral_calm (by decide)) h⟩
  · exact h.quotes
  · have := h.closed
    rw [unquoted_app, unquoted_app, show qstate none c%"DOCTYPE" = none from rfl, show unquoted '<' none c%"DOCTYPE" = 0 from rfl,
      show unquoted '>' none c%"DOCTYPE" = 0 from rfl] at this
    omega
  · have := h.order (c%"DOCTYPE" ++ a) ((List.prefix_append_right_inj _).2 ha)
    rw [unquoted_app, unquoted_app, show qstate none c%"DOCTYPE" = none from rfl, show unquoted '<' none c%"DOCTYPE" = 0 from rfl,
      show unquoted '>' none c%"DOCTYPE" = 0 from rfl] at this
    omega

theorem tagAt_doctype {m : Str} : TagAt (c%"<!DOCTYPE" ++ m ++ c%">") (c%"<!DOCTYPE" ++ m ++ c%">") ↔ Neutral m := by
  rw [← neutral_word, ← firstClosing_neutral]
  constructor
  · intro h
    have hs : c%"<!DOCTYPE" ++ m ++ c%">" = c%"<!" ++ (c%"DOCTYPE" ++ m ++ c%">") := by simp
    generalize ht : c%"<!DOCTYPE" ++ m ++ c%">" = t at h
    cases h with
    | comment h _ => rw [← ht] at h; obtain ⟨u, hu⟩ := h; simp at hu
    | pi h => rw [← ht] at h; simp at h
    | cdata h _ => rw [← ht] at h; obtain ⟨u, hu⟩ := h; simp at hu
    | @decl a u h _ _ hc =>
      have hu : u = c%"DOCTYPE" ++ m ++ c%">" := List.append_cancel_left (h.symm.trans (ht.symm.trans hs))
      have ha : c%"<!" ++ a ++ c%">" = c%"<!" ++ (c%"DOCTYPE" ++ m) ++ c%">" := by rw [List.append_assoc _ _ c%">"]; simpa using ht.symm
      have := List.append_cancel_left (List.append_cancel_right ha)
      subst this
      exact firstClosing_self hc
    | elem h hb => rw [← ht] at h; simp at h; subst h; exact absurd ⟨_, rfl⟩ hb
  · intro h
    have := TagAt.decl (s := c%"<!DOCTYPE" ++ m ++ c%">") (a := c%"DOCTYPE" ++ m) (u := c%"DOCTYPE" ++ m ++ c%">") (by simp)
      (by rintro ⟨u, hu⟩; simp at hu) (by rintro ⟨u, hu⟩; simp at hu) h
    simpa using this

/-! ## documents -/

/-- the comment, if it is one -/
def commentOf : Str × CMisc → Option Str
  | (_, .comment c) => some c
  | (_, .doctype _) => none

theorem comments_of : {misc : List (Str × CMisc)} → {cs : List Str} → misc.map Prod.snd = cs.map CMisc.comment → misc.filterMap commentOf = cs
  | [], [], _ => rfl
  | [], _ :: _, h => by cases h
  | _ :: _, [], h => by cases h
  | (w, x) :: misc, c :: cs, h => by
    simp only [List.map_cons, List.cons.injEq] at h
    obtain ⟨h1, h2⟩ := h
    subst h1
    simp [commentOf, comments_of h2]

theorem shown_of {misc : List (Str × CMisc)} (h : ∀ c r, misc.filterMap commentOf = c :: r → ¬ NoCut (c%"<!--" ++ c ++ c%"-->")) : Shown misc := by
  rintro pre sp c post rfl hp
  refine h c (post.filterMap commentOf) ?_
  rw [List.filterMap_append, (List.filterMap_eq_nil_iff (l := pre)).2]
  · rfl
  · rintro ⟨w, x⟩ hx
    cases x with
    | comment c' => exact absurd rfl (hp _ hx c')
    | doctype => rfl

theorem read_doctype {x dec m e n : Str} {l before i : List Item} {as : List (Str × Str)} (hx : DtDocument true x dec m l before e n as i [])
    (hm : Neutral m) (hne : Nice e) (hb : ∀ p ∈ before, ∃ c, p = .comment c ∧ EasyComment c)
    (hf : ∀ c r, before = .comment c :: r → ¬ NoCut (c%"<!--" ++ c ++ c%"-->"))
    (he : EasyItem (.elem n as i)) (hp : ∀ p l, n = p ++ ':' :: l → ':' ∉ p → c%"xmlns:" ++ p ∈ as.map Prod.fst) :
    ∃ d, parseStr x = .ok d ∧ d.dtds = [⟨m⟩] ∧ dec = (match d.declaration with | none => [] | some x => x.display) ∧
      Taken [.elem n as i] [.element d.root] := by
  obtain ⟨m1, m2, m3, b1, b2, h1, h2, -, h3, h4, h5, rfl, rfl⟩ := hx
  obtain ⟨misc, sp, k1, k2, k3, cs, k4, k5⟩ := xmisc_cst h2 (fun p hp => hb p (List.mem_append_left _ hp))
  obtain ⟨misc', sp', g1, g2, g3, cs', g4, g5⟩ := xmisc_cst h3 (fun p hp => hb p (List.mem_append_right _ hp))
  have hs : Shown (misc ++ (sp, .doctype m) :: misc') := by
    refine shown_of fun c r h => hf c (r.map Item.comment) ?_
    rw [List.filterMap_append, List.filterMap_cons_none rfl, comments_of k4, comments_of g4] at h
    rw [k5, g5, ← List.map_append, h, List.map_cons]
  have hok : ∀ x ∈ misc ++ (sp, .doctype m) :: misc', AllWs x.1 ∧ x.2.Ok := by
    intro x hx
    rcases List.mem_append.1 hx with hx | hx
    · exact ⟨(k2 x hx).1, (k2 x hx).2.1⟩
    rcases List.mem_cons.1 hx with rfl | hx
    · exact ⟨k3, firstClosing_neutral.2 (neutral_word.2 hm)⟩
    · exact ⟨(g2 x hx).1, (g2 x hx).2.1⟩
  obtain ⟨d, j1, j2, j3⟩ := xml_read_of (misc := misc ++ (sp, .doctype m) :: misc') (sp := sp') h1 rfl hok g3 hs h4 (xmisc_nil h5 rfl) hne he hp
  refine ⟨d, ?_, ?_, j3⟩
  · rw [← j1, ← k1, ← g1]
    simp [CMisc.src]
  · rw [List.filterMap_append, List.filterMap_eq_nil_iff.2 fun x hx => (k2 x hx).2.2] at j2
    change _ = m :: misc'.filterMap _ at j2
    rw [List.filterMap_eq_nil_iff.2 fun x hx => (g2 x hx).2.2] at j2
    obtain ⟨D, ds, h6, h7, h8⟩ := List.map_eq_cons_iff.1 j2
    rw [h6, List.map_eq_nil_iff.1 h8, ← h7]

/-- the document types of accepted documents -/
theorem dtds_neutral {x : Str} {d : Document} (h : parseStr x = .ok d) {D : DTD} (hD : D ∈ d.dtds) : Neutral D.dtdStr := by
  obtain ⟨pre, text, tag, rest, E, F, h1, -⟩ := accepted h
  obtain ⟨tail, hl⟩ := h1.lexes
  obtain ⟨u, hx, -⟩ := lexes_cut hl
  obtain ⟨-, hg, -⟩ := (parse_prolog h1 hx).1 h
  have hm : c%"<!DOCTYPE" ++ D.dtdStr ++ c%">" ∈ tagsWith c%"<!DOCTYPE" pre := by
    rw [← hg.dtds]
    exact List.mem_map_of_mem (f := fun m : DTD => c%"<!DOCTYPE" ++ m.dtdStr ++ c%">") hD
  obtain ⟨t, ht, he⟩ := List.mem_map.1 (List.mem_of_mem_filter hm)
  have := (parts_toks h1 t ht).2
  rw [he] at this
  exact tagAt_doctype.1 this

end KissXml
