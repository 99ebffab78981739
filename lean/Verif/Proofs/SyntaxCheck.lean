import Verif.Proofs.Syntax
/-!
# A checker for well-formed concrete documents (used by examples)
-/
namespace KissXml
open Spec

/-- check `XmlName` -/
def xmlNameB : Str → Bool
  | [] => false
  | c :: t => decide (CodeIn startCodes c) && t.all (fun x => decide (CodeIn startCodes x ∨ CodeIn moreCodes x)) && !isWs c && t.all (!isWs ·)

theorem xmlNameB_sound {n : Str} (h : xmlNameB n = true) : XmlName n := by
  cases n with
  | nil => cases h
  | cons c t =>
    simp only [xmlNameB, Bool.and_eq_true, decide_eq_true_eq, List.all_eq_true, Bool.not_eq_true'] at h
    obtain ⟨⟨⟨h1, h2⟩, h3⟩, h4⟩ := h
    refine ⟨c, t, rfl, h1, h2, ?_⟩
    intro x hx
    rcases List.mem_cons.1 hx with rfl | hx
    · exact h3
    · exact h4 x hx

/-- check `ElemName` -/
def elemNameB (n : Str) : Bool :=
  match splitOnce ':' n with
  | none => xmlNameB n && validName n
  | some (_, l) => xmlNameB n && validName l

theorem elemNameB_sound {n : Str} (h : elemNameB n = true) : ElemName n := by
  unfold elemNameB at h
  split at h
  · rename_i hs
    simp only [Bool.and_eq_true] at h
    exact ⟨xmlNameB_sound h.1, .inl ⟨splitOnce_eq_none.1 hs, validName_iff.1 h.2⟩⟩
  · rename_i p l hs
    simp only [Bool.and_eq_true] at h
    obtain ⟨g1, g2⟩ := splitOnce_eq_some.1 hs
    exact ⟨xmlNameB_sound h.1, .inr ⟨p, l, g1, g2, validName_iff.1 h.2⟩⟩

/-- check `Legible` (not all cases) -/
def legibleB (s : Str) : Bool :=
  !s.contains '&' || (decide (lastExtra (dec s) = 0) && (decide (s = textEscape (dec s)) || decide (s = escape (dec s))))

theorem clearAfter_zero (l : List Char) (s : Str) : ClearAfter l 0 s := by
  intro a c b _ _
  exact ⟨[], b, rfl, rfl, by simp⟩

theorem legibleB_sound {s : Str} (h : legibleB s = true) : Legible s := by
  simp only [legibleB, Bool.or_eq_true, Bool.not_eq_true', Bool.and_eq_true, decide_eq_true_eq] at h
  rcases h with h | ⟨h1, h | h⟩
  · exact legible_noamp (by simpa using h)
  · rw [h]; exact legible_text (by rw [h1]; exact clearAfter_zero _ _)
  · rw [h]; exact legible_attr (by rw [h1]; exact clearAfter_zero _ _)

variable {p : Str → Bool} {l : CTag → Bool} {P : Str → Prop} {L : CTag → Prop}

/-- check `Layout` (not all cases) -/
def layoutB (l : List CAttr) : Bool :=
  l.all (fun a => a.sp1.isEmpty && a.sp2.isEmpty) ||
  (match l, l.getLast? with
   | a :: _ :: _, some b => a.sp1.isEmpty && a.sp2.isEmpty && b.quote == a.quote
   | _, _ => false)

theorem layoutB_sound {l : List CAttr} (h : layoutB l = true) : Layout l := by
  unfold layoutB at h
  rw [Bool.or_eq_true] at h
  rcases h with h | h
  · induction l with
    | nil => exact .nil
    | cons a l ih =>
      simp only [List.all_cons, Bool.and_eq_true, List.isEmpty_iff] at h
      exact .one h.1 (ih h.2)
  · split at h
    · rename_i a c r b hb
      simp only [Bool.and_eq_true, List.isEmpty_iff, beq_iff_eq] at h
      rcases List.eq_nil_or_concat (c :: r) with h' | ⟨m, b', h'⟩
      · cases h'
      · rw [List.concat_eq_append] at h'
        rw [h', ← List.cons_append, List.getLast?_concat] at hb
        cases hb
        rw [h']
        exact .span (l := []) h.1 h.2 .nil
    · cases h

/-- check `CAttr.OkFor` -/
def attrB (p : Str → Bool) (a : CAttr) : Bool :=
  decide (AllWs a.sp) && !a.sp.isEmpty && xmlNameB a.name && decide (AllWs a.sp1) && decide (AllWs a.sp2) &&
    (a.quote == '"' || a.quote == '\'') && !a.raw.contains a.quote && p a.raw

theorem attrB_sound (hp : ∀ s, p s = true → P s) {a : CAttr} (h : attrB p a = true) : a.OkFor P := by
  simp only [attrB, Bool.and_eq_true, decide_eq_true_eq, Bool.not_eq_true', Bool.or_eq_true, beq_iff_eq] at h
  obtain ⟨⟨⟨⟨⟨⟨⟨h1, h2⟩, h3⟩, h5⟩, h6⟩, h7⟩, h8⟩, h9⟩ := h
  exact ⟨⟨h1, by simpa using h2⟩, xmlNameB_sound h3, h5, h6, h7, by simpa using h8, hp _ h9⟩

/-- check `CTag.OkFor` -/
def tagB (p : Str → Bool) (l : CTag → Bool) (t : CTag) : Bool :=
  xmlNameB t.name && t.attrs.all (attrB p) && l t && decide ((t.attrs.map CAttr.name).Nodup) && decide (AllWs t.sp)

theorem tagB_sound (hp : ∀ s, p s = true → P s) (hl : ∀ t, l t = true → L t) {t : CTag} (h : tagB p l t = true) : t.OkFor P L := by
  simp only [tagB, Bool.and_eq_true, decide_eq_true_eq, List.all_eq_true] at h
  obtain ⟨⟨⟨⟨h1, h2⟩, h3⟩, h4⟩, h5⟩ := h
  exact ⟨xmlNameB_sound h1, fun a ha => attrB_sound hp (h2 a ha), hl _ h3, h4, h5⟩

/-- check `TextOkFor` -/
def textB (p : Str → Bool) (s : Str) : Bool := !s.contains '<' && p s

theorem textB_sound (hp : ∀ s, p s = true → P s) {s : Str} (h : textB p s = true) : TextOkFor P s := by
  simp only [textB, Bool.and_eq_true, Bool.not_eq_true'] at h
  exact ⟨by simpa using h.1, hp _ h.2⟩

/-- check `CommentOk` -/
def commentB (c : Str) : Bool := !contains c c%"-->" && !startsWith c c%">" && !startsWith c c%"->"

theorem commentB_sound {c : Str} (h : commentB c = true) : CommentOk c := by
  simp only [commentB, Bool.and_eq_true, Bool.not_eq_true', Bool.eq_false_iff, Ne, contains_iff, startsWith_iff] at h
  exact ⟨h.1.1, h.1.2, h.2⟩

/-- check `Cst.OkFor` -/
def cstB (p : Str → Bool) (l : CTag → Bool) : Cst → Bool
  | .done text => textB p text
  | .comment text c rest => textB p text && commentB c && cstB p l rest
  | .cdata text c rest => textB p text && !contains c c%"]]>" && cstB p l rest
  | .empty text t rest => textB p text && tagB p l t && cstB p l rest
  | .elem text t inner sp rest => textB p text && tagB p l t && cstB p l inner && decide (AllWs sp) && cstB p l rest

theorem cstB_sound (hp : ∀ s, p s = true → P s) (hl : ∀ t, l t = true → L t) {c : Cst} (h : cstB p l c = true) : c.OkFor P L := by
  induction c with
  | done => exact textB_sound hp h
  | comment _ _ _ ih =>
    simp only [cstB, Bool.and_eq_true] at h
    exact ⟨textB_sound hp h.1.1, commentB_sound h.1.2, ih h.2⟩
  | cdata _ _ _ ih =>
    simp only [cstB, Bool.and_eq_true, Bool.not_eq_true', Bool.eq_false_iff, Ne, contains_iff] at h
    exact ⟨textB_sound hp h.1.1, h.1.2, ih h.2⟩
  | empty _ _ _ ih =>
    simp only [cstB, Bool.and_eq_true] at h
    exact ⟨textB_sound hp h.1.1, tagB_sound hp hl h.1.2, ih h.2⟩
  | elem _ _ _ _ _ ih1 ih2 =>
    simp only [cstB, Bool.and_eq_true, decide_eq_true_eq] at h
    exact ⟨textB_sound hp h.1.1.1.1, tagB_sound hp hl h.1.1.1.2, ih1 h.1.1.2, h.1.2, ih2 h.2⟩

/-- check `CMisc.Ok` -/
def miscB : CMisc → Bool
  | .comment c => commentB c
  | .doctype m => nestedLoop 0 0 none (c%"DOCTYPE" ++ m ++ c%">") == some (blen (c%"DOCTYPE" ++ m))

theorem prefix_blen {a b s : Str} (ha : a <+: s) (hb : b <+: s) (h : blen a = blen b) : a = b := by
  obtain ⟨u, rfl⟩ := ha
  obtain ⟨v, hv⟩ := hb
  exact (append_inj_blen hv.symm h).1

theorem miscB_sound {x : CMisc} (h : miscB x = true) : x.Ok := by
  cases x with
  | comment c =>
    exact commentB_sound h
  | doctype m =>
    simp only [miscB, beq_iff_eq] at h
    obtain ⟨a, h1, h2⟩ := (nestedLoop_iff _ _ _ _ _).1 h
    have : a = c%"DOCTYPE" ++ m := prefix_blen ((List.prefix_append a c%">").trans h1.here) (List.prefix_append _ _) (by omega)
    subst this
    exact firstClosing_iff.2 h1

/-- check `CDoc.WfFor` -/
def wfForB (p : Str → Bool) (l : CTag → Bool) (d : CDoc) : Bool :=
  (match d.decl with
   | none => true
   | some (sp, m) => decide (AllWs sp) && qafLoop c%"?>" 0 none (c%"xml" ++ m ++ c%"?>") == some (blen (c%"xml" ++ m))) &&
  d.misc.all (fun x => decide (AllWs x.1) && miscB x.2) && decide (AllWs d.sp) && tagB p l d.root &&
  (match d.body with | none => true | some (c, sp) => cstB p l c && decide (AllWs sp)) && decide (AllWs d.tail)

theorem wfForB_sound (hp : ∀ s, p s = true → P s) (hl : ∀ t, l t = true → L t) {d : CDoc} (h : wfForB p l d = true) : d.WfFor P L := by
  simp only [wfForB, Bool.and_eq_true, decide_eq_true_eq, List.all_eq_true] at h
  obtain ⟨⟨⟨⟨⟨h1, h2⟩, h3⟩, h4⟩, h5⟩, h6⟩ := h
  refine ⟨?_, fun x hx => ⟨(h2 x hx).1, miscB_sound (h2 x hx).2⟩, h3, tagB_sound hp hl h4, ?_, h6⟩
  · intro sp m hd
    rw [hd] at h1
    simp only [Bool.and_eq_true, decide_eq_true_eq, beq_iff_eq] at h1
    refine ⟨h1.1, ?_⟩
    obtain ⟨a, g1, g2⟩ := (qafLoop_iff (by decide) (by decide) _ _ _ _).1 h1.2
    have : a = c%"xml" ++ m := prefix_blen ((List.prefix_append a c%"?>").trans g1.here) (List.prefix_append _ _) (by omega)
    subst this
    exact g1
  · intro c sp hb
    rw [hb] at h5
    simp only [Bool.and_eq_true, decide_eq_true_eq] at h5
    exact ⟨cstB_sound hp hl h5.1, h5.2⟩

/-- check `Shown` -/
def shownB : List (Str × CMisc) → Bool
  | [] => true
  | (_, .comment c) :: _ => (abbreviate (c%"<!--" ++ c ++ c%"-->") 32).isSome
  | (_, .doctype _) :: l => shownB l

theorem shownB_sound {l : List (Str × CMisc)} (h : shownB l = true) : Shown l := by
  induction l with
  | nil =>
    intro pre sp c post hl
    simp at hl
  | cons x l ih =>
    obtain ⟨sp, x⟩ := x
    intro pre sp' c' post hl hp
    cases pre with
    | nil =>
      cases hl
      rw [shownB, Option.isSome_iff_ne_none, Ne, abbreviate_none] at h
      exact h
    | cons y pre =>
      cases hl
      cases x with
      | comment c => exact absurd rfl (hp _ (List.mem_cons_self ..) c)
      | doctype m => exact ih h pre sp' c' post rfl fun x hx => hp x (by simp [hx])

/-- check `CDoc.OkFor` -/
def docForB (p : Str → Bool) (l : CTag → Bool) (d : CDoc) : Bool :=
  wfForB p l d && shownB d.misc &&
  (match splitOnce ':' d.root.name with
   | none => true
   | some (p, _) => decide (c%"xmlns:" ++ p ∈ d.root.attrs.map CAttr.name))

theorem docForB_sound (hp : ∀ s, p s = true → P s) (hl : ∀ t, l t = true → L t) {d : CDoc} (h : docForB p l d = true) : d.OkFor P L := by
  simp only [docForB, Bool.and_eq_true] at h
  refine ⟨wfForB_sound hp hl h.1.1, fun q m hn hq => ?_, shownB_sound h.1.2⟩
  have h7 := h.2
  rw [splitOnce_eq_some.2 ⟨hn, hq⟩] at h7
  simpa using h7

/-- check `CTag.Allowed` -/
def allowedB (t : CTag) : Bool :=
  (match splitOnce ':' t.name with | none => validName t.name | some (_, l) => validName l) && t.attrs.all fun a => validName a.name

theorem allowedB_iff {t : CTag} : allowedB t = true ↔ t.Allowed := by
  simp only [allowedB, Bool.and_eq_true, List.all_eq_true]
  constructor
  · rintro ⟨h1, h2⟩
    refine ⟨?_, fun a ha => validName_iff.1 (h2 a ha)⟩
    split at h1
    · rename_i hs
      exact .inl ⟨splitOnce_eq_none.1 hs, validName_iff.1 h1⟩
    · rename_i hs
      obtain ⟨h3, h4⟩ := splitOnce_eq_some.1 hs
      exact .inr ⟨_, _, h3, h4, validName_iff.1 h1⟩
  · rintro ⟨h1, h2⟩
    refine ⟨?_, fun a ha => validName_iff.2 (h2 a ha)⟩
    rcases h1 with ⟨hn, ha⟩ | ⟨p, l, hn, hp, ha⟩
    · rw [splitOnce_eq_none.2 hn]
      exact validName_iff.2 ha
    · rw [splitOnce_eq_some.2 ⟨hn, hp⟩]
      exact validName_iff.2 ha

/-- check `CDoc.Ok` -/
def docB (d : CDoc) : Bool := docForB legibleB (fun t => layoutB t.attrs && allowedB t) d

theorem docB_sound {d : CDoc} (h : docB d = true) : d.Ok := by
  refine docForB_sound (fun _ => legibleB_sound) (fun t ht => ?_) h
  rw [Bool.and_eq_true] at ht
  exact ⟨layoutB_sound ht.1, allowedB_iff.1 ht.2⟩

/-- check `CDoc.Wf` -/
def wfB (d : CDoc) : Bool := wfForB (fun _ => true) (fun _ => true) d

theorem wfB_sound {d : CDoc} (h : wfB d = true) : d.Wf := wfForB_sound (fun _ _ => trivial) (fun _ _ => trivial) h

end KissXml
