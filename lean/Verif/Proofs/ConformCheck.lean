import Verif.Proofs.RoundTrip
import Verif.Proofs.SyntaxCheck
/-!
# A checker for conforming documents (used by examples), and what the API makes of single children
-/
namespace KissXml
open Spec

/-- check that escaping can be undone (not all cases) -/
def clearB (sp : List Char) (t : Str) : Bool := decide (lastExtra t = 0) || t.all (fun c => !sp.contains c)

theorem clearB_sound {sp : List Char} {t : Str} (h : clearB sp t = true) : ClearAfter sp (lastExtra t) t := by
  simp only [clearB, Bool.or_eq_true, decide_eq_true_eq, List.all_eq_true, Bool.not_eq_true'] at h
  rcases h with h | h
  · rw [h]; exact clearAfter_zero _ _
  · intro a c b hs hc
    have := h c (by rw [hs]; simp)
    simp [hc] at this

/-- no two texts side by side -/
def apartB : List Node → Bool
  | [] => true
  | [_] => true
  | a :: b :: l => !(a.isText && b.isText) && apartB (b :: l)

theorem apartB_sound : {l : List Node} → apartB l = true → ∀ a b x y, l ≠ a ++ .text x :: .text y :: b
  | [], _, a, b, x, y, h => by simp at h
  | [m], _, a, b, x, y, h => by
    have := congrArg List.length h
    simp at this
    omega
  | m :: n :: l, hb, a, b, x, y, h => by
    rw [apartB, Bool.and_eq_true] at hb
    cases a with
    | nil =>
      simp only [List.nil_append, List.cons.injEq] at h
      obtain ⟨rfl, rfl, rfl⟩ := h
      simp [Node.isText] at hb
    | cons c a =>
      simp only [List.cons_append, List.cons.injEq] at h
      exact apartB_sound hb.2 a b x y h.2

variable {T V : Str → Prop} {t v : Str → Bool}

/-- check `ElemFitsFor` -/
def elemFitsB (v : Str → Bool) (e : Element) : Bool :=
  xmlNameB e.name && !e.name.contains ':' && validName e.name && (e.pfx.all fun p => xmlNameB p && !p.contains ':') &&
  e.attrs.entries.all (fun kv => xmlNameB kv.1 && validName kv.1 && v kv.2) && apartB e.children

theorem elemFitsB_sound (hv : ∀ s, v s = true → V s) {e : Element} (h : elemFitsB v e = true) : ElemFitsFor V e := by
  simp only [elemFitsB, Bool.and_eq_true, Bool.not_eq_true', List.all_eq_true] at h
  obtain ⟨⟨⟨⟨⟨h1, h2⟩, h3⟩, h4⟩, h5⟩, h6⟩ := h
  refine ⟨⟨⟨xmlNameB_sound h1, by simpa using h2⟩, validName_iff.1 h3⟩, ?_, ?_, apartB_sound h6⟩
  · intro p hp
    rw [hp] at h4
    simp only [Option.all_some, Bool.and_eq_true, Bool.not_eq_true'] at h4
    exact ⟨xmlNameB_sound h4.1, by simpa using h4.2⟩
  · intro k v hk
    obtain ⟨⟨g1, g2⟩, g3⟩ := h5 (k, v) (SMap.get_eq_some.1 hk)
    exact ⟨xmlNameB_sound g1, validName_iff.1 g2, hv _ g3⟩

/-- check `NodeFitsFor` -/
def nodeFitsB (t v : Str → Bool) : Node → Bool
  | .text s => s.any (fun c => !isWs c) && t s
  | .comment c => commentB c
  | .cdata c => !contains c c%"]]>"
  | .element e => elemFitsB v e

theorem nodeFitsB_sound (ht : ∀ s, t s = true → T s) (hv : ∀ s, v s = true → V s) {n : Node} (h : nodeFitsB t v n = true) :
    NodeFitsFor T V n := by
  cases n with
  | text s =>
    simp only [nodeFitsB, Bool.and_eq_true, List.any_eq_true, Bool.not_eq_true'] at h
    exact ⟨h.1, ht _ h.2⟩
  | comment c => exact commentB_sound h
  | cdata c =>
    simp only [nodeFitsB, Bool.not_eq_true', Bool.eq_false_iff, Ne, contains_iff] at h
    exact h
  | element e => exact elemFitsB_sound hv h

/-- check the condition on declarations -/
def declB (m : Str) : Bool := qafLoop c%"?>" 0 none (c%"xml" ++ m ++ c%"?>") == some (blen (c%"xml" ++ m))

theorem declB_sound {m : Str} (h : declB m = true) : FirstUnquoted none c%"?>" (c%"xml" ++ m) (c%"xml" ++ m ++ c%"?>") := by
  simp only [declB, beq_iff_eq] at h
  obtain ⟨a, g1, g2⟩ := (qafLoop_iff (by decide) (by decide) _ _ _ _).1 h
  have : a = c%"xml" ++ m := prefix_blen ((List.prefix_append a c%"?>").trans g1.here) (List.prefix_append _ _) (by omega)
  subst this
  exact g1

/-- check `DocFitsFor` -/
def docFitsForB (t v : Str → Bool) (d : Document) : Bool :=
  (d.declaration.all fun x => c%"xml".isPrefixOf x.declStr && declB (x.declStr.drop 3)) && d.dtds.isEmpty &&
  (docOrder (.element d.root)).all (nodeFitsB t v) && (d.root.pfx.all fun p => (d.root.attrs.get (c%"xmlns:" ++ p)).isSome)

theorem docFitsForB_sound (ht : ∀ s, t s = true → T s) (hv : ∀ s, v s = true → V s) {d : Document} (h : docFitsForB t v d = true) :
    DocFitsFor T V d := by
  simp only [docFitsForB, Bool.and_eq_true, List.all_eq_true, List.isEmpty_iff] at h
  obtain ⟨⟨⟨h1, h2⟩, h3⟩, h4⟩ := h
  refine ⟨?_, h2, fun n hn => nodeFitsB_sound ht hv (h3 n hn), ?_⟩
  · intro x hx
    rw [hx] at h1
    simp only [Option.all_some, Bool.and_eq_true, List.isPrefixOf_iff_prefix] at h1
    obtain ⟨⟨m, hm⟩, h1⟩ := h1
    rw [← hm] at h1
    exact ⟨m, hm.symm, declB_sound h1⟩
  · intro p hp
    rw [hp] at h4
    exact h4

/-- check `DocFits` -/
def docFitsB (d : Document) : Bool := docFitsForB (clearB ['&', '<', '>']) (clearB ['&', '<', '>', '\'', '"']) d

theorem docFitsB_sound {d : Document} (h : docFitsB d = true) : DocFits d :=
  docFitsForB_sound (fun _ => clearB_sound) (fun _ => clearB_sound) h

/-- check `DocShape` -/
def shapeB (d : Document) : Bool := docFitsForB (fun _ => true) (fun _ => true) d

theorem shapeB_sound {d : Document} (h : shapeB d = true) : DocShape d :=
  docFitsForB_sound (fun _ _ => trivial) (fun _ _ => trivial) h

theorem dflt_decl (root : Element) : ∀ x, (Document.new root).declaration = some x → ∃ m, x.declStr = c%"xml" ++ m ∧
    FirstUnquoted none c%"?>" (c%"xml" ++ m) (c%"xml" ++ m ++ c%"?>") := by
  rintro x ⟨⟩
  exact ⟨c%" version=\"1.0\" encoding=\"UTF-8\"", rfl, declB_sound (by decide)⟩

theorem flat_order {cs : List Node} (h : ∀ m ∈ cs, m.isElement = false) : docOrderL cs = cs := by
  induction cs with
  | nil => rfl
  | cons m cs ih =>
    have hm := h m (by simp)
    have hd : docOrder m = [m] := by cases m <;> first | rfl | cases hm
    rw [docOrderL, hd, ih fun m hm => h m (by simp [hm])]
    rfl

/-- an element without prefix, with children that are not elements -/
theorem flat_fits {n : Str} (hn : NcName n ∧ ApiName n) {a : SMap} (ha : ∀ k v, a.get k = some v → XmlName k ∧ ApiName k ∧ ValueFits v)
    {cs : List Node} (hm : ∀ m ∈ cs, NodeFits m) (he : ∀ m ∈ cs, m.isElement = false)
    (hap : ∀ a b x y, cs ≠ a ++ .text x :: .text y :: b) (x : Option Str) (c : SMap) :
    DocFits (Document.new ⟨n, cs, a, x, none, c⟩) := by
  refine ⟨dflt_decl _, rfl, ?_, by intro p hp; cases hp⟩
  intro k hk
  have hk : k ∈ docOrder (.element ⟨n, cs, a, x, none, c⟩) := hk
  rw [docOrder, flat_order he, List.mem_cons] at hk
  rcases hk with rfl | hk
  · exact ⟨hn, (by intro p hp; cases hp), ha, hap⟩
  · exact hm k hk

theorem flat_elements {n : Str} {cs : List Node} {a c : SMap} {x p : Option Str} (he : ∀ m ∈ cs, m.isElement = false) {e : Element}
    (h : Node.element e ∈ docOrder (.element ⟨n, cs, a, x, p, c⟩)) : e = ⟨n, cs, a, x, p, c⟩ := by
  rw [docOrder, flat_order he, List.mem_cons] at h
  rcases h with h | h
  · cases h; rfl
  · have := he _ h; cases this

theorem flat_ns {n : Str} {cs : List Node} {a c : SMap} {x : Option Str} (he : ∀ m ∈ cs, m.isElement = false)
    (hx : x = a.get c%"xmlns") : NsFits (Document.new ⟨n, cs, a, x, none, c⟩) := by
  refine ⟨?_, fun _ => hx, ?_⟩
  · have hl : ∀ (look : Str → Option Str), PrefixScopeL look cs := by
      clear hx
      intro look
      induction cs with
      | nil => trivial
      | cons m cs ih =>
        have hm := he m (by simp)
        refine ⟨?_, ih fun m hm => he m (by simp [hm])⟩
        cases m <;> trivial
    exact ⟨fun p hp => (by cases hp), hl _⟩
  · intro e h k hk
    have := flat_elements he h
    subst this
    have := he _ hk
    cases this

end KissXml
