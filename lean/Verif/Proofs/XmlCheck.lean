import Verif.Proofs.Xml
import Verif.Proofs.ConformCheck
/-!
# Deciding the conditions of Verif/Spec/Xml.lean, for examples
-/
namespace KissXml
open KissXml.Spec

/-- check `XComment` -/
def xcommentB : Bool → Str → Bool
  | d, [] => !d
  | d, c :: s => decide (XChar c) && if c = '-' then !d && xcommentB true s else xcommentB false s

theorem xcommentB_sound {d : Bool} {s : Str} (h : xcommentB d s = true) : XComment (if d then '-' :: s else s) := by
  induction s generalizing d with
  | nil =>
    cases d
    · exact .nil
    · simp [xcommentB] at h
  | cons c s ih =>
    simp only [xcommentB, Bool.and_eq_true, decide_eq_true_eq] at h
    obtain ⟨h1, h2⟩ := h
    split at h2
    · rename_i hc
      subst hc
      simp only [Bool.and_eq_true, Bool.not_eq_true'] at h2
      rw [h2.1]
      exact ih h2.2
    · rename_i hc
      have := ih h2
      cases d
      · exact .char h1 hc this
      · exact .dash h1 hc this

/-- check `PlainName` -/
def plainNameB : Str → Bool
  | [] => false
  | c :: t => decide (CodeIn startCodes c) && t.all fun x => decide (CodeIn startCodes x ∨ CodeIn moreCodes x)

theorem plainNameB_sound {n : Str} (h : plainNameB n = true) : PlainName n := by
  cases n with
  | nil => cases h
  | cons c t =>
    simp only [plainNameB, Bool.and_eq_true, decide_eq_true_eq, List.all_eq_true] at h
    exact ⟨c, t, rfl, h⟩

/-- check `XmlNode` -/
def xmlNodeB : Node → Bool
  | .text t => !t.isEmpty && decide (XPlain t)
  | .comment c => xcommentB false c && !c.contains '\r'
  | .cdata c => c.all (fun x => decide (XChar x) && x != '\r') && !contains c c%"]]>"
  | .element e => plainNameB (qname e) && e.attrs.entries.all (fun kv => plainNameB kv.1 && decide (XPlain kv.2)) && apartB e.children

theorem xmlNodeB_sound {n : Node} (h : xmlNodeB n = true) : XmlNode n := by
  cases n with
  | text t =>
    simp only [xmlNodeB, Bool.and_eq_true, decide_eq_true_eq, Bool.not_eq_true', List.isEmpty_eq_false_iff] at h
    exact h
  | comment c =>
    simp only [xmlNodeB, Bool.and_eq_true, Bool.not_eq_true'] at h
    exact ⟨xcommentB_sound (d := false) h.1, by simpa using h.2⟩
  | cdata c =>
    simp only [xmlNodeB, Bool.and_eq_true, Bool.not_eq_true', Bool.eq_false_iff, Ne, contains_iff, List.all_eq_true,
      decide_eq_true_eq, bne_iff_ne] at h
    exact ⟨⟨fun c hc => (h.1 c hc).1, h.2⟩, fun hc => (h.1 _ hc).2 rfl⟩
  | element e =>
    simp only [xmlNodeB, Bool.and_eq_true, List.all_eq_true, decide_eq_true_eq] at h
    exact ⟨plainNameB_sound h.1.1, fun k v hk => ⟨plainNameB_sound (h.1.2 _ (SMap.get_eq_some.1 hk)).1, (h.1.2 _ (SMap.get_eq_some.1 hk)).2⟩,
      apartB_sound h.2⟩

theorem xmlNodesB_sound {l : List Node} (h : l.all xmlNodeB = true) : ∀ n ∈ l, XmlNode n :=
  fun n hn => xmlNodeB_sound (List.all_eq_true.1 h n hn)

end KissXml
