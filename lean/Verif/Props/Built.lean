import Verif.Proofs.Plain
import Verif.Proofs.ConformCheck
/-!
# C81: documents built and edited without namespaces
-/
namespace KissXml.Props
open KissXml KissXml.Spec

/-- C81: whatever calls of the public API have made a document without namespaces, it is written and read back as it is
exactly if it has no adjacent, empty or blank texts, and escaping and decoding leaves each text and each attribute value as it is. -/
theorem C81_edits (d : Document)
    (hd : ∀ x, d.declaration = some x → ∃ m, x.declStr = c%"xml" ++ m ∧
      FirstUnquoted none c%"?>" (c%"xml" ++ m) (c%"xml" ++ m ++ c%"?>"))
    (hdt : d.dtds = []) (h : Edits True (.element d.root)) (i : Str) :
    (∃ d', parseStr (d.toStringWithIndent i) = .ok d' ∧ d.eq d' = true) ↔
      ∀ n ∈ docOrder (.element d.root), Tidy n ∧ Clear n :=
  plain_reread hd hdt (fun n hn => (edits_decent h n hn).1) i

/-- C81, without removals, empty texts and overwriting: the document is always tidy, and is read back exactly if escaping and
decoding leaves its texts and attribute values as they are. -/
theorem C81_insertions (d : Document)
    (hd : ∀ x, d.declaration = some x → ∃ m, x.declStr = c%"xml" ++ m ∧
      FirstUnquoted none c%"?>" (c%"xml" ++ m) (c%"xml" ++ m ++ c%"?>"))
    (hdt : d.dtds = []) (h : Edits False (.element d.root)) (i : Str) :
    (∀ n ∈ docOrder (.element d.root), Tidy n) ∧
    ((∃ d', parseStr (d.toStringWithIndent i) = .ok d' ∧ d.eq d' = true) ↔ ∀ n ∈ docOrder (.element d.root), Clear n) := by
  have ht : ∀ n ∈ docOrder (.element d.root), Tidy n := fun n hn => (edits_decent h n hn).2.resolve_left id
  refine ⟨ht, (plain_reread hd hdt (fun n hn => (edits_decent h n hn).1) i).trans ?_⟩
  exact ⟨fun h n hn => (h n hn).2, fun h n hn => ⟨ht n hn, h n hn⟩⟩

/-- `<r>a<b k="v"/></r>` with a text and a child added -/
def built : Element := ⟨c%"r", [.text c%"ab", .element ⟨c%"b", [], ⟨[(c%"k", c%"<")], by decide⟩, none, none, .empty⟩], .empty,
  none, none, .empty⟩

theorem built_edits : Edits False (.element built) := by
  have h1 : Edits False (.element ⟨c%"r", [], .empty, none, none, .empty⟩) :=
    .newFromName (name := c%"r") ⟨⟨'r', [], rfl, by decide, by simp, by decide⟩, by decide⟩ rfl
  have h2 : Edits False (.element ⟨c%"r", [.text c%"a"], .empty, none, none, .empty⟩) :=
    .append h1 (.text (.inr (by simp)) : Edits False (.text c%"a")) rfl
  have h3 : Edits False (.element ⟨c%"r", [.text c%"ab"], .empty, none, none, .empty⟩) :=
    .append h2 (.text (.inr (by simp)) : Edits False (.text c%"b")) rfl
  have h4 : Edits False (.element ⟨c%"b", [], .empty, none, none, .empty⟩) :=
    .newFromName (name := c%"b") ⟨⟨'b', [], rfl, by decide, by simp, by decide⟩, by decide⟩ rfl
  have h5 : Edits False (.element ⟨c%"b", [], ⟨[(c%"k", c%"<")], by decide⟩, none, none, .empty⟩) :=
    .setAttr (k := c%"k") (v := c%"<") ⟨'k', [], rfl, by decide, by simp, by decide⟩ (by decide) h4 rfl
  exact .append h3 h5 rfl

example : ∃ d', parseStr ((Document.new built).toStringWithIndent c%" ") = .ok d' ∧ (Document.new built).eq d' = true := by
  refine (C81_insertions _ (dflt_decl built) rfl built_edits _).2.2 fun n hn => ?_
  have : docOrder (.element built) = [_, _, _] := rfl
  rw [show (Document.new built).root = built from rfl, this] at hn
  simp only [List.mem_cons, List.not_mem_nil, or_false] at hn
  rcases hn with rfl | rfl | rfl
  · exact fun k v hk => by cases hk
  · exact (docFitsB_sound (d := Document.new built) (by decide)).nodes (.text c%"ab") (.tail _ (.head _)) |>.2
  · exact fun k v hk => ((docFitsB_sound (d := Document.new built) (by decide)).nodes (.element _) (.tail _ (.tail _ (.head _)))
      |>.attrs k v hk).2.2

-- removing a child between two texts: they are written as one
example : ∃ e d', ((Edits True (.element e) ∧ ¬ Tidy (.element e)) ∧
    parseStr (Document.new e).toString = .ok d') ∧ (Document.new e).eq d' = false := by
  refine ⟨⟨c%"r", [.text c%"a", .text c%"b"], .empty, none, none, .empty⟩, _, ⟨⟨?_, ?_⟩, rfl⟩, by decide⟩
  · refine .remove (e := ⟨c%"r", [.text c%"a", .comment c%"", .text c%"b"], .empty, none, none, .empty⟩) (i := 1)
      (n := .comment []) trivial ?_ rfl
    refine .given fun m hm => ?_
    have : docOrder (.element ⟨c%"r", [.text c%"a", .comment c%"", .text c%"b"], .empty, none, none, .empty⟩) = [_, _, _, _] := rfl
    rw [this] at hm
    simp only [List.mem_cons, List.not_mem_nil, or_false] at hm
    rcases hm with rfl | rfl | rfl | rfl
    · exact ⟨⟨⟨⟨⟨'r', [], rfl, by decide, by simp, by decide⟩, by decide⟩, validName_iff.1 (by decide)⟩, rfl, rfl,
        fun k v hk => by cases hk⟩, .inl trivial⟩
    · exact ⟨trivial, .inl trivial⟩
    · exact ⟨⟨by decide, by decide, by decide⟩, .inl trivial⟩
    · exact ⟨trivial, .inl trivial⟩
  · intro h
    exact h.apart [] [] _ _ rfl

end KissXml.Props
