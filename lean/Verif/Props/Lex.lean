import Verif.Proofs.Tokens
/-!
# Tag delimiting: C35
-/
namespace KissXml.Props
open KissXml KissXml.Spec

/-- C35: searching from the offset of a character, `next_tag` does not panic.  If there is no `<` after that place it
finds nothing.  Otherwise the start is the offset of the first `<`, and the end is the offset just after the tag that
begins there, as described by `TagAt`, if there is one (and nothing if there is none). -/
theorem C35_next_tag (pre r : Str) :
    ('<' ∉ r → nextTag (pre ++ r) (blen pre) = some (none, none)) ∧
    (∀ t u tag, r = t ++ '<' :: u → '<' ∉ t → TagAt ('<' :: u) tag →
      nextTag (pre ++ r) (blen pre) = some (some (blen (pre ++ t)), some (blen (pre ++ t ++ tag)))) ∧
    (∀ t u, r = t ++ '<' :: u → '<' ∉ t → (∀ tag, ¬ TagAt ('<' :: u) tag) →
      nextTag (pre ++ r) (blen pre) = some (some (blen (pre ++ t)), none)) := by
  refine ⟨nextTag_none, ?_, ?_⟩
  · rintro t u tag rfl ht htag
    have hs : c%"<" <+: '<' :: u := ⟨u, rfl⟩
    rw [nextTag_some ht hs, (tagLen_iff hs _).2 ⟨tag, htag, rfl⟩]
    simp only [blen_append, Option.map_some]
    rw [Nat.add_comm (blen tag)]
  · rintro t u rfl ht hno
    have hs : c%"<" <+: '<' :: u := ⟨u, rfl⟩
    rw [nextTag_some ht hs]
    cases hn : tagLen ('<' :: u) with
    | some n => obtain ⟨tag, h, -⟩ := (tagLen_iff hs n).1 hn; exact absurd h (hno tag)
    | none => simp [blen_append]

/-- C35: at each place there is at most one tag; it is a non-empty part of the input (so its end is in bounds and on a
character boundary) that starts with `<` and ends with `>`. -/
theorem C35_tag (s tag : Str) (hs : c%"<" <+: s) (h : TagAt s tag) :
    tag <+: s ∧ c%"<" <+: tag ∧ c%">" <:+ tag ∧ ∀ tag', TagAt s tag' → tag' = tag := by
  have hp := tagAt_prefix h
  refine ⟨hp, ?_, ?_, fun tag' h' => (tagAt_unique hs h h').symm⟩
  · cases htag : tag with
    | nil => have := tagAt_pos h; simp [htag] at this
    | cons c t =>
      obtain ⟨u, rfl⟩ := hs
      obtain ⟨v, hv⟩ := hp
      rw [htag] at hv
      simp at hv
      exact ⟨t, by simp [hv.1]⟩
  · cases h with
    | comment => exact ⟨_ ++ c%"--", by rw [List.append_assoc]; rfl⟩
    | pi => exact ⟨_ ++ c%"?", by rw [List.append_assoc]; rfl⟩
    | cdata => exact ⟨_ ++ c%"]]", by rw [List.append_assoc]; rfl⟩
    | decl => exact ⟨_, rfl⟩
    | elem => exact ⟨_, rfl⟩

example : nextTag c%"☼ <a b='>\"' c=\"'>\">x" 1 = none := by decide
example : nextTag c%"☼ <a b='>\"' c=\"'>\">x" 3 = some (some 4, some 21) := by decide
example : nextTag c%"<!DOCTYPE a [<!ELEMENT b \">\">]><a/>" 0 = some (some 0, some 31) := by decide
example : nextTag c%"<!--\"<a>-->\"-->" 0 = some (some 0, some 11) := by decide
-- the `>` inside quotes does not end the tag
example : ∃ tag, TagAt c%"<a b='>'>x" tag ∧ blen tag = 9 := (tagLen_iff (s := c%"<a b='>'>x") ⟨_, rfl⟩ 9).1 (by decide)
example : ∀ tag, ¬ TagAt c%"<a b='>" tag := by
  intro tag h
  have := (tagLen_iff (s := c%"<a b='>") ⟨_, rfl⟩ _).2 ⟨tag, h, rfl⟩
  have h2 : tagLen c%"<a b='>" = none := by decide
  rw [h2] at this
  cases this

end KissXml.Props
