import Verif.Proofs.Safe
/-!
# The accepted documents, as a grammar over tokens
-/
namespace KissXml
open Spec

theorem handleTag_of {tag : Str} {st st' : ParseTree} (h : TagStep tag st st') (buffer : Str) (pos : Nat) :
    handleTag buffer pos tag st = .ok st' := by
  unfold handleTag
  cases h with
  | @comment c h1 h2 h3 =>
    subst h1
    rw [if_pos (by
      simp only [Bool.and_eq_true, startsWith_iff, endsWith_iff]
      exact ⟨⟨c ++ c%"-->", by simp⟩, ⟨c%"<!--" ++ c, by simp⟩⟩)]
    simp only
    have hl : blen (c%"<!--" ++ c ++ c%"-->") = 7 + blen c := by
      simp only [blen_append]
      have h7 : blen c%"-->" = 3 := rfl
      have h8 : blen c%"<!--" = 4 := rfl
      omega
    split
    · have hsl : sliceB 4 (blen (c%"<!--" ++ c ++ c%"-->") - 3) (c%"<!--" ++ c ++ c%"-->") = some c :=
        sliceB_eq_some.2 ⟨c%"<!--", c%"-->", rfl, rfl, by
          have h8 : blen c%"<!--" = 4 := rfl
          rw [hl]; omega⟩
      have hc : commentNew c = .ok c := by
        unfold commentNew; rw [if_neg (fun h => h2 (contains_iff.1 h))]
      rw [hsl]
      simp only [Res.unwrap_some, Res.bind_ok, hc, h3, Res.mapErr_ok]
    · rename_i hn
      have : c = [] := blen_eq_zero.1 (by omega)
      subst this
      rw [if_pos (by rw [hl]; simp)]
      exact h3
  | @cdata c h1 h2 h3 =>
    subst h1
    rw [if_neg (by
      simp only [Bool.and_eq_true, startsWith_iff, endsWith_iff, not_and]
      rintro ⟨u, hu⟩; simp at hu)]
    rw [if_pos (startsWith_iff.2 ⟨c ++ c%"]]>", by simp⟩)]
    rw [if_neg (by
      have : endsWith (c%"<![CDATA[" ++ c ++ c%"]]>") c%"]]>" = true := endsWith_iff.2 ⟨_, rfl⟩
      rw [this]; simp)]
    have hsl : sliceB 9 (blen (c%"<![CDATA[" ++ c ++ c%"]]>") - 3) (c%"<![CDATA[" ++ c ++ c%"]]>") = some c :=
      sliceB_eq_some.2 ⟨c%"<![CDATA[", c%"]]>", rfl, rfl, by
        have h7 : blen c%"]]>" = 3 := rfl
        have h8 : blen c%"<![CDATA[" = 9 := rfl
        simp only [blen_append]; omega⟩
    have hc : cdataNew c = .ok c := by
      unfold cdataNew; rw [if_neg (fun h => h2 (contains_iff.1 h))]
    rw [hsl]
    simp only [Res.unwrap_some, Res.bind_ok, hc, h3, Res.mapErr_ok]
  | close h1 h2 h3 h4 h5 =>
    obtain ⟨u, rfl⟩ := h1
    rw [if_neg (by
      simp only [Bool.and_eq_true, startsWith_iff, not_and]
      rintro ⟨u, hu⟩; simp at hu),
      if_neg (by rw [startsWith_iff]; rintro ⟨u, hu⟩; simp at hu),
      if_neg (by rw [startsWith_iff]; rintro ⟨u, hu⟩; simp at hu)]
    simp only [h4, Res.unwrap_some, Res.bind_ok, checkElementTag_ok.2 h2, Res.mapErr_ok]
    rw [if_pos (startsWith_iff.2 ⟨u, rfl⟩), h3]
    simp [h5]
  | empty h1 h0 h2 h3 h4 h5 h6 h7 =>
    have g1 : ¬ c%"<!--" <+: tag := fun h => h0 (List.IsPrefix.trans ⟨c%"--", rfl⟩ h)
    have g2 : ¬ c%"<![CDATA[" <+: tag := fun h => h0 (List.IsPrefix.trans ⟨c%"[CDATA[", rfl⟩ h)
    rw [if_neg (by simp only [Bool.and_eq_true, startsWith_iff, not_and]; exact fun h => absurd h g1),
      if_neg (by rwa [startsWith_iff]), if_neg (by rwa [startsWith_iff])]
    simp only [h4, Res.unwrap_some, Res.bind_ok, checkElementTag_ok.2 h3, Res.mapErr_ok]
    rw [if_neg (by rwa [startsWith_iff]), h5]
    simp only [Res.bind_ok, parseNewElement_of h6]
    rw [if_pos (endsWith_iff.2 h2), h7]; rfl
  | start h1 h0 h2 h3 h4 h5 h6 h7 =>
    have g1 : ¬ c%"<!--" <+: tag := fun h => h0 (List.IsPrefix.trans ⟨c%"--", rfl⟩ h)
    have g2 : ¬ c%"<![CDATA[" <+: tag := fun h => h0 (List.IsPrefix.trans ⟨c%"[CDATA[", rfl⟩ h)
    rw [if_neg (by simp only [Bool.and_eq_true, startsWith_iff, not_and]; exact fun h => absurd h g1),
      if_neg (by rwa [startsWith_iff]), if_neg (by rwa [startsWith_iff])]
    simp only [h4, Res.unwrap_some, Res.bind_ok, checkElementTag_ok.2 h3, Res.mapErr_ok]
    rw [if_neg (by rwa [startsWith_iff]), h5]
    simp only [Res.bind_ok, parseNewElement_of h6]
    rw [if_neg (by rwa [endsWith_iff]), h7]

/-! ## the content of an element -/

/-- a piece of text before a tag: dropped when blank -/
inductive WithText (text : Str) (f : Forest) : Forest → Prop
  | blank : text.all isWs = true → WithText text f f
  | text {t : Str} : text.all isWs = false → (unescape text : R Str) = .ok t → WithText text f (.leaf (.text t) f)

/-- an accepted start or empty-element tag -/
structure Opens (parent : Option Element) (tag : Str) (e : Element) : Prop where
  not_close : ¬ c%"</" <+: tag
  not_decl : ¬ c%"<!" <+: tag
  regex : Re.isMatch elemRe tag = true
  elem : ∃ t attrs n0 n x q, stripTag tag = some t ∧ NewElem t parent attrs n0 n x q e

/-- an accepted closing tag -/
structure Closes (e : Element) (tag : Str) : Prop where
  slash : c%"</" <+: tag
  regex : Re.isMatch elemRe tag = true
  name : stripTag tag = some e.tagName

/-- the tokens after the start tag of `e`, up to and including its closing tag, and the content they write -/
inductive Body : Element → List (Str × Str) → Forest → Prop
  | close {e : Element} {text tag : Str} {f : Forest} : Closes e tag → WithText text .nil f → Body e [(text, tag)] f
  | comment {e : Element} {text c : Str} {toks : List (Str × Str)} {f f' : Forest} : ¬ c%"-->" <:+: c → Body e toks f →
      WithText text (.leaf (.comment c) f) f' → Body e ((text, c%"<!--" ++ c ++ c%"-->") :: toks) f'
  | cdata {e : Element} {text c : Str} {toks : List (Str × Str)} {f f' : Forest} : ¬ c%"]]>" <:+: c → Body e toks f →
      WithText text (.leaf (.cdata c) f) f' → Body e ((text, c%"<![CDATA[" ++ c ++ c%"]]>") :: toks) f'
  | empty {e c : Element} {text tag : Str} {toks : List (Str × Str)} {f f' : Forest} : Opens (some e) tag c →
      c%"/>" <:+ tag → Body e toks f → WithText text (.leaf (.element c) f) f' → Body e ((text, tag) :: toks) f'
  | elem {e c : Element} {text tag : Str} {toks1 toks2 : List (Str × Str)} {k f f' : Forest} : Opens (some e) tag c →
      ¬ c%"/>" <:+ tag → Body c toks1 k → Body e toks2 f → WithText text (.elem c k f) f' →
      Body e ((text, tag) :: (toks1 ++ toks2)) f'

/-- nodes in front of a forest -/
def leads : List Node → Forest → Forest
  | [], f => f
  | n :: l, f => .leaf n (leads l f)

theorem flat_leads (p base : Nat) (l : List Node) (f : Forest) :
    flat p base (leads l f) = l.map (fun n => ⟨n, some p⟩) ++ flat p (base + l.length) f := by
  induction l generalizing base with
  | nil => rfl
  | cons n l ih =>
    simp only [leads, flat, ih, List.map_cons, List.cons_append, List.length_cons]
    rw [show base + 1 + l.length = base + (l.length + 1) by omega]

/-- the text node (if any) a piece of text is read as -/
inductive TextNodes (text : Str) : List Node → Prop
  | blank : text.all isWs = true → TextNodes text []
  | text {t : Str} : text.all isWs = false → (unescape text : R Str) = .ok t → TextNodes text [.text t]

theorem withText_iff {text : Str} {f f' : Forest} : WithText text f f' ↔ ∃ l, TextNodes text l ∧ f' = leads l f := by
  constructor
  · intro h
    cases h with
    | blank h => exact ⟨[], .blank h, rfl⟩
    | text h1 h2 => exact ⟨_, .text h1 h2, rfl⟩
  · rintro ⟨l, h, rfl⟩
    cases h with
    | blank h => exact .blank h
    | text h1 h2 => exact .text h1 h2

/-- appending a list of nodes to the arena -/
def addNodes (A : List PTNode) (p : Nat) (l : List Node) : List PTNode := A ++ l.map (fun n => ⟨n, some p⟩)

theorem addText_arena {A : List PTNode} {p : Nat} (h : ArenaOk A (some p)) {buffer : Str} {pos : Nat} {text : Str}
    {st : ParseTree} (hs : addText buffer pos text (arena A (some p)) = .ok st) :
    ∃ l, TextNodes text l ∧ st = arena (addNodes A p l) (some p) ∧ ArenaOk (addNodes A p l) (some p) := by
  rcases addText_ok hs with ⟨hw, rfl⟩ | ⟨hw, t, h1, h2⟩
  · exact ⟨[], .blank hw, by simp [addNodes], by simpa [addNodes] using h⟩
  · obtain ⟨g1, g2⟩ := append_some h (.text t)
    rw [g1] at h2
    cases h2
    exact ⟨[.text t], .text hw h1, rfl, g2⟩

theorem addText_of {A : List PTNode} {p : Nat} (h : ArenaOk A (some p)) (buffer : Str) (pos : Nat) {text : Str} {l : List Node}
    (hl : TextNodes text l) : addText buffer pos text (arena A (some p)) = .ok (arena (addNodes A p l) (some p)) ∧
      ArenaOk (addNodes A p l) (some p) := by
  unfold addText realText
  cases hl with
  | blank hw => rw [if_pos hw]; exact ⟨by simp [addNodes], by simpa [addNodes] using h⟩
  | @text t hw hu =>
    obtain ⟨g1, g2⟩ := append_some h (.text t)
    rw [if_neg (by simp [hw])]
    simp only [hu, Res.bind_ok, Res.pure_eq, g1]
    exact ⟨rfl, g2⟩

/-- number of bytes of a token list -/
def tlen : List (Str × Str) → Nat
  | [] => 0
  | t :: l => blen t.1 + blen t.2 + tlen l

theorem tlen_append (a b : List (Str × Str)) : tlen (a ++ b) = tlen a + tlen b := by
  induction a with
  | nil => simp [tlen]
  | cons t a ih => simp [tlen, ih]; omega

theorem getElem?_addNodes {A : List PTNode} {p i : Nat} {l : List Node} {n : PTNode} (h : A[i]? = some n) :
    (addNodes A p l)[i]? = some n := by
  unfold addNodes
  rw [List.getElem?_append_left (List.getElem?_eq_some_iff.1 h).1, h]

theorem opens_empty {parent : Option Element} {tag : Str} {e : Element} (h : Opens parent tag e) (hs : c%"/>" <:+ tag)
    {st st' : ParseTree} (ht : st.topElement = .ok parent) (ha : st.append (.element e) = .ok st') : TagStep tag st st' := by
  obtain ⟨h1, h2, h3, t, attrs, n0, n, x, q, h4, h5⟩ := h
  exact .empty h1 h2 hs h3 h4 ht h5 ha

theorem opens_start {parent : Option Element} {tag : Str} {e : Element} (h : Opens parent tag e) (hs : ¬ c%"/>" <:+ tag)
    {st st' : ParseTree} (ht : st.topElement = .ok parent) (ha : st.push e = .ok st') : TagStep tag st st' := by
  obtain ⟨h1, h2, h3, t, attrs, n0, n, x, q, h4, h5⟩ := h
  exact .start h1 h2 hs h3 h4 ht h5 ha

/-- one token when an element is open -/
theorem runToks_step {A A' : List PTNode} {p : Nat} {text tag : Str} {l : List Node} {q : Option Nat} (h : ArenaOk A (some p))
    (hl : TextNodes text l) (ht : TagStep tag (arena (addNodes A p l) (some p)) (arena A' q))
    (buffer : Str) (er : Option Nat) (pos : Nat) (rest : List (Str × Str)) :
    runToks buffer false er pos ((text, tag) :: rest) (arena A (some p)) =
      runToks buffer false er (pos + (blen text + blen tag)) rest (arena A' q) := by
  rw [runToks]
  simp only [Bool.false_eq_true, if_false, (addText_of h buffer (pos + blen text) hl).1, Res.bind_ok, handleTag_of ht,
    Nat.add_assoc]

/-- reading the content of an element writes it into the arena -/
theorem body_run {e : Element} {toks : List (Str × Str)} {f : Forest} (hB : Body e toks f) :
    ∀ (A : List PTNode) (p : Nat) (q : Option Nat), ArenaOk A (some p) → A[p]? = some ⟨.element e, q⟩ →
    ArenaOk (A ++ flat p A.length f) q ∧ ∀ (buffer : Str) (er : Option Nat) (pos : Nat) (rest : List (Str × Str)),
      runToks buffer false er pos (toks ++ rest) (arena A (some p)) =
        runToks buffer false er (pos + tlen toks) rest (arena (A ++ flat p A.length f) q) := by
  induction hB with
  | @close e text tag f hc hw =>
    intro A p q h hp
    obtain ⟨l, hl, rfl⟩ := withText_iff.1 hw
    have hok := (addText_of h [] 0 hl).2
    obtain ⟨q', g1, g2, m, g3, g4⟩ := pop_some hok
    rw [getElem?_addNodes hp] at g3
    cases g3
    simp only at g4
    subst g4
    have hA : A ++ flat p A.length (leads l .nil) = addNodes A p l := by rw [flat_leads]; simp [flat, addNodes]
    rw [hA]
    refine ⟨g2, fun buffer er pos rest => ?_⟩
    simp only [List.cons_append, List.nil_append, tlen, Nat.add_zero]
    exact runToks_step h hl (.close hc.slash hc.regex (topElement_some (getElem?_addNodes hp) rfl) hc.name g1) _ _ _ _
  | @comment e text c toks f f' hn hB hw ih =>
    intro A p q h hp
    obtain ⟨l, hl, rfl⟩ := withText_iff.1 hw
    have hok := (addText_of h [] 0 hl).2
    obtain ⟨g1, g2⟩ := append_some hok (.comment c)
    obtain ⟨i1, i2⟩ := ih _ p q g2 (getElem?_snoc_left (getElem?_addNodes hp))
    have hA : addNodes A p l ++ [⟨.comment c, some p⟩] ++ flat p (addNodes A p l ++ [(⟨.comment c, some p⟩ : PTNode)]).length f =
        A ++ flat p A.length (leads l (.leaf (.comment c) f)) := by
      rw [flat_leads]; simp [flat, addNodes, Nat.add_assoc]
    rw [hA] at i1 i2
    refine ⟨i1, fun buffer er pos rest => ?_⟩
    rw [List.cons_append, runToks_step h hl (.comment rfl hn g1), i2, tlen, Nat.add_assoc]
  | @cdata e text c toks f f' hn hB hw ih =>
    intro A p q h hp
    obtain ⟨l, hl, rfl⟩ := withText_iff.1 hw
    have hok := (addText_of h [] 0 hl).2
    obtain ⟨g1, g2⟩ := append_some hok (.cdata c)
    obtain ⟨i1, i2⟩ := ih _ p q g2 (getElem?_snoc_left (getElem?_addNodes hp))
    have hA : addNodes A p l ++ [⟨.cdata c, some p⟩] ++ flat p (addNodes A p l ++ [(⟨.cdata c, some p⟩ : PTNode)]).length f =
        A ++ flat p A.length (leads l (.leaf (.cdata c) f)) := by
      rw [flat_leads]; simp [flat, addNodes, Nat.add_assoc]
    rw [hA] at i1 i2
    refine ⟨i1, fun buffer er pos rest => ?_⟩
    rw [List.cons_append, runToks_step h hl (.cdata rfl hn g1), i2, tlen, Nat.add_assoc]
  | @empty e c text tag toks f f' hO hs hB hw ih =>
    intro A p q h hp
    obtain ⟨l, hl, rfl⟩ := withText_iff.1 hw
    have hok := (addText_of h [] 0 hl).2
    obtain ⟨g1, g2⟩ := append_some hok (.element c)
    obtain ⟨i1, i2⟩ := ih _ p q g2 (getElem?_snoc_left (getElem?_addNodes hp))
    have hA : addNodes A p l ++ [⟨.element c, some p⟩] ++ flat p (addNodes A p l ++ [(⟨.element c, some p⟩ : PTNode)]).length f =
        A ++ flat p A.length (leads l (.leaf (.element c) f)) := by
      rw [flat_leads]; simp [flat, addNodes, Nat.add_assoc]
    rw [hA] at i1 i2
    refine ⟨i1, fun buffer er pos rest => ?_⟩
    rw [List.cons_append, runToks_step h hl (opens_empty hO hs (topElement_some (getElem?_addNodes hp) rfl) g1), i2, tlen, Nat.add_assoc]
  | @elem e c text tag toks1 toks2 k f f' hO hs hB1 hB2 hw ih1 ih2 =>
    intro A p q h hp
    obtain ⟨l, hl, rfl⟩ := withText_iff.1 hw
    have hok := (addText_of h [] 0 hl).2
    obtain ⟨g1, g2⟩ := push_some hok c
    obtain ⟨i1, i2⟩ := ih1 _ _ (some p) g2 (by simp)
    obtain ⟨j1, j2⟩ := ih2 _ p q i1 (by
      rw [List.append_assoc, List.getElem?_append_left (List.getElem?_eq_some_iff.1 (getElem?_addNodes hp)).1]
      exact getElem?_addNodes hp)
    have hA : addNodes A p l ++ [⟨.element c, some p⟩] ++
          flat (addNodes A p l).length (addNodes A p l ++ [(⟨.element c, some p⟩ : PTNode)]).length k ++
          flat p (addNodes A p l ++ [(⟨.element c, some p⟩ : PTNode)] ++
            flat (addNodes A p l).length (addNodes A p l ++ [(⟨.element c, some p⟩ : PTNode)]).length k).length f =
        A ++ flat p A.length (leads l (.elem c k f)) := by
      rw [flat_leads]; simp [flat, addNodes, Nat.add_assoc, Nat.add_comm 1 (fsize k)]
    rw [hA] at j1 j2
    refine ⟨j1, fun buffer er pos rest => ?_⟩
    rw [List.cons_append, runToks_step h hl (opens_start hO hs (topElement_some (getElem?_addNodes hp) rfl) g1), List.append_assoc,
      i2, j2, tlen, tlen_append]
    simp only [Nat.add_assoc]

/-- what one accepted token does when an element is open -/
theorem runToks_cons {A : List PTNode} {p : Nat} (h : ArenaOk A (some p)) {text tag : Str} {rest : List (Str × Str)}
    {buffer : Str} {er : Option Nat} {pos : Nat} {st : ParseTree}
    (hr : runToks buffer false er pos ((text, tag) :: rest) (arena A (some p)) = .ok st) :
    ∃ l st1, TextNodes text l ∧ ArenaOk (addNodes A p l) (some p) ∧ TagStep tag (arena (addNodes A p l) (some p)) st1 ∧
      runToks buffer false er (pos + blen text + blen tag) rest st1 = .ok st := by
  rw [runToks] at hr
  simp only [Bool.false_eq_true, if_false] at hr
  obtain ⟨st0, h1, h2⟩ := bind_eq_ok.1 hr
  obtain ⟨st1, h3, h4⟩ := bind_eq_ok.1 h2
  obtain ⟨l, g1, rfl, g3⟩ := addText_arena h h1
  exact ⟨l, st1, g1, g3, handleTag_ok h3, h4⟩

/-- an accepted document has a complete content after each start tag -/
theorem body_sound (n : Nat) : ∀ (toks : List (Str × Str)), toks.length ≤ n → ∀ (A : List PTNode) (p : Nat) (q : Option Nat)
    (e : Element), ArenaOk A (some p) → A[p]? = some ⟨.element e, q⟩ → ∀ (buffer : Str) (er : Option Nat) (pos : Nat)
    (st : ParseTree), runToks buffer false er pos toks (arena A (some p)) = .ok st → st.pos = none →
    ∃ t1 t2 f, toks = t1 ++ t2 ∧ Body e t1 f := by
  induction n with
  | zero =>
    intro toks hn A p q e h hp buffer er pos st hr hst
    have : toks = [] := List.length_eq_zero_iff.1 (by omega)
    subst this
    unfold runToks at hr
    cases er with
    | none => cases hr; simp [arena] at hst
    | some x => cases hr
  | succ n ih =>
    intro toks hn A p q e h hp buffer er pos st hr hst
    cases toks with
    | nil =>
      unfold runToks at hr
      cases er with
      | none => cases hr; simp [arena] at hst
      | some x => cases hr
    | cons tt rest =>
      obtain ⟨text, tag⟩ := tt
      obtain ⟨l, st1, hl, hok, hstep, hr1⟩ := runToks_cons h hr
      have hlen : rest.length ≤ n := by simpa using hn
      have htop : (arena (addNodes A p l) (some p)).topElement = .ok (some e) := topElement_some (getElem?_addNodes hp) rfl
      have hW : ∀ f, WithText text f (leads l f) := fun f => withText_iff.2 ⟨l, hl, rfl⟩
      cases hstep with
      | @comment c h1 h2 h3 =>
        subst h1
        obtain ⟨g1, g2⟩ := append_some hok (.comment c)
        rw [g1] at h3
        cases h3
        obtain ⟨t1, t2, f, rfl, hB⟩ := ih rest hlen _ p q e g2 (getElem?_snoc_left (getElem?_addNodes hp)) _ _ _ _ hr1 hst
        exact ⟨_, t2, _, rfl, .comment h2 hB (hW _)⟩
      | @cdata c h1 h2 h3 =>
        subst h1
        obtain ⟨g1, g2⟩ := append_some hok (.cdata c)
        rw [g1] at h3
        cases h3
        obtain ⟨t1, t2, f, rfl, hB⟩ := ih rest hlen _ p q e g2 (getElem?_snoc_left (getElem?_addNodes hp)) _ _ _ _ hr1 hst
        exact ⟨_, t2, _, rfl, .cdata h2 hB (hW _)⟩
      | close h1 h2 h3 h4 h5 =>
        rw [htop] at h3
        cases h3
        exact ⟨[(text, tag)], rest, _, rfl, .close ⟨h1, h2, h4⟩ (hW _)⟩
      | @empty parent t attrs n0 nm x qq c h1 h0 h2 h3 h4 h5 h6 h7 =>
        rw [htop] at h5
        cases h5
        obtain ⟨g1, g2⟩ := append_some hok (.element c)
        rw [g1] at h7
        cases h7
        obtain ⟨t1, t2, f, rfl, hB⟩ := ih rest hlen _ p q e g2 (getElem?_snoc_left (getElem?_addNodes hp)) _ _ _ _ hr1 hst
        exact ⟨_, t2, _, rfl, .empty ⟨h1, h0, h3, _, _, _, _, _, _, h4, h6⟩ h2 hB (hW _)⟩
      | @start parent t attrs n0 nm x qq c h1 h0 h2 h3 h4 h5 h6 h7 =>
        rw [htop] at h5
        cases h5
        obtain ⟨g1, g2⟩ := push_some hok c
        rw [g1] at h7
        cases h7
        obtain ⟨t1, t2, k, rfl, hB⟩ := ih rest hlen _ _ (some p) c g2 (by simp) _ _ _ _ hr1 hst
        obtain ⟨i1, i2⟩ := body_run hB _ _ (some p) g2 (by simp)
        rw [i2] at hr1
        obtain ⟨t3, t4, f, rfl, hB2⟩ := ih t2 (by simp at hlen; omega) _ p q e i1 (by
          rw [List.append_assoc, List.getElem?_append_left (List.getElem?_eq_some_iff.1 (getElem?_addNodes hp)).1]
          exact getElem?_addNodes hp) _ _ _ _ hr1 hst
        exact ⟨(text, tag) :: (t1 ++ t3), t4, _, by simp, .elem ⟨h1, h0, h3, _, _, _, _, _, _, h4, h6⟩ h2 hB hB2 (hW _)⟩

/-! ## top-level elements -/

/-- one forest after the other -/
def fappend : Forest → Forest → Forest
  | .nil, g => g
  | .leaf n r, g => .leaf n (fappend r g)
  | .elem e k r, g => .elem e k (fappend r g)

theorem fsize_fappend (f g : Forest) : fsize (fappend f g) = fsize f + fsize g := by
  induction f with
  | nil => simp [fappend, fsize]
  | leaf n r ih => simp [fappend, fsize, ih]; omega
  | elem e k r _ ih => simp [fappend, fsize, ih]; omega

theorem flat_fappend (p base : Nat) (f g : Forest) :
    flat p base (fappend f g) = flat p base f ++ flat p (base + fsize f) g := by
  induction f generalizing base with
  | nil => simp [fappend, flat, fsize]
  | leaf n r ih => simp [fappend, flat, fsize, ih, Nat.add_assoc]
  | elem e k r _ ih => simp [fappend, flat, fsize, ih, Nat.add_assoc]

/-- further elements after the root element `e` with content `f`: the last one becomes the root, and takes over all the
content -/
inductive Tops : List (Str × Str) → Element → Forest → Element → Forest → Prop
  | nil {e : Element} {f : Forest} : Tops [] e f e f
  | more {text tag : Str} {toks rest : List (Str × Str)} {e e' E : Element} {f k F : Forest} : text.all isWs = true →
      Opens none tag e' → ¬ c%"/>" <:+ tag → Body e' toks k → Tops rest e' (fappend f k) E F →
      Tops ((text, tag) :: (toks ++ rest)) e f E F

/-- the arena after a complete root element -/
def rootArena (e : Element) (f : Forest) : List PTNode := ⟨.element e, none⟩ :: flat 0 1 f

theorem tops_run {toks : List (Str × Str)} {e E : Element} {f F : Forest} (h : Tops toks e f E F) :
    ArenaOk (rootArena e f) none → ∀ (buffer : Str) (pos : Nat),
    runToks buffer false none pos toks (arena (rootArena e f) none) = .ok (arena (rootArena E F) none) := by
  induction h with
  | nil => intro _ buffer pos; unfold runToks; rfl
  | @more text tag toks rest e e' E f k F hw hO hs hB hT ih =>
    intro hok buffer pos
    obtain ⟨A', g1, g2, g3⟩ := push_none hok e'
    have hA : A' = rootArena e' f := by rw [g3]; rfl
    subst hA
    obtain ⟨i1, i2⟩ := body_run hB _ 0 none g2 rfl
    have hA2 : rootArena e' f ++ flat 0 (rootArena e' f).length k = rootArena e' (fappend f k) := by
      simp only [rootArena, List.cons_append, flat_fappend, List.length_cons, flat_length, Nat.add_comm]
    rw [hA2] at i1 i2
    rw [runToks]
    have ht : addText buffer (pos + blen text) text (arena (rootArena e f) none) = .ok (arena (rootArena e f) none) := by
      unfold addText realText; rw [if_pos hw]; rfl
    simp only [Bool.false_eq_true, if_false, ht, Res.bind_ok, handleTag_of (opens_start hO hs rfl g1), i2, ih i1]

theorem tops_sound (n : Nat) : ∀ (toks : List (Str × Str)), toks.length ≤ n → ∀ (e : Element) (f : Forest),
    ArenaOk (rootArena e f) none → ∀ (buffer : Str) (er : Option Nat) (pos : Nat)
    (st : ParseTree), runToks buffer false er pos toks (arena (rootArena e f) none) = .ok st → st.pos = none →
    er = none ∧ ∃ E F, Tops toks e f E F := by
  induction n with
  | zero =>
    intro toks hn e f hok buffer er pos st hr hst
    have : toks = [] := List.length_eq_zero_iff.1 (by omega)
    subst this
    unfold runToks at hr
    cases er with
    | none => exact ⟨rfl, _, _, .nil⟩
    | some x => cases hr
  | succ n ih =>
    intro toks hn e f hok buffer er pos st hr hst
    cases toks with
    | nil =>
      unfold runToks at hr
      cases er with
      | none => exact ⟨rfl, _, _, .nil⟩
      | some x => cases hr
    | cons tt rest =>
      obtain ⟨text, tag⟩ := tt
      have hlen : rest.length ≤ n := by simpa using hn
      rw [runToks] at hr
      simp only [Bool.false_eq_true, if_false] at hr
      obtain ⟨st0, h1, h2⟩ := bind_eq_ok.1 hr
      obtain ⟨st1, h3, h4⟩ := bind_eq_ok.1 h2
      rcases addText_ok h1 with ⟨hw, rfl⟩ | ⟨hw, t, -, h5⟩
      · have hstep := handleTag_ok h3
        cases hstep with
        | comment _ _ h6 => cases h6
        | cdata _ _ h6 => cases h6
        | close _ _ h6 => cases h6
        | empty _ _ _ _ _ _ _ h6 => cases h6
        | @start parent t attrs n0 nm x qq e' g1 g0 g2 g3 g4 g5 g6 g7 =>
          cases g5
          obtain ⟨A', k1, k2, k3⟩ := push_none hok e'
          have hA : A' = rootArena e' f := by rw [k3]; rfl
          subst hA
          rw [k1] at g7
          cases g7
          obtain ⟨t1, t2, k, rfl, hB⟩ := body_sound _ _ (Nat.le_refl _) _ 0 none e' k2 rfl _ _ _ _ h4 hst
          obtain ⟨i1, i2⟩ := body_run hB _ 0 none k2 rfl
          have hA2 : rootArena e' f ++ flat 0 (rootArena e' f).length k = rootArena e' (fappend f k) := by
            simp only [rootArena, List.cons_append, flat_fappend, List.length_cons, flat_length, Nat.add_comm]
          rw [hA2] at i1 i2
          rw [i2] at h4
          obtain ⟨j1, E, F, j2⟩ := ih t2 (by simp at hlen; omega) e' _ i1 _ _ _ _ h4 hst
          exact ⟨j1, E, F, .more hw ⟨g1, g0, g3, _, _, _, _, _, _, g4, g6⟩ g2 hB j2⟩
      · cases h5

end KissXml
