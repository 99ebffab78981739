import Verif.Proofs.Strip
import Verif.Proofs.Unescape
/-!
# Where `parse_str` can panic; what one tag does to the stack
-/
namespace KissXml
open Spec

/-- the computation stops, and panics only if `B` -/
def NP {ε α : Type} (B : Prop) (r : Res ε α) : Prop := r ≠ .diverge ∧ (r = .panic → B)

theorem np_ok {ε α : Type} {B : Prop} (a : α) : NP B (.ok a : Res ε α) := ⟨by simp, by simp⟩
theorem np_err {ε α : Type} {B : Prop} (e : ε) : NP B (.err e : Res ε α) := ⟨by simp, by simp⟩
theorem np_bind {ε α β : Type} {B : Prop} {r : Res ε α} {f : α → Res ε β} (h : NP B r)
    (hf : ∀ a, r = .ok a → NP B (f a)) : NP B (r >>= f) := by
  cases r with
  | ok a => exact hf a rfl
  | err e => exact np_err e
  | panic => exact ⟨by simp, fun _ => h.2 rfl⟩
  | diverge => exact absurd rfl h.1
theorem np_mapErr {ε ε' α : Type} {B : Prop} {r : Res ε α} {f : ε → ε'} (h : NP B r) : NP B (r.mapErr f) := by
  cases r with
  | ok a => exact np_ok a
  | err e => exact np_err _
  | panic => exact ⟨by simp, fun _ => h.2 rfl⟩
  | diverge => exact absurd rfl h.1
theorem np_unwrap {ε α : Type} {B : Prop} {o : Option α} (h : o = none → B) : NP B (Res.unwrap o : Res ε α) := by
  cases o with
  | none => exact ⟨by simp, fun _ => h rfl⟩
  | some a => exact np_ok a

theorem mapErr_eq_ok {ε ε' α : Type} {r : Res ε α} {f : ε → ε'} {a : α} : r.mapErr f = .ok a ↔ r = .ok a := by
  cases r <;> simp

theorem unwrap_eq_ok {ε α : Type} {o : Option α} {a : α} : (Res.unwrap o : Res ε α) = .ok a ↔ o = some a := by
  cases o <;> simp

/-- `unescape` panics on a piece of `x`, or the abbreviation of a `<!…>` tag of `x` for a message does -/
def Bad (x : Str) : Prop :=
  (∃ s, Piece x s ∧ (unescape s : R Str) = .panic) ∨
  (∃ s, s <:+: x ∧ c%"<!" <+: s ∧ abbreviate s 32 = none)

theorem np_unescape {x s : Str} (h : Piece x s) : NP (Bad x) (unescape s : R Str) :=
  ⟨(unescapeLoop_bound _ _ _ (by omega) (by omega)).1, fun hp => .inl ⟨s, h, hp⟩⟩

theorem np_realText {x s : Str} (h : s <:+: x) : NP (Bad x) (realText s) := by
  unfold realText
  split
  · exact np_ok _
  · exact np_bind (np_unescape (.whole h)) (fun _ _ => np_ok _)

/-! ## attributes and elements -/

/-- a quoted value -/
theorem quoted_form {v : Str} (h2 : ¬ blen v < 2)
    (hq : (startsWith v c%"\"" && endsWith v c%"\"") || (startsWith v c%"'" && endsWith v c%"'")) :
    ∃ q m, (q = '"' ∨ q = '\'') ∧ v = q :: (m ++ [q]) ∧ sliceB 1 (blen v - 1) v = some m := by
  have key : ∀ q : Char, q.utf8Size = 1 → [q] <+: v → [q] <:+ v → ∃ m, v = q :: (m ++ [q]) ∧ sliceB 1 (blen v - 1) v = some m := by
    intro q hq1 hp hs
    have hl : [q].length + [q].length ≤ v.length := by
      obtain ⟨u, rfl⟩ := hp
      cases u with
      | nil => simp [hq1] at h2
      | cons d u => simp
    obtain ⟨m, rfl⟩ := prefix_suffix_len hp hs hl
    refine ⟨m, by simp, sliceB_eq_some.2 ⟨[q], [q], by simp, by simp [hq1], by simp [hq1]; omega⟩⟩
  simp only [Bool.or_eq_true, Bool.and_eq_true, startsWith_iff, endsWith_iff] at hq
  rcases hq with ⟨a, b⟩ | ⟨a, b⟩
  · obtain ⟨m, h⟩ := key '"' (by decide) a b
    exact ⟨'"', m, .inl rfl, h⟩
  · obtain ⟨m, h⟩ := key '\'' (by decide) a b
    exact ⟨'\'', m, .inr rfl, h⟩

/-- the attribute `k="v"` read from a component, with its unescaped value -/
def AttrOf (kv k u : Str) : Prop :=
  ∃ q m, (q = '"' ∨ q = '\'') ∧ '=' ∉ k ∧ kv = k ++ '=' :: q :: (m ++ [q]) ∧ (unescape m : R Str) = .ok u

theorem np_parseAttrs {x : Str} (buffer : Str) (pos : Nat) (l : List Str) (h : ∀ s ∈ l, Piece x s) (m : SMap) :
    NP (Bad x) (parseAttrs buffer pos l m) := by
  induction l generalizing m with
  | nil => exact np_ok _
  | cons kv l ih =>
    have hkv := h kv (by simp)
    unfold parseAttrs
    split
    · exact np_err _
    · rename_i hc
      have hc : '=' ∈ kv := by
        have : contains kv c%"=" = true := by simpa using hc
        exact (List.singleton_infix_iff _ _).1 (contains_iff.1 this)
      refine np_bind (np_unwrap (fun hn => absurd hc (splitOnce_eq_none.1 hn))) ?_
      rintro ⟨k, v⟩ hs
      obtain ⟨rfl, hk⟩ := splitOnce_eq_some.1 (unwrap_eq_ok.1 hs)
      simp only
      split
      · exact np_err _
      · split
        · exact np_err _
        · rename_i h0 h2
          simp only [Bool.or_eq_true, decide_eq_true_eq, not_or] at h2
          obtain ⟨q, w, hq, hv, hsl⟩ := quoted_form h2.1 (by simpa only [Bool.not_eq_true', Bool.not_eq_false] using h2.2)
          rw [hsl]
          refine np_bind (np_ok _) ?_
          intro w' hw'
          cases hw'
          have hp : Piece x w := .part hkv ⟨k ++ ['=', q], [q], by rw [hv]; simp⟩
          exact np_bind (np_unescape hp) (fun u _ => ih (fun s hs => h s (by simp [hs])) _)

theorem parseAttrs_cons {buffer : Str} {pos : Nat} {kv : Str} {l : List Str} {m m' : SMap} :
    parseAttrs buffer pos (kv :: l) m = .ok m' ↔ ∃ k u, AttrOf kv k u ∧ parseAttrs buffer pos l (m.insert k u) = .ok m' := by
  constructor
  · intro h
    unfold parseAttrs at h
    split at h
    · cases h
    · obtain ⟨⟨k, v⟩, h1, h'⟩ := bind_eq_ok.1 h
      clear h
      rename' h' => h
      obtain ⟨rfl, hk⟩ := splitOnce_eq_some.1 (unwrap_eq_ok.1 h1)
      simp only at h
      split at h
      · cases h
      · split at h
        · cases h
        · rename_i h0 h2
          simp only [Bool.or_eq_true, decide_eq_true_eq, not_or] at h2
          obtain ⟨q, w, hq, hv, hsl⟩ := quoted_form h2.1 (by simpa only [Bool.not_eq_true', Bool.not_eq_false] using h2.2)
          obtain ⟨w', h3, h⟩ := bind_eq_ok.1 h
          rw [hsl] at h3
          cases h3
          obtain ⟨u, h4, h⟩ := bind_eq_ok.1 h
          exact ⟨k, u, ⟨q, w, hq, hk, by rw [hv], h4⟩, h⟩
  · rintro ⟨k, u, ⟨q, w, hq, hk, rfl, hu⟩, h⟩
    have hw : q.utf8Size = 1 := by rcases hq with rfl | rfl <;> decide
    unfold parseAttrs
    rw [if_neg (by
      have : contains (k ++ '=' :: q :: (w ++ [q])) c%"=" = true :=
        contains_iff.2 ((List.singleton_infix_iff _ _).2 (by simp))
      simp [this])]
    rw [splitOnce_eq_some.2 ⟨rfl, hk⟩]
    simp only [Res.unwrap_some, Res.bind_ok]
    rw [if_neg (by simp [hw]), if_neg (by
      simp only [Bool.or_eq_true, decide_eq_true_eq, not_or, Bool.not_eq_true', Bool.not_eq_false]
      refine ⟨by simp [hw]; omega, ?_⟩
      simp only [Bool.and_eq_true, startsWith_iff, endsWith_iff]
      rcases hq with rfl | rfl
      · exact .inl ⟨⟨_, rfl⟩, ⟨'"' :: w, by simp⟩⟩
      · exact .inr ⟨⟨_, rfl⟩, ⟨'\'' :: w, by simp⟩⟩)]
    have hsl : sliceB 1 (blen (q :: (w ++ [q])) - 1) (q :: (w ++ [q])) = some w :=
      sliceB_eq_some.2 ⟨[q], [q], by simp, by simp [hw], by simp [hw]; omega⟩
    rw [hsl]
    simp only [Res.unwrap_some, Res.bind_ok, hu, h]

/-- the namespace an element declares for its own prefix -/
def ownNs (attrs : SMap) : Option Str → Option Str
  | none => attrs.get c%"xmlns"
  | some p => attrs.get (c%"xmlns:" ++ p)

theorem new_plain (name : Str) (attrs : SMap) (xmlns pfx : Option Str) :
    ElementF.new name none (some attrs) xmlns pfx none =
      if !validName name then .err (.invalidElementName name)
      else match attrs.entries.find? (fun kv => !validName kv.1) with
        | some kv => .err (.invalidAttributeName kv.1)
        | none => .ok ⟨name, [], attrs, xmlns.or (ownNs attrs pfx), pfx, ElementF.xmlnsContextFromAttributes attrs⟩ := by
  unfold ElementF.new checkElemName
  cases validName name with
  | false => rfl
  | true =>
    simp only [if_true, Res.bind_ok, Bool.not_true, Bool.false_eq_true, if_false]
    cases attrs.entries.find? (fun kv => !validName kv.1) with
    | some kv => rfl
    | none => cases xmlns <;> cases pfx <;> rfl

/-- what the parser knows about names: prefix and the namespace found for it -/
inductive NameSplit (parent : Option Element) (attrs : SMap) (name : Str) : Str → Option Str → Option Str → Prop
  | plain : ':' ∉ name → NameSplit parent attrs name name none none
  | own {a b : Str} {v : Str} : name = a ++ ':' :: b → ':' ∉ a → attrs.get (c%"xmlns:" ++ a) = some v →
      NameSplit parent attrs name b (some v) (some a)
  | inh {a b : Str} {p : Element} : name = a ++ ':' :: b → ':' ∉ a → attrs.get (c%"xmlns:" ++ a) = none →
      parent = some p → NameSplit parent attrs name b (p.ctx.get (c%"xmlns:" ++ a)) (some a)

/-- what `parse_new_element` does -/
structure NewElem (tagContent : Str) (parent : Option Element) (attrs : SMap) (n0 n : Str) (x q : Option Str) (e : Element) :
    Prop where
  attrs_ok : ∃ comps buffer pos, quoteAwareSplit tagContent = n0 :: comps ∧ parseAttrs buffer pos (joinLoop comps) SMap.empty = .ok attrs
  name : NameSplit parent attrs n0 n x q
  valid : validName n = true
  attrs_valid : ∀ k, (attrs.get k).isSome → validName k = true
  eq : e = ElementF.setNamespaceContext
      ⟨n, [], attrs, x.or (ownNs attrs q), q,
        ElementF.xmlnsContextFromAttributes attrs⟩ (parent.bind ElementF.defaultNamespace) (parent.map ElementF.ctx)

theorem lmap_get_isSome {l : List (Str × Str)} {k : Str} : (LMap.get l k).isSome ↔ ∃ v, (k, v) ∈ l := by
  induction l with
  | nil => simp [LMap.get]
  | cons kv l ih =>
    obtain ⟨k', v'⟩ := kv
    unfold LMap.get
    split
    · rename_i h; subst h; simp
    · rename_i h
      rw [ih]
      constructor
      · rintro ⟨v, hv⟩; exact ⟨v, by simp [hv]⟩
      · rintro ⟨v, hv⟩
        simp only [List.mem_cons, Prod.mk.injEq] at hv
        rcases hv with ⟨hv, -⟩ | hv
        · exact absurd hv.symm h
        · exact ⟨v, hv⟩

theorem find_invalid {attrs : SMap} : attrs.entries.find? (fun kv => !validName kv.1) = none ↔
    ∀ k, (attrs.get k).isSome → validName k = true := by
  rw [List.find?_eq_none]
  constructor
  · intro h k hk
    obtain ⟨v, hv⟩ := lmap_get_isSome.1 hk
    simpa using h (k, v) hv
  · rintro h ⟨k, v⟩ hk
    simpa using h k (lmap_get_isSome.2 ⟨v, hk⟩)

/-- the name part of `parse_new_element` -/
def nameSplit (buffer : Str) (pos : Nat) (parent : Option Element) (attrs : SMap) (name : Str) : R (Str × Option Str × Option Str) :=
  if contains name c%":" then do
    let (a, b) ← Res.unwrap (splitOnce ':' name)
    let key := c%"xmlns:" ++ a
    if attrs.containsKey key then pure (b, attrs.get key, some a)
    else match parent.map ElementF.ctx with
      | none => .err (errAt (.undefinedPrefix a) buffer pos)
      | some ctx => pure (b, ctx.get key, some a)
  else pure (name, none, none)

theorem parseNewElement_eq (t buffer : Str) (pos : Nat) (parent : Option Element) :
    parseNewElement t buffer pos parent =
      (match quoteAwareSplit t with
      | [] => .err (errAt .emptyTag buffer pos)
      | n0 :: comps => do
        let attrs ← parseAttrs buffer pos (joinLoop comps) SMap.empty
        let (n, x, q) ← nameSplit buffer pos parent attrs n0
        let e ← ElementF.new n none (some attrs) x q none
        pure (e.setNamespaceContext (parent.bind ElementF.defaultNamespace) (parent.map ElementF.ctx))) := by
  unfold parseNewElement
  cases quoteAwareSplit t with
  | nil => rfl
  | cons n0 comps =>
    simp only [joinSpacedAttributes, List.drop_succ_cons, List.drop_zero, List.getElem?_cons_zero, Res.unwrap_some,
      Res.bind_ok, nameSplit]
    cases parent <;> rfl

theorem nameSplit_ok {buffer : Str} {pos : Nat} {parent : Option Element} {attrs : SMap} {name n : Str} {x q : Option Str} :
    nameSplit buffer pos parent attrs name = .ok (n, x, q) ↔ NameSplit parent attrs name n x q := by
  unfold nameSplit
  by_cases hc : ':' ∈ name
  · have hc' : contains name c%":" = true := contains_iff.2 ((List.singleton_infix_iff _ _).2 hc)
    rw [if_pos hc']
    cases hs : splitOnce ':' name with
    | none => exact absurd hc (splitOnce_eq_none.1 hs)
    | some ab =>
      obtain ⟨a, b⟩ := ab
      obtain ⟨rfl, ha⟩ := splitOnce_eq_some.1 hs
      have huniq : ∀ a' b', a ++ ':' :: b = a' ++ ':' :: b' → ':' ∉ a' → a' = a ∧ b' = b := by
        intro a' b' h h'
        have e1 := splitOnce_eq_some.2 ⟨h, h'⟩
        rw [hs] at e1
        simp at e1
        exact ⟨e1.1.symm, e1.2.symm⟩
      simp only [Res.unwrap_some, Res.bind_ok]
      show (if attrs.containsKey (c%"xmlns:" ++ a) = true then pure (b, attrs.get (c%"xmlns:" ++ a), some a)
        else match parent.map ElementF.ctx with
          | none => .err (errAt (.undefinedPrefix a) buffer pos)
          | some ctx => pure (b, ctx.get (c%"xmlns:" ++ a), some a) : R (Str × Option Str × Option Str)) = _ ↔ _
      by_cases hg : attrs.containsKey (c%"xmlns:" ++ a) = true
      · rw [if_pos hg]
        obtain ⟨v, hg⟩ := Option.isSome_iff_exists.1 hg
        simp only [Res.pure_eq, Res.ok.injEq, Prod.mk.injEq]
        constructor
        · rintro ⟨rfl, rfl, rfl⟩; rw [hg]; exact .own rfl ha hg
        · intro h
          cases h with
          | plain h => exact absurd hc h
          | own h1 h2 h3 =>
            obtain ⟨rfl, rfl⟩ := huniq _ _ h1 h2
            exact ⟨rfl, h3, rfl⟩
          | inh h1 h2 h3 h4 =>
            obtain ⟨rfl, rfl⟩ := huniq _ _ h1 h2
            rw [hg] at h3; cases h3
      · rw [if_neg hg]
        have hg : attrs.get (c%"xmlns:" ++ a) = none := by simpa [SMap.containsKey] using hg
        cases parent with
        | none =>
          simp only [Option.map_none, reduceCtorEq, false_iff]
          intro h
          cases h with
          | plain h => exact h hc
          | own h1 h2 h3 =>
            obtain ⟨rfl, rfl⟩ := huniq _ _ h1 h2
            rw [hg] at h3; cases h3
          | inh h1 h2 h3 h4 => cases h4
        | some p =>
          simp only [Option.map_some, Res.pure_eq, Res.ok.injEq, Prod.mk.injEq]
          constructor
          · rintro ⟨rfl, rfl, rfl⟩; exact .inh rfl ha hg rfl
          · intro h
            cases h with
            | plain h => exact absurd hc h
            | own h1 h2 h3 =>
              obtain ⟨rfl, rfl⟩ := huniq _ _ h1 h2
              rw [hg] at h3; cases h3
            | inh h1 h2 h3 h4 =>
              obtain ⟨rfl, rfl⟩ := huniq _ _ h1 h2
              cases h4
              exact ⟨rfl, rfl, rfl⟩
  · have hc' : contains name c%":" = false := by
      rw [Bool.eq_false_iff]; intro h; exact hc ((List.singleton_infix_iff _ _).1 (contains_iff.1 h))
    rw [if_neg (by simp [hc'])]
    simp only [Res.pure_eq, Res.ok.injEq, Prod.mk.injEq]
    constructor
    · rintro ⟨rfl, rfl, rfl⟩; exact .plain hc
    · intro h
      cases h with
      | plain h => exact ⟨rfl, rfl, rfl⟩
      | own h1 h2 h3 => exact absurd (by simp [h1]) hc
      | inh h1 h2 h3 h4 => exact absurd (by simp [h1]) hc

theorem parseNewElement_ok {t buffer : Str} {pos : Nat} {parent : Option Element} {e : Element}
    (h : parseNewElement t buffer pos parent = .ok e) : ∃ attrs n0 n x q, NewElem t parent attrs n0 n x q e := by
  rw [parseNewElement_eq] at h
  cases hq : quoteAwareSplit t with
  | nil => rw [hq] at h; cases h
  | cons n0 comps =>
    rw [hq] at h
    simp only at h
    obtain ⟨attrs, h1, h⟩ := bind_eq_ok.1 h
    obtain ⟨⟨n, x, q⟩, h2, h⟩ := bind_eq_ok.1 h
    simp only at h
    obtain ⟨e0, h3, h⟩ := bind_eq_ok.1 h
    rw [new_plain] at h3
    split at h3
    · cases h3
    · rename_i hv
      split at h3
      · cases h3
      · rename_i hf
        simp only [Res.ok.injEq] at h3
        simp only [Res.pure_eq, Res.ok.injEq] at h
        exact ⟨attrs, n0, n, x, q, ⟨_, buffer, pos, hq, h1⟩, nameSplit_ok.1 h2, by simpa using hv, find_invalid.1 hf,
          by rw [← h, ← h3]⟩

/-- the attribute map does not depend on where errors would be reported -/
theorem parseAttrs_ok_indep {buffer buffer' : Str} {pos pos' : Nat} {l : List Str} {m m' : SMap}
    (h : parseAttrs buffer pos l m = .ok m') : parseAttrs buffer' pos' l m = .ok m' := by
  induction l generalizing m with
  | nil => exact h
  | cons kv l ih =>
    obtain ⟨k, u, h1, h2⟩ := parseAttrs_cons.1 h
    exact parseAttrs_cons.2 ⟨k, u, h1, ih h2⟩

theorem parseNewElement_of {t : Str} {parent : Option Element} {attrs : SMap} {n0 n : Str} {x q : Option Str} {e : Element}
    (h : NewElem t parent attrs n0 n x q e) (buffer : Str) (pos : Nat) : parseNewElement t buffer pos parent = .ok e := by
  obtain ⟨⟨comps, b', p', h1, h2⟩, h3, h4, h5, h6⟩ := h
  rw [parseNewElement_eq, h1]
  simp only [parseAttrs_ok_indep h2, nameSplit_ok.2 h3, Res.bind_ok, new_plain, h4, find_invalid.2 h5, Bool.not_true,
    Bool.false_eq_true, if_false, Res.pure_eq, h6]

theorem np_parseNewElement {x t : Str} (h : t <:+: x) (buffer : Str) (pos : Nat) (parent : Option Element) :
    NP (Bad x) (parseNewElement t buffer pos parent) := by
  rw [parseNewElement_eq]
  have hp := joined_piece h
  cases hq : quoteAwareSplit t with
  | nil => exact np_err _
  | cons n0 comps =>
    rw [hq] at hp
    simp only [joinSpacedAttributes, List.drop_succ_cons, List.drop_zero] at hp
    refine np_bind (np_parseAttrs _ _ _ hp _) (fun attrs _ => np_bind ?_ (fun nxq _ => np_bind ?_ (fun _ _ => np_ok _)))
    · unfold nameSplit
      split
      · rename_i hc
        refine np_bind (np_unwrap (fun hn => ?_)) (fun ab _ => ?_)
        · exact absurd ((List.singleton_infix_iff _ _).1 (contains_iff.1 hc)) (splitOnce_eq_none.1 hn)
        · simp only
          split
          · exact np_ok _
          · split
            · exact np_err _
            · exact np_ok _
      · exact np_ok _
    · rw [new_plain]
      split
      · exact np_err _
      · split
        · exact np_err _
        · exact np_ok _

/-! ## one tag -/

/-- What a tag does to the stack. -/
inductive TagStep (tag : Str) (st st' : ParseTree) : Prop
  | comment {c : Str} : tag = c%"<!--" ++ c ++ c%"-->" → ¬ c%"-->" <:+: c → st.append (.comment c) = .ok st' → TagStep tag st st'
  | cdata {c : Str} : tag = c%"<![CDATA[" ++ c ++ c%"]]>" → ¬ c%"]]>" <:+: c → st.append (.cdata c) = .ok st' → TagStep tag st st'
  | close {active : Element} : c%"</" <+: tag → Re.isMatch elemRe tag = true → st.topElement = .ok (some active) →
      stripTag tag = some active.tagName → st.pop = .ok st' → TagStep tag st st'
  | empty {parent : Option Element} {t : Str} {attrs : SMap} {n0 n : Str} {x q : Option Str} {e : Element} : ¬ c%"</" <+: tag → ¬ c%"<!" <+: tag → c%"/>" <:+ tag →
      Re.isMatch elemRe tag = true → stripTag tag = some t → st.topElement = .ok parent →
      NewElem t parent attrs n0 n x q e → st.append (.element e) = .ok st' → TagStep tag st st'
  | start {parent : Option Element} {t : Str} {attrs : SMap} {n0 n : Str} {x q : Option Str} {e : Element} : ¬ c%"</" <+: tag → ¬ c%"<!" <+: tag → ¬ c%"/>" <:+ tag →
      Re.isMatch elemRe tag = true → stripTag tag = some t → st.topElement = .ok parent →
      NewElem t parent attrs n0 n x q e → st.push e = .ok st' → TagStep tag st st'

theorem checkElementTag_ok {t : Str} : checkElementTag t = .ok () ↔ Re.isMatch elemRe t = true := by
  unfold checkElementTag
  split <;> simp_all

theorem not_true_prefix {s p : Str} (h : ¬ startsWith s p = true) : ¬ p <+: s := fun h' => h (startsWith_iff.2 h')

theorem handleTag_ok {buffer : Str} {pos : Nat} {tag : Str} {st st' : ParseTree} (h : handleTag buffer pos tag st = .ok st') :
    TagStep tag st st' := by
  unfold handleTag at h
  split at h
  · rename_i hc
    simp only [Bool.and_eq_true, startsWith_iff, endsWith_iff] at hc
    simp only at h
    split at h
    · rename_i hlt
      obtain ⟨body, h1, h'⟩ := bind_eq_ok.1 h
      obtain ⟨c, h2, h''⟩ := bind_eq_ok.1 h'
      have hb := unwrap_eq_ok.1 h1
      have hform : tag = c%"<!--" ++ body ++ c%"-->" := by
        obtain ⟨a, b, e1, e2, e3⟩ := sliceB_eq_some.1 hb
        obtain ⟨u, hu⟩ := hc.1
        obtain ⟨v, hv⟩ := hc.2
        have ha : a = c%"<!--" ∧ body ++ b = u := by
          apply append_inj_blen (by rw [hu, e1]; simp) 
          rw [e2]; rfl
        have hlen := congrArg blen hv
        have hlen2 := congrArg blen e1
        simp only [blen_append] at hlen hlen2
        have hb3 : blen b = blen c%"-->" := by
          have h7 : blen c%"-->" = 3 := rfl
          omega
        have hv' : v ++ c%"-->" = (a ++ body) ++ b := by rw [hv, e1]
        have hbb : b = c%"-->" := (append_inj_blen hv' (by simp only [blen_append]; omega)).2.symm
        rw [e1, ha.1, hbb]
      unfold commentNew at h2
      split at h2
      · cases h2
      · rename_i hn
        cases h2
        exact .comment hform (fun hi => hn (contains_iff.2 hi)) (mapErr_eq_ok.1 h'')
    · split at h
      · rename_i hlt heq
        have hform : tag = c%"<!--" ++ [] ++ c%"-->" := by
          obtain ⟨u, hu⟩ := hc.1
          obtain ⟨v, hv⟩ := hc.2
          have hlen := congrArg blen hv
          simp only [blen_append] at hlen
          have h7 : blen c%"-->" = 3 := rfl
          have h8 : blen c%"<!--" = 4 := rfl
          have := append_inj_blen (hv.trans hu.symm) (by omega)
          rw [← hv, this.1]; rfl
        simp only [commentNew] at h
        exact .comment hform (by decide) h
      · cases h
  · split at h
    · rename_i hc hcd
      split at h
      · cases h
      · rename_i he
        have he : c%"]]>" <:+ tag := endsWith_iff.1 (by simpa using he)
        obtain ⟨m, hm⟩ := prefix_suffix_head (startsWith_iff.1 hcd) he (by decide)
        have hsl : sliceB 9 (blen tag - 3) tag = some m :=
          sliceB_eq_some.2 ⟨c%"<![CDATA[", c%"]]>", hm, rfl, by
            have h7 : blen c%"]]>" = 3 := rfl
            have h8 : blen c%"<![CDATA[" = 9 := rfl
            rw [hm]; simp only [blen_append]; omega⟩
        rw [hsl] at h
        simp only [Res.unwrap_some, Res.bind_ok] at h
        obtain ⟨c, h2, h''⟩ := bind_eq_ok.1 h
        unfold cdataNew at h2
        split at h2
        · cases h2
        · rename_i hn
          cases h2
          exact .cdata hm (fun hi => hn (contains_iff.2 hi)) (mapErr_eq_ok.1 h'')
    · split at h
      · obtain ⟨_, -, h'⟩ := bind_eq_ok.1 h
        cases h'
      · rename_i hne
        obtain ⟨t, h1, h'⟩ := bind_eq_ok.1 h
        obtain ⟨⟨⟩, h2, h3⟩ := bind_eq_ok.1 h'
        have hm := checkElementTag_ok.1 (mapErr_eq_ok.1 h2)
        have ht := unwrap_eq_ok.1 h1
        split at h3
        · rename_i hcl
          obtain ⟨top, h4, h5⟩ := bind_eq_ok.1 h3
          cases top with
          | none => cases h5
          | some active =>
            simp only at h5
            split at h5
            · cases h5
            · rename_i hne
              have : t = active.tagName := by simpa using hne
              exact .close (startsWith_iff.1 hcl) hm h4 (by rw [ht, this]) h5
        · rename_i hcl
          obtain ⟨top, h4, h5⟩ := bind_eq_ok.1 h3
          obtain ⟨e, h6, h7⟩ := bind_eq_ok.1 h5
          obtain ⟨attrs, n0, n, x, q, hN⟩ := parseNewElement_ok h6
          split at h7
          · rename_i hs
            exact .empty (not_true_prefix hcl) (not_true_prefix hne) (endsWith_iff.1 hs) hm ht h4 hN (mapErr_eq_ok.1 h7)
          · rename_i hs
            exact .start (not_true_prefix hcl) (not_true_prefix hne) (fun h' => hs (endsWith_iff.2 h')) hm ht h4 hN h7

/-! ## stack invariant -/

/-- the stack is a well-formed, non-empty arena all of whose nodes satisfy `Q` -/
def StackQ (Q : Node → Prop) (st : ParseTree) : Prop :=
  ∃ A pos, st = arena A pos ∧ ArenaOk A pos ∧ A ≠ [] ∧ ∀ n ∈ A, Q n.value

theorem stackQ_append {Q : Node → Prop} {st : ParseTree} (h : StackQ Q st) {n : Node} (hn : Q n) :
    (∃ e, st.append n = .err e) ∨ ∃ st', st.append n = .ok st' ∧ StackQ Q st' := by
  obtain ⟨A, pos, rfl, h1, h2, h3⟩ := h
  cases pos with
  | none => exact .inl ⟨_, rfl⟩
  | some p =>
    obtain ⟨g1, g2⟩ := append_some h1 n
    refine .inr ⟨_, g1, _, _, rfl, g2, by simp, ?_⟩
    intro m hm
    rcases List.mem_append.1 hm with hm | hm
    · exact h3 m hm
    · simp at hm; subst hm; exact hn

theorem stackQ_push {Q : Node → Prop} {st : ParseTree} (h : StackQ Q st) {e : Element} (hn : Q (.element e)) :
    ∃ st', st.push e = .ok st' ∧ StackQ Q st' := by
  obtain ⟨A, pos, rfl, h1, h2, h3⟩ := h
  cases pos with
  | none =>
    obtain ⟨A', g1, g2, g3⟩ := push_none h1 e
    refine ⟨_, g1, _, _, rfl, g2, by simp [g3], ?_⟩
    intro m hm
    rw [g3] at hm
    rcases List.mem_cons.1 hm with rfl | hm
    · exact hn
    · exact h3 m (List.mem_of_mem_drop hm)
  | some p =>
    obtain ⟨g1, g2⟩ := push_some h1 e
    refine ⟨_, g1, _, _, rfl, g2, by simp, ?_⟩
    intro m hm
    rcases List.mem_append.1 hm with hm | hm
    · exact h3 m hm
    · simp at hm; subst hm; exact hn

theorem stackQ_pop {Q : Node → Prop} {st : ParseTree} (h : StackQ Q st) :
    (∃ e, st.pop = .err e) ∨ ∃ st', st.pop = .ok st' ∧ StackQ Q st' := by
  obtain ⟨A, pos, rfl, h1, h2, h3⟩ := h
  cases pos with
  | none => exact .inl ⟨_, rfl⟩
  | some p =>
    obtain ⟨q, g1, g2, -⟩ := pop_some h1
    exact .inr ⟨_, g1, _, _, rfl, g2, h2, h3⟩

theorem stackQ_top {Q : Node → Prop} {st : ParseTree} (h : StackQ Q st) :
    ∃ o, st.topElement = .ok o ∧ ∀ e, o = some e → Q (.element e) := by
  obtain ⟨A, pos, rfl, h1, h2, h3⟩ := h
  cases pos with
  | none => exact ⟨none, rfl, by simp⟩
  | some p =>
    obtain ⟨m, e, g1, g2⟩ := h1.pos p rfl
    refine ⟨some e, topElement_some g1 g2, ?_⟩
    intro e' he
    cases he
    rw [← g2]; exact h3 m (List.mem_of_getElem? g1)

theorem np_append {Q : Node → Prop} {B : Prop} {st : ParseTree} (h : StackQ Q st) (n : Node) : NP B (st.append n) := by
  have h' : StackQ (fun _ => True) st := by
    obtain ⟨A, pos, h0, h1, h2, h3⟩ := h; exact ⟨A, pos, h0, h1, h2, by simp⟩
  rcases stackQ_append (n := n) h' trivial with ⟨e, he⟩ | ⟨st', he, -⟩ <;> rw [he]
  · exact np_err _
  · exact np_ok _

theorem np_push {Q : Node → Prop} {B : Prop} {st : ParseTree} (h : StackQ Q st) (e : Element) : NP B (st.push e) := by
  have h' : StackQ (fun _ => True) st := by
    obtain ⟨A, pos, h0, h1, h2, h3⟩ := h; exact ⟨A, pos, h0, h1, h2, by simp⟩
  obtain ⟨st', he, -⟩ := stackQ_push (e := e) h' trivial
  rw [he]; exact np_ok _

theorem np_pop {Q : Node → Prop} {B : Prop} {st : ParseTree} (h : StackQ Q st) : NP B st.pop := by
  rcases stackQ_pop h with ⟨e, he⟩ | ⟨st', he, -⟩ <;> rw [he]
  · exact np_err _
  · exact np_ok _

theorem np_top {Q : Node → Prop} {B : Prop} {st : ParseTree} (h : StackQ Q st) : NP B st.topElement := by
  obtain ⟨o, he, -⟩ := stackQ_top h
  rw [he]; exact np_ok _

/-- what every node made by the parser satisfies: comments, CDATA sections and new elements -/
structure FreshOk (Q : Node → Prop) : Prop where
  text : ∀ s t, (unescape s : R Str) = .ok t → ¬ s.all isWs → Q (.text t)
  comment : ∀ c, ¬ c%"-->" <:+: c → Q (.comment c)
  cdata : ∀ c, ¬ c%"]]>" <:+: c → Q (.cdata c)
  element : ∀ t parent attrs n0 n x q e, NewElem t parent attrs n0 n x q e → Q (.element e)

theorem tagStep_stackQ {Q : Node → Prop} (hQ : FreshOk Q) {tag : Str} {st st' : ParseTree} (h : StackQ Q st)
    (hs : TagStep tag st st') : StackQ Q st' := by
  cases hs with
  | comment h1 h2 h3 =>
    rcases stackQ_append h (hQ.comment _ h2) with ⟨e, he⟩ | ⟨st2, he, hq⟩ <;> rw [he] at h3 <;> cases h3
    exact hq
  | cdata h1 h2 h3 =>
    rcases stackQ_append h (hQ.cdata _ h2) with ⟨e, he⟩ | ⟨st2, he, hq⟩ <;> rw [he] at h3 <;> cases h3
    exact hq
  | close _ _ _ _ h3 =>
    rcases stackQ_pop h with ⟨e, he⟩ | ⟨st2, he, hq⟩ <;> rw [he] at h3 <;> cases h3
    exact hq
  | empty _ _ _ _ _ _ hN h3 =>
    rcases stackQ_append h (hQ.element _ _ _ _ _ _ _ _ hN) with ⟨e, he⟩ | ⟨st2, he, hq⟩ <;> rw [he] at h3 <;> cases h3
    exact hq
  | start _ _ _ _ _ _ hN h3 =>
    obtain ⟨st2, he, hq⟩ := stackQ_push h (hQ.element _ _ _ _ _ _ _ _ hN)
    rw [he] at h3; cases h3
    exact hq

theorem addText_ok {buffer : Str} {pos : Nat} {text : Str} {st st' : ParseTree} (h : addText buffer pos text st = .ok st') :
    (text.all isWs = true ∧ st' = st) ∨
    (text.all isWs = false ∧ ∃ t, (unescape text : R Str) = .ok t ∧ st.append (.text t) = .ok st') := by
  unfold addText realText at h
  split at h
  · rename_i hw
    simp only [Res.bind_ok, Res.pure_eq, Res.ok.injEq] at h
    exact .inl ⟨hw, h.symm⟩
  · rename_i hw
    cases hu : (unescape text : R Str) with
    | ok t =>
      rw [hu] at h
      simp only [Res.bind_ok, Res.pure_eq] at h
      exact .inr ⟨by simpa using hw, t, rfl, mapErr_eq_ok.1 h⟩
    | err e => rw [hu] at h; cases h
    | panic => rw [hu] at h; cases h
    | diverge => rw [hu] at h; cases h

theorem addText_stackQ {Q : Node → Prop} (hQ : FreshOk Q) {buffer : Str} {pos : Nat} {text : Str} {st st' : ParseTree}
    (h : StackQ Q st) (hs : addText buffer pos text st = .ok st') : StackQ Q st' := by
  rcases addText_ok hs with ⟨-, rfl⟩ | ⟨hw, t, h1, h2⟩
  · exact h
  · rcases stackQ_append h (hQ.text _ _ h1 (by simp [hw])) with ⟨e, he⟩ | ⟨st2, he, hq⟩ <;> rw [he] at h2 <;> cases h2
    exact hq

theorem runToks_stackQ {Q : Node → Prop} (hQ : FreshOk Q) {buffer : Str} {sc : Bool} {e : Option Nat} {pos : Nat}
    {toks : List (Str × Str)} {st st' : ParseTree} (h : StackQ Q st) (hs : runToks buffer sc e pos toks st = .ok st') :
    StackQ Q st' := by
  induction toks generalizing pos st with
  | nil =>
    unfold runToks at hs
    cases e with
    | none => cases hs; exact h
    | some n => cases hs
  | cons tt toks ih =>
    obtain ⟨text, tag⟩ := tt
    rw [runToks] at hs
    split at hs
    · cases hs
    · obtain ⟨st1, h1, hs1⟩ := bind_eq_ok.1 hs
      obtain ⟨st2, h2, hs2⟩ := bind_eq_ok.1 hs1
      exact ih (tagStep_stackQ hQ (addText_stackQ hQ h h1) (handleTag_ok h2)) hs2

/-! ## no panic elsewhere -/

theorem freshOk_true : FreshOk (fun _ => True) := ⟨by simp, by simp, by simp, by simp⟩

theorem np_handleTag_gen {B : Prop} {Q : Node → Prop} (buffer : Str) (pos : Nat) (tag : Str) (st : ParseTree) (hst : StackQ Q st)
    (hcut : c%"<!" <+: tag → ¬ (c%"<!--" <+: tag ∧ c%"-->" <:+ tag) → ¬ c%"<![CDATA[" <+: tag → abbreviate tag 32 = none → B)
    (hnew : ∀ t parent, stripTag tag = some t → Re.isMatch elemRe tag = true → ¬ c%"<!" <+: tag → ¬ c%"</" <+: tag →
      NP B (parseNewElement t buffer pos parent)) : NP B (handleTag buffer pos tag st) := by
  unfold handleTag
  split
  · rename_i hc
    simp only [Bool.and_eq_true, startsWith_iff, endsWith_iff] at hc
    simp only
    split
    · rename_i hlt
      have hsl : ∃ m, sliceB 4 (blen tag - 3) tag = some m := by
        have h7 : blen c%"-->" = 3 := rfl
        have h8 : blen c%"<!--" = 4 := rfl
        obtain ⟨u, hu⟩ := hc.1
        obtain ⟨v, hv⟩ := hc.2
        have hl2 := congrArg blen hv
        simp only [blen_append] at hl2
        have hle : c%"<!--".length ≤ v.length := by
          rcases Nat.lt_or_ge v.length 4 with hlt' | hge
          · exfalso
            rcases List.append_eq_append_iff.1 (hv.trans hu.symm) with ⟨w, hw, -⟩ | ⟨w, hw, -⟩
            · have := congrArg blen hw; simp only [blen_append] at this; omega
            · have := congrArg List.length hw; simp at this; omega
          · exact hge
        obtain ⟨m, hm⟩ := prefix_suffix_len hc.1 hc.2 (by rw [← hv]; simp at hle ⊢; omega)
        exact ⟨m, sliceB_eq_some.2 ⟨c%"<!--", c%"-->", hm, rfl, by rw [hm]; simp only [blen_append]; omega⟩⟩
      obtain ⟨m, hm⟩ := hsl
      rw [hm]
      refine np_bind (np_ok _) (fun a _ => np_bind ?_ (fun c _ => np_mapErr (np_append hst _)))
      unfold commentNew
      split
      · exact np_err _
      · exact np_ok _
    · split
      · refine np_bind ?_ (fun c _ => np_append hst _)
        exact np_ok _
      · exact np_err _
  · split
    · rename_i hcd
      split
      · exact np_err _
      · rename_i he
        have he : c%"]]>" <:+ tag := endsWith_iff.1 (by simpa using he)
        obtain ⟨m, hm⟩ := prefix_suffix_head (startsWith_iff.1 hcd) he (by decide)
        have hsl : sliceB 9 (blen tag - 3) tag = some m :=
          sliceB_eq_some.2 ⟨c%"<![CDATA[", c%"]]>", hm, rfl, by
            have h7 : blen c%"]]>" = 3 := rfl
            have h8 : blen c%"<![CDATA[" = 9 := rfl
            rw [hm]; simp only [blen_append]; omega⟩
        rw [hsl]
        refine np_bind (np_ok _) (fun a _ => np_bind ?_ (fun c _ => np_mapErr (np_append hst _)))
        unfold cdataNew
        split
        · exact np_err _
        · exact np_ok _
    · split
      · rename_i hc hcd hl
        refine np_bind (np_unwrap (fun hn => hcut (startsWith_iff.1 hl) ?_ (not_true_prefix hcd) hn)) (fun _ _ => np_err _)
        simpa only [Bool.and_eq_true, startsWith_iff, endsWith_iff] using hc
      · obtain ⟨s, hs, hi⟩ := stripTag_infix tag
        rw [hs]
        refine np_bind (np_ok _) ?_
        intro t' ht'
        cases ht'
        rename_i hl
        refine np_bind (np_mapErr ?_) (fun _ hm => ?_)
        · unfold checkElementTag
          split
          · exact np_ok _
          · exact np_err _
        · have hm := checkElementTag_ok.1 (mapErr_eq_ok.1 hm)
          split
          · refine np_bind (np_top hst) (fun o _ => ?_)
            cases o with
            | none => exact np_err _
            | some a =>
              simp only
              split
              · exact np_err _
              · exact np_pop hst
          · rename_i hcl
            refine np_bind (np_top hst) (fun o _ => np_bind (hnew _ _ hs hm (not_true_prefix hl) (not_true_prefix hcl)) (fun e _ => ?_))
            split
            · exact np_mapErr (np_append hst _)
            · exact np_push hst _

theorem np_handleTag {x : Str} {Q : Node → Prop} (buffer : Str) (pos : Nat) (tag : Str) (ht : tag <:+: x) (st : ParseTree)
    (hst : StackQ Q st) : NP (Bad x) (handleTag buffer pos tag st) := by
  refine np_handleTag_gen buffer pos tag st hst (fun h _ _ hn => .inr ⟨tag, ht, h, hn⟩) (fun t parent h _ _ _ => ?_)
  obtain ⟨s, hs, hi⟩ := stripTag_infix tag
  rw [h] at hs
  cases hs
  exact np_parseNewElement (hi.trans ht) _ _ _

theorem np_runToks {x buffer : Str} {sc : Bool} {e : Option Nat} {pos : Nat} {toks : List (Str × Str)}
    (ht : ∀ t ∈ toks, t.1 <:+: x ∧ t.2 <:+: x) {st : ParseTree} (hst : StackQ (fun _ => True) st) :
    NP (Bad x) (runToks buffer sc e pos toks st) := by
  induction toks generalizing pos st with
  | nil =>
    unfold runToks
    cases e with
    | none => exact np_ok _
    | some n => exact np_err _
  | cons tt toks ih =>
    obtain ⟨text, tag⟩ := tt
    rw [runToks]
    split
    · exact np_err _
    · have h1 := ht (text, tag) (by simp)
      refine np_bind ?_ (fun st1 hs1 => ?_)
      · unfold addText
        refine np_bind (np_realText h1.1) (fun o _ => ?_)
        cases o with
        | none => exact np_ok _
        | some c => exact np_mapErr (np_append hst _)
      · have hst1 := addText_stackQ freshOk_true hst hs1
        refine np_bind (np_handleTag _ _ _ h1.2 _ hst1) (fun st2 hs2 => ?_)
        exact ih (fun t h => ht t (by simp [h])) (tagStep_stackQ freshOk_true hst1 (handleTag_ok hs2))

theorem lex_infix {pos : Nat} {r : Str} {toks : List (Str × Str)} {e : Option Nat} (h : Lex pos r toks e) :
    ∀ t ∈ toks, t.1 <:+: r ∧ t.2 <:+: r := by
  induction h with
  | done => simp
  | fail => simp
  | @tag pos text tag rest s toks e h1 h2 ht hs hl ih =>
    subst hs
    intro t ht
    rcases List.mem_cons.1 ht with rfl | ht
    · exact ⟨⟨[], tag ++ rest, by simp⟩, ⟨text, rest, by simp⟩⟩
    · obtain ⟨g1, g2⟩ := ih t ht
      have hr : rest <:+: text ++ (tag ++ rest) := ⟨text ++ tag, [], by simp⟩
      exact ⟨g1.trans hr, g2.trans hr⟩

/-- trimming removes nothing from a string that starts and ends with ASCII non-blanks -/
theorem trim_id {s : Str} (hh : ∀ c, s.head? = some c → isWs c = false) (hl : ∀ c, s.getLast? = some c → isWs c = false) :
    trim s = s := by
  have := trim_eq (w1 := []) (w2 := []) (s := s) rfl rfl hh hl
  simpa using this

theorem trim_ends {s : Str} {a b : Char} (ha : [a] <+: s) (hb : [b] <:+ s) (h1 : isWs a = false) (h2 : isWs b = false) :
    trim s = s := by
  apply trim_id
  · intro c hc
    obtain ⟨u, rfl⟩ := ha
    simp at hc; subst hc; exact h1
  · intro c hc
    obtain ⟨u, rfl⟩ := hb
    simp at hc; subst hc; exact h2

theorem stripPrefix_append (p s : Str) : stripPrefix p (p ++ s) = some s := by
  unfold stripPrefix
  rw [if_pos (startsWith_iff.2 (List.prefix_append _ _))]; simp

theorem stripSuffix_append (p s : Str) : stripSuffix p (s ++ p) = some s := by
  unfold stripSuffix
  rw [if_pos (endsWith_iff.2 (List.suffix_append _ _))]; simp

/-- a `<?…?>` tag is a declaration -/
theorem fromStr_tag (m : Str) : Declaration.fromStr (c%"<?" ++ m ++ c%"?>") = .ok ⟨m⟩ := by
  have ht : trim (c%"<?" ++ m ++ c%"?>") = c%"<?" ++ m ++ c%"?>" :=
    trim_ends (a := '<') (b := '>') ⟨_, rfl⟩ ⟨c%"<?" ++ m ++ c%"?", by simp⟩ (by decide) (by decide)
  unfold Declaration.fromStr
  simp only [ht]
  rw [if_pos (by
    simp only [Bool.and_eq_true, startsWith_iff, endsWith_iff]
    exact ⟨⟨m ++ c%"?>", by simp⟩, ⟨c%"<?" ++ m, by simp⟩⟩)]
  rw [List.append_assoc, stripPrefix_append]
  simp only [Res.unwrap_some, Res.bind_ok, stripSuffix_append, Res.pure_eq]

theorem dtd_tag (m : Str) : DTD.fromString (c%"<!DOCTYPE" ++ m ++ c%">") = .ok ⟨m⟩ := by
  have ht : trim (c%"<!DOCTYPE" ++ m ++ c%">") = c%"<!DOCTYPE" ++ m ++ c%">" :=
    trim_ends (a := '<') (b := '>') ⟨_, rfl⟩ ⟨c%"<!DOCTYPE" ++ m, by simp⟩ (by decide) (by decide)
  unfold DTD.fromString
  simp only [ht]
  rw [if_pos (by
    simp only [Bool.and_eq_true, startsWith_iff, endsWith_iff]
    exact ⟨⟨m ++ c%">", by simp⟩, ⟨c%"<!DOCTYPE" ++ m, by simp⟩⟩)]
  rw [List.append_assoc, stripPrefix_append]
  simp only [Res.unwrap_some, Res.bind_ok, stripSuffix_append, Res.pure_eq]

/-- shape of the declaration and doctype tags -/
theorem tagAt_pi_form {s t : Str} (h : TagAt s t) (hx : c%"<?" <+: t) : ∃ m, t = c%"<?" ++ m ++ c%"?>" := by
  have hp := tagAt_prefix h
  have hs : c%"<?" <+: s := hx.trans hp
  cases h with
  | comment h1 => obtain ⟨u, rfl⟩ := hs; obtain ⟨v, hv⟩ := h1; simp at hv
  | pi => exact ⟨_, rfl⟩
  | cdata h1 => obtain ⟨u, rfl⟩ := hs; obtain ⟨v, hv⟩ := h1; simp at hv
  | decl h1 => obtain ⟨u, rfl⟩ := hs; simp at h1
  | elem h1 h2 h3 => obtain ⟨u, rfl⟩ := hs; simp at h1; subst h1; exact absurd ⟨_, rfl⟩ h3

theorem tagAt_doctype_form {s t : Str} (h : TagAt s t) (hx : c%"<!DOCTYPE" <+: t) :
    ∃ m, t = c%"<!DOCTYPE" ++ m ++ c%">" := by
  have hend : c%">" <:+ t := by
    cases h with
    | comment h1 => exact ⟨_ ++ c%"--", by rw [List.append_assoc]; rfl⟩
    | pi => exact ⟨_ ++ c%"?", by rw [List.append_assoc]; rfl⟩
    | cdata h1 => exact ⟨_ ++ c%"]]", by rw [List.append_assoc]; rfl⟩
    | decl => exact ⟨_, rfl⟩
    | elem => exact ⟨_, rfl⟩
  exact prefix_suffix_head hx hend (by decide)

theorem np_prologTag {x buffer : Str} {pos : Nat} {text tag s : Str} {st : Prolog} (h1 : text <:+: x) (h2 : tag <:+: x)
    (ht : TagAt s tag) : NP (Bad x) (prologTag buffer pos text tag st) := by
  unfold prologTag
  refine np_bind (np_realText h1) (fun o _ => ?_)
  split
  · exact np_err _
  · simp only
    split
    · rename_i hx
      split
      · exact np_err _
      · obtain ⟨m, hm⟩ := tagAt_pi_form ht (List.IsPrefix.trans ⟨c%"xml", rfl⟩ (startsWith_iff.1 hx))
        rw [hm, fromStr_tag]
        exact np_ok _
    · split
      · rename_i hx
        refine np_bind ?_ (fun _ _ => np_ok _)
        split
        · exact np_unwrap (fun hn => .inr ⟨tag, h2, List.IsPrefix.trans ⟨c%"--", rfl⟩ (startsWith_iff.1 hx), hn⟩)
        · exact np_ok _
      · split
        · rename_i hx
          obtain ⟨m, hm⟩ := tagAt_doctype_form ht (startsWith_iff.1 hx)
          rw [hm, dtd_tag]
          exact np_ok _
        · split
          · exact np_ok _
          · split
            · exact np_err _
            · refine np_bind (np_mapErr ?_) (fun _ _ => np_ok _)
              unfold checkElementTag
              split
              · exact np_ok _
              · exact np_err _

theorem np_runProlog {x buffer : Str} {pos : Nat} {r : Str} {toks : List (Str × Str)} {e : Option Nat}
    (h : Lex pos r toks e) (hx : r <:+: x) (st : Prolog) : NP (Bad x) (runProlog buffer e pos toks st) := by
  induction h generalizing st with
  | done => exact np_err _
  | fail => exact np_err _
  | @tag pos text tag rest s toks e h1 h2 ht hs hl ih =>
    subst hs
    rw [runProlog]
    refine np_bind (np_prologTag (List.IsInfix.trans ⟨[], tag ++ rest, by simp⟩ hx)
      (List.IsInfix.trans ⟨text, rest, by simp⟩ hx) ht) (fun sb _ => ?_)
    obtain ⟨st', b⟩ := sb
    cases b with
    | true => exact np_ok _
    | false => exact ih (List.IsInfix.trans ⟨text ++ tag, [], by simp⟩ hx) st'

theorem stackQ_new {Q : Node → Prop} {e : Element} (h : Q (.element e)) :
    ∃ st, ParseTree.new.push e = .ok st ∧ StackQ Q st := by
  obtain ⟨A', g1, g2, g3⟩ := push_none arenaOk_new e
  exact ⟨_, g1, A', _, rfl, g2, by simp [g3], by simp [g3, h]⟩

theorem stackQ_toDom {Q : Node → Prop} (hflip : ∀ n, Q n → Q (ParseTree.flipElement n))
    (happ : ∀ e n, Q (.element e) → Q n → Q (.element (addOne e n))) {st : ParseTree} (h : StackQ Q st) :
    ∃ e, st.toDom = .ok e ∧ Q (.element e) := by
  obtain ⟨A, pos, rfl, h1, h2, h3⟩ := h
  exact toDom_ok Q hflip happ A h2 pos h1 h3

/-- `parse_str` stops, and panics only on the two weak spots -/
theorem np_parseStr (x : Str) : NP (Bad x) (parseStr x) := by
  obtain ⟨toks, e, hl⟩ := exists_lex 0 x
  rw [parseStr_eq hl]
  unfold parseToks
  refine np_bind (np_runProlog hl List.infix_rfl _) (fun v hv => ?_)
  obtain ⟨pro, tag, rest⟩ := v
  obtain ⟨a, b, g1, g2, g3, g4, g5⟩ := runProlog_ok (pre := []) (pos := 0) rfl hl x rfl _ hv
  have htag : tag <:+: x := ⟨a, b, g1.symm⟩
  have hb : b <:+: x := ⟨a ++ tag, [], by simp [g1]⟩
  obtain ⟨s, hs, hi⟩ := stripTag_infix tag
  simp only [hs, Res.unwrap_some, Res.bind_ok]
  refine np_bind (np_parseNewElement (hi.trans htag) _ _ _) (fun root _ => ?_)
  obtain ⟨st, h1, h2⟩ := stackQ_new (Q := fun _ => True) (e := root) trivial
  rw [h1, Res.bind_ok]
  refine np_bind (by split; exacts [np_pop h2, np_ok _]) (fun st1 hs1 => ?_)
  have hst1 : StackQ (fun _ => True) st1 := by
    split at hs1
    · rcases stackQ_pop h2 with ⟨e, he⟩ | ⟨st2, he, hq⟩ <;> rw [he] at hs1 <;> cases hs1
      exact hq
    · cases hs1; exact h2
  refine np_bind (np_runToks (fun t ht => ?_) hst1) (fun st2 hs2 => ?_)
  · obtain ⟨k1, k2⟩ := lex_infix g3 t ht
    exact ⟨k1.trans hb, k2.trans hb⟩
  · split
    · exact np_err _
    · obtain ⟨e, he, -⟩ := stackQ_toDom (by simp) (by simp) (runToks_stackQ freshOk_true hst1 hs2)
      rw [he]
      exact np_ok _

/-- what holds of the root of an accepted document -/
theorem parseStr_invariant {Q : Node → Prop} (hQ : FreshOk Q) (hflip : ∀ n, Q n → Q (ParseTree.flipElement n))
    (happ : ∀ e n, Q (.element e) → Q n → Q (.element (addOne e n))) {x : Str} {d : Document} (h : parseStr x = .ok d) :
    Q (.element d.root) := by
  obtain ⟨toks, e, hl⟩ := exists_lex 0 x
  rw [parseStr_eq hl] at h
  unfold parseToks at h
  obtain ⟨⟨pro, tag, rest⟩, hv, h⟩ := bind_eq_ok.1 h
  simp only at h
  obtain ⟨s, hs, h⟩ := bind_eq_ok.1 h
  obtain ⟨root, hr, h⟩ := bind_eq_ok.1 h
  obtain ⟨attrs, n0, n, x', q, hN⟩ := parseNewElement_ok hr
  obtain ⟨st, h1, h2⟩ := stackQ_new (Q := Q) (hQ.element _ _ _ _ _ _ _ _ hN)
  rw [h1, Res.bind_ok] at h
  obtain ⟨st1, hs1, h⟩ := bind_eq_ok.1 h
  have hst1 : StackQ Q st1 := by
    split at hs1
    · rcases stackQ_pop h2 with ⟨e, he⟩ | ⟨st2, he, hq⟩ <;> rw [he] at hs1 <;> cases hs1
      exact hq
    · cases hs1; exact h2
  obtain ⟨st2, hs2, h⟩ := bind_eq_ok.1 h
  split at h
  · cases h
  · obtain ⟨e, he, hq⟩ := stackQ_toDom hflip happ (runToks_stackQ hQ hst1 hs2)
    rw [he] at h
    simp only [Res.bind_ok, Res.pure_eq, Res.ok.injEq] at h
    rw [← h]; exact hq

end KissXml
