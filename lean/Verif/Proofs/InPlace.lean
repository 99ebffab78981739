import Verif.Model.InPlace
import Verif.Proofs.Edit
import Verif.Proofs.Tokens
/-!
# The statement by statement model against `Model/Dom.lean`
-/
namespace KissXml
open KissXml.Spec

namespace Act
variable {σ α β : Type}
theorem pure_apply (a : α) (s : σ) : (pure a : Act σ α) s = (.ok a, s) := rfl
theorem bind_apply_ok {m : Act σ α} {f : α → Act σ β} {s s' : σ} {a : α} (h : m s = (.ok a, s')) : (m >>= f) s = f a s' := by
  show Act.bind m f s = _
  unfold Act.bind
  rw [h]
theorem bind_apply_err {m : Act σ α} {f : α → Act σ β} {s s' : σ} {x : Err} (h : m s = (.err x, s')) : (m >>= f) s = (.err x, s') := by
  show Act.bind m f s = _
  unfold Act.bind
  rw [h]
/-- when `m` does not return, neither does `m; f` -/
theorem bind_apply_stop {m : Act σ α} {f : α → Act σ β} {s : σ} (h : ∀ a, (m s).1 ≠ .ok a) :
    ((m >>= f) s).2 = (m s).2 ∧ ∀ b, ((m >>= f) s).1 ≠ .ok b := by
  show (Act.bind m f s).2 = _ ∧ ∀ b, (Act.bind m f s).1 ≠ _
  unfold Act.bind
  rcases hm : m s with ⟨r, s'⟩
  rw [hm] at h
  cases r with
  | ok a => exact absurd rfl (h a)
  | err x => exact ⟨rfl, fun b h => by cases h⟩
  | panic => exact ⟨rfl, fun b h => by cases h⟩
  | diverge => exact ⟨rfl, fun b h => by cases h⟩
theorem run_ok {r : R α} {a : α} (h : r = .ok a) (s : σ) : (run r : Act σ α) s = (.ok a, s) := by rw [h]; rfl
end Act

open Act
namespace ElementF

theorem lenM_eq (e : Element) : lenM e = (.ok e.children.length, e) := rfl
theorem atM_eq {e : Element} {i : Nat} {n : Node} (h : e.children[i]? = some n) : atM i e = (.ok n, e) := by
  unfold atM; rw [h]; rfl
theorem removeAtM_eq {e : Element} {i : Nat} {n : Node} {l : List Node} (h : vecRemove e.children i = some (n, l)) :
    removeAtM i e = (.ok n, { e with children := l }) := by
  unfold removeAtM; rw [h]
theorem insertAtM_eq {e : Element} {i : Nat} {n : Node} {l : List Node} (h : vecInsert e.children i n = some l) :
    insertAtM i n e = (.ok (), { e with children := l }) := by
  unfold insertAtM; rw [h]

theorem unwrap_eq_ok {α : Type} {o : Option α} {a : α} : (Res.unwrap o : R α) = .ok a ↔ o = some a := by
  cases o <;> simp [Res.unwrap]

theorem mergeTextM_eq (k : Nat) : ∀ {e : Element} {l : List Node}, mergeTextLoop k e.children = .ok l →
    mergeTextM k e = (.ok (), { e with children := l }) := by
  induction k with
  | zero => intro e l h; cases h; rfl
  | succ k ih =>
    intro e l h
    unfold mergeTextLoop at h
    obtain ⟨back, hb, h⟩ := bind_eq_ok.1 h
    obtain ⟨front, hf, h⟩ := bind_eq_ok.1 h
    rw [unwrap_eq_ok] at hb hf
    unfold mergeTextM
    rw [bind_apply_ok (atM_eq hb)]
    cases h1 : back.isText with
    | false =>
      rw [h1] at h
      exact ih h
    | true =>
      rw [h1] at h
      rw [if_pos rfl, bind_apply_ok (atM_eq hf)]
      cases h2 : front.isText with
      | false =>
        rw [h2] at h
        exact ih h
      | true =>
        rw [h2] at h
        rw [if_pos rfl]
        simp only [Bool.and_self, if_true] at h
        obtain ⟨⟨b, l1⟩, hr1, h⟩ := bind_eq_ok.1 h
        obtain ⟨⟨f, l2⟩, hr2, h⟩ := bind_eq_ok.1 h
        obtain ⟨ft, hft, h⟩ := bind_eq_ok.1 h
        obtain ⟨bt, hbt, h⟩ := bind_eq_ok.1 h
        obtain ⟨l3, hi, h⟩ := bind_eq_ok.1 h
        rw [unwrap_eq_ok] at hr1 hr2 hi
        rw [bind_apply_ok (removeAtM_eq hr1), bind_apply_ok (removeAtM_eq (e := { e with children := l1 }) hr2),
          bind_apply_ok (run_ok hft _), bind_apply_ok (run_ok hbt _),
          bind_apply_ok (insertAtM_eq (e := { e with children := l2 }) hi)]
        exact ih (e := { e with children := l3 }) h

theorem dropWsM_eq (k : Nat) : ∀ {e : Element} {l : List Node}, dropWsLoop k e.children = .ok l →
    dropWsM k e = (.ok (), { e with children := l }) := by
  have step : ∀ {e : Element} {l' : List Node} {n : Node} (k : Nat), e.children[k]? = some n →
      (if n.isText then do
        let t ← expect n.asText
        if textIsWhitespace t then do
          let (_, l) ← Res.unwrap (vecRemove e.children k)
          pure l
        else pure e.children
      else pure e.children : R (List Node)) = .ok l' → dropWsStepM k e = (.ok (), { e with children := l' }) := by
    intro e l' n k hn h
    unfold dropWsStepM
    rw [bind_apply_ok (atM_eq hn)]
    cases h1 : n.isText with
    | false => rw [h1] at h; cases h; rfl
    | true =>
      rw [h1] at h
      simp only [if_true] at h ⊢
      obtain ⟨t, ht, h⟩ := bind_eq_ok.1 h
      rw [bind_apply_ok (run_ok ht _)]
      cases h2 : textIsWhitespace t with
      | false => rw [h2] at h; cases h; rfl
      | true =>
        rw [h2] at h
        simp only [if_true] at h ⊢
        obtain ⟨⟨x, l2⟩, hr, h⟩ := bind_eq_ok.1 h
        cases h
        rw [unwrap_eq_ok] at hr
        rw [bind_apply_ok (removeAtM_eq hr)]
        rfl
  induction k with
  | zero =>
    intro e l h
    unfold dropWsLoop at h
    obtain ⟨n, hn, h⟩ := bind_eq_ok.1 h
    obtain ⟨l', h1, h⟩ := bind_eq_ok.1 h
    rw [unwrap_eq_ok] at hn
    cases h
    exact step 0 hn h1
  | succ k ih =>
    intro e l h
    unfold dropWsLoop at h
    obtain ⟨n, hn, h⟩ := bind_eq_ok.1 h
    obtain ⟨l', h1, h⟩ := bind_eq_ok.1 h
    rw [unwrap_eq_ok] at hn
    unfold dropWsM
    rw [bind_apply_ok (step (k + 1) hn h1)]
    exact ih (e := { e with children := l' }) h

theorem cleanupTextNodesM_eq (e : Element) : cleanupTextNodesM e = (.ok (), { e with children := normalText e.children }) := by
  have h := cleanupTextNodes_eq e.children
  unfold cleanupTextNodes at h
  unfold cleanupTextNodesM
  rw [bind_apply_ok (lenM_eq e)]
  by_cases h0 : e.children.length = 0
  · rw [if_pos h0] at h ⊢
    have h' : normalText e.children = e.children := by simpa using h.symm
    rw [pure_apply, h']
  · rw [if_neg h0] at h ⊢
    obtain ⟨l, h1, h⟩ := bind_eq_ok.1 h
    rw [bind_apply_ok (mergeTextM_eq _ h1), bind_apply_ok (lenM_eq _)]
    by_cases h2 : l.length > 0
    · rw [if_pos h2] at h
      simp only
      rw [if_pos h2]
      exact dropWsM_eq _ (e := { e with children := l }) h
    · rw [if_neg h2] at h
      cases h

theorem appendM_eq (e e' : Element) (n : Node) (h : e.append n = .ok e') : appendM n e = (.ok (), e') := by
  rw [append_eq] at h
  cases h
  unfold appendM
  rw [bind_apply_ok (show get e = (.ok e, e) from rfl),
    bind_apply_ok (show pushM (applyXmlnsContext e.defaultNamespace e.ctx n) e = _ from rfl), cleanupTextNodesM_eq]

theorem pushAllM_eq (l : List Node) : ∀ (i : Nat) (e : Element),
    pushAllM i l e = (.ok (elemIndices i l), { e with children := e.children ++ l }) := by
  induction l with
  | nil =>
    intro i e
    unfold pushAllM elemIndices
    rw [pure_apply]
    obtain ⟨n, c, a, x, p, cc⟩ := e
    simp
  | cons n l ih =>
    intro i e
    unfold pushAllM elemIndices
    rw [bind_apply_ok (show pushM n e = _ from rfl), bind_apply_ok (ih _ _), pure_apply]
    simp

theorem applyAllM_eq (is : List Nat) : ∀ {e : Element} {l : List Node},
    applyAt e.defaultNamespace e.ctx is e.children = .ok l → applyAllM is e = (.ok (), { e with children := l }) := by
  induction is with
  | nil => intro e l h; cases h; rfl
  | cons i is ih =>
    intro e l h
    unfold applyAt at h
    obtain ⟨n, hn, h⟩ := bind_eq_ok.1 h
    rw [unwrap_eq_ok] at hn
    unfold applyAllM
    rw [bind_apply_ok (show get e = (.ok e, e) from rfl), bind_apply_ok (atM_eq hn)]
    have hi : i < e.children.length := (List.getElem?_eq_some_iff.1 hn).1
    have hp : putM i (applyXmlnsContext e.defaultNamespace e.ctx n) e =
        (.ok (), { e with children := e.children.set i (applyXmlnsContext e.defaultNamespace e.ctx n) }) := by
      unfold putM; rw [if_pos hi]
    rw [bind_apply_ok hp]
    exact ih (e := { e with children := e.children.set i (applyXmlnsContext e.defaultNamespace e.ctx n) }) h

theorem appendAllM_eq (e e' : Element) (l : List Node) (h : e.appendAll l = .ok e') : appendAllM l e = (.ok (), e') := by
  unfold ElementF.appendAll at h
  obtain ⟨l1, h1, h⟩ := bind_eq_ok.1 h
  obtain ⟨l2, h2, h⟩ := bind_eq_ok.1 h
  rw [cleanupTextNodes_eq] at h2
  cases h2
  cases h
  unfold appendAllM
  rw [bind_apply_ok (lenM_eq e), bind_apply_ok (pushAllM_eq l _ e),
    bind_apply_ok (applyAllM_eq _ (e := { e with children := e.children ++ l }) h1), cleanupTextNodesM_eq]

theorem insertM_eq (e e' : Element) (i : Nat) (n : Node) (h : e.insert i n = .ok e') : insertM i n e = (.ok (), e') := by
  unfold ElementF.insert at h
  split at h
  · cases h
  · rename_i hi
    obtain ⟨l, h1, h⟩ := bind_eq_ok.1 h
    obtain ⟨last, h2, h⟩ := bind_eq_ok.1 h
    obtain ⟨l2, h3, h⟩ := bind_eq_ok.1 h
    rw [cleanupTextNodes_eq] at h3
    cases h3
    cases h
    rw [unwrap_eq_ok] at h1
    have hl : l ≠ [] := by
      rintro rfl
      cases h2
    have hpos := List.length_pos_iff.2 hl
    unfold insertM
    rw [bind_apply_ok (lenM_eq e), if_neg hi, bind_apply_ok (insertAtM_eq h1),
      bind_apply_ok (show get ({ e with children := l } : Element) = (.ok _, _) from rfl), bind_apply_ok (lenM_eq _),
      bind_apply_ok (run_ok h2 _)]
    have hp : putM (l.length - 1) (applyXmlnsContext e.defaultNamespace e.ctx last) { e with children := l } =
        (.ok (), { e with children := l.set (l.length - 1) (applyXmlnsContext e.defaultNamespace e.ctx last) }) := by
      unfold putM; rw [if_pos (by simp only; omega)]
    exact (bind_apply_ok hp).trans (cleanupTextNodesM_eq _)

theorem insertM_err (e : Element) (i : Nat) (n : Node) (h : e.children.length < i) :
    insertM i n e = (.err (.indexOutOfBounds (asIsize i) (some (0, asIsize e.children.length))), e) := by
  unfold insertM
  rw [bind_apply_ok (lenM_eq e), if_pos h]
  rfl

theorem removeM_eq (e e' : Element) (i : Nat) (n : Node) (h : e.remove i = .ok (n, e')) : removeM i e = (.ok n, e') := by
  unfold ElementF.remove at h
  split at h
  · cases h
  · rename_i hi
    obtain ⟨⟨m, l⟩, h1, h⟩ := bind_eq_ok.1 h
    cases h
    rw [unwrap_eq_ok] at h1
    unfold removeM
    rw [bind_apply_ok (lenM_eq e), if_neg hi, removeAtM_eq h1]

theorem removeM_err (e : Element) (i : Nat) (h : e.children.length ≤ i) :
    removeM i e = (.err (.indexOutOfBounds (asIsize i) (some (0, asIsize e.children.length))), e) := by
  unfold removeM
  rw [bind_apply_ok (lenM_eq e), if_pos h]
  rfl

theorem removeIndicesM_eq (is : List Nat) : ∀ {e : Element} {l : List Node}, removeIndices is e.children = .ok l →
    removeIndicesM is e = (.ok (), { e with children := l }) := by
  induction is with
  | nil => intro e l h; cases h; rfl
  | cons i is ih =>
    intro e l h
    unfold removeIndices at h
    obtain ⟨⟨n, l1⟩, h1, h⟩ := bind_eq_ok.1 h
    rw [unwrap_eq_ok] at h1
    unfold removeIndicesM
    rw [bind_apply_ok (removeAtM_eq h1)]
    exact ih (e := { e with children := l1 }) h

theorem matchesM_eq (p : Node → R Bool) (q : Node → Bool) (e : Element) (h : ∀ n ∈ e.children, p n = .ok (q n)) (k : Nat) :
    ∀ {is : List Nat}, matchIndices q e.children k = .ok is → matchesM p k e = (.ok is, e) := by
  induction k with
  | zero => intro is hm; cases hm; rfl
  | succ k ih =>
    intro is hm
    unfold matchIndices at hm
    obtain ⟨n, h1, hm⟩ := bind_eq_ok.1 hm
    obtain ⟨rest, h2, hm⟩ := bind_eq_ok.1 hm
    rw [unwrap_eq_ok] at h1
    cases hm
    unfold matchesM
    rw [bind_apply_ok (atM_eq h1), bind_apply_ok (run_ok (h n (List.mem_of_getElem? h1)) _), bind_apply_ok (ih h2)]
    rfl

theorem matchesM_keeps (p : Node → R Bool) (e : Element) (k : Nat) : (matchesM p k e).2 = e := by
  induction k with
  | zero => rfl
  | succ k ih =>
    have hb : ∀ {α β : Type} (m : Act Element α) (f : α → Act Element β), (m e).2 = e → (∀ a, (f a e).2 = e) → ((m >>= f) e).2 = e := by
      intro α β m f h1 h2
      show (Act.bind m f e).2 = e
      unfold Act.bind
      rcases hm : m e with ⟨r, s⟩
      rw [hm] at h1
      cases h1
      cases r with
      | ok a => exact h2 a
      | _ => rfl
    unfold matchesM
    exact hb _ _ rfl fun n => hb _ _ rfl fun b => hb _ _ ih fun r => rfl

theorem matchesM_stop (p : Node → R Bool) (e : Element) (k i : Nat) (n : Node) (hi : i < k) (hn : e.children[i]? = some n)
    (hp : ∀ b, p n ≠ .ok b) : ∀ is, (matchesM p k e).1 ≠ .ok is := by
  induction k with
  | zero => exact absurd hi (by omega)
  | succ k ih =>
    unfold matchesM
    cases hk : e.children[k]? with
    | none =>
      refine (bind_apply_stop (m := atM k) ?_).2
      intro a ha
      unfold atM at ha
      rw [hk] at ha
      cases ha
    | some m =>
      rw [bind_apply_ok (atM_eq hk)]
      by_cases hik : i = k
      · subst hik
        rw [hn] at hk
        cases hk
        exact (bind_apply_stop (m := run (p n)) fun b hb => hp b hb).2
      · cases hpm : p m with
        | ok b =>
          rw [bind_apply_ok (run_ok (r := Res.ok b) rfl _)]
          exact (bind_apply_stop (m := matchesM p k) (ih (by omega))).2
        | err x => exact (bind_apply_stop (m := run (Res.err x)) fun b hb => by cases hb).2
        | panic => exact (bind_apply_stop (m := run Res.panic) fun b hb => by cases hb).2
        | diverge => exact (bind_apply_stop (m := run Res.diverge) fun b hb => by cases hb).2

/-- children from the last to the first: the first one on which the predicate does not return gives the outcome -/
theorem matchesM_outcome (p : Node → R Bool) (e : Element) (a b : List Node) (n : Node) (hp : ∀ m ∈ b, ∃ v, p m = .ok v)
    (he : a ++ n :: b <+: e.children) : (p n = .panic → matchesM p (a ++ n :: b).length e = (.panic, e)) ∧
      (p n = .diverge → matchesM p (a ++ n :: b).length e = (.diverge, e)) := by
  induction b using List.reverseRecOn with
  | nil =>
    obtain ⟨r, hr⟩ := he
    have hk : e.children[a.length]? = some n := by rw [← hr]; simp
    have hl : (a ++ [n]).length = a.length + 1 := by simp
    rw [hl]
    unfold matchesM
    rw [bind_apply_ok (atM_eq hk)]
    exact ⟨fun h => by rw [h]; rfl, fun h => by rw [h]; rfl⟩
  | append_singleton b m ih =>
    obtain ⟨v, hv⟩ := hp m (by simp)
    obtain ⟨i1, i2⟩ := ih (fun m hm => hp m (by simp [hm])) (List.IsPrefix.trans ⟨[m], by simp⟩ he)
    obtain ⟨r, hr⟩ := he
    have hk : e.children[(a ++ n :: b).length]? = some m := by
      rw [← hr, show a ++ n :: (b ++ [m]) ++ r = (a ++ n :: b) ++ m :: r by simp, List.getElem?_append_right (Nat.le_refl _)]
      simp
    have hl : (a ++ n :: (b ++ [m])).length = (a ++ n :: b).length + 1 := by simp; omega
    rw [hl]
    unfold matchesM
    rw [bind_apply_ok (atM_eq hk), bind_apply_ok (run_ok hv e)]
    constructor
    · intro h
      show Act.bind _ _ e = _
      unfold Act.bind
      rw [i1 h]
    · intro h
      show Act.bind _ _ e = _
      unfold Act.bind
      rw [i2 h]

theorem removeByM_outcome (p : Node → R Bool) (e : Element) (a b : List Node) (n : Node) (he : e.children = a ++ n :: b)
    (hp : ∀ m ∈ b, ∃ v, p m = .ok v) : (p n = .panic → removeByM p e = (.panic, e)) ∧ (p n = .diverge → removeByM p e = (.diverge, e)) := by
  obtain ⟨h1, h2⟩ := matchesM_outcome p e a b n hp (by rw [he])
  rw [← he] at h1 h2
  unfold removeByM
  rw [bind_apply_ok (lenM_eq e)]
  constructor
  · intro h
    show Act.bind _ _ e = _
    unfold Act.bind
    rw [h1 h]
  · intro h
    show Act.bind _ _ e = _
    unfold Act.bind
    rw [h2 h]

theorem removeByM_eq (p : Node → R Bool) (q : Node → Bool) (e e' : Element) (k : Nat) (h : ∀ n ∈ e.children, p n = .ok (q n))
    (hr : e.removeBy q = .ok (e', k)) : removeByM p e = (.ok k, e') := by
  unfold ElementF.removeBy at hr
  obtain ⟨is, h1, hr⟩ := bind_eq_ok.1 hr
  obtain ⟨l, h2, hr⟩ := bind_eq_ok.1 hr
  cases hr
  unfold removeByM
  rw [bind_apply_ok (lenM_eq e), bind_apply_ok (matchesM_eq p q e h _ h1), bind_apply_ok (removeIndicesM_eq _ h2), pure_apply]

theorem removeByM_stop (p : Node → R Bool) (e : Element) (n : Node) (hn : n ∈ e.children) (hp : ∀ b, p n ≠ .ok b) :
    (removeByM p e).2 = e ∧ ∀ k, (removeByM p e).1 ≠ .ok k := by
  obtain ⟨i, hi, hin⟩ := List.getElem_of_mem hn
  have hs := matchesM_stop p e e.children.length i n hi (by rw [List.getElem?_eq_getElem hi, hin]) hp
  unfold removeByM
  rw [bind_apply_ok (lenM_eq e)]
  have := bind_apply_stop (f := fun is => (do removeIndicesM is; pure is.length : Act Element Nat)) hs
  rw [matchesM_keeps] at this
  exact this

theorem elementIndicesM_eq (e : Element) (A B : List Node) : e.children = A ++ B →
    elementIndicesM A.length B.length e = (.ok (elementIndices A.length B), e) := by
  induction B generalizing A with
  | nil => intro; rfl
  | cons n B ih =>
    intro h
    have hn : e.children[A.length]? = some n := by rw [h]; simp
    have := ih (A ++ [n]) (by rw [h]; simp)
    rw [List.length_append, List.length_singleton] at this
    unfold elementIndices
    show elementIndicesM A.length (B.length + 1) e = _
    unfold elementIndicesM
    rw [bind_apply_ok (atM_eq hn), bind_apply_ok this]
    rfl

theorem removeElementM_eq (e e' c : Element) (k : Nat) (h : e.removeElement k = .ok (c, e')) : removeElementM k e = (.ok c, e') := by
  unfold ElementF.removeElement at h
  have hi : elementIndicesM 0 e.children.length e = (.ok (elementIndices 0 e.children), e) := elementIndicesM_eq e [] e.children rfl
  simp only at h
  split at h
  · cases h
  · rename_i hk
    obtain ⟨i, h1, h⟩ := bind_eq_ok.1 h
    obtain ⟨⟨n, l⟩, h2, h⟩ := bind_eq_ok.1 h
    obtain ⟨r, h3, h⟩ := bind_eq_ok.1 h
    cases h
    rw [unwrap_eq_ok] at h2
    unfold removeElementM
    rw [bind_apply_ok (lenM_eq e), bind_apply_ok hi]
    rw [if_neg hk, bind_apply_ok (run_ok h1 _), bind_apply_ok (removeAtM_eq h2)]
    exact run_ok h3 _

theorem removeElementM_err (e : Element) (k : Nat) (x : Err) (h : e.removeElement k = .err x) : removeElementM k e = (.err x, e) := by
  have hi : elementIndicesM 0 e.children.length e = (.ok (elementIndices 0 e.children), e) := elementIndicesM_eq e [] e.children rfl
  by_cases hk : (e.children.filterMap element?).length ≤ k
  · rw [removeElement_err e k hk] at h
    cases h
    unfold removeElementM
    rw [← (elementIndices_spec e.children 0).1] at hk ⊢
    rw [bind_apply_ok (lenM_eq e), bind_apply_ok hi]
    rw [if_pos hk]
    rfl
  · obtain ⟨A, c, B, -, -, h'⟩ := removeElement_ok e k (by omega)
    rw [h'] at h
    cases h

theorem setTextM_eq (e e' : Element) (t : Str) (h : e.setText t = .ok e') : setTextM t e = (.ok (), e') := by
  unfold setTextM
  rw [bind_apply_ok (show clearChildrenM e = _ from rfl)]
  exact appendM_eq _ _ _ h

theorem setAttrM_eq (e e' : Element) (k v : Str) (h : e.setAttr k v = .ok e') : setAttrM k v e = (.ok (), e') := by
  unfold ElementF.setAttr at h
  obtain ⟨⟨⟩, h1, h⟩ := bind_eq_ok.1 h
  cases h
  unfold setAttrM
  rw [bind_apply_ok (run_ok h1 _)]
  rfl

theorem setAttrM_err (e : Element) (k v : Str) (x : Err) (h : e.setAttr k v = .err x) : setAttrM k v e = (.err x, e) := by
  unfold ElementF.setAttr checkAttrName at h
  unfold setAttrM
  split at h
  · cases h
  · rename_i hn
    cases h
    refine bind_apply_err ?_
    unfold Act.run checkAttrName
    rw [if_neg hn]

end ElementF
end KissXml
