import Verif.Spec.Size
import Verif.Proofs.Accept
import Verif.Proofs.Outer
import Verif.Proofs.Shape
import Verif.Proofs.Nest
/-!
# The size of what is parsed
-/
namespace KissXml
open KissXml.Spec

/-! ## sums over lists -/

section
variable {w : Weights}

theorem weighs_append (a b : List Node) : weighs w (a ++ b) = weighs w a + weighs w b := by
  induction a with
  | nil => simp [weighs]
  | cons n a ih => rw [List.cons_append, weighs, weighs, ih, Nat.add_assoc]

theorem weighs_reverse (a : List Node) : weighs w a.reverse = weighs w a := by
  induction a with
  | nil => rfl
  | cons n a ih => rw [List.reverse_cons, weighs_append, ih, weighs, weighs, weighs]; omega

theorem weigh_elem (e : Element) : weigh w (.element e) = w.elem e.name e.pfx e.attrs + weighs w e.children := by
  obtain ⟨n, cs, as, x, p, c⟩ := e
  rw [weigh]

/-- joined texts are not heavier -/
def Spec.Weights.Sub (w : Weights) : Prop := ∀ a b, w.text (a ++ b) ≤ w.text a + w.text b

theorem weighs_consJoin (hw : w.Sub) (n : Node) (l : List Node) : weighs w (consJoin n l) ≤ weigh w n + weighs w l := by
  unfold consJoin
  split
  · rename_i a b r
    have := hw a b
    simp only [weighs, weigh]
    omega
  · simp [weighs]

theorem weighs_joinRuns (hw : w.Sub) (l : List Node) : weighs w (joinRuns l) ≤ weighs w l := by
  induction l with
  | nil => simp [joinRuns]
  | cons n l ih =>
    rw [joinRuns, weighs]
    have := weighs_consJoin hw n (joinRuns l)
    omega

theorem weighs_filter (p : Node → Bool) (l : List Node) : weighs w (l.filter p) ≤ weighs w l := by
  induction l with
  | nil => simp
  | cons n l ih =>
    rw [List.filter_cons]
    split <;> simp only [weighs] <;> omega

theorem weighs_normal (hw : w.Sub) (l : List Node) : weighs w (normalText l) ≤ weighs w l :=
  (weighs_filter _ _).trans (weighs_joinRuns hw l)

theorem weigh_context (d : Option Str) (c : SMap) (n : Node) : weigh w (applyXmlnsContext d c n) = weigh w n := by
  cases n with
  | element e =>
    obtain ⟨h1, h2, h3, h4⟩ := setNamespaceContext_fields e d (some c)
    rw [applyXmlnsContext, weigh_elem, weigh_elem, h1, h2, h3, h4]
  | _ => rfl

theorem weigh_flip (n : Node) : weigh w (ParseTree.flipElement n) = weigh w n := by
  cases n with
  | element e => rw [ParseTree.flipElement, weigh_elem, weigh_elem]; simp only [ElementF.reverseChildren, weighs_reverse]
  | _ => rfl

/-- the same for forests -/
def fweigh (w : Weights) : Forest → Nat
  | .nil => 0
  | .leaf n r => weigh w n + fweigh w r
  | .elem e k r => weigh w (.element e) + fweigh w k + fweigh w r

theorem fweigh_fappend (f g : Forest) : fweigh w (fappend f g) = fweigh w f + fweigh w g := by
  induction f with
  | nil => simp [fappend, fweigh]
  | leaf n r ih => rw [fappend, fweigh, fweigh, ih, Nat.add_assoc]
  | elem e k r _ ih => rw [fappend, fweigh, fweigh, ih]; omega

theorem weigh_addOne (hw : w.Sub) (e : Element) (n : Node) : weigh w (.element (addOne e n)) ≤ weigh w (.element e) + weigh w n := by
  have := weighs_normal hw (e.children ++ [applyXmlnsContext e.defaultNamespace e.ctx n])
  rw [weighs_append, weighs, weighs, weigh_context] at this
  rw [weigh_elem, weigh_elem]
  simp only [addOne]
  omega

theorem weigh_addRev (hw : w.Sub) (f : Forest) : ∀ e : Element, weigh w (.element (addRev e f)) ≤ weigh w (.element e) + fweigh w f := by
  induction f with
  | nil => intro e; simp [addRev, fweigh]
  | leaf n r ih =>
    intro e
    have h1 := weigh_addOne hw (addRev e r) (ParseTree.flipElement n)
    rw [weigh_flip] at h1
    have h2 := ih e
    simp only [addRev, fweigh]
    omega
  | elem c k r ih1 ih2 =>
    intro e
    have h1 := weigh_addOne hw (addRev e r) (.element (addRev c k).reverseChildren)
    have h2 : weigh w (.element (addRev c k).reverseChildren) = weigh w (.element (addRev c k)) := weigh_flip (.element (addRev c k))
    have h3 := ih1 c
    have h4 := ih2 e
    simp only [addRev, fweigh]
    omega

/-! ## tokens -/

/-- the weight of everything that is read from texts and tags is bounded -/
structure Bounded (w : Weights) (m : Nat) (ct cg : Str → Nat) : Prop where
  least : ∀ tag, m ≤ cg tag
  sub : w.Sub
  text : ∀ s t, (unescape s : R Str) = .ok t → w.text t ≤ ct s
  comment : ∀ c, w.comment c ≤ cg (c%"<!--" ++ c ++ c%"-->")
  cdata : ∀ c, w.cdata c ≤ cg (c%"<![CDATA[" ++ c ++ c%"]]>")
  opens : ∀ p tag e, Opens p tag e → w.elem e.name e.pfx e.attrs ≤ cg tag

/-- the sum of the bounds -/
def costs (ct cg : Str → Nat) (toks : List (Str × Str)) : Nat := (toks.map fun t => ct t.1 + cg t.2).sum

theorem opens_weigh {p : Option Element} {tag : Str} {e : Element} (h : Opens p tag e) :
    weigh w (.element e) = w.elem e.name e.pfx e.attrs := by
  rw [weigh_elem, opens_children h, weighs, Nat.add_zero]

variable {m : Nat} {ct cg : Str → Nat}

theorem withText_weigh (hb : Bounded w m ct cg) {text : Str} {f f' : Forest} (h : WithText text f f') : fweigh w f' ≤ ct text + fweigh w f := by
  cases h with
  | blank _ => omega
  | text _ h =>
    have := hb.text _ _ h
    simp only [fweigh, weigh]
    omega

theorem body_weigh (hb : Bounded w m ct cg) {e : Element} {toks : List (Str × Str)} {f : Forest} (h : Body e toks f) :
    fweigh w f + m ≤ costs ct cg toks := by
  induction h with
  | @close _ _ tag _ _ ht =>
    have := withText_weigh hb ht
    have h0 := hb.least tag
    simp only [fweigh] at this
    simp only [costs, List.map_cons, List.map_nil, List.sum_cons, List.sum_nil]
    omega
  | @comment _ _ c _ _ _ _ _ ht ih =>
    have h1 := withText_weigh hb ht
    have h2 := hb.comment c
    simp only [fweigh, weigh] at h1
    simp only [costs, List.map_cons, List.sum_cons] at ih ⊢
    omega
  | @cdata _ _ c _ _ _ _ _ ht ih =>
    have h1 := withText_weigh hb ht
    have h2 := hb.cdata c
    simp only [fweigh, weigh] at h1
    simp only [costs, List.map_cons, List.sum_cons] at ih ⊢
    omega
  | empty ho _ _ ht ih =>
    have h1 := withText_weigh hb ht
    have h2 := hb.opens _ _ _ ho
    simp only [fweigh, opens_weigh ho] at h1
    simp only [costs, List.map_cons, List.sum_cons] at ih ⊢
    omega
  | elem ho _ _ _ ht ih1 ih2 =>
    have h1 := withText_weigh hb ht
    have h2 := hb.opens _ _ _ ho
    simp only [fweigh, opens_weigh ho] at h1
    simp only [costs, List.map_cons, List.sum_cons, List.map_append, List.sum_append] at ih1 ih2 ⊢
    omega

theorem tops_weigh (hb : Bounded w m ct cg) {toks : List (Str × Str)} {e E : Element} {f F : Forest} (h : Tops toks e f E F) {tag : Str}
    (he : weigh w (.element e) ≤ cg tag) : weigh w (.element E) + fweigh w F ≤ cg tag + fweigh w f + costs ct cg toks := by
  induction h generalizing tag with
  | nil => simp [costs]; omega
  | @more text tag' _ _ _ _ _ _ _ _ _ ho _ hB _ ih =>
    have h1 := ih (tag := tag') (by rw [opens_weigh ho]; exact hb.opens _ _ _ ho)
    have h2 := body_weigh hb hB
    rw [fweigh_fappend] at h1
    simp only [costs, List.map_cons, List.sum_cons, List.map_append, List.sum_append] at h1 h2 ⊢
    omega

theorem rootPart_weigh (hb : Bounded w m ct cg) {tag : Str} {rest : List (Str × Str)} {E : Element} {F : Forest} (h : RootPart tag rest E F) :
    weigh w (.element (addRev E F).reverseChildren) + (if rest = [] then 0 else m) ≤ cg tag + costs ct cg rest := by
  have h0 : weigh w (.element (addRev E F).reverseChildren) = weigh w (.element (addRev E F)) := weigh_flip (.element (addRev E F))
  have h1 := weigh_addRev hb.sub F E
  cases h with
  | empty ho _ hr =>
    have := hb.opens _ _ _ ho
    rw [opens_weigh ho] at h1
    simp only [fweigh] at h1
    rw [if_pos hr]
    omega
  | elem ho _ hr hB hT =>
    have hm : (if rest = [] then 0 else m) ≤ m := by split <;> omega
    have h2 := tops_weigh hb hT (tag := tag) (by rw [opens_weigh ho]; exact hb.opens _ _ _ ho)
    have h3 := body_weigh hb hB
    subst hr
    simp only [costs, List.map_append, List.sum_append] at h2 h3 ⊢
    omega
end

/-! ## the number of nodes -/

theorem counting_bounded : Bounded counting 1 (fun _ => 1) (fun _ => 1) :=
  ⟨fun _ => Nat.le_refl _, fun _ _ => by simp [counting], fun _ _ _ => by simp [counting], fun _ => by simp [counting], fun _ => by simp [counting],
    fun _ _ _ _ => by simp [counting]⟩

theorem costs_one (toks : List (Str × Str)) : costs (fun _ => 1) (fun _ => 1) toks = 2 * toks.length := by
  induction toks with
  | nil => rfl
  | cons t l ih => simp only [costs, List.map_cons, List.sum_cons, List.length_cons] at ih ⊢; omega

theorem lexes_count {s tail : Str} {toks : List (Str × Str)} (h : Lexes s toks tail) : toks.length ≤ s.count '<' := by
  induction h with
  | done => simp
  | @tag text tag rest s' toks tail h1 h2 h3 _ ih =>
    obtain ⟨u, hu⟩ := tagAt_form h2
    subst h3 hu
    simp only [List.length_cons, List.count_append]
    have : List.count '<' c%"<" = 1 := by decide
    omega

theorem pro_tokens {pos prev : Nat} {w : Bool} {d : Option Declaration} {ds : List DTD} {toks : List (Str × Str)}
    {D : Option Declaration} {DS : List DTD} {tag : Str} {rest : List (Str × Str)} (h : Pro pos prev w d ds toks D DS tag rest) :
    rest.length + 1 ≤ toks.length ∧ headBytes D DS + blen tag + costs blen blen rest ≤ headBytes d ds + costs blen blen toks := by
  induction h with
  | root => 
    simp only [List.length_cons, costs, List.map_cons, List.sum_cons]
    omega
  | @decl _ _ d _ _ m _ _ _ _ _ _ _ _ ih =>
    simp only [List.length_cons, costs, List.map_cons, List.sum_cons, headBytes, blen_append, Option.map_some, optBytes] at ih ⊢
    omega
  | comment _ _ _ _ ih =>
    simp only [List.length_cons, costs, List.map_cons, List.sum_cons] at ih ⊢
    omega
  | doctype _ _ ih =>
    simp only [List.length_cons, costs, List.map_cons, List.sum_cons, headBytes, List.map_append, List.sum_append, blen_append, List.map_nil, List.sum_nil] at ih ⊢
    omega
  | other _ _ _ _ _ ih =>
    simp only [List.length_cons, costs, List.map_cons, List.sum_cons] at ih ⊢
    omega

/-! ## bytes -/

theorem ref_bytes {r : Str} {c : Char} (h : Ref r c) : c.utf8Size ≤ blen r := by
  have h4 := c.utf8Size_le_four
  cases h with
  | entity h => cases h <;> decide
  | hex h =>
    have : 0 < blen _ := blen_pos (hexValue_ne h)
    simp only [blen_append]
    have : blen c%"&#" = 2 := rfl
    have : blen c%";" = 1 := rfl
    omega
  | hexPlus h =>
    simp only [blen_append]
    have : 0 < blen _ := blen_pos (hexValue_ne h)
    have : blen c%"&#+" = 3 := rfl
    have : blen c%";" = 1 := rfl
    omega
where
  hexValue_ne {h : Str} {n : Nat} (hv : HexValue h n) : h ≠ [] := by
    cases hv <;> simp

theorem reads_bytes {w : Nat} {s : Str} {t : Option Str} (h : Reads w s t) : ∀ t', t = some t' → blen t' ≤ blen s := by
  induction h with
  | plain => rintro t ⟨⟩; exact Nat.le_refl _
  | last _ h =>
    rintro t ⟨⟩
    have := ref_bytes h
    simp only [blen_append, blen_cons, blen_nil]
    omega
  | @go a s u v t _ h _ _ ih =>
    intro t' ht
    cases t with
    | none => cases ht
    | some t =>
      cases ht
      have h1 := ih t rfl
      have h2 : blen (u ++ v) ≤ blen s := by
        rcases h with ⟨r, c, rest, h1, -, rfl, h2⟩ | ⟨-, -, h2⟩
        · rw [h2]
          have := ref_bytes h1
          simp only [blen_append, blen_cons]
          omega
        · rw [h2]
      simp only [blen_append] at h2 ⊢
      omega
  | cut => rintro t ⟨⟩

theorem unescape_bytes {s t : Str} (h : (unescape s : R Str) = .ok t) : blen t ≤ blen s := by
  obtain ⟨w, -, h⟩ := unescape_ok_iff.1 h
  exact reads_bytes h t rfl

/-- bytes of a list of strings -/
def total (l : List Str) : Nat := (l.map blen).sum

theorem qas_bytes (s : Str) : ∀ (b : Str) (q : Option Char), total (qasLoop b q s) ≤ blen b + blen s := by
  induction s with
  | nil =>
    intro b q
    unfold qasLoop
    split <;> simp [total]
  | cons c s ih =>
    intro b q
    have h1 := ih (b ++ [c]) none
    simp only [blen_append, blen_cons, blen_nil] at h1 ⊢
    cases q with
    | none =>
      unfold qasLoop
      split
      · have := ih (b ++ [c]) (some c)
        simp only [blen_append, blen_cons, blen_nil] at this
        omega
      · split
        · split
          · have := ih b none
            omega
          · have := ih [] none
            simp only [blen_nil] at this
            simp only [total, List.map_cons, List.sum_cons] at this ⊢
            omega
        · omega
    | some q =>
      unfold qasLoop
      split
      · omega
      · have := ih (b ++ [c]) (some q)
        simp only [blen_append, blen_cons, blen_nil] at this
        omega

theorem join_bytes (n : Nat) : ∀ l : List Str, l.length ≤ n → total (joinLoop l) = total l := by
  induction n with
  | zero =>
    intro l h
    have := List.eq_nil_of_length_eq_zero (Nat.le_zero.1 h)
    subst this
    rfl
  | succ n ih =>
    intro l h
    unfold joinLoop
    split
    · rfl
    · rfl
    · rename_i a b
      have := ih [b] (by simp at h ⊢; omega)
      split <;> (simp [total] at this ⊢; try omega)
    · rename_i a b c l
      simp only [List.length_cons] at h
      have h1 := ih l (by omega)
      have h2 := ih (c :: l) (by simp only [List.length_cons]; omega)
      have h3 := ih (b :: c :: l) (by simp only [List.length_cons]; omega)
      split
      · split
        · simp only [total, List.map_cons, List.sum_cons, blen_append] at h1 ⊢; omega
        · simp only [total, List.map_cons, List.sum_cons, blen_append] at h2 ⊢; omega
      · simp only [total, List.map_cons, List.sum_cons] at h3 ⊢; omega

/-- bytes of the entries -/
def entryBytes (l : List (Str × Str)) : Nat := (l.map attrBytes).sum

theorem insert_bytes (l : List (Str × Str)) (k v : Str) : entryBytes (LMap.insert l k v) ≤ entryBytes l + (blen k + blen v + 3) := by
  induction l with
  | nil => simp [LMap.insert, entryBytes, attrBytes]
  | cons kv l ih =>
    unfold LMap.insert
    split
    · simp only [entryBytes, attrBytes, List.map_cons, List.sum_cons]; omega
    · simp only [entryBytes, attrBytes, List.map_cons, List.sum_cons] at ih ⊢; omega

theorem parseAttrs_bytes {buffer : Str} {pos : Nat} (l : List Str) : ∀ {m m' : SMap}, parseAttrs buffer pos l m = .ok m' →
    entryBytes m'.entries ≤ entryBytes m.entries + total l := by
  induction l with
  | nil => intro m m' h; cases h; simp [total]
  | cons kv l ih =>
    intro m m' h
    unfold parseAttrs at h
    split at h
    · cases h
    · obtain ⟨⟨k, v⟩, h1, h⟩ := bind_eq_ok.1 h
      simp only at h
      split at h
      · cases h
      · split at h
        · cases h
        · obtain ⟨v', h2, h⟩ := bind_eq_ok.1 h
          obtain ⟨u, h3, h⟩ := bind_eq_ok.1 h
          have h4 := ih h
          have h5 := insert_bytes m.entries k u
          have h6 := unescape_bytes h3
          have h7 : blen v' + 2 ≤ blen v := by
            obtain ⟨a, b, hv, g1, g2⟩ := sliceB_eq_some.1 (unwrap_eq_ok.1 h2)
            have g3 := congrArg blen hv
            simp only [blen_append] at g3
            omega
          have h8 : blen kv = blen k + 1 + blen v := by
            obtain ⟨hk, -⟩ := splitOnce_eq_some.1 (unwrap_eq_ok.1 h1)
            rw [hk]; simp only [blen_append, blen_cons]
            have : ('=').utf8Size = 1 := by decide
            omega
          simp only [SMap.insert] at h4
          simp only [total, List.map_cons, List.sum_cons] at h4 ⊢
          omega

theorem infix_bytes {a b : Str} (h : a <:+: b) : blen a ≤ blen b := by
  obtain ⟨u, v, rfl⟩ := h
  simp only [blen_append]; omega

theorem opens_bytes {p : Option Element} {tag : Str} {e : Element} (h : Opens p tag e) : storing.elem e.name e.pfx e.attrs ≤ blen tag := by
  obtain ⟨t, attrs, n0, n, x, q, h1, h⟩ := h.elem
  obtain ⟨s, h2, h3⟩ := stripTag_infix tag
  rw [h1] at h2
  cases h2
  have h4 := infix_bytes h3
  obtain ⟨comps, buffer, pos, h5, h6⟩ := h.attrs_ok
  have h7 := qas_bytes t [] none
  rw [show qasLoop [] none t = n0 :: comps from h5] at h7
  have h8 := parseAttrs_bytes _ h6
  rw [join_bytes _ _ (Nat.le_refl _)] at h8
  have h9 : entryBytes SMap.empty.entries = 0 := rfl
  simp only [total, List.map_cons, List.sum_cons, blen_nil] at h7 h8
  have hn : blen n + optBytes q ≤ blen n0 := by
    cases h.name with
    | plain => simp [optBytes]
    | own hn => rw [hn]; simp only [blen_append, blen_cons, optBytes]; omega
    | inh hn => rw [hn]; simp only [blen_append, blen_cons, optBytes]; omega
  obtain ⟨g1, -, g3, g4⟩ := setNamespaceContext_fields
    (⟨n, [], attrs, x.or (ownNs attrs q), q, ElementF.xmlnsContextFromAttributes attrs⟩ : Element) (p.bind ElementF.defaultNamespace) (p.map ElementF.ctx)
  rw [h.eq, g1, g3, g4]
  simp only [storing]
  change blen n + _ + entryBytes attrs.entries ≤ _
  omega

theorem storing_bounded : Bounded storing 0 blen blen :=
  ⟨fun _ => Nat.zero_le _, fun _ _ => by simp [storing], fun _ _ h => unescape_bytes h, fun _ => by simp [storing]; omega, fun _ => by simp [storing]; omega,
    fun _ _ _ h => opens_bytes h⟩

theorem lexes_bytes {s tail : Str} {toks : List (Str × Str)} (h : Lexes s toks tail) : costs blen blen toks ≤ blen s := by
  induction h with
  | done => simp [costs]
  | tag _ _ hs _ ih =>
    subst hs
    simp only [costs, List.map_cons, List.sum_cons, blen_append] at ih ⊢
    omega

/-! ## nesting -/

theorem nestings_append (a b : List Node) : nestings (a ++ b) = max (nestings a) (nestings b) := by
  induction a with
  | nil => simp [nestings]
  | cons n a ih => rw [List.cons_append, nestings, nestings, ih]; omega

theorem nestings_reverse (a : List Node) : nestings a.reverse = nestings a := by
  induction a with
  | nil => rfl
  | cons n a ih => rw [List.reverse_cons, nestings_append, ih, nestings, nestings, nestings]; omega

theorem nesting_elem (e : Element) : nesting (.element e) = 1 + nestings e.children := by
  obtain ⟨n, cs, as, x, p, c⟩ := e
  rw [nesting]

theorem nestings_consJoin (n : Node) (l : List Node) : nestings (consJoin n l) = max (nesting n) (nestings l) := by
  unfold consJoin
  split
  · simp only [nestings, nesting]; omega
  · rw [nestings]

theorem nestings_joinRuns (l : List Node) : nestings (joinRuns l) = nestings l := by
  induction l with
  | nil => rfl
  | cons n l ih => rw [joinRuns, nestings_consJoin, ih, nestings]

theorem nestings_filter (p : Node → Bool) (l : List Node) : nestings (l.filter p) ≤ nestings l := by
  induction l with
  | nil => simp
  | cons n l ih =>
    rw [List.filter_cons]
    split <;> simp only [nestings] <;> omega

theorem nestings_normal (l : List Node) : nestings (normalText l) ≤ nestings l := by
  have h := nestings_filter (fun n => !isBlankText n) (joinRuns l)
  rw [nestings_joinRuns] at h
  exact h

theorem nesting_context (d : Option Str) (c : SMap) (n : Node) : nesting (applyXmlnsContext d c n) = nesting n := by
  cases n with
  | element e =>
    obtain ⟨-, h2, -, -⟩ := setNamespaceContext_fields e d (some c)
    rw [applyXmlnsContext, nesting_elem, nesting_elem, h2]
  | _ => rfl

theorem nesting_flip (n : Node) : nesting (ParseTree.flipElement n) = nesting n := by
  cases n with
  | element e => rw [ParseTree.flipElement, nesting_elem, nesting_elem]; simp only [ElementF.reverseChildren, nestings_reverse]
  | _ => rfl

/-- the same for forests -/
def fnest : Forest → Nat
  | .nil => 0
  | .leaf n r => max (nesting n) (fnest r)
  | .elem e k r => max (max (nesting (.element e)) (1 + fnest k)) (fnest r)

theorem fnest_fappend (f g : Forest) : fnest (fappend f g) = max (fnest f) (fnest g) := by
  induction f with
  | nil => simp [fappend, fnest]
  | leaf n r ih => rw [fappend, fnest, fnest, ih]; omega
  | elem e k r _ ih => rw [fappend, fnest, fnest, ih]; omega

theorem nesting_addOne (e : Element) (n : Node) : nesting (.element (addOne e n)) ≤ max (nesting (.element e)) (1 + nesting n) := by
  have := nestings_normal (e.children ++ [applyXmlnsContext e.defaultNamespace e.ctx n])
  rw [nestings_append, nestings, nestings, nesting_context] at this
  rw [nesting_elem, nesting_elem]
  simp only [addOne]
  omega

theorem nesting_addRev (f : Forest) : ∀ e : Element, nesting (.element (addRev e f)) ≤ max (nesting (.element e)) (1 + fnest f) := by
  induction f with
  | nil => intro e; simp only [addRev, fnest]; omega
  | leaf n r ih =>
    intro e
    have h1 := nesting_addOne (addRev e r) (ParseTree.flipElement n)
    rw [nesting_flip] at h1
    have h2 := ih e
    simp only [addRev, fnest]
    omega
  | elem c k r ih1 ih2 =>
    intro e
    have h1 := nesting_addOne (addRev e r) (.element (addRev c k).reverseChildren)
    have h2 : nesting (.element (addRev c k).reverseChildren) = nesting (.element (addRev c k)) := nesting_flip (.element (addRev c k))
    have h3 := ih1 c
    have h4 := ih2 e
    simp only [addRev, fnest]
    omega

theorem opens_nesting {p : Option Element} {tag : Str} {e : Element} (h : Opens p tag e) : nesting (.element e) = 1 := by
  rw [nesting_elem, opens_children h, nestings]

theorem withText_nest {text : Str} {f f' : Forest} (h : WithText text f f') : fnest f' = fnest f := by
  cases h with
  | blank _ => rfl
  | text _ h => simp only [fnest, nesting]; omega

theorem body_nest {e : Element} {toks : List (Str × Str)} {f : Forest} (h : Body e toks f) :
    1 ≤ toks.length ∧ 2 * fnest f ≤ toks.length := by
  induction h with
  | close _ ht => rw [withText_nest ht]; simp [fnest]
  | comment _ _ ht ih => rw [withText_nest ht]; simp only [fnest, nesting, List.length_cons]; omega
  | cdata _ _ ht ih => rw [withText_nest ht]; simp only [fnest, nesting, List.length_cons]; omega
  | empty ho _ _ ht ih => rw [withText_nest ht]; simp only [fnest, opens_nesting ho, List.length_cons]; omega
  | elem ho _ _ _ ht ih1 ih2 =>
    rw [withText_nest ht]
    simp only [fnest, opens_nesting ho, List.length_cons, List.length_append]
    omega

theorem tops_nest {toks : List (Str × Str)} {e E : Element} {f F : Forest} (h : Tops toks e f E F) {n : Nat}
    (he : nesting (.element e) = 1) (hf : 2 * fnest f ≤ n) : nesting (.element E) = 1 ∧ 2 * fnest F ≤ n + toks.length := by
  induction h generalizing n with
  | nil => exact ⟨he, by simpa using hf⟩
  | @more _ _ toks _ _ _ _ _ _ _ _ ho _ hB _ ih =>
    have h2 := body_nest hB
    have h1 := ih (n := n + toks.length) (opens_nesting ho) (by rw [fnest_fappend]; omega)
    simp only [List.length_cons, List.length_append]
    omega

theorem rootPart_nest {tag : Str} {rest : List (Str × Str)} {E : Element} {F : Forest} (h : RootPart tag rest E F) :
    2 * nesting (.element (addRev E F).reverseChildren) ≤ rest.length + 2 := by
  have h0 : nesting (.element (addRev E F).reverseChildren) = nesting (.element (addRev E F)) := nesting_flip (.element (addRev E F))
  have h1 := nesting_addRev F E
  cases h with
  | empty ho _ hr =>
    rw [opens_nesting ho] at h1
    simp only [fnest] at h1
    omega
  | elem ho _ hr hB hT =>
    have h3 := body_nest hB
    have h2 := tops_nest hT (opens_nesting ho) h3.2
    subst hr
    simp only [List.length_append]
    omega

/-! ## documents -/

theorem parse_bytes {x : Str} {d : Document} (h : parseStr x = .ok d) :
    headBytes d.declaration d.dtds + weigh storing (.element d.root) ≤ blen x := by
  obtain ⟨toks, D, DS, tag, rest, E, F, hL, hP, hR, rfl⟩ := (parse_iff.1 h).ex
  obtain ⟨tail, hl⟩ := lex_lexes hL
  have h1 := lexes_bytes hl
  have h2 := (pro_tokens hP).2
  have h3 := rootPart_weigh storing_bounded hR
  have h4 : headBytes none [] = 0 := rfl
  change headBytes D DS + weigh storing (.element (addRev E F).reverseChildren) ≤ _
  omega

theorem parse_nodes {x : Str} {d : Document} (h : parseStr x = .ok d) :
    weigh counting (.element d.root) ≤ max 1 (2 * x.count '<' - 2) := by
  obtain ⟨toks, D, DS, tag, rest, E, F, hL, hP, hR, rfl⟩ := (parse_iff.1 h).ex
  obtain ⟨tail, hl⟩ := lex_lexes hL
  have h1 := lexes_count hl
  have h2 := (pro_tokens hP).1
  have h3 := rootPart_weigh counting_bounded hR
  rw [costs_one] at h3
  change weigh counting (.element (addRev E F).reverseChildren) ≤ _
  split at h3
  · rename_i hr; subst hr; simp only [List.length_nil] at h3; omega
  · omega

theorem parse_nesting {x : Str} {d : Document} (h : parseStr x = .ok d) :
    2 * nesting (.element d.root) ≤ x.count '<' + 1 := by
  obtain ⟨toks, D, DS, tag, rest, E, F, hL, hP, hR, rfl⟩ := (parse_iff.1 h).ex
  obtain ⟨tail, hl⟩ := lex_lexes hL
  have h1 := lexes_count hl
  have h2 := (pro_tokens hP).1
  have h3 := rootPart_nest hR
  change 2 * nesting (.element (addRev E F).reverseChildren) ≤ _
  omega

end KissXml
