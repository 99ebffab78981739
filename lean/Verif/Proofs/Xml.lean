import Verif.Spec.Xml
import Verif.Proofs.RoundTrip
/-!
# What the serialiser writes is XML
-/
namespace KissXml
open Spec

/-! ## texts and values -/

theorem xchar_of_ws {c : Char} (h : c = ' ' ∨ c = '\t' ∨ c = '\r' ∨ c = '\n') : XChar c := by
  rcases h with rfl | rfl | rfl | rfl <;> decide

theorem xspace_text {s : Str} (h : XSpace s) : XText s s := by
  induction s with
  | nil => exact .nil
  | cons c s ih =>
    have hc := h c (by simp)
    refine .char (xchar_of_ws hc) ?_ ?_ (ih fun x hx => h x (by simp [hx])) <;> rcases hc with rfl | rfl | rfl | rfl <;> decide

theorem xspace_run {s : Str} (h : XSpace s) : XRun s (if s = [] then [] else [.text s]) := by
  refine ⟨?_, s, xspace_text h, ?_⟩
  · rintro ⟨a, b, rfl⟩
    have := h ']' (by simp)
    revert this; decide
  · by_cases hs : s = []
    · exact .inl ⟨hs, by rw [if_pos hs]⟩
    · exact .inr ⟨hs, by rw [if_neg hs]⟩

theorem xtext_esc {t : Str} (h : XPlain t) : XText (textEscape t) t := by
  rw [textEscape_eq]
  induction t with
  | nil => exact .nil
  | cons c t ih =>
    have ih := ih fun x hx => h x (by simp [hx])
    have hc := h c (by simp)
    rw [List.flatMap_cons]
    rcases Props.escText_cases c with ⟨rfl, h'⟩ | ⟨rfl, h'⟩ | ⟨rfl, h'⟩ | ⟨h1, h2, h3, h'⟩ <;> rw [h']
    · exact .ref (.entity .amp) ih
    · exact .ref (.entity .lt) ih
    · exact .ref (.entity .gt) ih
    · exact .char hc.1 h2 h1 ih

theorem textEscape_nil {t : Str} (h : t ≠ []) : textEscape t ≠ [] := by
  obtain ⟨c, t, rfl⟩ := List.exists_cons_of_ne_nil h
  rw [textEscape_eq, List.flatMap_cons]
  rcases Props.escText_cases c with ⟨rfl, h'⟩ | ⟨rfl, h'⟩ | ⟨rfl, h'⟩ | ⟨h1, h2, h3, h'⟩ <;> rw [h'] <;> simp

theorem xrun_esc {t : Str} (h : XPlain t) (hn : t ≠ []) : XRun (textEscape t) [.text t] := by
  refine ⟨?_, t, xtext_esc h, .inr ⟨textEscape_nil hn, rfl⟩⟩
  rintro ⟨a, b, hab⟩
  exact (Props.C03_text_escape t).2.1 (hab ▸ by simp)

theorem xvalue_esc {v : Str} (h : XPlain v) : XValue '"' (attributeEscape v) (v.map spaceOf) := by
  rw [attributeEscape, escape_eq]
  induction v with
  | nil => exact .nil
  | cons c t ih =>
    have ih := ih fun x hx => h x (by simp [hx])
    have hc := h c (by simp)
    rw [List.flatMap_cons, List.map_cons]
    by_cases h1 : c = '&'
    · subst h1; exact .ref (.entity .amp) ih
    by_cases h2 : c = '<'
    · subst h2; exact .ref (.entity .lt) ih
    by_cases h3 : c = '>'
    · subst h3; exact .ref (.entity .gt) ih
    by_cases h4 : c = '\''
    · subst h4; exact .ref (.entity .apos) ih
    by_cases h5 : c = '"'
    · subst h5; exact .ref (.entity .quot) ih
    have : escAttr c = [c] := by
      unfold escAttr
      split <;> first | contradiction | rfl
    rw [this]
    exact .char hc.1 h2 h1 h5 ih

/-! ## tags -/

theorem xattrs_out {tg : Bool} {l : List (Str × Str)} (h : ∀ kv ∈ l, PlainName kv.1 ∧ XPlain kv.2) :
    XAttrs tg (attrsToString l) (l.map fun kv => (kv.1, kv.2.map spaceOf)) := by
  induction l with
  | nil => exact .nil
  | cons kv l ih =>
    obtain ⟨k, v⟩ := kv
    obtain ⟨h1, h2⟩ := h (k, v) (by simp)
    have := XAttrs.cons (w := c%" ") (k := k) (e1 := []) (e2 := []) (q := '"') (by decide) (by simp) h1 (by decide) (by decide) (by simp) (.inl rfl)
      (xvalue_esc h2) (ih fun x hx => h x (by simp [hx]))
    rw [attrsToString, List.map_cons]
    simpa using this

/-- the attributes as they are read -/
def attrsOut (e : Element) : List (Str × Str) := (sortAttrs e.attrs.entries).map fun kv => (kv.1, kv.2.map spaceOf)

theorem xtag_out {tg : Bool} {e : Element} (h : XmlNode (.element e)) :
    XTag tg (qname e) (attrsOut e) (qname e ++ attrsToString (sortAttrs e.attrs.entries)) := by
  refine ⟨_, [], h.1, xattrs_out ?_, ?_, by decide, by simp⟩
  · rintro ⟨k, v⟩ hkv
    exact h.2.1 k v (mem_sort.1 hkv)
  · have : (attrsOut e).map Prod.fst = (sortAttrs e.attrs.entries).map Prod.fst := by
      simp [attrsOut, Function.comp_def]
    rw [this, ((sortAttrs_perm e.attrs.entries).map Prod.fst).nodup_iff]
    exact e.attrs.nodup

theorem attrsOut_iff {e : Element} {k v : Str} : (k, v) ∈ attrsOut e ↔ ∃ x, e.attrs.get k = some x ∧ v = x.map spaceOf := by
  simp only [attrsOut, List.mem_map, Prod.mk.injEq]
  constructor
  · rintro ⟨⟨k', x⟩, h1, rfl, rfl⟩
    exact ⟨x, mem_sort.1 h1, rfl⟩
  · rintro ⟨x, h1, rfl⟩
    exact ⟨(k, x), mem_sort.2 h1, rfl, rfl⟩

/-! ## content -/

theorem xspace_append {a b : Str} (ha : XSpace a) (hb : XSpace b) : XSpace (a ++ b) := by
  intro c hc
  rcases List.mem_append.1 hc with hc | hc
  · exact ha c hc
  · exact hb c hc

/-- Nodes that are written after `lead` and before `close`; `q` is the text that `lead` stands for. -/
structure XWrites (inl : Bool) (lead close : Str) (q cs : List Node) : Prop where
  texts : inl = false → ∀ t, Node.text t ∉ cs
  close : XSpace close ∧ (inl = true → close = [])
  lead : (XSpace lead ∧ (inl = true → lead = []) ∧ q = []) ∨
    (inl = true ∧ ∃ t, lead = textEscape t ∧ t ≠ [] ∧ XPlain t ∧ q = [.text t] ∧ ∀ x cs', cs ≠ .text x :: cs')
  nodes : ∀ n ∈ docOrderL cs, XmlNode n
  apart : ∀ a b x y, cs ≠ a ++ .text x :: .text y :: b

theorem xlead {inl : Bool} {lead close : Str} {q cs : List Node} (h : XWrites inl lead close q cs) {s : Str} (hs : XSpace s)
    (hs' : inl = true → s = []) : ∃ l, XRun (lead ++ s) l ∧ ∀ m ns, Shows (!inl) m ns → Shows (!inl) (l ++ m) (q ++ ns) := by
  rcases h.lead with ⟨h1, h2, rfl⟩ | ⟨h1, t, rfl, h2, h3, rfl, -⟩
  · refine ⟨_, xspace_run (xspace_append h1 hs), fun m ns hm => ?_⟩
    split
    · exact hm
    · rename_i hne
      cases inl with
      | true => exact absurd (by rw [h2 rfl, hs' rfl]; rfl) hne
      | false => exact .blank (xspace_append h1 hs) hm
  · rw [hs' h1, List.append_nil]
    exact ⟨_, xrun_esc h3 h2, fun m ns hm => .text hm⟩

theorem xspace_pre {pre : Str} (h : XSpace pre) (inl : Bool) : XSpace (if inl then [] else pre) ∧ (inl = true → (if inl then [] else pre) = []) := by
  cases inl
  · exact ⟨h, by simp⟩
  · exact ⟨by simp [XSpace], fun _ => rfl⟩

theorem xwrites_next {inl : Bool} {lead close : Str} {q cs : List Node} {n : Node} (h : XWrites inl lead close q (n :: cs)) :
    XWrites inl (if inl then [] else c%"\n") close [] cs := by
  have hnl := xspace_pre (pre := c%"\n") (by decide) inl
  refine ⟨fun hi t ht => h.texts hi t (by simp [ht]), h.close, .inl ⟨hnl.1, hnl.2, rfl⟩,
    fun m hm => h.nodes m (by rw [docOrderL]; simp [hm]), ?_⟩
  intro a b x y hab
  exact h.apart (n :: a) b x y (by rw [hab]; rfl)

theorem xwrites_text {inl : Bool} {lead close t : Str} {q cs : List Node} (h : XWrites inl lead close q (.text t :: cs)) :
    q = [] ∧ inl = true ∧ XWrites inl ((lead ++ textEscape t) ++ if inl then [] else c%"\n") close [.text t] cs := by
  have hi : inl = true := by
    cases hi : inl with
    | true => rfl
    | false => exact absurd (by simp) (h.texts hi t)
  rcases h.lead with ⟨h1, h2, rfl⟩ | ⟨-, t, -, -, -, -, h2⟩
  · refine ⟨rfl, hi, ?_⟩
    rw [h2 hi, hi]
    have ht : XmlNode (.text t) := h.nodes (.text t) (by rw [docOrderL, docOrder]; simp)
    refine ⟨by simp, by simpa [hi] using h.close, .inr ⟨rfl, t, by simp, ht.1, ht.2, rfl, ?_⟩,
      (xwrites_next h).nodes, (xwrites_next h).apart⟩
    rintro x cs' rfl
    exact h.apart [] cs' t x rfl
  · exact absurd rfl (h2 _ _)

theorem xwrites_elem {n x p : _} {a c : SMap} {cs : List Node} (hn : ∀ m ∈ docOrder (.element ⟨n, cs, a, x, p, c⟩), XmlNode m)
    {pre : Str} (hp : XSpace pre) (inl : Bool) :
    (cs.length == 1 && !(cs.any Node.isElement)) = true ∧ XWrites true [] [] [] cs ∨
    (cs.length == 1 && !(cs.any Node.isElement)) = false ∧ XWrites (inl || cs.any Node.isText)
      (if inl || cs.any Node.isText then [] else c%"\n") (if inl || cs.any Node.isText then [] else pre) [] cs := by
  rw [docOrder] at hn
  have h1 : XmlNode (.element ⟨n, cs, a, x, p, c⟩) := hn _ (List.mem_cons_self ..)
  have h2 : ∀ m ∈ docOrderL cs, XmlNode m := fun m hm => hn m (by simp [hm])
  cases (cs.length == 1 && !(cs.any Node.isElement)) with
  | true => exact .inl ⟨rfl, by simp, ⟨by decide, by simp⟩, .inl ⟨by decide, by simp, rfl⟩, h2, h1.2.2⟩
  | false =>
    have hnl := xspace_pre (pre := c%"\n") (by decide) (inl || cs.any Node.isText)
    refine .inr ⟨rfl, ?_, xspace_pre hp _, .inl ⟨hnl.1, hnl.2, rfl⟩, h2, h1.2.2⟩
    intro hf t ht
    simp only [Bool.or_eq_false_iff] at hf
    have := any_isText.2 ⟨t, ht⟩
    rw [this] at hf
    simp at hf

mutual
theorem inner_xml {tg : Bool} {u : Str} (hu : XSpace u) {pre : Str} (hp : XSpace pre) (inl : Bool) : (e : Element) →
    (∀ m ∈ docOrder (.element e), XmlNode m) → ∃ l b, XContent tg (innerCst pre u inl e).src l ∧ Shows b l e.children ∧
      (b = true → ∀ t, Node.text t ∉ e.children)
  | ⟨n, cs, a, x, p, c⟩, hn => by
    rw [innerCst]
    rcases xwrites_elem hn hp inl with ⟨h1, h2⟩ | ⟨h1, h2⟩
    · rw [if_pos h1]
      obtain ⟨l, g1, g2⟩ := list_xml (u := []) (by decide) (pre := []) (by decide) _ _ _ _ cs h2
      exact ⟨l, _, g1, g2, by simp⟩
    · rw [if_neg (by rw [h1]; simp)]
      obtain ⟨l, g1, g2⟩ := list_xml hu (xspace_append hp hu) _ _ _ _ cs h2
      exact ⟨l, _, g1, g2, fun hb => h2.texts (by simpa using hb)⟩
theorem list_xml {tg : Bool} {u : Str} (hu : XSpace u) {pre : Str} (hp : XSpace pre) (inl : Bool) (lead close : Str) (q : List Node) :
    (cs : List Node) → XWrites inl lead close q cs → ∃ l, XContent tg (listCst pre u inl lead close cs).src l ∧ Shows (!inl) l (q ++ cs)
  | [], h => by
    rw [listCst]
    obtain ⟨l, h1, h2⟩ := xlead h h.close.1 h.close.2
    exact ⟨l, .last h1, by simpa using h2 [] [] .nil⟩
  | .text t :: cs, h => by
    obtain ⟨rfl, -, h2⟩ := xwrites_text h
    rw [listCst, nodeCst]
    exact list_xml hu hp inl _ close [.text t] cs h2
  | .comment k :: cs, h => by
    rw [listCst, nodeCst]
    obtain ⟨l, h1, h2⟩ := xlead h (xspace_pre hp inl).1 (xspace_pre hp inl).2
    obtain ⟨m, g1, g2⟩ := list_xml hu hp inl _ close [] cs (xwrites_next h)
    have hk : XmlNode (.comment k) := h.nodes _ (by rw [docOrderL, docOrder]; simp)
    refine ⟨l ++ .comment k :: m, ?_, h2 _ _ (.comment g2)⟩
    rw [Cst.src]
    simpa using XContent.more h1 (.comment hk.1) g1
  | .cdata k :: cs, h => by
    rw [listCst, nodeCst]
    obtain ⟨l, h1, h2⟩ := xlead h (xspace_pre hp inl).1 (xspace_pre hp inl).2
    obtain ⟨m, g1, g2⟩ := list_xml hu hp inl _ close [] cs (xwrites_next h)
    have hk : XmlNode (.cdata k) := h.nodes _ (by rw [docOrderL, docOrder]; simp)
    refine ⟨l ++ .cdata k :: m, ?_, h2 _ _ (.cdata g2)⟩
    rw [Cst.src]
    simpa using XContent.more h1 (.cdata hk.1) g1
  | .element e :: cs, h => by
    rw [listCst, nodeCst]
    obtain ⟨l, h1, h2⟩ := xlead h (xspace_pre hp inl).1 (xspace_pre hp inl).2
    obtain ⟨m, g1, g2⟩ := list_xml hu hp inl _ close [] cs (xwrites_next h)
    have hk : ∀ m ∈ docOrder (.element e), XmlNode m := fun m hm => h.nodes m (by rw [docOrderL]; simp [hm])
    obtain ⟨i, b, k1, k2, k3⟩ := inner_xml hu hp inl e hk
    have ht : XmlNode (.element e) := by
      obtain ⟨n, cs, a, x, p, c⟩ := e
      exact hk _ (by rw [docOrder]; exact List.mem_cons_self ..)
    split
    · rename_i he
      rw [List.isEmpty_iff] at he
      refine ⟨l ++ .elem (qname e) (attrsOut e) [] :: m, ?_, h2 _ _ (.elem (b' := false) (fun k v => attrsOut_iff) (by simp) (by rw [he]; exact .nil) g2)⟩
      rw [Cst.src, ctag_empty, tagName_qname]
      simpa using XContent.more h1 (.empty (xtag_out ht)) g1
    · refine ⟨l ++ .elem (qname e) (attrsOut e) i :: m, ?_, h2 _ _ (.elem (fun k v => attrsOut_iff) k3 k2 g2)⟩
      rw [Cst.src, ctag_start, tagName_qname]
      simpa [closing, ctagOf] using XContent.more h1 (.elem (w := []) (xtag_out ht) k1 (by decide)) g1
end

theorem elem_xml {tg : Bool} {u : Str} (hu : XSpace u) (e : Element) (h : ∀ m ∈ docOrder (.element e), XmlNode m) :
    ∃ i b, XPiece tg (e.toStringPI [] u false) (.elem (qname e) (attrsOut e) i) ∧ Shows b i e.children ∧ (b = true → ∀ t, Node.text t ∉ e.children) := by
  have ht : XmlNode (.element e) := by
    obtain ⟨n, cs, a, x, p, c⟩ := e
    exact h _ (by rw [docOrder]; exact List.mem_cons_self ..)
  obtain ⟨i, b, k1, k2, k3⟩ := inner_xml hu (pre := []) (by decide) false e h
  rw [inner_src]
  by_cases he : e.children.isEmpty = true
  · rw [if_pos he]
    rw [List.isEmpty_iff] at he
    refine ⟨[], false, ?_, by rw [he]; exact .nil, by simp⟩
    rw [ctag_empty, tagName_qname]
    simpa using XPiece.empty (xtag_out ht)
  · rw [if_neg he]
    refine ⟨i, b, ?_, k2, k3⟩
    rw [ctag_start, tagName_qname]
    simpa [closing, ctagOf] using XPiece.elem (w := []) (xtag_out ht) k1 (by decide)

theorem realIndent_xspace (i : Str) : XSpace (realIndent i) := by
  unfold realIndent
  split
  · rename_i h
    rcases validateIndent_iff.1 h with rfl | ⟨n, rfl⟩
    · decide
    · intro c hc
      rw [List.eq_of_mem_replicate hc]; decide
  · decide

/-! ## characters of XML documents -/

theorem codeIn_cases {l : List (Nat × Nat)} {c : Char} (h : CodeIn l c) {l' : List (Nat × Nat)}
    (hs : ∀ r ∈ l, ∃ r' ∈ l', r'.1 ≤ r.1 ∧ r.2 ≤ r'.2) : CodeIn l' c := by
  obtain ⟨r, h1, h2, h3⟩ := h
  obtain ⟨r', h4, h5, h6⟩ := hs r h1
  exact ⟨r', h4, by omega, by omega⟩

theorem xchar_start {c : Char} (h : CodeIn startCodes c) : XChar c := codeIn_cases h (by decide)
theorem xchar_more {c : Char} (h : CodeIn moreCodes c) : XChar c := codeIn_cases h (by decide)

theorem plainName_xchar {n : Str} (h : PlainName n) : ∀ c ∈ n, XChar c := by
  obtain ⟨a, t, rfl, h1, h2⟩ := h
  intro c hc
  rcases List.mem_cons.1 hc with rfl | hc
  · exact xchar_start h1
  · rcases h2 c hc with h | h
    · exact xchar_start h
    · exact xchar_more h

theorem xchar_ascii {c : Char} (h1 : 0x20 ≤ c.toNat) (h2 : c.toNat ≤ 0x7E) : XChar c :=
  ⟨(0x20, 0xD7FF), by decide, h1, by simp; omega⟩

theorem decValue_ascii {d : Str} {n : Nat} (h : DecValue d n) : ∀ c ∈ d, XChar c := by
  have hd : ∀ {c : Char}, '0'.toNat ≤ c.toNat → c.toNat ≤ '9'.toNat → XChar c := by
    intro c h1 h2
    have : '0'.toNat = 48 := rfl
    have : '9'.toNat = 57 := rfl
    exact xchar_ascii (by omega) (by omega)
  induction h with
  | one h1 h2 => intro c hc; rw [List.mem_singleton] at hc; rw [hc]; exact hd h1 h2
  | snoc _ h1 h2 ih =>
    intro c hc
    rcases List.mem_append.1 hc with hc | hc
    · exact ih c hc
    · rw [List.mem_singleton] at hc; rw [hc]; exact hd h1 h2

theorem hexValue_ascii {d : Str} {n : Nat} (h : HexValue d n) : ∀ c ∈ d, XChar c := by
  have hd : ∀ {c : Char} {k : Nat}, HexDigit c k → XChar c := by
    intro c k h
    have : '0'.toNat = 48 := rfl
    have : '9'.toNat = 57 := rfl
    have : 'a'.toNat = 97 := rfl
    have : 'f'.toNat = 102 := rfl
    have : 'A'.toNat = 65 := rfl
    have : 'F'.toNat = 70 := rfl
    cases h <;> exact xchar_ascii (by omega) (by omega)
  induction h with
  | one h => intro c hc; rw [List.mem_singleton] at hc; rw [hc]; exact hd h
  | snoc _ h ih =>
    intro c hc
    rcases List.mem_append.1 hc with hc | hc
    · exact ih c hc
    · rw [List.mem_singleton] at hc; rw [hc]; exact hd h

/-- all characters are allowed -/
def AllX (s : Str) : Prop := ∀ c ∈ s, XChar c

theorem allX_nil : AllX [] := by simp [AllX]
theorem allX_append {a b : Str} (ha : AllX a) (hb : AllX b) : AllX (a ++ b) := by
  intro c hc
  rcases List.mem_append.1 hc with hc | hc
  · exact ha c hc
  · exact hb c hc
theorem allX_cons {c : Char} {s : Str} (hc : XChar c) (hs : AllX s) : AllX (c :: s) := by
  intro x hx
  rcases List.mem_cons.1 hx with rfl | hx
  · exact hc
  · exact hs x hx
theorem allX_space {s : Str} (h : XSpace s) : AllX s := fun c hc => xchar_of_ws (h c hc)

theorem allX_ref {r : Str} {c : Char} (h : XRef r c) : AllX r := by
  cases h with
  | entity h => cases h <;> (unfold AllX; decide)
  | dec h _ => exact allX_append (allX_append (by unfold AllX; decide) (decValue_ascii h)) (by unfold AllX; decide)
  | hex h _ => exact allX_append (allX_append (by unfold AllX; decide) (hexValue_ascii h)) (by unfold AllX; decide)

theorem allX_quote {q : Char} (h : q = '"' ∨ q = '\'') : AllX [q] := by
  rcases h with rfl | rfl <;> (unfold AllX; decide)

theorem allX_value {q : Char} {s t : Str} (h : XValue q s t) : AllX s := by
  induction h with
  | nil => exact allX_nil
  | char h _ _ _ _ ih => exact allX_cons h ih
  | ref h _ ih => exact allX_append (allX_ref h) ih

theorem allX_text {s t : Str} (h : XText s t) : AllX s := by
  induction h with
  | nil => exact allX_nil
  | char h _ _ _ ih => exact allX_cons h ih
  | ref h _ ih => exact allX_append (allX_ref h) ih

theorem allX_comment {s : Str} (h : XComment s) : AllX s := by
  induction h with
  | nil => exact allX_nil
  | char h _ _ ih => exact allX_cons h ih
  | dash h _ _ ih => exact allX_cons (by decide) (allX_cons h ih)

theorem allX_attrs {tg : Bool} {s : Str} {l : List (Str × Str)} (h : XAttrs tg s l) : AllX s := by
  induction h with
  | nil => exact allX_nil
  | cons h1 _ h2 h3 h4 _ h5 h6 _ ih =>
    exact allX_append (allX_append (allX_append (allX_append (allX_append (allX_append (allX_append (allX_append (allX_space h1)
      (plainName_xchar h2)) (allX_space h3)) (by unfold AllX; decide)) (allX_space h4)) (allX_quote h5)) (allX_value h6)) (allX_quote h5)) ih

theorem allX_tag {tg : Bool} {n s : Str} {l : List (Str × Str)} (h : XTag tg n l s) : AllX s := by
  obtain ⟨a, w, h1, h2, -, h3, rfl⟩ := h
  exact allX_append (allX_append (plainName_xchar h1) (allX_attrs h2)) (allX_space h3)

theorem allX_pi {n d s : Str} (h : XPi n d s) : AllX s := by
  obtain ⟨⟨h1, -⟩, h2, -, ⟨-, rfl⟩ | ⟨w, h3, -, rfl⟩⟩ := h
  · exact allX_append (allX_append (by unfold AllX; decide) (plainName_xchar h1)) (by unfold AllX; decide)
  · exact allX_append (allX_append (allX_append (allX_append (by unfold AllX; decide) (plainName_xchar h1)) (allX_space h3)) h2)
      (by unfold AllX; decide)

mutual
theorem allX_piece {tg : Bool} : {s : Str} → {i : Item} → XPiece tg s i → AllX s
  | _, _, .empty h => allX_append (allX_append (by unfold AllX; decide) (allX_tag h)) (by unfold AllX; decide)
  | _, _, .elem (n := n) h1 h2 h3 =>
    have hn : AllX n := plainName_xchar h1.choose_spec.choose_spec.1
    allX_append (allX_append (allX_append (allX_append (allX_append (allX_append (allX_append (by unfold AllX; decide) (allX_tag h1))
      (by unfold AllX; decide)) (allX_content h2)) (by unfold AllX; decide)) hn) (allX_space h3)) (by unfold AllX; decide)
  | _, _, .comment h => allX_append (allX_append (by unfold AllX; decide) (allX_comment h)) (by unfold AllX; decide)
  | _, _, .cdata h => allX_append (allX_append (by unfold AllX; decide) h.1) (by unfold AllX; decide)
  | _, _, .pi h => allX_pi h
theorem allX_content {tg : Bool} : {s : Str} → {l : List Item} → XContent tg s l → AllX s
  | _, _, .last h => allX_text h.2.choose_spec.1
  | _, _, .more h1 h2 h3 => allX_append (allX_append (allX_text h1.2.choose_spec.1) (allX_piece h2)) (allX_content h3)
end

theorem allX_pseudo {n v s : Str} (hn : AllX n) (hv : AllX v) (h : XPseudo n v s) : AllX s := by
  obtain ⟨w, e1, e2, q, h1, -, h2, h3, h4, rfl⟩ := h
  exact allX_append (allX_append (allX_append (allX_append (allX_append (allX_append (allX_append (allX_space h1) hn) (allX_space h2))
    (by unfold AllX; decide)) (allX_space h3)) (allX_quote h4)) hv) (allX_quote h4)

theorem allX_decl {s : Str} (h : XDecl s) : AllX s := by
  obtain ⟨v, e, sd, w, ⟨x, ⟨d, rfl, -, hd⟩, h1⟩, h2, h3, h4, rfl⟩ := h
  have : '0'.toNat = 48 := rfl
  have : '9'.toNat = 57 := rfl
  refine allX_append (allX_append (allX_append (allX_append (allX_append (by unfold AllX; decide)
    (allX_pseudo (by unfold AllX; decide) (allX_append (by unfold AllX; decide) ?_) h1)) ?_) ?_) (allX_space h4)) (by unfold AllX; decide)
  · intro c hc
    have := hd c hc
    exact xchar_ascii (by omega) (by omega)
  · rcases h2 with rfl | ⟨y, ⟨c, t, rfl, hc, ht⟩, hy⟩
    · exact allX_nil
    · refine allX_pseudo (by unfold AllX; decide) (allX_cons (codeIn_cases hc (by decide)) fun c hc => codeIn_cases (ht c hc) (by decide)) hy
  · rcases h3 with rfl | ⟨y, rfl | rfl, hy⟩
    · exact allX_nil
    · exact allX_pseudo (by unfold AllX; decide) (by unfold AllX; decide) hy
    · exact allX_pseudo (by unfold AllX; decide) (by unfold AllX; decide) hy

theorem allX_misc {s : Str} {l : List Item} (h : XMisc s l) : AllX s := by
  induction h with
  | nil => exact allX_nil
  | space h _ ih => exact allX_append (allX_space h) ih
  | comment h _ ih => exact allX_append (allX_append (allX_append (by unfold AllX; decide) (allX_comment h)) (by unfold AllX; decide)) ih
  | pi h _ ih => exact allX_append (allX_pi h) ih

theorem allX_document {tg : Bool} {s dec n : Str} {l : List (Str × Str)} {pre i post : List Item} (h : XDocument tg s dec pre n l i post) :
    AllX s := by
  obtain ⟨m, e, m', h1, h2, h3, h4, rfl⟩ := h
  refine allX_append (allX_append (allX_append ?_ (allX_misc h2)) (allX_piece h3)) (allX_misc h4)
  rcases h1 with rfl | h1
  · exact allX_nil
  · exact allX_decl h1

/-! ## carriage returns -/

theorem nocr_esc {f : Char → Str} (hf : ∀ c, c ≠ '\r' → '\r' ∉ f c) {t : Str} (h : XPlain t) : '\r' ∉ t.flatMap f := by
  intro hm
  obtain ⟨c, hc, hm⟩ := List.mem_flatMap.1 hm
  exact hf c (h c hc).2 hm

theorem nocr_textEscape {t : Str} (h : XPlain t) : '\r' ∉ textEscape t := by
  rw [textEscape_eq]
  refine nocr_esc (fun c hc => ?_) h
  unfold escText
  split <;> first | decide | simpa using Ne.symm hc

theorem nocr_attributeEscape {t : Str} (h : XPlain t) : '\r' ∉ attributeEscape t := by
  have : attributeEscape t = t.flatMap escAttr := escape_eq t
  rw [this]
  refine nocr_esc (fun c hc => ?_) h
  unfold escAttr
  split <;> first | decide | simpa using Ne.symm hc

theorem nocr_plainName {n : Str} (h : PlainName n) : '\r' ∉ n := by
  obtain ⟨a, t, rfl, h1, h2⟩ := h
  have hs : ¬ CodeIn startCodes '\r' := by decide
  have hm : ¬ CodeIn moreCodes '\r' := by decide
  intro hc
  rcases List.mem_cons.1 hc with rfl | hc
  · exact hs h1
  · exact (h2 _ hc).elim hs hm

theorem nocr_attrs {l : List (Str × Str)} (h : ∀ kv ∈ l, PlainName kv.1 ∧ XPlain kv.2) : '\r' ∉ attrsToString l := by
  induction l with
  | nil => simp [attrsToString]
  | cons kv l ih =>
    have h1 := nocr_plainName (h kv (by simp)).1
    have h2 := nocr_attributeEscape (h kv (by simp)).2
    have h3 := ih fun kv hkv => h kv (by simp [hkv])
    obtain ⟨k, v⟩ := kv
    simp [attrsToString, h1, h2, h3]

mutual
theorem nocr_element {u pre : Str} (hu : '\r' ∉ u) (hp : '\r' ∉ pre) (inl : Bool) : (e : Element) →
    (∀ m ∈ docOrder (.element e), XmlNode m) → '\r' ∉ e.toStringPI pre u inl
  | ⟨name, cs, attrs, xmlns, pfx, ctx⟩, h => by
    have ht : XmlNode (.element ⟨name, cs, attrs, xmlns, pfx, ctx⟩) := h _ (by rw [docOrder]; exact List.mem_cons_self ..)
    have h1 := nocr_plainName ht.1
    rw [← tagName_qname] at h1
    have h2 : '\r' ∉ attrsToString (sortAttrs attrs.entries) := by
      refine nocr_attrs fun kv hkv => ht.2.1 kv.1 kv.2 (SMap.get_eq_some.2 ?_)
      exact (sortAttrs_perm _).mem_iff.1 hkv
    have hc : ∀ m ∈ docOrderL cs, XmlNode m := fun m hm => h m (by rw [docOrder]; exact List.mem_cons_of_mem _ hm)
    have h3 := nocr_list (u := []) (pre := []) (by simp) (by simp) true cs hc
    have h4 := fun b => nocr_list (u := u) (pre := pre ++ u) hu (by simp [hu, hp]) b cs hc
    have h5 : ∀ b : Bool, '\r' ∉ (if b then [] else pre) := by intro b; cases b <;> simp [hp]
    have h6 : ∀ b : Bool, '\r' ∉ (if b then [] else c%"\n") := by intro b; cases b <;> simp
    rw [ElementF.toStringPI]
    simp only [List.mem_append, not_or]
    refine ⟨⟨⟨⟨h5 _, by decide⟩, h1⟩, h2⟩, ?_⟩
    split
    · decide
    · split
      · simp only [List.mem_append, not_or]
        exact ⟨⟨⟨⟨by decide, h3⟩, by decide⟩, h1⟩, by decide⟩
      · simp only [List.mem_append, not_or]
        exact ⟨⟨⟨⟨⟨⟨by decide, h6 _⟩, h4 _⟩, h5 _⟩, by decide⟩, h1⟩, by decide⟩
theorem nocr_list {u pre : Str} (hu : '\r' ∉ u) (hp : '\r' ∉ pre) (inl : Bool) : (cs : List Node) →
    (∀ m ∈ docOrderL cs, XmlNode m) → '\r' ∉ childrenToString pre u inl cs
  | [], _ => by simp [childrenToString]
  | c :: cs, h => by
    have h1 := nocr_node hu hp inl c fun m hm => h m (by rw [docOrderL]; simp [hm])
    have h2 := nocr_list hu hp inl cs fun m hm => h m (by rw [docOrderL]; simp [hm])
    have h6 : ∀ b : Bool, '\r' ∉ (if b then [] else c%"\n") := by intro b; cases b <;> simp
    rw [childrenToString]
    simp only [List.mem_append, not_or]
    exact ⟨⟨h1, h6 _⟩, h2⟩
theorem nocr_node {u pre : Str} (hu : '\r' ∉ u) (hp : '\r' ∉ pre) (inl : Bool) : (n : Node) →
    (∀ m ∈ docOrder n, XmlNode m) → '\r' ∉ n.toStringPI pre u inl
  | .text t, h => by
    have := h (.text t) (by rw [docOrder]; simp)
    exact nocr_textEscape this.2
  | .element e, h => by
    rw [Node.toStringPI]
    exact nocr_element hu hp inl e h
  | .comment c, h => by
    have := h (.comment c) (by rw [docOrder]; simp)
    have h5 : ∀ b : Bool, '\r' ∉ (if b then [] else pre) := by intro b; cases b <;> simp [hp]
    rw [Node.toStringPI, commentToString]
    simp only [List.mem_append, not_or]
    exact ⟨h5 _, ⟨by decide, this.2⟩, by decide⟩
  | .cdata c, h => by
    have := h (.cdata c) (by rw [docOrder]; simp)
    have h5 : ∀ b : Bool, '\r' ∉ (if b then [] else pre) := by intro b; cases b <;> simp [hp]
    rw [Node.toStringPI, cdataToString]
    simp only [List.mem_append, not_or]
    exact ⟨h5 _, ⟨by decide, this.2⟩, by decide⟩
end

theorem realIndent_nocr (i : Str) : '\r' ∉ realIndent i := by
  unfold realIndent
  split
  · rename_i h
    rcases validateIndent_iff.1 h with rfl | ⟨n, rfl⟩
    · decide
    · intro hc
      exact absurd (List.eq_of_mem_replicate hc) (by decide)
  · decide

theorem doc_string {d : Document} (hd : d.dtds = []) (i : Str) : d.toStringWithIndent i =
    (match d.declaration with | none => [] | some x => x.display ++ c%"\n") ++ d.root.toStringPI [] (realIndent i) false ++ c%"\n" := by
  have h2 : ElementF.toStringWithIndent d.root (realIndent i) = d.root.toStringPI [] (realIndent i) false := by
    rw [ElementF.toStringWithIndent, if_pos (realIndent_valid i)]
  rw [Document.toStringWithIndent, ← realIndent, h2, hd]
  simp [dtdsToString]
  cases d.declaration <;> rfl

/-- documents are written in XML -/
theorem doc_xml {tg : Bool} {d : Document} (hd : d.dtds = []) (hx : ∀ x, d.declaration = some x → XDecl x.display ∧ '\r' ∉ x.display)
    (h : ∀ m ∈ docOrder (.element d.root), XmlNode m) (ind : Str) :
    ∃ i b, XDocument tg (d.toStringWithIndent ind) (match d.declaration with | none => [] | some x => x.display) [] (qname d.root)
      (attrsOut d.root) i [] ∧ Shows b i d.root.children ∧
      (b = true → ∀ t, Node.text t ∉ d.root.children) ∧ '\r' ∉ d.toStringWithIndent ind := by
  obtain ⟨i, b, k1, k2, k3⟩ := elem_xml (tg := tg) (realIndent_xspace ind) d.root h
  have hc := nocr_element (realIndent_nocr ind) (pre := []) (by simp) false d.root h
  have hm : XMisc c%"\n" [] := by simpa using XMisc.space (w := c%"\n") (by decide) .nil
  refine ⟨i, b, ?_, k2, k3, ?_⟩
  · rw [doc_string hd]
    cases hdc : d.declaration with
    | none => exact ⟨[], _, c%"\n", .inl rfl, .nil, k1, hm, by simp⟩
    | some x => exact ⟨c%"\n", _, c%"\n", .inr (hx x hdc).1, hm, k1, hm, rfl⟩
  · rw [doc_string hd]
    simp only [List.mem_append, not_or]
    refine ⟨⟨?_, hc⟩, by decide⟩
    cases hdc : d.declaration with
    | none => simp
    | some x =>
      simp only [List.mem_append, not_or]
      exact ⟨(hx x hdc).2, by decide⟩

end KissXml
