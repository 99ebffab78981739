import Verif.Spec.Conform
import Verif.Proofs.Syntax
import Verif.Proofs.Scope
import Verif.Proofs.Layout
/-!
# What the serialiser writes is a concrete document
-/
namespace KissXml
open Spec

variable {P T V : Str → Prop}

/-! ## the concrete syntax of what is written -/

/-- the attributes as written -/
def cattrsOf (l : List (Str × Str)) : List CAttr := l.map fun kv => ⟨c%" ", kv.1, [], [], '"', attributeEscape kv.2⟩

/-- the tag as written -/
def ctagOf (e : Element) : CTag := ⟨qname e, cattrsOf (sortAttrs e.attrs.entries), []⟩

mutual
/-- the content of an element as written -/
def innerCst (pre u : Str) (inl : Bool) : Element → Cst
  | ⟨_, cs, _, _, _, _⟩ =>
    if cs.length == 1 && !(cs.any Node.isElement) then listCst [] [] true [] [] cs
    else
      listCst (pre ++ u) u (inl || cs.any Node.isText) (if inl || cs.any Node.isText then [] else c%"\n")
        (if inl || cs.any Node.isText then [] else pre) cs
/-- nodes as written, with characters before and after them -/
def listCst (pre u : Str) (inl : Bool) (lead close : Str) : List Node → Cst
  | [] => .done (lead ++ close)
  | n :: cs => nodeCst pre u inl lead n (listCst pre u inl (if inl then [] else c%"\n") close cs)
    (fun s => listCst pre u inl (s ++ if inl then [] else c%"\n") close cs)
/-- one node -/
def nodeCst (pre u : Str) (inl : Bool) (lead : Str) (n : Node) (rest : Cst) (rest' : Str → Cst) : Cst :=
  match n with
  | .text t => rest' (lead ++ textEscape t)
  | .comment c => .comment (lead ++ if inl then [] else pre) c rest
  | .cdata c => .cdata (lead ++ if inl then [] else pre) c rest
  | .element e => if e.children.isEmpty then .empty (lead ++ if inl then [] else pre) (ctagOf e) rest
      else .elem (lead ++ if inl then [] else pre) (ctagOf e) (innerCst pre u inl e) [] rest
end

theorem cattrs_src (l : List (Str × Str)) : (cattrsOf l).flatMap CAttr.src = attrsToString l := by
  induction l with
  | nil => rfl
  | cons kv l ih =>
    rw [cattrsOf, List.map_cons, List.flatMap_cons, ← cattrsOf, ih, attrsToString]
    simp [CAttr.src]

theorem ctag_start (e : Element) : (ctagOf e).start = c%"<" ++ e.tagName ++ attrsToString (sortAttrs e.attrs.entries) ++ c%">" := by
  simp [CTag.start, CTag.body, ctagOf, cattrs_src, tagName_qname]

theorem ctag_empty (e : Element) : (ctagOf e).empty = c%"<" ++ e.tagName ++ attrsToString (sortAttrs e.attrs.entries) ++ c%"/>" := by
  simp [CTag.empty, CTag.body, ctagOf, cattrs_src, tagName_qname]

mutual
theorem inner_src (pre u : Str) (inl : Bool) : (e : Element) → e.toStringPI pre u inl =
    (if inl then [] else pre) ++ (if e.children.isEmpty then (ctagOf e).empty
      else (ctagOf e).start ++ (innerCst pre u inl e).src ++ closing (ctagOf e).name [])
  | ⟨n, cs, a, x, p, c⟩ => by
    have h1 := list_src [] [] true [] [] cs
    have h2 := list_src (pre ++ u) u (inl || cs.any Node.isText) (if inl || cs.any Node.isText then [] else c%"\n")
        (if inl || cs.any Node.isText then [] else pre) cs
    rw [ElementF.toStringPI, innerCst, ctag_empty, ctag_start]
    have hn : (ctagOf ⟨n, cs, a, x, p, c⟩).name = ElementF.tagName ⟨n, cs, a, x, p, c⟩ := (tagName_qname _).symm
    simp only [hn, closing]
    cases cs with
    | nil => simp
    | cons m ms =>
      have h0 : ((m :: ms).length == 0) = false := rfl
      simp only [h0, List.isEmpty_cons, Bool.false_eq_true, if_false]
      cases hc : ((m :: ms).length == 1 && !(m :: ms).any Node.isElement) with
      | true => simp only [if_true, h1]; simp
      | false => simp only [Bool.false_eq_true, if_false, h2]; simp
theorem list_src (pre u : Str) (inl : Bool) (lead close : Str) : (cs : List Node) →
    (listCst pre u inl lead close cs).src = lead ++ childrenToString pre u inl cs ++ close
  | [] => by simp [listCst, childrenToString, Cst.src]
  | n :: cs => by
    rw [listCst, childrenToString]
    rw [node_src pre u inl lead n _ _ (childrenToString pre u inl cs ++ close) (by rw [list_src]; simp)
      (fun s => by rw [list_src]; simp)]
    simp
theorem node_src (pre u : Str) (inl : Bool) (lead : Str) (n : Node) (rest : Cst) (rest' : Str → Cst) (r : Str)
    (h : rest.src = (if inl then [] else c%"\n") ++ r) (h' : ∀ s, (rest' s).src = s ++ (if inl then [] else c%"\n") ++ r) :
    (nodeCst pre u inl lead n rest rest').src = lead ++ n.toStringPI pre u inl ++ (if inl then [] else c%"\n") ++ r := by
  cases n with
  | text t => rw [nodeCst, Node.toStringPI, h']
  | comment t => rw [nodeCst, Node.toStringPI, Cst.src, h, commentToString]; simp
  | cdata t => rw [nodeCst, Node.toStringPI, Cst.src, h, cdataToString]; simp
  | element e =>
    rw [nodeCst, Node.toStringPI, inner_src pre u inl e]
    split
    · rw [Cst.src, h]; simp
    · rw [Cst.src, h]; simp
end

theorem mem_docOrder_self : (n : Node) → n ∈ docOrder n
  | .text t => by simp [docOrder]
  | .comment t => by simp [docOrder]
  | .cdata t => by simp [docOrder]
  | .element ⟨n, cs, a, x, q, c⟩ => by simp [docOrder]

/-! ## it is well formed -/

theorem allWs_nl : AllWs c%"\n" := by decide
theorem allWs_sp : AllWs c%" " := by decide
theorem allWs_nil : AllWs [] := by decide

theorem nodeFits_mono {T' V' : Str → Prop} (hT : ∀ t, T t → T' t) (hV : ∀ v, V v → V' v) {n : Node} (h : NodeFitsFor T V n) :
    NodeFitsFor T' V' n := by
  cases n with
  | text t => exact ⟨h.1, hT _ h.2⟩
  | comment c => exact h
  | cdata c => exact h
  | element e => exact ⟨h.name, h.pfx, fun k v hk => ⟨(h.attrs k v hk).1, (h.attrs k v hk).2.1, hV _ (h.attrs k v hk).2.2⟩, h.apart⟩

/-- nodes that can be written, whatever the texts and values -/
abbrev NodeShape (n : Node) : Prop := NodeFitsFor (fun _ => True) (fun _ => True) n
/-- elements that can be written, whatever the values -/
abbrev ElemShape (e : Element) : Prop := ElemFitsFor (fun _ => True) e

theorem docFits_mono {T' V' : Str → Prop} (hT : ∀ t, T t → T' t) (hV : ∀ v, V v → V' v) {d : Document} (h : DocFitsFor T V d) :
    DocFitsFor T' V' d := ⟨h.decl, h.dtds, fun n hn => nodeFits_mono hT hV (h.nodes n hn), h.declared⟩

theorem fits_shape {d : Document} (h : DocFitsFor T V d) : DocShape d := docFits_mono (fun _ _ => trivial) (fun _ _ => trivial) h

/-- the escaped texts and values of a node (without what is below it) have the property -/
def NodeHas (P : Str → Prop) : Node → Prop
  | .text t => P (textEscape t)
  | .comment _ => True
  | .cdata _ => True
  | .element e => ∀ k v, e.attrs.get k = some v → P (attributeEscape v)

/-- the escaped texts and values of a document have the property -/
def DocHas (P : Str → Prop) (d : Document) : Prop := ∀ n ∈ docOrder (.element d.root), NodeHas P n

theorem valueFits_legible {v : Str} (h : ValueFits v) : Legible (attributeEscape v) :=
  legible_attr h

theorem textFits_legible {t : Str} (h : TextFits t) : Legible (textEscape t) := legible_text h.2

theorem ws_noamp {s : Str} (h : AllWs s) : '&' ∉ s := fun hm => by have := h _ hm; revert this; decide

theorem ws_given {s : Str} (h : AllWs s) : Given s := legible_given (legible_noamp (ws_noamp h))

theorem mem_sort {a : SMap} {k v : Str} : (k, v) ∈ sortAttrs a.entries ↔ a.get k = some v := by
  rw [(sortAttrs_perm a.entries).mem_iff, SMap.get_eq_some]

theorem tight_layout {l : List CAttr} (h : ∀ a ∈ l, a.Tight) : Layout l := by
  induction l with
  | nil => exact .nil
  | cons a l ih => exact .one (h a (by simp)) (ih fun b hb => h b (by simp [hb]))

theorem ctag_ok_iff {e : Element} (h : ElemFitsFor V e) : (ctagOf e).OkFor P CTag.Laid ↔ NodeHas P (.element e) := by
  constructor
  · intro ht k v hk
    exact (ht.attrs _ (List.mem_map.2 ⟨(k, v), mem_sort.2 hk, rfl⟩)).value
  intro hP
  have hname : ElemName (ctagOf e).name := by
    simp only [ctagOf, qname]
    apply elemName_of_nc
    cases hp : e.pfx with
    | none => exact .inl h.name
    | some p => exact .inr ⟨p, e.name, rfl, h.pfx p hp, h.name.1, h.name.2⟩
  refine ⟨?_, ?_, ⟨?_, hname.2, ?_⟩, ?_, allWs_nil⟩
  · exact hname.1
  · intro a ha
    obtain ⟨⟨k, v⟩, hkv, rfl⟩ := List.mem_map.1 ha
    obtain ⟨h1, h2, h3⟩ := h.attrs k v (mem_sort.1 hkv)
    exact ⟨⟨allWs_sp, by simp⟩, h1, allWs_nil, allWs_nil, .inl rfl,
      (Props.C04_attribute_escape v).2.2.2.1, hP k v (mem_sort.1 hkv)⟩
  · apply tight_layout
    intro a ha
    obtain ⟨⟨k, v⟩, hkv, rfl⟩ := List.mem_map.1 ha
    exact ⟨rfl, rfl⟩
  · intro a ha
    obtain ⟨⟨k, v⟩, hkv, rfl⟩ := List.mem_map.1 ha
    exact (h.attrs k v (mem_sort.1 hkv)).2.1
  · have : (ctagOf e).attrs.map CAttr.name = (sortAttrs e.attrs.entries).map Prod.fst := by
      simp [ctagOf, cattrsOf, Function.comp_def]
    rw [this, ((sortAttrs_perm e.attrs.entries).map Prod.fst).nodup_iff]
    exact e.attrs.nodup

theorem dec_attr {v : Str} (h : ValueFits v) : dec (attributeEscape v) = v := by
  refine decodes_unique (unescape_dec (valueFits_legible h)).2 ?_
  rw [attributeEscape, escape_eq]
  exact Props.decodes_esc isEsc_attr _

theorem dec_text {t : Str} (h : TextFits t) : dec (textEscape t) = t := by
  refine decodes_unique (unescape_dec (textFits_legible h)).2 ?_
  rw [textEscape_eq]
  exact Props.decodes_esc isEsc_text _

theorem escaped_ref {t r a b : Str} {c : Char} (ht : textEscape t = a ++ r ++ b) (h : Ref r c) : isWs c = false := by
  cases h with
  | entity h => cases h <;> decide
  | hex h =>
    obtain ⟨r, hr, hp⟩ := (Props.C03_text_escape t).2.2.1 a _ (by rw [ht, List.append_assoc, List.append_assoc, List.append_assoc]; rfl)
    simp only [List.mem_cons, List.not_mem_nil, or_false] at hr
    rcases hr with rfl | rfl | rfl <;> simp at hp
  | hexPlus h =>
    obtain ⟨r, hr, hp⟩ := (Props.C03_text_escape t).2.2.1 a _ (by rw [ht, List.append_assoc, List.append_assoc, List.append_assoc]; rfl)
    simp only [List.mem_cons, List.not_mem_nil, or_false] at hr
    rcases hr with rfl | rfl | rfl <;> simp at hp

theorem textEscape_not_ws {t : Str} (h : TextFitsFor T t) : ∃ c ∈ textEscape t, isWs c = false := by
  obtain ⟨c, hc, hw⟩ := h.1
  rw [textEscape_eq]
  rcases Props.escText_cases c with ⟨rfl, h'⟩ | ⟨rfl, h'⟩ | ⟨rfl, h'⟩ | ⟨-, -, -, h'⟩
  · exact ⟨'&', List.mem_flatMap.2 ⟨_, hc, by rw [h']; simp⟩, by decide⟩
  · exact ⟨'&', List.mem_flatMap.2 ⟨_, hc, by rw [h']; simp⟩, by decide⟩
  · exact ⟨'&', List.mem_flatMap.2 ⟨_, hc, by rw [h']; simp⟩, by decide⟩
  · exact ⟨c, List.mem_flatMap.2 ⟨_, hc, by rw [h']; simp⟩, hw⟩

theorem reads_not_blank {t s x : Str} {w : Nat} (ht : textEscape t = s) (hs : ∃ c ∈ s, isWs c = false) (hw : 0 < w)
    (h : Reads w s (some x)) : ∃ c ∈ x, isWs c = false := by
  generalize hx : some x = y at h
  cases h with
  | plain h => cases hx; exact hs
  | last h h' =>
    cases hx
    exact ⟨_, List.mem_append_right _ (List.mem_singleton.2 rfl), escaped_ref (b := []) (by rw [List.append_nil]; exact ht) h'⟩
  | @go a s u v y ha hat hu hv =>
    cases y with
    | none => cases hx
    | some y =>
      cases hx
      cases u with
      | nil => simp at hu; omega
      | cons c u =>
        refine ⟨c, by simp, ?_⟩
        rcases hat with ⟨r, c', rest, hr, -, rfl, h2⟩ | ⟨h1, -, h2⟩
        · cases h2
          exact escaped_ref (a := a) (b := u ++ v) (by rw [ht, List.append_assoc]; rfl) hr
        · rw [← h2] at h1
          obtain ⟨k, hk⟩ := h1
          simp only [List.cons_append, List.nil_append, List.cons.injEq] at hk
          rw [← hk.1]; decide
  | cut h => cases hx

/-- what the library reads is not blank, even if it is wrong -/
theorem dec_not_blank {t : Str} (h : TextFitsFor T t) : ∃ c ∈ dec (textEscape t), isWs c = false := by
  have hs := textEscape_not_ws h
  by_cases hg : Given (textEscape t)
  · obtain ⟨w, h1, h2⟩ := (unescape_given hg).2
    refine reads_not_blank rfl hs ?_ h2
    rcases List.eq_nil_or_concat (textEscape t) with h0 | ⟨l, c, h0⟩
    · rw [h0] at hs; simp at hs
    · rw [h1 c (by rw [h0]; simp)]
      exact Char.utf8Size_pos c
  · have : dec (textEscape t) = textEscape t := by
      unfold dec
      split
      · rename_i t' he
        exact absurd ⟨t', unescape_ok_iff.1 he⟩ hg
      · rfl
    rw [this]; exact hs

/-! ## what is read back -/

mutual
/-- the element read back -/
def reElem (parent : Option Element) : Element → Element
  | ⟨n, cs, a, x, p, c⟩ =>
    { mkElem parent (qname ⟨n, cs, a, x, p, c⟩) (attrMap (cattrsOf (sortAttrs a.entries))) with
      children := reList (mkElem parent (qname ⟨n, cs, a, x, p, c⟩) (attrMap (cattrsOf (sortAttrs a.entries)))) cs }
/-- nodes read back -/
def reList (parent : Element) : List Node → List Node
  | [] => []
  | n :: l => reNode parent n :: reList parent l
/-- a node read back -/
def reNode (parent : Element) : Node → Node
  | .text t => .text (dec (textEscape t))
  | .comment c => .comment c
  | .cdata c => .cdata c
  | .element e => .element (reElem (some parent) e)
end

/-- Nodes that are written after `lead` and before `close`; `q` is the text that `lead` stands for. -/
structure Writes (inl : Bool) (lead close : Str) (q cs : List Node) : Prop where
  texts : inl = false → ∀ t, Node.text t ∉ cs
  close : AllWs close ∧ (inl = true → close = [])
  lead : (AllWs lead ∧ (inl = true → lead = []) ∧ q = []) ∨
    (inl = true ∧ ∃ t, lead = textEscape t ∧ TextFitsFor (fun _ => True) t ∧ q = [.text t] ∧ ∀ x cs', cs ≠ .text x :: cs')
  nodes : ∀ n ∈ docOrderL cs, NodeShape n
  apart : ∀ a b x y, cs ≠ a ++ .text x :: .text y :: b

theorem lead_ok {inl : Bool} {lead close : Str} {q cs : List Node} (h : Writes inl lead close q cs) {s : Str} (hs : AllWs s)
    (hs' : inl = true → s = []) : ((∀ s, AllWs s → P s) → (TextOkFor P (lead ++ s) ↔ ∀ n ∈ q, NodeHas P n)) ∧
    ∀ E f, plain (textLead (lead ++ s) f) = reList E q ++ plain f := by
  rcases h.lead with ⟨h1, -, rfl⟩ | ⟨h1, t, rfl, h2, rfl, -⟩
  · have : AllWs (lead ++ s) := by
      intro c hc
      rcases List.mem_append.1 hc with hc | hc
      · exact h1 c hc
      · exact hs c hc
    refine ⟨fun hP => ⟨fun _ => by simp, fun _ => ⟨allWs_lt this, hP _ this⟩⟩, fun E f => ?_⟩
    rw [textLead, if_pos (allWs_all this), reList]; rfl
  · rw [hs' h1, List.append_nil]
    refine ⟨fun _ => ⟨fun ht n hn => ?_, fun hn => ⟨(Props.C03_text_escape t).1, hn _ (List.mem_singleton.2 rfl)⟩⟩, fun E f => ?_⟩
    · rw [List.mem_singleton.1 hn]; exact ht.2
    · obtain ⟨c, hc, hw⟩ := dec_not_blank h2
      have hb : isBlankText (.text (dec (textEscape t))) = false := by
        simp only [isBlankText, decide_eq_false_iff_not]
        rintro ⟨-, h⟩
        rw [h c hc] at hw; cases hw
      rw [textLead, if_neg (by simpa using textEscape_not_ws h2), plain, hb, reList, reNode, reList]
      rfl

theorem allWs_pre {pre : Str} (h : AllWs pre) (inl : Bool) : AllWs (if inl then [] else pre) ∧ (inl = true → (if inl then [] else pre) = []) := by
  cases inl
  · exact ⟨h, by simp⟩
  · exact ⟨allWs_nil, fun _ => rfl⟩

/-- the next nodes, after a node that is not a text -/
theorem writes_next {inl : Bool} {lead close : Str} {q cs : List Node} {n : Node} (h : Writes inl lead close q (n :: cs)) :
    Writes inl (if inl then [] else c%"\n") close [] cs := by
  refine ⟨fun hi t ht => h.texts hi t (by simp [ht]), h.close, .inl ⟨(allWs_pre allWs_nl inl).1, (allWs_pre allWs_nl inl).2, rfl⟩,
    fun m hm => h.nodes m (by rw [docOrderL]; simp [hm]), ?_⟩
  intro a b x y hab
  exact h.apart (n :: a) b x y (by rw [hab]; rfl)

/-- the next nodes, after a text -/
theorem writes_text {inl : Bool} {lead close t : Str} {q cs : List Node} (h : Writes inl lead close q (.text t :: cs)) :
    q = [] ∧ inl = true ∧ Writes inl ((lead ++ textEscape t) ++ if inl then [] else c%"\n") close [.text t] cs := by
  have hi : inl = true := by
    cases hi : inl with
    | true => rfl
    | false => exact absurd (by simp) (h.texts hi t)
  rcases h.lead with ⟨h1, h2, rfl⟩ | ⟨-, t, -, -, -, h2⟩
  · refine ⟨rfl, hi, ?_⟩
    rw [h2 hi, hi]
    refine ⟨by simp, by simpa [hi] using h.close, .inr ⟨rfl, t, by simp, h.nodes (.text t) (by rw [docOrderL, docOrder]; simp), rfl, ?_⟩,
      (writes_next h).nodes, (writes_next h).apart⟩
    rintro x cs' rfl
    exact h.apart [] cs' t x rfl
  · exact absurd rfl (h2 _ _)

theorem writes_elem {n x p : _} {a c : SMap} {cs : List Node} (hn : ∀ m ∈ docOrder (.element ⟨n, cs, a, x, p, c⟩), NodeShape m)
    {pre : Str} (hp : AllWs pre) (inl : Bool) :
    (cs.length == 1 && !(cs.any Node.isElement)) = true ∧ Writes true [] [] [] cs ∨
    (cs.length == 1 && !(cs.any Node.isElement)) = false ∧ Writes (inl || cs.any Node.isText)
      (if inl || cs.any Node.isText then [] else c%"\n") (if inl || cs.any Node.isText then [] else pre) [] cs := by
  rw [docOrder] at hn
  have h1 : ElemShape ⟨n, cs, a, x, p, c⟩ := hn _ (List.mem_cons_self ..)
  have h2 : ∀ m ∈ docOrderL cs, NodeShape m := fun m hm => hn m (by simp [hm])
  cases (cs.length == 1 && !(cs.any Node.isElement)) with
  | true => exact .inl ⟨rfl, by simp, ⟨allWs_nil, by simp⟩, .inl ⟨allWs_nil, by simp, rfl⟩, h2, h1.apart⟩
  | false =>
    refine .inr ⟨rfl, ?_, allWs_pre hp _, .inl ⟨(allWs_pre allWs_nl _).1, (allWs_pre allWs_nl _).2, rfl⟩, h2, h1.apart⟩
    intro hf t ht
    simp only [Bool.or_eq_false_iff] at hf
    have := any_isText.2 ⟨t, ht⟩
    rw [this] at hf
    simp at hf

theorem allWs_append {a b : Str} (ha : AllWs a) (hb : AllWs b) : AllWs (a ++ b) := by
  intro c hc
  rcases List.mem_append.1 hc with hc | hc
  · exact ha c hc
  · exact hb c hc

theorem fits_self {e : Element} (h : ∀ m ∈ docOrder (.element e), NodeFitsFor T V m) : ElemFitsFor V e := by
  obtain ⟨n, cs, a, x, p, c⟩ := e
  rw [docOrder] at h
  exact h _ (List.mem_cons_self ..)

theorem fits_below {e : Element} (h : ∀ m ∈ docOrder (.element e), NodeFitsFor T V m) :
    ∀ m ∈ docOrderL e.children, NodeFitsFor T V m := by
  obtain ⟨n, cs, a, x, p, c⟩ := e
  rw [docOrder] at h
  exact fun m hm => h m (by simp only [List.mem_cons]; exact .inr hm)

theorem reElem_eq (parent : Option Element) (e : Element) :
    reElem parent e = { mkElem parent (ctagOf e).name (attrMap (ctagOf e).attrs) with
      children := reList (mkElem parent (ctagOf e).name (attrMap (ctagOf e).attrs)) e.children } := by
  obtain ⟨n, cs, a, x, p, c⟩ := e
  rw [reElem]; rfl

mutual
theorem inner_ok {u : Str} (hu : AllWs u) {pre : Str} (hp : AllWs pre) (inl : Bool) : (e : Element) →
    (∀ m ∈ docOrder (.element e), NodeShape m) →
      ((∀ s, AllWs s → P s) → ((innerCst pre u inl e).OkFor P CTag.Laid ↔ ∀ m ∈ docOrderL e.children, NodeHas P m)) ∧
      ∀ E, plain (forestOf E (innerCst pre u inl e)) = reList E e.children
  | ⟨n, cs, a, x, p, c⟩, hn => by
    rw [innerCst]
    rcases writes_elem hn hp inl with ⟨h1, h2⟩ | ⟨h1, h2⟩
    · rw [if_pos h1]
      simpa [reList] using list_ok allWs_nil allWs_nil _ _ _ _ cs h2
    · rw [if_neg (by rw [h1]; simp)]
      simpa [reList] using list_ok hu (allWs_append hp hu) _ _ _ _ cs h2
theorem list_ok {u : Str} (hu : AllWs u) {pre : Str} (hp : AllWs pre) (inl : Bool) (lead close : Str) (q : List Node) :
    (cs : List Node) → Writes inl lead close q cs →
      ((∀ s, AllWs s → P s) → ((listCst pre u inl lead close cs).OkFor P CTag.Laid ↔
        (∀ m ∈ q, NodeHas P m) ∧ ∀ m ∈ docOrderL cs, NodeHas P m)) ∧
      ∀ E, plain (forestOf E (listCst pre u inl lead close cs)) = reList E q ++ reList E cs
  | [], h => by
    rw [listCst]
    have := lead_ok (P := P) h h.close.1 h.close.2
    refine ⟨fun hP => ?_, fun E => ?_⟩
    · rw [Cst.OkFor, this.1 hP, docOrderL]; simp
    · rw [forestOf, this.2 E, plain, reList]
  | .text t :: cs, h => by
    obtain ⟨rfl, -, h2⟩ := writes_text h
    rw [listCst, nodeCst]
    obtain ⟨g1, g2⟩ := list_ok hu hp inl _ close [.text t] cs h2
    refine ⟨fun hP => ?_, fun E => ?_⟩
    · rw [g1 hP, docOrderL, docOrder]; simp
    · rw [g2, reList, reList, reList, reNode, reList]
      rfl
  | .comment k :: cs, h => by
    rw [listCst, nodeCst]
    have h2 := lead_ok (P := P) h (allWs_pre hp inl).1 (allWs_pre hp inl).2
    obtain ⟨g1, g2⟩ := list_ok hu hp inl _ close [] cs (writes_next h)
    have hk : NodeShape (.comment k) := h.nodes _ (by rw [docOrderL, docOrder]; simp)
    have hk : CommentOk k := hk
    refine ⟨fun hP => ?_, fun E => ?_⟩
    · rw [Cst.OkFor, h2.1 hP, g1 hP, docOrderL, docOrder]; simp [hk, NodeHas]
    · rw [forestOf, h2.2 E, plain, g2, reList, reList, reNode]
      rfl
  | .cdata k :: cs, h => by
    rw [listCst, nodeCst]
    have h2 := lead_ok (P := P) h (allWs_pre hp inl).1 (allWs_pre hp inl).2
    obtain ⟨g1, g2⟩ := list_ok hu hp inl _ close [] cs (writes_next h)
    have hk : NodeShape (.cdata k) := h.nodes _ (by rw [docOrderL, docOrder]; simp)
    have hk : CDataOk k := hk
    refine ⟨fun hP => ?_, fun E => ?_⟩
    · rw [Cst.OkFor, h2.1 hP, g1 hP, docOrderL, docOrder]; simp [hk, NodeHas]
    · rw [forestOf, h2.2 E, plain, g2, reList, reList, reNode]
      rfl
  | .element e :: cs, h => by
    rw [listCst, nodeCst]
    have h2 := lead_ok (P := P) h (allWs_pre hp inl).1 (allWs_pre hp inl).2
    obtain ⟨g1, g2⟩ := list_ok hu hp inl _ close [] cs (writes_next h)
    have hk : ∀ m ∈ docOrder (.element e), NodeShape m := fun m hm => h.nodes m (by rw [docOrderL]; simp [hm])
    obtain ⟨k1, k2⟩ := inner_ok hu hp inl e hk
    have ht := ctag_ok_iff (P := P) (fits_self hk)
    have hdo : docOrder (.element e) = .element e :: docOrderL e.children := by
      obtain ⟨n, cs, a, x, p, c⟩ := e
      rw [docOrder]
    split
    · rename_i he
      rw [List.isEmpty_iff] at he
      refine ⟨fun hP => ?_, fun E => ?_⟩
      · rw [Cst.OkFor, h2.1 hP, ht, g1 hP, docOrderL, hdo, he, docOrderL]
        simp
      · rw [forestOf, h2.2 E, plain, g2, reList, reList, reNode, reElem_eq]
        rw [he, reList, element_eta _ (mkElem_fields _ _ _).2.1]
        rfl
    · refine ⟨fun hP => ?_, fun E => ?_⟩
      · rw [Cst.OkFor, h2.1 hP, ht, k1 hP, g1 hP, docOrderL, hdo]
        simp [allWs_nil, or_imp, forall_and]
      · rw [forestOf, h2.2 E, plain, g2, k2, reList, reList, reNode, reElem_eq]
        rfl
end

/-! ## documents -/

/-- the document as written -/
def cdocOf (d : Document) (u : Str) : CDoc :=
  ⟨d.declaration.map fun x => ([], x.declStr.drop 3), [], if d.declaration.isSome then c%"\n" else [], ctagOf d.root,
    if d.root.children.isEmpty then none else some (innerCst [] u false d.root, []), c%"\n"⟩

/-- the document read back -/
def reDoc (d : Document) : Document := ⟨d.declaration, [], reElem none d.root⟩

/-- the indent that is used -/
def realIndent (i : Str) : Str := if validateIndent i then i else c%"  "

theorem realIndent_ws (i : Str) : AllWs (realIndent i) := by
  unfold realIndent
  split
  · rename_i h
    rcases validateIndent_iff.1 h with rfl | ⟨n, rfl⟩
    · decide
    · intro c hc
      rw [List.eq_of_mem_replicate hc]; rfl
  · decide

theorem realIndent_valid (i : Str) : validateIndent (realIndent i) = true := by
  unfold realIndent
  split
  · assumption
  · decide

theorem cdoc_src {d : Document} (h : DocFitsFor T V d) (i : Str) : (cdocOf d (realIndent i)).src = d.toStringWithIndent i := by
  have h1 : d.toStringWithIndent i = (match d.declaration with | none => [] | some x => x.display ++ c%"\n") ++
      d.root.toStringPI [] (realIndent i) false ++ c%"\n" := by
    have h2 : ElementF.toStringWithIndent d.root (realIndent i) = d.root.toStringPI [] (realIndent i) false := by
      rw [ElementF.toStringWithIndent, if_pos (realIndent_valid i)]
    rw [Document.toStringWithIndent, ← realIndent, h2, h.dtds]
    simp only [dtdsToString, List.append_nil]
    rfl
  rw [h1, inner_src]
  unfold cdocOf CDoc.src
  cases hd : d.declaration with
  | none => cases he : d.root.children.isEmpty <;> simp
  | some x =>
    obtain ⟨m, hm, -⟩ := h.decl x hd
    cases he : d.root.children.isEmpty <;> simp [Declaration.display, hm]

theorem cdoc_ok_iff {d : Document} (h : DocShape d) (hP : ∀ s, AllWs s → P s) (i : Str) :
    (cdocOf d (realIndent i)).OkFor P CTag.Laid ↔ DocHas P d := by
  have hroot : ElemShape d.root := fits_self h.nodes
  have hin := (inner_ok (P := P) (realIndent_ws i) allWs_nil false d.root h.nodes).1 hP
  have hdo : docOrder (.element d.root) = .element d.root :: docOrderL d.root.children := by
    obtain ⟨decl, dtds, ⟨n, cs, a, x, p, c⟩⟩ := d
    rw [docOrder]
  unfold DocHas
  rw [hdo]
  constructor
  · intro hd m hm
    rcases List.mem_cons.1 hm with rfl | hm
    · exact (ctag_ok_iff hroot).1 hd.root
    · cases he : d.root.children.isEmpty with
      | true =>
        rw [List.isEmpty_iff] at he
        rw [he, docOrderL] at hm
        cases hm
      | false => exact hin.1 (hd.body _ [] (by simp only [cdocOf, he, Bool.false_eq_true, if_false])).1 m hm
  intro hd
  refine ⟨⟨?_, (by intro x hx; cases hx), ?_, (ctag_ok_iff hroot).2 (hd _ (List.mem_cons_self ..)), ?_, allWs_nl⟩, ?_, by intro pre sp c post hl; simp [cdocOf] at hl⟩
  · intro sp m hd
    cases hx : d.declaration with
    | none => simp [cdocOf, hx] at hd
    | some x =>
      obtain ⟨m', h1, h2⟩ := h.decl x hx
      simp only [cdocOf, hx, Option.map_some, Option.some.injEq, Prod.mk.injEq, h1] at hd
      obtain ⟨rfl, rfl⟩ := hd
      exact ⟨allWs_nil, h2⟩
  · simp only [cdocOf]
    split
    · exact allWs_nl
    · exact allWs_nil
  · intro c sp hb
    simp only [cdocOf] at hb
    split at hb
    · cases hb
    · cases hb
      exact ⟨hin.2 fun m hm => hd m (List.mem_cons_of_mem _ hm), allWs_nil⟩
  · intro p l hpl hp
    have hpfx : d.root.pfx = some p := by
      simp only [cdocOf, ctagOf, qname] at hpl
      cases hq : d.root.pfx with
      | none =>
        rw [hq] at hpl
        simp only at hpl
        exact absurd (by rw [hpl]; simp) hroot.name.1.2
      | some p' =>
        rw [hq] at hpl
        have h1 := splitOnce_eq_some.2 ⟨hpl, hp⟩
        have h2 : splitOnce ':' (p' ++ ':' :: d.root.name) = some (p', d.root.name) :=
          splitOnce_eq_some.2 ⟨rfl, (hroot.pfx p' hq).2⟩
        have h3 := h2.symm.trans h1
        cases h3; rfl
    obtain ⟨v, hv⟩ := Option.isSome_iff_exists.1 (h.declared p hpfx)
    simp only [cdocOf, ctagOf, cattrsOf, List.map_map, List.mem_map]
    exact ⟨(_, v), mem_sort.2 hv, rfl⟩

theorem laid_matched {d : CDoc} (h : d.OkFor P CTag.Laid) : d.OkFor P Matched := h.mono (fun _ h => h) fun _ => matched_layout

theorem docOf_re {d : Document} (h : DocShape d) (i : Str) : docOf (cdocOf d (realIndent i)) = reDoc d := by
  unfold docOf reDoc
  congr 1
  · simp only [cdocOf, Option.map_map]
    cases hx : d.declaration with
    | none => rfl
    | some x =>
      obtain ⟨m', h1, h2⟩ := h.decl x hx
      obtain ⟨s⟩ := x
      simp only at h1
      simp [h1]
  · rw [reElem_eq]
    have := (inner_ok (P := fun _ => True) (realIndent_ws i) allWs_nil false d.root h.nodes).2
    cases he : d.root.children.isEmpty with
    | true =>
      rw [List.isEmpty_iff] at he
      simp only [cdocOf, he, List.isEmpty_nil, if_true, reList]
    | false => simp only [cdocOf, he, Bool.false_eq_true, if_false, this]

/-- reading back what was written -/
theorem reparse_given {d : Document} (h : DocShape d) (hg : DocHas Given d) (i : Str) :
    parseStr (d.toStringWithIndent i) = .ok (reDoc d) := by
  rw [← cdoc_src h i, parse_given (laid_matched ((cdoc_ok_iff h (fun _ => ws_given) i).2 hg)), docOf_re h]

theorem fits_given {d : Document} (h : DocFits d) : DocHas Given d := by
  intro n hn
  have := h.nodes n hn
  cases n with
  | text t => exact legible_given (textFits_legible this)
  | comment _ => trivial
  | cdata _ => trivial
  | element e => exact fun k v hk => legible_given (valueFits_legible (this.attrs k v hk).2.2)

/-- reading back what was written, when it is decoded correctly -/
theorem reparse {d : Document} (h : DocFits d) (i : Str) : parseStr (d.toStringWithIndent i) = .ok (reDoc d) :=
  reparse_given (fits_shape h) (fits_given h) i

/-! ## everything but the namespaces is kept -/

theorem reAttrs_get {e : Element} (h : ElemFits e) (k : Str) :
    (attrMap (cattrsOf (sortAttrs e.attrs.entries))).get k = e.attrs.get k := by
  have hok := (ctag_ok_iff (P := fun _ => True) h).2 fun _ _ _ => trivial
  apply Option.ext
  intro v
  rw [attrMap_get (l := cattrsOf (sortAttrs e.attrs.entries)) hok.distinct]
  constructor
  · rintro ⟨a, ha, rfl, hv⟩
    obtain ⟨⟨k, w⟩, hkw, rfl⟩ := List.mem_map.1 ha
    have := mem_sort.1 hkw
    simp only at hv ⊢
    rw [dec_attr (h.attrs k w this).2.2] at hv
    rw [this, hv]
  · intro hk
    refine ⟨_, List.mem_map.2 ⟨(k, v), mem_sort.2 hk, rfl⟩, rfl, ?_⟩
    exact dec_attr (h.attrs k v hk).2.2

theorem re_fields {n x p : _} {a c : SMap} {cs : List Node} (h : ElemFits ⟨n, cs, a, x, p, c⟩) (parent : Option Element) :
    ∃ a' x' c', mkElem parent (qname ⟨n, cs, a, x, p, c⟩) (attrMap (cattrsOf (sortAttrs a.entries))) = ⟨n, [], a', x', p, c'⟩ ∧
      a.entries.Perm a'.entries := by
  obtain ⟨h1, h2, h3, h4⟩ := mkElem_fields parent (qname ⟨n, cs, a, x, p, c⟩) (attrMap (cattrsOf (sortAttrs a.entries)))
  have hnp : (mkElem parent (qname ⟨n, cs, a, x, p, c⟩) (attrMap (cattrsOf (sortAttrs a.entries)))).name = n ∧
      (mkElem parent (qname ⟨n, cs, a, x, p, c⟩) (attrMap (cattrsOf (sortAttrs a.entries)))).pfx = p := by
    cases hp : p with
    | none => subst hp; exact h3 h.name.1.2
    | some q => subst hp; exact h4 q n rfl (h.pfx q rfl).2
  generalize mkElem parent (qname ⟨n, cs, a, x, p, c⟩) (attrMap (cattrsOf (sortAttrs a.entries))) = m at *
  obtain ⟨n', cs', a', x', p', c'⟩ := m
  simp only at h1 h2 hnp
  obtain ⟨rfl, rfl⟩ := hnp
  subst h2
  refine ⟨a', x', c', rfl, ?_⟩
  rw [SMap.perm_iff_get]
  intro k
  rw [h1, reAttrs_get h k]

mutual
theorem re_bareE (parent : Option Element) : (e : Element) → (∀ m ∈ docOrder (.element e), NodeFits m) →
    SameNode (bare (.element e)) (bare (.element (reElem parent e)))
  | ⟨n, cs, a, x, p, c⟩, h => by
    obtain ⟨a', x', c', h1, h2⟩ := re_fields (fits_self h) parent
    rw [docOrder] at h
    rw [reElem, h1, bare, bare]
    exact .element (.mk h2 (re_bareL _ cs fun m hm => h m (by simp [hm])))
theorem re_bareL (E : Element) : (cs : List Node) → (∀ m ∈ docOrderL cs, NodeFits m) → SameList (bareL cs) (bareL (reList E cs))
  | [], _ => .nil
  | .text t :: cs, h => by
    rw [docOrderL, docOrder] at h
    rw [reList, reNode, dec_text (h (.text t) (List.mem_cons_self ..))]
    exact .cons (.text t) (re_bareL E cs fun m hm => h m (by simp [hm]))
  | .comment t :: cs, h => by
    rw [docOrderL] at h
    exact .cons (.comment t) (re_bareL E cs fun m hm => h m (by simp [hm]))
  | .cdata t :: cs, h => by
    rw [docOrderL] at h
    exact .cons (.cdata t) (re_bareL E cs fun m hm => h m (by simp [hm]))
  | .element e :: cs, h => by
    rw [docOrderL] at h
    exact .cons (re_bareE (some E) e fun m hm => h m (by simp [hm])) (re_bareL E cs fun m hm => h m (by simp [hm]))
end

/-! ## namespaces -/

/-- the rules for one element and what is below it -/
theorem rules_elem {e : Element} {l : List Node} {look : Str → Option Str} {d : Option Str}
    (h1 : ∀ q, e.pfx = some q → e.xmlns = (e.attrs.get (c%"xmlns:" ++ q)).or ((look (c%"xmlns:" ++ q)).or (look q)))
    (h2 : e.pfx = none → e.xmlns = (e.attrs.get c%"xmlns").or d)
    (h3 : PrefixRuleL (fun q => (e.attrs.get (c%"xmlns:" ++ q)).or (look q)) l)
    (h4 : DefaultRuleL (if e.pfx = none then (e.attrs.get c%"xmlns").or d else none) l) :
    PrefixRule look (.element { e with children := l }) ∧ DefaultRule d (.element { e with children := l }) := by
  obtain ⟨n, cs, a, x, p, c⟩ := e
  exact ⟨⟨h1, h3⟩, ⟨h2, h4⟩⟩

mutual
theorem re_rulesE (E : Element) {look : Str → Option Str} {d : Option Str} (hE : Hands E look d) : (e : Element) →
    (∀ m ∈ docOrder (.element e), NodeShape m ∧ NodeHas Given m) →
    PrefixRule look (.element (reElem (some E) e)) ∧ DefaultRule d (.element (reElem (some E) e))
  | ⟨n, cs, a, x, p, c⟩, h => by
    have hok := (ctag_ok_iff (fits_self fun m hm => (h m hm).1)).2 (h _ (mem_docOrder_self _)).2
    obtain ⟨h1, h2, h3⟩ := opens_ns (opens_ctag_start (hok.mono (fun _ h => h) fun _ => matched_layout hok) (declared_some E _)) hE
    rw [docOrder] at h
    obtain ⟨g1, g2⟩ := re_rulesL _ h3 cs fun m hm => h m (by simp [hm])
    rw [reElem_eq]
    exact rules_elem h1 h2 g1 g2
theorem re_rulesL (E : Element) {look : Str → Option Str} {d : Option Str} (hE : Hands E look d) : (cs : List Node) →
    (∀ m ∈ docOrderL cs, NodeShape m ∧ NodeHas Given m) → PrefixRuleL look (reList E cs) ∧ DefaultRuleL d (reList E cs)
  | [], _ => ⟨trivial, trivial⟩
  | .text t :: cs, h => by
    rw [docOrderL] at h
    have := re_rulesL E hE cs fun m hm => h m (by simp [hm])
    exact ⟨⟨trivial, this.1⟩, ⟨trivial, this.2⟩⟩
  | .comment t :: cs, h => by
    rw [docOrderL] at h
    have := re_rulesL E hE cs fun m hm => h m (by simp [hm])
    exact ⟨⟨trivial, this.1⟩, ⟨trivial, this.2⟩⟩
  | .cdata t :: cs, h => by
    rw [docOrderL] at h
    have := re_rulesL E hE cs fun m hm => h m (by simp [hm])
    exact ⟨⟨trivial, this.1⟩, ⟨trivial, this.2⟩⟩
  | .element e :: cs, h => by
    rw [docOrderL] at h
    have h1 := re_rulesL E hE cs fun m hm => h m (by simp [hm])
    have h2 := re_rulesE E hE e fun m hm => h m (by simp [hm])
    exact ⟨⟨h2.1, h1.1⟩, ⟨h2.2, h1.2⟩⟩
end

theorem re_rules {d : Document} (h : DocShape d) (hg : DocHas Given d) :
    PrefixRule (fun _ => none) (.element (reDoc d).root) ∧ DefaultRule none (.element (reDoc d).root) := by
  have hok := laid_matched ((cdoc_ok_iff h (fun _ => ws_given) []).2 hg)
  obtain ⟨h1, h2, h3⟩ := opens_ns_root (opens_ctag_start hok.root fun _ => hok.declared)
  have hn : ∀ m ∈ docOrder (.element d.root), NodeShape m ∧ NodeHas Given m := fun m hm => ⟨h.nodes m hm, hg m hm⟩
  have : ∀ m ∈ docOrderL d.root.children, NodeShape m ∧ NodeHas Given m := by
    obtain ⟨decl, dtds, ⟨n, cs, a, x, p, c⟩⟩ := d
    rw [docOrder] at hn
    exact fun m hm => hn m (by simp only [List.mem_cons]; exact .inr hm)
  obtain ⟨g1, g2⟩ := re_rulesL _ h3 _ this
  rw [reDoc, reElem_eq]
  refine rules_elem (fun q hq => ?_) (fun hq => ?_) ?_ ?_
  · simp only [Option.or_none]; exact (h1 q hq).1
  · simp only [Option.or_none]; exact h2 hq
  · simp only [Option.or_none]; exact g1
  · simp only [Option.or_none]; exact g2

mutual
/-- the rules leave no choice -/
theorem same_of_rules : {a b : Node} → {look : Str → Option Str} → {d : Option Str} → SameNode (bare a) (bare b) →
    PrefixRule look a → PrefixRule look b → DefaultRule d a → DefaultRule d b → SameNode a b
  | .element ⟨n, cs, a, x, p, c⟩, .element ⟨n', cs', a', x', p', c'⟩, look, d, h, h1, h2, h3, h4 => by
    rw [bare, bare] at h
    cases h with
    | element h =>
      cases h with
      | mk hp hl =>
        have hg : ∀ k, a'.get k = a.get k := fun k => ((SMap.perm_iff_get.1 hp) k).symm
        rw [PrefixRule] at h1 h2
        rw [DefaultRule] at h3 h4
        simp only [hg] at h2 h4
        have hx : x = x' := by
          cases hq : p with
          | none => rw [h3.1 hq, h4.1 hq]
          | some q => rw [h1.1 q hq, h2.1 q hq]
        subst hx
        exact .element (.mk hp (same_of_rulesL hl h1.2 h2.2 h3.2 h4.2))
  | .text t, .text t', _, _, h, _, _, _, _ => by rw [bare, bare] at h; exact h
  | .comment t, .comment t', _, _, h, _, _, _, _ => by rw [bare, bare] at h; exact h
  | .cdata t, .cdata t', _, _, h, _, _, _, _ => by rw [bare, bare] at h; exact h
  | .element ⟨_, _, _, _, _, _⟩, .text _, _, _, h, _, _, _, _ => by rw [bare, bare] at h; cases h
  | .element ⟨_, _, _, _, _, _⟩, .comment _, _, _, h, _, _, _, _ => by rw [bare, bare] at h; cases h
  | .element ⟨_, _, _, _, _, _⟩, .cdata _, _, _, h, _, _, _, _ => by rw [bare, bare] at h; cases h
  | .text _, .element ⟨_, _, _, _, _, _⟩, _, _, h, _, _, _, _ => by rw [bare, bare] at h; cases h
  | .text _, .comment _, _, _, h, _, _, _, _ => by rw [bare, bare] at h; cases h
  | .text _, .cdata _, _, _, h, _, _, _, _ => by rw [bare, bare] at h; cases h
  | .comment _, .element ⟨_, _, _, _, _, _⟩, _, _, h, _, _, _, _ => by rw [bare, bare] at h; cases h
  | .comment _, .text _, _, _, h, _, _, _, _ => by rw [bare, bare] at h; cases h
  | .comment _, .cdata _, _, _, h, _, _, _, _ => by rw [bare, bare] at h; cases h
  | .cdata _, .element ⟨_, _, _, _, _, _⟩, _, _, h, _, _, _, _ => by rw [bare, bare] at h; cases h
  | .cdata _, .text _, _, _, h, _, _, _, _ => by rw [bare, bare] at h; cases h
  | .cdata _, .comment _, _, _, h, _, _, _, _ => by rw [bare, bare] at h; cases h
theorem same_of_rulesL : {a b : List Node} → {look : Str → Option Str} → {d : Option Str} → SameList (bareL a) (bareL b) →
    PrefixRuleL look a → PrefixRuleL look b → DefaultRuleL d a → DefaultRuleL d b → SameList a b
  | [], [], _, _, _, _, _, _, _ => .nil
  | [], _ :: _, _, _, h, _, _, _, _ => by rw [bareL, bareL] at h; cases h
  | _ :: _, [], _, _, h, _, _, _, _ => by rw [bareL, bareL] at h; cases h
  | a :: l, b :: m, look, d, h, h1, h2, h3, h4 => by
    rw [bareL, bareL] at h
    cases h with
    | cons g1 g2 => exact .cons (same_of_rules g1 h1.1 h2.1 h3.1 h4.1) (same_of_rulesL g2 h1.2 h2.2 h3.2 h4.2)
end

mutual
theorem rules_same : {a b : Node} → {look : Str → Option Str} → {d : Option Str} → SameNode a b →
    PrefixRule look b ∧ DefaultRule d b → PrefixRule look a ∧ DefaultRule d a
  | .element ⟨_, cs, a, x, p, _⟩, .element ⟨_, cs', a', _, _, _⟩, look, d, .element (.mk hp hl), h => by
    have hg : ∀ k, a'.get k = a.get k := fun k => ((SMap.perm_iff_get.1 hp) k).symm
    obtain ⟨h1, h2⟩ := h
    rw [PrefixRule] at h1
    rw [DefaultRule] at h2
    simp only [hg] at h1 h2
    obtain ⟨g1, g2⟩ := rules_sameL hl ⟨h1.2, h2.2⟩
    exact ⟨⟨h1.1, g1⟩, ⟨h2.1, g2⟩⟩
  | .text _, _, _, _, .text _, _ => ⟨trivial, trivial⟩
  | .comment _, _, _, _, .comment _, _ => ⟨trivial, trivial⟩
  | .cdata _, _, _, _, .cdata _, _ => ⟨trivial, trivial⟩
theorem rules_sameL : {a b : List Node} → {look : Str → Option Str} → {d : Option Str} → SameList a b →
    PrefixRuleL look b ∧ DefaultRuleL d b → PrefixRuleL look a ∧ DefaultRuleL d a
  | [], _, _, _, .nil, _ => ⟨trivial, trivial⟩
  | _ :: _, _ :: _, _, _, .cons h1 h2, h => by
    obtain ⟨g1, g2⟩ := rules_same h1 ⟨h.1.1, h.2.1⟩
    obtain ⟨k1, k2⟩ := rules_sameL h2 ⟨h.1.2, h.2.2⟩
    exact ⟨⟨g1, k1⟩, ⟨g2, k2⟩⟩
end

mutual
theorem prefixRule_of (look : Str → Option Str) (hl : ∀ p, look (c%"xmlns:" ++ p) = none) : (n : Node) →
    (∀ m ∈ docOrder n, NoDouble m) → PrefixScope look n → PrefixRule look n
  | .element ⟨n, cs, a, x, q, c⟩ => by
    intro h1 h2
    rw [docOrder] at h1
    refine ⟨fun p hp => by rw [h2.1 p hp, hl]; simp, ?_⟩
    refine prefixRuleL_of _ ?_ cs (fun m hm => h1 m (by simp [hm])) h2.2
    intro p
    have := h1 _ (List.mem_cons_self ..) _ rfl
    simp only [hl, Option.or_none]
    cases hg : a.get (c%"xmlns:" ++ (c%"xmlns:" ++ p)) with
    | none => rfl
    | some v => exact absurd (⟨p, rfl⟩ : _ <+: c%"xmlns:" ++ (c%"xmlns:" ++ p)) (this _ (by simp only [hg, Option.isSome_some]))
  | .text _ => fun _ _ => trivial
  | .comment _ => fun _ _ => trivial
  | .cdata _ => fun _ _ => trivial
theorem prefixRuleL_of (look : Str → Option Str) (hl : ∀ p, look (c%"xmlns:" ++ p) = none) : (l : List Node) →
    (∀ m ∈ docOrderL l, NoDouble m) → PrefixScopeL look l → PrefixRuleL look l
  | [] => fun _ _ => trivial
  | n :: l => by
    intro h1 h2
    rw [docOrderL] at h1
    exact ⟨prefixRule_of look hl n (fun m hm => h1 m (by simp [hm])) h2.1,
      prefixRuleL_of look hl l (fun m hm => h1 m (by simp [hm])) h2.2⟩
end

/-- the library's rule for the default namespace of one child -/
def DefaultChild (e c : Element) : Prop :=
  c.pfx = none → c.xmlns = (c.attrs.get c%"xmlns").or (if e.pfx = none then e.xmlns else none)

mutual
theorem defaultRule_iff (d : Option Str) : (n : Node) → (DefaultRule d n ↔
    (∀ c, n = .element c → c.pfx = none → c.xmlns = (c.attrs.get c%"xmlns").or d) ∧
    ∀ e, Node.element e ∈ docOrder n → ∀ c, Node.element c ∈ e.children → DefaultChild e c)
  | .element ⟨n, cs, a, x, q, c⟩ => by
    rw [DefaultRule, docOrder]
    have key : ∀ d', (if q = none then (a.get c%"xmlns").or d else none) = d' → (DefaultRuleL (if q = none then (a.get c%"xmlns").or d else none) cs ↔
        (∀ c, Node.element c ∈ cs → c.pfx = none → c.xmlns = (c.attrs.get c%"xmlns").or d') ∧
        ∀ e, Node.element e ∈ docOrderL cs → ∀ c, Node.element c ∈ e.children → DefaultChild e c) := by
      intro d' hd'
      rw [hd']; exact defaultRuleL_iff d' cs
    constructor
    · rintro ⟨h1, h2⟩
      have hd' : (if q = none then (a.get c%"xmlns").or d else none) = (if q = none then x else none) := by
        by_cases hq : q = none
        · rw [if_pos hq, if_pos hq, h1 hq]
        · rw [if_neg hq, if_neg hq]
      obtain ⟨g1, g2⟩ := (key _ hd').1 h2
      refine ⟨?_, ?_⟩
      · rintro _ ⟨⟩; exact h1
      · intro e he
        rcases List.mem_cons.1 he with he | he
        · cases he; exact g1
        · exact g2 e he
    · rintro ⟨h1, h2⟩
      have h1 := h1 _ rfl
      have hd' : (if q = none then (a.get c%"xmlns").or d else none) = (if q = none then x else none) := by
        by_cases hq : q = none
        · rw [if_pos hq, if_pos hq]; exact (h1 hq).symm
        · rw [if_neg hq, if_neg hq]
      exact ⟨h1, (key _ hd').2 ⟨h2 _ (List.mem_cons_self ..), fun e he => h2 e (by simp [he])⟩⟩
  | .text t => by simp [DefaultRule, docOrder]
  | .comment t => by simp [DefaultRule, docOrder]
  | .cdata t => by simp [DefaultRule, docOrder]
theorem defaultRuleL_iff (d : Option Str) : (l : List Node) → (DefaultRuleL d l ↔
    (∀ c, Node.element c ∈ l → c.pfx = none → c.xmlns = (c.attrs.get c%"xmlns").or d) ∧
    ∀ e, Node.element e ∈ docOrderL l → ∀ c, Node.element c ∈ e.children → DefaultChild e c)
  | [] => by simp [DefaultRuleL, docOrderL]
  | n :: l => by
    rw [DefaultRuleL, docOrderL, defaultRule_iff d n, defaultRuleL_iff d l]
    constructor
    · rintro ⟨⟨h1, h2⟩, h3, h4⟩
      refine ⟨fun c hc => ?_, fun e he => ?_⟩
      · rcases List.mem_cons.1 hc with hc | hc
        · exact h1 c hc.symm
        · exact h3 c hc
      · rcases List.mem_append.1 he with he | he
        · exact h2 e he
        · exact h4 e he
    · rintro ⟨h1, h2⟩
      exact ⟨⟨fun c hc => h1 c (by simp [hc]), fun e he => h2 e (by simp [he])⟩, fun c hc => h1 c (by simp [hc]),
        fun e he => h2 e (by simp [he])⟩
end

theorem nsFits_iff {d : Document} (hd : NoDoubles d) :
    NsFits d ↔ PrefixRule (fun _ => none) (.element d.root) ∧ DefaultRule none (.element d.root) := by
  have hd' : ∀ m ∈ docOrder (.element d.root), NoDouble m := fun m hm e he => hd e (he ▸ hm)
  rw [defaultRule_iff]
  constructor
  · intro h
    refine ⟨prefixRule_of _ (fun _ => rfl) _ hd' h.pfx, ?_, fun e he c hc => h.below e he c hc⟩
    rintro _ ⟨⟩ hq
    rw [h.root hq, Option.or_none]
  · rintro ⟨h1, h2, h3⟩
    refine ⟨prefixScope_of _ (fun _ => rfl) _ hd' h1, ?_, fun e he c hc => h3 e he c hc⟩
    intro hq
    rw [h2 _ rfl hq, Option.or_none]

/-- exactly the documents with the right namespaces are read back as they were -/
theorem reparse_eq_iff {d : Document} (h : DocFits d) (hd : NoDoubles d) : d.eq (reDoc d) = true ↔ NsFits d := by
  rw [nsFits_iff hd]
  simp only [Document.eq, Bool.and_eq_true, beq_iff_eq, element_eq_iff]
  constructor
  · rintro ⟨-, hs⟩
    exact rules_same (.element hs) (re_rules (fits_shape h) (fits_given h))
  · rintro ⟨h1, h2⟩
    refine ⟨⟨rfl, h.dtds⟩, ?_⟩
    have := same_of_rules (re_bareE none d.root h.nodes) h1 (re_rules (fits_shape h) (fits_given h)).1 h2 (re_rules (fits_shape h) (fits_given h)).2
    cases this with
    | element h => exact h

/-! ## namespaces are not written -/

theorem isElement_bare (n : Node) : (bare n).isElement = n.isElement := by
  cases n with
  | element e => obtain ⟨n, cs, a, x, p, c⟩ := e; rfl
  | text t => rfl
  | comment t => rfl
  | cdata t => rfl

theorem isText_bare (n : Node) : (bare n).isText = n.isText := by
  cases n with
  | element e => obtain ⟨n, cs, a, x, p, c⟩ := e; rfl
  | text t => rfl
  | comment t => rfl
  | cdata t => rfl

theorem bareL_length : (l : List Node) → (bareL l).length = l.length
  | [] => rfl
  | n :: l => by rw [bareL, List.length_cons, List.length_cons, bareL_length l]

theorem bareL_any {p : Node → Bool} (hp : ∀ n, p (bare n) = p n) : (l : List Node) → (bareL l).any p = l.any p
  | [] => rfl
  | n :: l => by rw [bareL, List.any_cons, List.any_cons, bareL_any hp l, hp]

mutual
theorem bare_toStringPI (pre u : Str) (inl : Bool) : (n : Node) → (bare n).toStringPI pre u inl = n.toStringPI pre u inl
  | .element ⟨n, cs, a, x, p, c⟩ => by
    rw [bare, Node.toStringPI, Node.toStringPI, ElementF.toStringPI, ElementF.toStringPI]
    have h1 : ElementF.tagName (⟨n, bareL cs, a, none, p, .empty⟩ : Element) = ElementF.tagName ⟨n, cs, a, x, p, c⟩ := rfl
    simp only [h1, bareL_length, bareL_any isElement_bare, bareL_any isText_bare, bareL_toString]
  | .text _ => rfl
  | .comment _ => rfl
  | .cdata _ => rfl
theorem bareL_toString (pre u : Str) (inl : Bool) : (l : List Node) →
    childrenToString pre u inl (bareL l) = childrenToString pre u inl l
  | [] => rfl
  | n :: l => by rw [bareL, childrenToString, childrenToString, bare_toStringPI pre u inl n, bareL_toString pre u inl l]
end

theorem toStringPI_of_bare {a b : Element} (h : SameNode (bare (.element a)) (bare (.element b))) (pre u : Str) (inl : Bool) :
    a.toStringPI pre u inl = b.toStringPI pre u inl := by
  have h1 := bare_toStringPI pre u inl (.element a)
  have h2 := bare_toStringPI pre u inl (.element b)
  rw [same_nodeToStringPI pre u inl h, h2] at h1
  rw [Node.toStringPI, Node.toStringPI] at h1
  exact h1.symm

theorem rewrite_same {d : Document} (h : DocFits d) (i : Str) : (reDoc d).toStringWithIndent i = d.toStringWithIndent i := by
  have key := re_bareE none d.root h.nodes
  unfold Document.toStringWithIndent
  rw [h.dtds]
  simp only [reDoc, ElementF.toStringWithIndent, toStringPI_of_bare key]

end KissXml
