import Verif.Spec.Prefixes
import Verif.Proofs.W3Ns
/-!
# Other prefixes
-/
namespace KissXml
open Spec

theorem nearest_other {ρ : Str → Str} {p : Str} {l l' : List Element} (h : List.Forall₂ (OtherPrefix ρ) l l') :
    nearest (c%"xmlns:" ++ ρ p) l' = nearest (c%"xmlns:" ++ p) l ∧ nearest c%"xmlns" l' = nearest c%"xmlns" l := by
  induction h with
  | nil => exact ⟨rfl, rfl⟩
  | cons h _ ih => simp only [nearest_cons]; rw [h.2.2.1, h.2.2.2 p, ih.1, ih.2]; exact ⟨rfl, rfl⟩

theorem unprefixed_other {ρ : Str → Str} {l l' : List Element} (h : List.Forall₂ (OtherPrefix ρ) l l') :
    List.Forall₂ (OtherPrefix ρ) (l.takeWhile fun a => a.pfx.isNone) (l'.takeWhile fun a => a.pfx.isNone) := by
  induction h with
  | nil => exact .nil
  | @cons e e' l l' h _ ih =>
    have : e'.pfx.isNone = e.pfx.isNone := by rw [h.2.1]; cases e.pfx <;> rfl
    rw [List.takeWhile_cons, List.takeWhile_cons, this]
    split
    · exact .cons h ih
    · exact .nil

theorem nearest_twice {p : Str} {l : List Element} (h : ∀ a ∈ l, NoTwice a) : nearest (c%"xmlns:xmlns:" ++ p) l = none := by
  induction l with
  | nil => rfl
  | cons e l ih => rw [nearest_cons, h e (List.mem_cons_self ..), ih (fun a ha => h a (List.mem_cons_of_mem _ ha))]; rfl

theorem resolved_other {ρ : Str → Str} {e e' : Element} {up up' : List Element} (h : OtherPrefix ρ e e') (hu : List.Forall₂ (OtherPrefix ρ) up up')
    (h1 : ∀ a ∈ up, NoTwice a) (h2 : ∀ a ∈ up', NoTwice a) : resolved e' up' = resolved e up := by
  unfold resolved
  rw [h.2.1]
  cases e.pfx with
  | some p =>
    simp only [Option.map_some]
    rw [nearest_twice h1, nearest_twice h2, (nearest_other hu).1, h.2.2.2 p]
  | none =>
    simp only [Option.map_none]
    exact (nearest_other (p := []) (.cons h (unprefixed_other hu))).2

theorem above_all {P : Element → Prop} {r : Element} (h : ∀ up e, Above r up e → P e) {up : List Element} {e : Element} (he : Above r up e) :
    ∀ a ∈ up, P a := by
  induction he with
  | here => intro a ha; cases ha
  | @down up e c h1 _ ih =>
    intro a ha
    rcases List.mem_cons.1 ha with rfl | ha
    · exact h up _ h1
    · exact ih a ha

mutual
theorem pairs_above {ρ : Str → Str} {P : Element → Element → Prop} {r r' : Element}
    (hP : ∀ up up' e e', Above r up e → Above r' up' e' → List.Forall₂ (OtherPrefix ρ) (e :: up) (e' :: up') → P e e') :
    ∀ {n n' : Node}, Pairs (OtherPrefix ρ) n n' → ∀ up up', List.Forall₂ (OtherPrefix ρ) up up' →
      (∀ e, n = .element e → Above r up e) → (∀ e, n' = .element e → Above r' up' e) → Pairs P n n'
  | _, _, .element (e := e) (e' := e') h1 h2, up, up', hu, ha, ha' =>
    .element (hP up up' e e' (ha e rfl) (ha' e' rfl) (.cons h1 hu))
      (pairsL_above hP h2 (e :: up) (e' :: up') (.cons h1 hu) (fun _ hc => .down (ha e rfl) hc) (fun _ hc => .down (ha' e' rfl) hc))
  | _, _, .text t, _, _, _, _, _ => .text t
  | _, _, .comment t, _, _, _, _, _ => .comment t
  | _, _, .cdata t, _, _, _, _, _ => .cdata t
theorem pairsL_above {ρ : Str → Str} {P : Element → Element → Prop} {r r' : Element}
    (hP : ∀ up up' e e', Above r up e → Above r' up' e' → List.Forall₂ (OtherPrefix ρ) (e :: up) (e' :: up') → P e e') :
    ∀ {l l' : List Node}, PairsL (OtherPrefix ρ) l l' → ∀ up up', List.Forall₂ (OtherPrefix ρ) up up' →
      (∀ e, Node.element e ∈ l → Above r up e) → (∀ e, Node.element e ∈ l' → Above r' up' e) → PairsL P l l'
  | _, _, .nil, _, _, _, _, _ => .nil
  | _, _, .cons h1 h2, up, up', hu, ha, ha' =>
    .cons (pairs_above hP h1 up up' hu (fun e he => ha e (he ▸ List.mem_cons_self ..)) (fun e he => ha' e (he ▸ List.mem_cons_self ..)))
      (pairsL_above hP h2 up up' hu (fun e he => ha e (List.mem_cons_of_mem _ he)) (fun e he => ha' e (List.mem_cons_of_mem _ he)))
end

end KissXml
