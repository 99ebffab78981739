import Verif.Spec.Fs
import Verif.Proofs.Misc
/-!
# Files, directories, writers: lemmas
-/
namespace KissXml
open Spec

theorem wf_prefix {fs : FileSys} (h : WellFormed fs) {p q : Path} (hp : fs p ≠ none) (hq : q <+: p) (hne : q ≠ p) : fs q = some .dir := by
  induction p using List.reverseRecOn with
  | nil => exact (hne (List.prefix_nil.1 hq)).elim
  | append_singleton p n ih =>
    have hd := h.parent p n hp
    rcases List.prefix_concat_iff.1 hq with rfl | hq
    · exact (hne rfl).elim
    · by_cases he : q = p
      · subst he; exact hd
      · exact ih (by simp [hd]) hq he

/-- some name on the way to `p`, or `p` itself, is a file -/
def Blocked (fs : FileSys) (p : Path) : Prop := ∃ q b, q <+: p ∧ fs q = some (.file b)

theorem blocked_ne_dir {fs : FileSys} (h : WellFormed fs) {p : Path} (hb : Blocked fs p) : fs p ≠ some .dir := by
  obtain ⟨q, b, h1, h2⟩ := hb
  intro hd
  by_cases he : q = p
  · subst he; rw [h2] at hd; cases hd
  · rw [wf_prefix h (by simp [hd]) h1 he] at h2; cases h2

theorem lookupDir_ok {fs : FileSys} (h : WellFormed fs) {p rest : Path} (hd : fs (p ++ rest) = some .dir) :
    lookupDir fs p rest = .ok () := by
  induction rest generalizing p with
  | nil => rfl
  | cons n rest ih =>
    have hn : fs (p ++ [n]) = some .dir := by
      by_cases he : rest = []
      · subst he; exact hd
      · refine wf_prefix h (p := p ++ n :: rest) (by simp [hd]) ⟨rest, by simp⟩ (fun h => he ?_)
        simpa using h
    rw [lookupDir, hn]
    exact ih (by simpa using hd)

theorem lookupDir_blocked {fs : FileSys} {p rest : Path} (hp : ¬ Blocked fs p) (hb : Blocked fs (p ++ rest)) (h : WellFormed fs) :
    lookupDir fs p rest = .error .notADirectory := by
  induction rest generalizing p with
  | nil => rw [List.append_nil] at hb; exact (hp hb).elim
  | cons n rest ih =>
    rw [lookupDir]
    obtain ⟨q, b, h1, h2⟩ := hb
    cases hf : fs (p ++ [n]) with
    | none =>
      exfalso
      have hlen : (p ++ [n]) <+: q := by
        rcases List.prefix_or_prefix_of_prefix h1 (show (p ++ [n]) <+: p ++ n :: rest from ⟨rest, by simp⟩) with h3 | h3
        · rcases List.prefix_concat_iff.1 h3 with rfl | h3
          · exact List.prefix_refl _
          · exact (hp ⟨q, b, h3, h2⟩).elim
        · exact h3
      by_cases he : p ++ [n] = q
      · subst he; rw [hf] at h2; cases h2
      · rw [wf_prefix h (by simp [h2]) hlen he] at hf; cases hf
    | some e =>
      cases e with
      | file c => rfl
      | dir =>
        refine ih ?_ ⟨q, b, by simpa using h1, h2⟩
        rintro ⟨q', b', h3, h4⟩
        rcases List.prefix_concat_iff.1 h3 with rfl | h3
        · rw [hf] at h4; cases h4
        · exact hp ⟨q', b', h3, h4⟩

theorem lookupDir_missing {fs : FileSys} {p rest : Path} (hb : ¬ Blocked fs (p ++ rest)) (hd : fs p = some .dir)
    (hn : fs (p ++ rest) ≠ some .dir) : lookupDir fs p rest = .error .notFound := by
  induction rest generalizing p with
  | nil => rw [List.append_nil] at hn; exact (hn hd).elim
  | cons n rest ih =>
    rw [lookupDir]
    cases hf : fs (p ++ [n]) with
    | none => rfl
    | some e =>
      cases e with
      | file c => exact (hb ⟨p ++ [n], c, ⟨rest, by simp⟩, hf⟩).elim
      | dir => exact ih (by simpa using hb) hf (by simpa using hn)

theorem not_blocked_nil {fs : FileSys} (h : WellFormed fs) : ¬ Blocked fs [] := by
  intro hb
  exact blocked_ne_dir h hb h.root

/-- what looking for a directory finds -/
theorem lookupDir_spec {fs : FileSys} (h : WellFormed fs) (p : Path) :
    (fs p = some .dir ∧ lookupDir fs [] p = .ok ()) ∨ (Blocked fs p ∧ lookupDir fs [] p = .error .notADirectory) ∨
    (fs p ≠ some .dir ∧ ¬ Blocked fs p ∧ lookupDir fs [] p = .error .notFound) := by
  by_cases hd : fs p = some .dir
  · exact .inl ⟨hd, lookupDir_ok h (by simpa using hd)⟩
  · by_cases hb : Blocked fs p
    · exact .inr (.inl ⟨hb, lookupDir_blocked (not_blocked_nil h) (by simpa using hb) h⟩)
    · exact .inr (.inr ⟨hd, hb, lookupDir_missing (by simpa using hb) h.root (by simpa using hd)⟩)

theorem isDir_false {fs : FileSys} (h : WellFormed fs) {p : Path} (hb : Blocked fs p) : isDir fs p = false := by
  rcases lookupDir_spec h p with ⟨h1, -⟩ | ⟨-, h2⟩ | ⟨-, h2, -⟩
  · exact (blocked_ne_dir h hb h1).elim
  · rw [isDir, h2]
  · exact (h2 hb).elim

theorem isDir_true {fs : FileSys} (h : WellFormed fs) {p : Path} (hd : fs p = some .dir) : isDir fs p = true := by
  rw [isDir, lookupDir_ok h (by simpa using hd)]

open Classical in
/-- the directories on the way to `p`, and `p`, exist -/
noncomputable def withDirs (fs : FileSys) (p : Path) : FileSys := fun q => if q <+: p then some .dir else fs q

theorem withDirs_self {fs : FileSys} (h : WellFormed fs) {p : Path} (hd : fs p = some .dir) : withDirs fs p = fs := by
  funext q
  rw [withDirs]
  split
  · rename_i hq
    by_cases he : q = p
    · subst he; exact hd.symm
    · exact (wf_prefix h (by simp [hd]) hq he).symm
  · rfl

theorem withDirs_snoc {fs : FileSys} {p : Path} {n : Str} : withDirs fs (p ++ [n]) = (withDirs fs p).set (p ++ [n]) .dir := by
  funext q
  rw [withDirs, FileSys.set, withDirs]
  by_cases h1 : q = p ++ [n]
  · rw [if_pos h1, if_pos (h1 ▸ List.prefix_refl _)]
  · rw [if_neg h1]
    by_cases h2 : q <+: p
    · rw [if_pos h2, if_pos (h2.trans (List.prefix_append _ _))]
    · rw [if_neg h2, if_neg (fun h => (List.prefix_concat_iff.1 h).elim h1 h2)]

theorem withDirs_wf {fs : FileSys} (h : WellFormed fs) {p : Path} : WellFormed (withDirs fs p) := by
  constructor
  · rw [withDirs, if_pos List.nil_prefix]
  · intro q n hq
    rw [withDirs] at hq ⊢
    by_cases h1 : q <+: p
    · rw [if_pos h1]
    · rw [if_neg h1]
      rw [if_neg (fun h2 => h1 ((List.prefix_append _ _).trans h2))] at hq
      exact h.parent q n hq

theorem createDirAll_spec {fs : FileSys} (h : WellFormed fs) (p : Path) :
    (Blocked fs p → ∃ e, createDirAll fs p = (fs, .error e)) ∧ (¬ Blocked fs p → createDirAll fs p = (withDirs fs p, .ok ())) := by
  induction p using List.reverseRecOn with
  | nil =>
    refine ⟨fun hb => (not_blocked_nil h hb).elim, fun _ => ?_⟩
    rw [createDirAll]
    simp only [mkdir, if_true]
    rw [if_pos (isDir_true h h.root), withDirs_self h h.root]
  | append_singleton p n ih =>
    have hne : p ++ [n] ≠ [] := by simp
    have hmk : ∀ fs : FileSys, mkdir fs (p ++ [n]) = (match lookupDir fs [] p with
        | .error e => (fs, .error e)
        | .ok () =>
          match fs (p ++ [n]) with
          | some _ => (fs, .error .alreadyExists)
          | none => (fs.set (p ++ [n]) .dir, .ok ())) := by
      intro fs
      rw [mkdir, if_neg hne, List.dropLast_concat]
      rfl
    rw [createDirAll, hmk]
    rcases lookupDir_spec h p with ⟨h1, h2⟩ | ⟨h1, h2⟩ | ⟨h1, h2, h3⟩
    · rw [h2]
      cases hf : fs (p ++ [n]) with
      | none =>
        refine ⟨fun hb => ?_, fun _ => ?_⟩
        · exfalso
          obtain ⟨q, b, h3, h4⟩ := hb
          rcases List.prefix_concat_iff.1 h3 with rfl | h3
          · rw [hf] at h4; cases h4
          · exact blocked_ne_dir h ⟨q, b, h3, h4⟩ h1
        · simp only
          rw [withDirs_snoc, withDirs_self h h1]
      | some e =>
        simp only
        cases e with
        | dir =>
          refine ⟨fun hb => (blocked_ne_dir h hb hf).elim, fun _ => ?_⟩
          rw [if_pos (isDir_true h hf), withDirs_self h hf]
        | file b =>
          have hb : Blocked fs (p ++ [n]) := ⟨_, b, List.prefix_refl _, hf⟩
          refine ⟨fun _ => ⟨.alreadyExists, ?_⟩, fun hb' => (hb' hb).elim⟩
          rw [isDir_false h hb]
          rfl
    · rw [h2]
      have hb : Blocked fs (p ++ [n]) := by
        obtain ⟨q, b, h3, h4⟩ := h1
        exact ⟨q, b, h3.trans (List.prefix_append _ _), h4⟩
      refine ⟨fun _ => ⟨.notADirectory, ?_⟩, fun hb' => (hb' hb).elim⟩
      simp only
      rw [isDir_false h hb]
      rfl
    · rw [h3]
      have hf : fs (p ++ [n]) = none := by
        by_contra hc
        exact h1 (h.parent p n hc)
      have hb : ¬ Blocked fs (p ++ [n]) := by
        rintro ⟨q, b, h4, h5⟩
        rcases List.prefix_concat_iff.1 h4 with rfl | h4
        · rw [hf] at h5; cases h5
        · exact h2 ⟨q, b, h4, h5⟩
      refine ⟨fun hb' => (hb hb').elim, fun _ => ?_⟩
      simp only
      rw [dif_neg hne, List.dropLast_concat, ih.2 h2]
      simp only
      have hw := withDirs_wf (p := p) h
      have hd : withDirs fs p p = some .dir := by rw [withDirs, if_pos (List.prefix_refl _)]
      have hf' : withDirs fs p (p ++ [n]) = none := by
        rw [withDirs, if_neg (fun h => by have := h.length_le; simp at this; omega), hf]
      rw [hmk, lookupDir_ok hw (by simpa using hd), hf']
      simp only
      rw [withDirs_snoc]

theorem blocked_parent {fs : FileSys} {p : Path} {n : Str} :
    Blocked fs p ↔ ∃ q b, q <+: p ++ [n] ∧ q ≠ p ++ [n] ∧ fs q = some (.file b) := by
  constructor
  · rintro ⟨q, b, h1, h2⟩
    refine ⟨q, b, h1.trans (List.prefix_append _ _), fun h => ?_, h2⟩
    subst h
    have := h1.length_le
    simp at this
    omega
  · rintro ⟨q, b, h1, h2, h3⟩
    exact ⟨q, b, (List.prefix_concat_iff.1 h1).resolve_left h2, h3⟩

theorem writeToPath_spec {fs : FileSys} (h : WellFormed fs) (d : Document) (path : Path) (i : Str) :
    (CannotWrite fs path → ∃ e, d.writeToPathWithIndent fs path i = (fs, .error e)) ∧
    (¬ CannotWrite fs path → d.writeToPathWithIndent fs path i = (stored fs path (d.toStringWithIndent i).utf8Encode, .ok ())) := by
  rcases List.eq_nil_or_concat path with rfl | ⟨p, n, hpath⟩
  · refine ⟨fun _ => ⟨.isADirectory, ?_⟩, fun hc => (hc (.inl h.root)).elim⟩
    rw [Document.writeToPathWithIndent, if_pos rfl, fsWrite, if_pos rfl]
  · rw [List.concat_eq_append] at hpath
    subst hpath
    have hne : p ++ [n] ≠ [] := by simp
    rw [Document.writeToPathWithIndent, if_neg hne, List.dropLast_concat]
    by_cases hb : Blocked fs p
    · obtain ⟨e, he⟩ := (createDirAll_spec h p).1 hb
      rw [he]
      exact ⟨fun _ => ⟨e, rfl⟩, fun hc => (hc (.inr (blocked_parent.1 hb))).elim⟩
    · rw [(createDirAll_spec h p).2 hb]
      simp only
      have hd : withDirs fs p p = some .dir := by rw [withDirs, if_pos (List.prefix_refl _)]
      have hf' : withDirs fs p (p ++ [n]) = fs (p ++ [n]) := by
        rw [withDirs, if_neg (fun h => by have := h.length_le; simp at this; omega)]
      rw [fsWrite, if_neg hne, List.dropLast_concat, lookupDir_ok (withDirs_wf h) (by simpa using hd), hf']
      simp only
      constructor
      · rintro (hc | hc)
        · rw [hc, withDirs_self h (h.parent p n (by simp [hc]))]
          exact ⟨_, rfl⟩
        · exact (hb (blocked_parent.2 hc)).elim
      · intro hc
        have hnd : fs (p ++ [n]) ≠ some .dir := fun h' => hc (.inl h')
        have hst : (withDirs fs p).set (p ++ [n]) (.file (d.toStringWithIndent i).utf8Encode) =
            stored fs (p ++ [n]) (d.toStringWithIndent i).utf8Encode := by
          funext q
          rw [FileSys.set, stored, withDirs]
          by_cases h1 : q = p ++ [n]
          · rw [if_pos h1, if_pos h1]
          · rw [if_neg h1, if_neg h1]
            by_cases h2 : q <+: p
            · rw [if_pos h2, if_pos (h2.trans (List.prefix_append _ _))]
            · rw [if_neg h2, if_neg (fun h => (List.prefix_concat_iff.1 h).elim h1 h2)]
        rw [← hst]
        cases hf : fs (p ++ [n]) with
        | none => rfl
        | some e =>
          cases e with
          | dir => exact (hnd hf).elim
          | file b => rfl

theorem stored_wf {fs : FileSys} (h : WellFormed fs) {path : Path} (hc : ¬ CannotWrite fs path) (b : ByteArray) :
    WellFormed (stored fs path b) := by
  have hne : path ≠ [] := by
    rintro rfl
    exact hc (.inl h.root)
  constructor
  · rw [stored, if_neg (Ne.symm hne), if_pos List.nil_prefix]
  · intro q n hq
    rw [stored] at hq ⊢
    by_cases h0 : q = path
    · subst h0
      exfalso
      rw [if_neg (by simp), if_neg (fun h => by have := h.length_le; simp at this; omega)] at hq
      exact hc (.inl (h.parent q n hq))
    · rw [if_neg h0]
      by_cases h1 : q <+: path
      · rw [if_pos h1]
      · rw [if_neg h1]
        have h2 : ¬ (q ++ [n]) <+: path := fun h2 => h1 ((List.prefix_append _ _).trans h2)
        rw [if_neg (fun h' : q ++ [n] = path => h2 (h' ▸ List.prefix_refl _)), if_neg h2] at hq
        exact h.parent q n hq

theorem fsRead_stored {fs : FileSys} (h : WellFormed fs) {path : Path} (hc : ¬ CannotWrite fs path) (b : ByteArray) :
    fsRead (stored fs path b) path = .ok b := by
  rcases List.eq_nil_or_concat path with rfl | ⟨p, n, hpath⟩
  · exact (hc (.inl h.root)).elim
  · rw [List.concat_eq_append] at hpath
    subst hpath
    rw [fsRead, if_neg (by simp), List.dropLast_concat, lookupDir_ok (stored_wf h hc b)]
    · simp [stored]
    · rw [List.nil_append, stored, if_neg (by simp), if_pos (List.prefix_append _ _)]

/-! ## writers -/

theorem extract_split (b : ByteArray) (n : Nat) (h : n ≤ b.size) : b.extract 0 n ++ b.extract n b.size = b := by
  rw [ByteArray.extract_append_extract]
  simp [Nat.max_eq_right h]

theorem writeAll_spec {σ : Type} {w : Writer σ} {taken : σ → ByteArray} (h : Faithful w taken) (fuel : Nat) (s : σ) (b : ByteArray) :
    (∀ s', w.writeAll fuel s b = (.ok (), s') → taken s' = taken s ++ b) ∧
    (∀ r s', w.writeAll fuel s b = (r, s') → r ≠ .panic ∧ ∃ n, taken s' = taken s ++ b.extract 0 n) := by
  induction fuel generalizing s b with
  | zero =>
    rw [Writer.writeAll]
    refine ⟨fun s' hs => by simp at hs, fun r s' hs => ?_⟩
    cases hs
    exact ⟨by simp, 0, by simp⟩
  | succ fuel ih =>
    rw [Writer.writeAll]
    by_cases h0 : b.size = 0
    · rw [if_pos h0]
      have hb : b = ByteArray.empty := ByteArray.ext (Array.eq_empty_of_size_eq_zero h0)
      refine ⟨fun s' hs => ?_, fun r s' hs => ?_⟩
      · cases hs; rw [hb]; simp
      · cases hs; exact ⟨by simp, 0, by simp⟩
    · rw [if_neg h0]
      cases hw : w.write s b with
      | mk r s1 =>
        cases r with
        | took n =>
          obtain ⟨hn, ht⟩ := h.took _ _ _ _ hw
          simp only
          by_cases hz : n = 0
          · rw [if_pos hz]
            refine ⟨fun s' hs => by simp at hs, fun r s' hs => ?_⟩
            cases hs
            exact ⟨by simp, n, ht⟩
          · rw [if_neg hz, if_pos hn]
            obtain ⟨i1, i2⟩ := ih s1 (b.extract n b.size)
            refine ⟨fun s' hs => ?_, fun r s' hs => ?_⟩
            · rw [i1 s' hs, ht, ByteArray.append_assoc, extract_split b n hn]
            · obtain ⟨k1, m, k2⟩ := i2 r s' hs
              refine ⟨k1, min (n + m) b.size, ?_⟩
              rw [k2, ht, ByteArray.append_assoc]
              congr 1
              rw [ByteArray.extract_extract, Nat.add_zero, ByteArray.extract_append_extract]
              congr 1
              omega
        | interrupted =>
          simp only
          have ht := h.interrupted _ _ _ hw
          obtain ⟨i1, i2⟩ := ih s1 b
          rw [← ht]
          exact ⟨i1, i2⟩
        | failed e =>
          simp only
          refine ⟨fun s' hs => by simp at hs, fun r s' hs => ?_⟩
          cases hs
          exact ⟨by simp, 0, by simp [h.failed _ _ _ _ hw]⟩

/-- a writer that always takes something and never fails gets everything -/
theorem writeAll_ok {σ : Type} {w : Writer σ} (hw : ∀ s b, b.size ≠ 0 → ∃ n s', w.write s b = (.took n, s') ∧ 0 < n ∧ n ≤ b.size)
    (fuel : Nat) (s : σ) (b : ByteArray) (hf : b.size < fuel) : (w.writeAll fuel s b).1 = .ok () := by
  induction fuel generalizing s b with
  | zero => omega
  | succ fuel ih =>
    rw [Writer.writeAll]
    by_cases h0 : b.size = 0
    · rw [if_pos h0]
    · rw [if_neg h0]
      obtain ⟨n, s', h1, h2, h3⟩ := hw s b h0
      rw [h1]
      simp only
      rw [if_neg (by omega), if_pos h3]
      exact ih s' _ (by simp; omega)

/-! ## readers -/

theorem readToEnd_append {calls : List Got} (h : GoodReads calls) (rest : List Got) :
    readToEnd (calls ++ rest) = (readToEnd rest).map (gotBytes calls ++ ·) := by
  induction calls with
  | nil =>
    cases hr : readToEnd rest with
    | ok b => simp [hr, gotBytes, Except.map]
    | error e => simp [hr, Except.map]
  | cons k calls ih =>
    have ih := ih (fun k hk => h k (by simp [hk]))
    rw [List.cons_append]
    rcases h k (by simp) with rfl | ⟨b, rfl, hb⟩
    · rw [readToEnd, gotBytes, ih]
      simp
    · rw [readToEnd, if_neg hb, ih, gotBytes]
      cases readToEnd rest with
      | ok c => simp [Except.map, ByteArray.append_assoc]
      | error e => rfl

end KissXml
