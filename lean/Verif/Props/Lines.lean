import Verif.Spec.Lines
import Verif.Props.Graph
import Verif.Props.Sweep
import Verif.Props.Store
import Verif.Props.Element
import Mathlib.Data.List.NodupEquivFin
import Mathlib.Data.List.Duplicate
/-! # C67–C71: sorting and joining lines, splitting back, joining blocks side by side, floating images -/

namespace Props
open Geom Py Lns Spec

variable {σ : Type}

/-! ## C67: sorting lines -/

theorem ln_rowsFrom_flatten (row : List (Ln σ)) (last : Ln σ) (ls : List (Ln σ)) : (rowsFrom row last ls).flatten = row ++ ls := by
  induction ls generalizing row last with
  | nil => simp [rowsFrom]
  | cons l ls ih =>
    unfold rowsFrom
    split
    · rw [ih]; simp
    · rw [List.flatten_cons, ih]; simp

theorem ln_rows_flatten (ls : List (Ln σ)) : (rows ls).flatten = ls := by
  cases ls with
  | nil => rfl
  | cons l ls => exact ln_rowsFrom_flatten [l] l ls

theorem ln_flatten_map_perm {α : Type} (f : List α → List α) (hf : ∀ l, (f l).Perm l) (ls : List (List α)) :
    ((ls.map f).flatten).Perm ls.flatten := by
  induction ls with
  | nil => simp
  | cons l ls ih => simpa using (hf l).append ih

theorem ln_reading_perm (ls : List (Ln σ)) : (readingSort ls).Perm ls := by
  unfold readingSort
  split <;> exact sortBy_perm _ _

/-- **C67**: sorting the lines of a block neither loses nor duplicates a line. -/
theorem C67_permutation (ls : List (Ln σ)) : (Lns.sort ls).Perm ls := by
  unfold Lns.sort
  refine (ln_flatten_map_perm _ ?_ _).trans ?_
  · intro l
    split <;> exact sortBy_perm _ _
  · rw [ln_rows_flatten]; exact ln_reading_perm ls

theorem ln_sameRow {a b : Ln σ} (h : a.el.inSameRow b.el = true) : SameRow a b := by
  unfold El.inSameRow at h
  split at h
  · cases h
  · rename_i h'
    have hd : a.dir = b.dir := by
      by_contra hne
      apply h'
      simp only [Ln.el, Bool.or_eq_true, decide_eq_true_eq]
      exact Or.inr (decide_eq_true hne)
    refine ⟨hd, ?_⟩
    by_cases hh : a.dir = .leftRight
    · rw [if_pos hh]
      simpa [Ln.el, El.horizontal, El.ext, hh] using h
    · rw [if_neg hh]
      simpa [Ln.el, El.horizontal, El.ext, hh] using h

/-- The row structure found by `rowsFrom`. -/
theorem ln_rowsFrom_spec (row : List (Ln σ)) (last : Ln σ) (ls : List (Ln σ)) (hlast : row.getLast? = some last)
    (hrow : row.IsChain fun a b => SameRow b a) :
    ∀ r ∈ rowsFrom row last ls, r ≠ [] ∧ r.IsChain fun a b => SameRow b a := by
  induction ls generalizing row last with
  | nil =>
    intro r hr
    obtain rfl : r = row := by simpa [rowsFrom] using hr
    exact ⟨by rintro rfl; simp at hlast, hrow⟩
  | cons l ls ih =>
    unfold rowsFrom
    split
    · rename_i hs
      refine ih (row ++ [l]) l (by simp) ?_
      rw [List.isChain_append]
      refine ⟨hrow, by simp, ?_⟩
      intro x hx y hy
      rw [hlast] at hx
      simp only [Option.mem_def, Option.some.injEq, List.head?_cons] at hx hy
      subst hx; subst hy
      exact ln_sameRow hs
    · intro r hr
      rcases List.mem_cons.1 hr with rfl | hr
      · exact ⟨by rintro rfl; simp at hlast, hrow⟩
      · exact ih [l] l (by simp) (by simp) r hr

theorem ln_pairwise_flatten {α : Type} {R : α → α → Prop} (ls : List (List α)) (h : ls.flatten.Pairwise R) :
    ls.Pairwise fun r s => ∀ a ∈ r, ∀ b ∈ s, R a b := by
  rw [List.pairwise_flatten] at h
  exact h.2

/-- **C67** (partial: horizontal text): the sorted lines form rows; within a row they go from left to right; no line of a later row starts
above (has a smaller top than) a line of an earlier row; a row is a chain of lines each in one row with the next. *Missing*: vertical
text, see `C67_refuted_vertical`. -/
theorem C67_rows_partial (ls : List (Ln σ)) (hh : ∀ l ∈ ls, l.dir = .leftRight) :
    ∃ rs : List (List (Ln σ)), Lns.sort ls = rs.flatten ∧
      (∀ r ∈ rs, r ≠ [] ∧ r.Pairwise (fun a b => a.bbox.x0 ≤ b.bbox.x0) ∧ ∃ r0 : List (Ln σ), r0.Perm r ∧ r0.IsChain fun a b => SameRow b a) ∧
      rs.Pairwise (fun r s => ∀ a ∈ r, ∀ b ∈ s, a.bbox.y0 ≤ b.bbox.y0) := by
  have hd : Coll.textDirection (ls.map Ln.el) = .leftRight := by
    unfold Coll.textDirection
    cases ls with
    | nil => rfl
    | cons l ls =>
      simp only [List.map_cons]
      split
      · exact hh l (by simp)
      · rfl
  have hs : Lns.sort ls = ((rows (readingSort ls)).map (sortBy fun l : Ln σ => l.bbox.x0)).flatten := by
    unfold Lns.sort
    simp only [hd, if_true]
  have hspec : ∀ r ∈ rows (readingSort ls), r ≠ [] ∧ r.IsChain fun a b => SameRow b a := by
    cases hr : readingSort ls with
    | nil => simp [rows]
    | cons l ls' => exact ln_rowsFrom_spec [l] l ls' (by simp) (by simp)
  refine ⟨_, hs, ?_, ?_⟩
  · intro r hr
    obtain ⟨r0, hr0, rfl⟩ := List.mem_map.1 hr
    have hp := sortBy_perm (fun l : Ln σ => l.bbox.x0) r0
    refine ⟨?_, sortBy_pairwise _ _, r0, hp.symm, (hspec r0 hr0).2⟩
    intro hnil
    rw [hnil] at hp
    exact (hspec r0 hr0).1 hp.symm.eq_nil
  · have hy : (readingSort ls).Pairwise fun a b => a.bbox.y0 ≤ b.bbox.y0 := by
      unfold readingSort
      rw [if_pos hd]
      refine (sortBy_pairwise _ _).imp ?_
      intro a b hab
      unfold Coll.key at hab
      rw [Prod.Lex.le_iff] at hab
      rcases hab with h | h
      · exact le_of_lt h
      · exact le_of_eq h.1
    rw [← ln_rows_flatten (readingSort ls)] at hy
    rw [List.pairwise_map]
    refine (ln_pairwise_flatten _ hy).imp ?_
    intro r s hrs a ha b hb
    exact hrs a ((mem_sortBy _ _ _).1 ha) b ((mem_sortBy _ _ _).1 hb)

/-- A horizontal line from `(x0, y0)` to `(x1, y1)` with content `s`. -/
def lnEx (x0 y0 x1 y1 : ℚ) (s : String) : Ln String := ⟨⟨x0, y0, x1, y1⟩, .leftRight, some 1, [(⟨x0, y0, x1, y1⟩, s)]⟩

example : (∀ l ∈ [lnEx 50 9 80 20 "B", lnEx 10 10 40 20 "A", lnEx 10 30 40 40 "C"], l.dir = .leftRight) ∧
    content (Lns.sort [lnEx 50 9 80 20 "B", lnEx 10 10 40 20 "A", lnEx 10 30 40 40 "C"]) = ["A", "B", "C"] := by decide +kernel

/-- **C67** refuted for vertical text (bottom to top): the lines of a row are sorted by increasing bottom edge, so that the line read last
– the one at the top – comes first. -/
theorem C67_refuted_vertical :
    let lower : Ln String := ⟨⟨10, 60, 20, 100⟩, .bottomTop, some 1, [(⟨10, 60, 20, 100⟩, "read first")]⟩
    let upper : Ln String := ⟨⟨10, 10, 20, 50⟩, .bottomTop, some 1, [(⟨10, 10, 20, 50⟩, "read second")]⟩
    content (Lns.sort [lower, upper]) = ["read second", "read first"] := by
  decide +kernel

/-! ## C68: joining lines -/

theorem ln_add_spans (l : Ln σ) (ss : List (Rect × σ)) (h : ∀ s ∈ ss, s.1 ≠ Rect.zero) : (l.add ss).spans = l.spans ++ ss := by
  unfold Ln.add
  induction ss generalizing l with
  | nil => simp
  | cons s ss ih =>
    have ht : s.1.truthy = true := st_truthy.2 (h s (by simp))
    simp only [List.foldl_cons, ht, if_true]
    rw [ih _ (fun s' hs' => h s' (by simp [hs']))]
    simp

theorem ln_proper_not_empty {r : Rect} (h : Proper r) : ¬ r.isEmpty := by
  rintro (h' | h')
  · exact absurd h' (ne_of_lt h.1)
  · exact absurd h' (ne_of_lt h.2)

theorem ln_round_covers {a b : Rect} (h : Covers a b) (hb : Tenths b) : Covers a.round b := by
  have hr := st_round_tenths hb
  rw [← hr]
  exact ⟨round1_mono h.1, round1_mono h.2.1, round1_mono h.2.2.1, round1_mono h.2.2.2⟩

theorem ln_covers_proper {a b : Rect} (h : Covers a b) (hb : Proper b) : Proper a :=
  ⟨lt_of_le_of_lt h.1 (lt_of_lt_of_le hb.1 h.2.2.1), lt_of_le_of_lt h.2.1 (lt_of_lt_of_le hb.2 h.2.2.2)⟩

theorem ln_unionBbox_covers {a b : Rect} (ha : Proper a) (ht : Tenths a) : Covers (Coll.unionBbox a b) a := by
  unfold Coll.unionBbox Coll.updateBbox
  refine ln_round_covers ?_ ht
  unfold Rect.union
  split
  · exact ⟨le_refl _, le_refl _, le_refl _, le_refl _⟩
  · rw [if_neg (ln_proper_not_empty ha)]
    exact ⟨min_le_left _ _, min_le_left _ _, le_max_left _ _, le_max_left _ _⟩

theorem ln_add_box (l : Ln σ) (ss : List (Rect × σ)) (hp : Proper l.bbox) (ht : Tenths l.bbox) :
    Proper (l.add ss).bbox ∧ Tenths (l.add ss).bbox := by
  unfold Ln.add
  induction ss generalizing l with
  | nil => exact ⟨hp, ht⟩
  | cons s ss ih =>
    rw [List.foldl_cons]
    split
    · exact ih _ (ln_covers_proper (ln_unionBbox_covers hp ht) hp) (st_round_is_tenths _)
    · exact ih _ hp ht

/-- Merging the lines of a part: the first one with the spans of the others. -/
def lnMerge : List (Ln σ) → Option (Ln σ)
  | [] => none
  | c :: cs => some (c.add (cs.flatMap Ln.spans))

theorem ln_add_nil (l : Ln σ) : l.add [] = l := rfl

theorem ln_append (ls : List (Ln σ)) (l : Ln σ) (h : Proper l.bbox) : appendLine ls l = ls ++ [l] := by
  unfold appendLine
  rw [if_pos (st_truthy.2 (st_proper_ne h))]

/-- What `join` keeps: the first line, and every line that does not overlap its predecessor. -/
def lnKept (ov : ℚ) (pre : Ln σ) : List (Ln σ) → List (Ln σ)
  | [] => []
  | l :: ls => (if overlaps ov l pre then [] else [l]) ++ lnKept ov l ls

/-- The state of the loop: the output is made of parts, which with the candidates make up the lines kept so far. `F`: no line is
ignored. -/
structure lnInv (F : Prop) (mg : ℚ) (pre : Ln σ) (s : JSt σ) (kept : List (Ln σ)) (parts : List (List (Ln σ))) : Prop where
  out : s.out = parts.filterMap lnMerge
  all : parts.flatten ++ s.cand = kept
  ne : ∀ p ∈ parts, p ≠ []
  row : ∀ p ∈ parts, p.Pairwise fun a b => SameRow b a
  cand : s.cand.Pairwise fun a b => SameRow b a
  chains : F → ∀ p ∈ parts, p.IsChain (Next mg)
  chain : F → s.cand.IsChain (Next mg) ∧ ∀ x ∈ s.cand.getLast?, x = pre

theorem ln_merge_good (c : Ln σ) (cs : List (Ln σ)) (h : LineGood c) : Proper (c.add (cs.flatMap Ln.spans)).bbox :=
  (ln_add_box c _ h.1 h.2.1).1

theorem ln_flush (s : JSt σ) (h : ∀ l ∈ s.cand, LineGood l) :
    s.flush = s.out ++ ([s.cand].filterMap lnMerge) := by
  unfold JSt.flush
  cases hc : s.cand with
  | nil => simp [lnMerge]
  | cons c cs =>
    simp only
    rw [ln_append _ _ (ln_merge_good c cs (h c (by rw [hc]; simp)))]
    simp [lnMerge]

theorem ln_flush_inv {F : Prop} {mg : ℚ} {pre : Ln σ} (pre' : Ln σ) {s : JSt σ} {kept : List (Ln σ)} {parts : List (List (Ln σ))}
    (hi : lnInv F mg pre s kept parts) (h : ∀ l ∈ s.cand, LineGood l) :
    ∃ parts', lnInv F mg pre' ⟨s.flush, []⟩ kept parts' ∧ (parts' = parts ∨ parts' = parts ++ [s.cand]) := by
  by_cases hc : s.cand = []
  · refine ⟨parts, ⟨?_, by simpa [hc] using hi.all, hi.ne, hi.row, List.Pairwise.nil, hi.chains, by simp⟩, Or.inl rfl⟩
    rw [ln_flush s h, hc, ← hi.out]
    simp [lnMerge]
  · refine ⟨parts ++ [s.cand], ⟨?_, by simpa using hi.all, ?_, ?_, List.Pairwise.nil, ?_, by simp⟩, Or.inr rfl⟩
    · rw [ln_flush s h, hi.out, List.filterMap_append]
    · intro p hp
      rcases List.mem_append.1 hp with hp | hp
      · exact hi.ne p hp
      · obtain rfl : p = s.cand := by simpa using hp
        exact hc
    · intro p hp
      rcases List.mem_append.1 hp with hp | hp
      · exact hi.row p hp
      · obtain rfl : p = s.cand := by simpa using hp
        exact hi.cand
    · intro hF p hp
      rcases List.mem_append.1 hp with hp | hp
      · exact hi.chains hF p hp
      · obtain rfl : p = s.cand := by simpa using hp
        exact (hi.chain hF).1

theorem ln_add_single {F : Prop} {mg : ℚ} {pre : Ln σ} (pre' : Ln σ) {s : JSt σ} {kept : List (Ln σ)} {parts : List (List (Ln σ))}
    (hi : lnInv F mg pre s kept parts) (hc : s.cand = [])
    (l : Ln σ) (h : LineGood l) : lnInv F mg pre' ⟨appendLine s.out l, []⟩ (kept ++ [l]) (parts ++ [[l]]) := by
  refine ⟨?_, ?_, ?_, ?_, List.Pairwise.nil, ?_, by simp⟩
  · simp only [ln_append _ _ h.1, hi.out, List.filterMap_append]
    simp [lnMerge, ln_add_nil]
  · rw [← hi.all, hc]; simp
  · intro p hp
    rcases List.mem_append.1 hp with hp | hp
    · exact hi.ne p hp
    · obtain rfl : p = [l] := by simpa using hp
      simp
  · intro p hp
    rcases List.mem_append.1 hp with hp | hp
    · exact hi.row p hp
    · obtain rfl : p = [l] := by simpa using hp
      simp
  · intro hF p hp
    rcases List.mem_append.1 hp with hp | hp
    · exact hi.chains hF p hp
    · obtain rfl : p = [l] := by simpa using hp
      simp

theorem ln_release {F : Prop} {mg : ℚ} {pre : Ln σ} (cs : List (Ln σ)) {s : JSt σ} {kept : List (Ln σ)} {parts : List (List (Ln σ))}
    (hi : lnInv F mg pre s kept parts) (hc : s.cand = cs) (h : ∀ l ∈ cs, LineGood l) :
    lnInv F mg pre ⟨cs.foldl appendLine s.out, []⟩ kept (parts ++ cs.map fun l => [l]) := by
  have key : ∀ (cs : List (Ln σ)) (out : List (Ln σ)) (k : List (Ln σ)) (ps : List (List (Ln σ))),
      (∀ l ∈ cs, LineGood l) → lnInv F mg pre ⟨out, []⟩ k ps → lnInv F mg pre ⟨cs.foldl appendLine out, []⟩ (k ++ cs) (ps ++ cs.map fun l => [l]) := by
    intro cs
    induction cs with
    | nil => intro out k ps _ hi; simpa using hi
    | cons c cs ih =>
      intro out k ps h hi
      have := ih _ _ _ (fun l hl => h l (by simp [hl])) (ln_add_single pre hi rfl c (h c (by simp)))
      simpa using this
  have h0 : lnInv F mg pre ⟨s.out, []⟩ parts.flatten parts :=
    ⟨hi.out, by simp, hi.ne, hi.row, List.Pairwise.nil, hi.chains, by simp⟩
  have := key cs s.out parts.flatten parts h h0
  rw [← hi.all, hc]
  exact this

theorem ln_step {F : Prop} (ov mg : ℚ) {s : JSt σ} {kept : List (Ln σ)} {parts : List (List (Ln σ))} (pre l : Ln σ)
    (hi : lnInv F mg pre s kept parts) (hF : F → overlaps ov l pre = false)
    (hg : LineGood l) (hk : ∀ x ∈ kept, LineGood x) :
    ∃ parts', lnInv F mg l (joinStep ov mg s pre l) (kept ++ if overlaps ov l pre then [] else [l]) parts' := by
  have hcand : ∀ x ∈ s.cand, LineGood x := fun x hx => hk x (by rw [← hi.all]; simp [hx])
  unfold joinStep
  by_cases h1 : overlaps ov l pre = true
  · rw [if_pos h1, if_pos h1]
    exact ⟨parts, hi.out, by simpa using hi.all, hi.ne, hi.row, hi.cand, hi.chains, fun h => absurd (hF h) (by simp [h1])⟩
  · rw [if_neg h1, if_neg h1]
    by_cases h2 : apart mg l pre = true
    · rw [if_pos h2]
      obtain ⟨p', hp', _⟩ := ln_flush_inv l hi hcand
      exact ⟨_, ln_add_single l hp' rfl l hg⟩
    · rw [if_neg h2]
      by_cases h3 : s.cand.all (fun c => l.el.inSameRow c.el) = true
      · rw [if_pos h3]
        refine ⟨parts, hi.out, ?_, hi.ne, hi.row, ?_, hi.chains, fun hf => ⟨?_, by simp⟩⟩
        · rw [← hi.all]; simp
        · simp only
          rw [List.pairwise_append]
          refine ⟨hi.cand, by simp, ?_⟩
          intro a ha b hb
          obtain rfl : b = l := by simpa using hb
          exact ln_sameRow (by simpa using List.all_eq_true.1 h3 a ha)
        · simp only
          rw [List.isChain_append]
          refine ⟨(hi.chain hf).1, by simp, ?_⟩
          intro x hx y hy
          obtain rfl : l = y := by simpa using hy
          rw [(hi.chain hf).2 x hx]
          unfold apart at h2
          simp only [Bool.or_eq_true, decide_eq_true_eq, not_or, not_lt] at h2
          exact h2.2
      · rw [if_neg h3]
        exact ⟨_, ln_add_single l (ln_release s.cand hi rfl hcand) rfl l hg⟩

/-- No line overlaps its predecessor. -/
def lnClean (ov : ℚ) (pre : Ln σ) : List (Ln σ) → Prop
  | [] => True
  | l :: ls => overlaps ov l pre = false ∧ lnClean ov l ls

theorem ln_loop {F : Prop} (ov mg : ℚ) (ls : List (Ln σ)) {s : JSt σ} {kept : List (Ln σ)} {parts : List (List (Ln σ))} (pre : Ln σ)
    (hi : lnInv F mg pre s kept parts) (hF : F → lnClean ov pre ls)
    (hg : ∀ l ∈ ls, LineGood l) (hk : ∀ x ∈ kept, LineGood x) :
    ∃ pre' parts', lnInv F mg pre' (joinLoop ov mg s pre ls) (kept ++ lnKept ov pre ls) parts' := by
  induction ls generalizing s kept parts pre with
  | nil => exact ⟨pre, parts, by simpa [joinLoop, lnKept] using hi⟩
  | cons l ls ih =>
    obtain ⟨p', hp'⟩ := ln_step ov mg pre l hi (fun h => (hF h).1) (hg l (by simp)) hk
    have := ih l hp' (fun h => (hF h).2) (fun x hx => hg x (by simp [hx])) (by
      intro x hx
      rcases List.mem_append.1 hx with hx | hx
      · exact hk x hx
      · split at hx
        · simp at hx
        · obtain rfl : x = l := by simpa using hx
          exact hg x (by simp))
    simpa [joinLoop, lnKept] using this

theorem ln_kept_sub (ov : ℚ) (pre : Ln σ) (ls : List (Ln σ)) : (lnKept ov pre ls).Sublist ls := by
  induction ls generalizing pre with
  | nil => simp [lnKept]
  | cons l ls ih =>
    unfold lnKept
    split
    · simpa using (ih l).cons l
    · simpa using (ih l).cons_cons l

/-- The lines `join` keeps of a sorted list. -/
def lnKeptAll (ov : ℚ) : List (Ln σ) → List (Ln σ)
  | [] => []
  | l :: ls => l :: lnKept ov l ls

theorem ln_keptAll_sub (ov : ℚ) (ls : List (Ln σ)) : (lnKeptAll ov ls).Sublist ls := by
  cases ls with
  | nil => simp [lnKeptAll]
  | cons l ls => exact (ln_kept_sub ov l ls).cons_cons l

theorem ln_joinSorted (ov mg : ℚ) (ls : List (Ln σ)) (hg : ∀ l ∈ ls, LineGood l) :
    ∃ parts : List (List (Ln σ)), parts.flatten = lnKeptAll ov ls ∧ (∀ p ∈ parts, p ≠ [] ∧ p.Pairwise fun a b => SameRow b a) ∧
      ((∀ l ls', ls = l :: ls' → lnClean ov l ls') → ∀ p ∈ parts, p.IsChain (Next mg)) ∧
      joinSorted ov mg ls = parts.filterMap lnMerge := by
  cases ls with
  | nil => exact ⟨[], rfl, by simp, by simp, rfl⟩
  | cons l ls =>
    have h0 : lnInv (lnClean ov l ls) mg l (⟨[], [l]⟩ : JSt σ) [l] [] :=
      ⟨rfl, rfl, by simp, by simp, by simp, by simp, fun _ => ⟨by simp, by simp⟩⟩
    obtain ⟨q, ps, hps⟩ := ln_loop ov mg ls l h0 id (fun x hx => hg x (by simp [hx])) (by simpa using hg l (by simp))
    have hk : ∀ x ∈ (joinLoop ov mg ⟨[], [l]⟩ l ls).cand, LineGood x := by
      intro x hx
      have : x ∈ [l] ++ lnKept ov l ls := by rw [← hps.all]; simp [hx]
      exact hg x ((ln_keptAll_sub ov (l :: ls)).subset (by simpa [lnKeptAll] using this))
    obtain ⟨ps', h1, _⟩ := ln_flush_inv q hps hk
    refine ⟨ps', ?_, fun p hp => ⟨h1.ne p hp, h1.row p hp⟩, fun h => h1.chains (h l ls rfl), h1.out⟩
    have := h1.all
    simpa [lnKeptAll] using this

theorem ln_merge_content (parts : List (List (Ln σ))) (hg : ∀ l ∈ parts.flatten, LineGood l) :
    content (parts.filterMap lnMerge) = content parts.flatten := by
  unfold content
  induction parts with
  | nil => rfl
  | cons p ps ih =>
    have ih := ih (fun l hl => hg l (by simp only [List.flatten_cons, List.mem_append]; exact Or.inr hl))
    cases p with
    | nil =>
      simp only [List.filterMap_cons, lnMerge, List.flatten_cons, List.nil_append]
      exact ih
    | cons c cs =>
      have hs := ln_add_spans c (cs.flatMap Ln.spans) (by
        intro s hs
        obtain ⟨l, hl, hs⟩ := List.mem_flatMap.1 hs
        exact (hg l (by simp [hl])).2.2 s hs)
      simp only [List.filterMap_cons, lnMerge, List.flatMap_cons, hs, List.flatten_cons, List.cons_append, List.flatMap_append, ih]
      simp only [List.map_append, List.map_flatMap, List.append_assoc]

theorem ln_overlaps {ov : ℚ} {a b : Ln σ} (ha : Proper a.bbox) (hb : Proper b.bbox) (hov : 1 / 1000000 < ov)
    (h : overlaps ov a b = true) : OverlapBy ov a.bbox b.bbox := by
  unfold overlaps El.mainBbox at h
  have hae := ln_proper_not_empty ha
  have hbe := ln_proper_not_empty hb
  have hin : a.bbox.inter b.bbox = if min a.bbox.x1 b.bbox.x1 < max a.bbox.x0 b.bbox.x0 ∨ min a.bbox.y1 b.bbox.y1 < max a.bbox.y0 b.bbox.y0
      then Rect.zero else ⟨max a.bbox.x0 b.bbox.x0, max a.bbox.y0 b.bbox.y0, min a.bbox.x1 b.bbox.x1, min a.bbox.y1 b.bbox.y1⟩ := by
    unfold Rect.inter
    rw [if_neg (by rintro (h | h); exacts [hae h, hbe h])]
  by_cases hd : min a.bbox.x1 b.bbox.x1 < max a.bbox.x0 b.bbox.x0 ∨ min a.bbox.y1 b.bbox.y1 < max a.bbox.y0 b.bbox.y0
  · rw [hin, if_pos hd] at h
    simp [Rect.truthy] at h
  · rw [hin, if_neg hd] at h
    push Not at hd
    refine ⟨hd.1, hd.2, ?_⟩
    dsimp only at h
    split at h
    · rename_i r hr
      split at hr
      · cases hr
      · by_cases hz : (⟨max a.bbox.x0 b.bbox.x0, max a.bbox.y0 b.bbox.y0, min a.bbox.x1 b.bbox.x1, min a.bbox.y1 b.bbox.y1⟩ : Rect).area ≠ 0
        · rw [if_pos hz] at hr
          split at hr
          · rename_i hle
            have hpos : 0 < min a.bbox.area b.bbox.area := by
              unfold Rect.area Rect.width Rect.height
              exact lt_min (mul_pos (sub_pos.2 ha.1) (sub_pos.2 ha.2)) (mul_pos (sub_pos.2 hb.1) (sub_pos.2 hb.2))
            rw [le_div_iff₀ hpos] at hle
            exact hle
          · cases hr
        · rw [if_neg hz] at hr
          split at hr
          · rename_i hle
            exact absurd hle (not_le.2 hov)
          · cases hr
    · cases h

/-- **C68** (partial): joining lines keeps all content, in the order of the sorted lines, except that of lines overlapping their predecessor
by at least the part `line_overlap_threshold` of the smaller of the two. *Missing*: nothing is said about which of two overlapping
lines is worth keeping – the content of the second is lost. -/
theorem C68_content_kept_partial (ov mg : ℚ) (hov : 1 / 1000000 < ov) (ls : List (Ln σ)) (hg : ∀ l ∈ ls, LineGood l) :
    ∃ kept : List (Ln σ), content (join ov mg ls) = content kept ∧ kept.Sublist (Lns.sort ls) ∧
      ∀ (i : ℕ) (l : Ln σ), (Lns.sort ls)[i]? = some l → l ∈ kept ∨ ∃ p : Ln σ, 0 < i ∧ (Lns.sort ls)[i - 1]? = some p ∧ OverlapBy ov l.bbox p.bbox := by
  have hgs : ∀ l ∈ Lns.sort ls, LineGood l := fun l hl => hg l ((C67_permutation ls).subset hl)
  obtain ⟨parts, h1, _, _, h3⟩ := ln_joinSorted ov mg (Lns.sort ls) hgs
  refine ⟨lnKeptAll ov (Lns.sort ls), ?_, ln_keptAll_sub _ _, ?_⟩
  · unfold join
    rw [h3, ln_merge_content, h1]
    intro l hl
    rw [h1] at hl
    exact hgs l ((ln_keptAll_sub _ _).subset hl)
  · generalize Lns.sort ls = ss at hgs
    cases ss with
    | nil => simp
    | cons s0 ss =>
      have key : ∀ (ss : List (Ln σ)) (pre : Ln σ), Proper pre.bbox → (∀ l ∈ ss, LineGood l) → ∀ (i : ℕ) (l : Ln σ), ss[i]? = some l →
          l ∈ lnKept ov pre ss ∨ ∃ p : Ln σ, (pre :: ss)[i]? = some p ∧ OverlapBy ov l.bbox p.bbox := by
        intro ss
        induction ss with
        | nil => intro pre _ _ i l h; simp at h
        | cons s ss ih =>
          intro pre hp hg i l h
          cases i with
          | zero =>
            simp only [List.getElem?_cons_zero, Option.some.injEq] at h
            subst h
            by_cases ho : overlaps ov s pre = true
            · exact Or.inr ⟨pre, by simp, ln_overlaps (hg s (by simp)).1 hp hov ho⟩
            · exact Or.inl (by unfold lnKept; rw [if_neg ho]; simp)
          | succ i =>
            rw [List.getElem?_cons_succ] at h
            rcases ih s (hg s (by simp)).1 (fun l hl => hg l (by simp [hl])) i l h with h' | ⟨p, h1, h2⟩
            · exact Or.inl (by unfold lnKept; exact List.mem_append_right _ h')
            · exact Or.inr ⟨p, by simpa using h1, h2⟩
      intro i l h
      cases i with
      | zero =>
        simp only [List.getElem?_cons_zero, Option.some.injEq] at h
        subst h
        exact Or.inl (by simp [lnKeptAll])
      | succ i =>
        rw [List.getElem?_cons_succ] at h
        rcases key ss s0 (hgs s0 (by simp)).1 (fun l hl => hgs l (by simp [hl])) i l h with h' | ⟨p, h1, h2⟩
        · exact Or.inl (by simp [lnKeptAll, h'])
        · exact Or.inr ⟨p, by omega, by simpa using h1, h2⟩

theorem ln_kept_all {ov : ℚ} (hov : 1 / 1000000 < ov) (ss : List (Ln σ)) (hg : ∀ l ∈ ss, LineGood l)
    (hp : ss.Pairwise fun a b => ¬ OverlapBy ov a.bbox b.bbox ∧ ¬ OverlapBy ov b.bbox a.bbox) : lnKeptAll ov ss = ss := by
  cases ss with
  | nil => rfl
  | cons s ss =>
    have key : ∀ (ss : List (Ln σ)) (pre : Ln σ), (∀ l ∈ pre :: ss, LineGood l) →
        ((pre :: ss).Pairwise fun a b => ¬ OverlapBy ov a.bbox b.bbox ∧ ¬ OverlapBy ov b.bbox a.bbox) → lnKept ov pre ss = ss := by
      intro ss
      induction ss with
      | nil => intro _ _ _; rfl
      | cons l ss ih =>
        intro pre hg hp
        have hl : overlaps ov l pre = false := by
          cases h : overlaps ov l pre with
          | false => rfl
          | true => exact absurd (ln_overlaps (hg l (by simp)).1 (hg pre (by simp)).1 hov h) (List.rel_of_pairwise_cons hp (by simp)).2
        unfold lnKept
        rw [if_neg (by rw [hl]; simp), ih l (fun x hx => hg x (by simp at hx ⊢; tauto)) hp.of_cons]
        simp
    simp only [lnKeptAll, key ss s hg hp]

/-- **C68**: if no line overlaps another, joining loses nothing: the spans are those of all lines. -/
theorem C68_nothing_lost (ov mg : ℚ) (hov : 1 / 1000000 < ov) (ls : List (Ln σ)) (hg : ∀ l ∈ ls, LineGood l)
    (hno : ls.Pairwise fun a b => ¬ OverlapBy ov a.bbox b.bbox ∧ ¬ OverlapBy ov b.bbox a.bbox) :
    content (join ov mg ls) = content (Lns.sort ls) ∧ (content (join ov mg ls)).Perm (content ls) := by
  have hgs : ∀ l ∈ Lns.sort ls, LineGood l := fun l hl => hg l ((C67_permutation ls).subset hl)
  have hsym : (Lns.sort ls).Pairwise fun a b => ¬ OverlapBy ov a.bbox b.bbox ∧ ¬ OverlapBy ov b.bbox a.bbox :=
    (C67_permutation ls).symm.pairwise hno (fun h => ⟨h.2, h.1⟩)
  have hc : content (join ov mg ls) = content (Lns.sort ls) := by
    obtain ⟨parts, h1, _, _, h3⟩ := ln_joinSorted ov mg (Lns.sort ls) hgs
    unfold join
    rw [ln_kept_all hov _ hgs hsym] at h1
    rw [h3, ln_merge_content _ (by rw [h1]; exact hgs), h1]
  exact ⟨hc, by rw [hc]; exact (C67_permutation ls).flatMap_right _⟩

/-- Lines no one of which overlaps another. -/
theorem ln_clean {ov : ℚ} (hov : 1 / 1000000 < ov) (ss : List (Ln σ)) (pre : Ln σ) (hg : ∀ l ∈ pre :: ss, LineGood l)
    (hp : (pre :: ss).Pairwise fun a b => ¬ OverlapBy ov a.bbox b.bbox ∧ ¬ OverlapBy ov b.bbox a.bbox) : lnClean ov pre ss := by
  induction ss generalizing pre with
  | nil => trivial
  | cons l ss ih =>
    refine ⟨?_, ih l (fun x hx => hg x (by simp at hx ⊢; tauto)) hp.of_cons⟩
    cases h : overlaps ov l pre with
    | false => rfl
    | true => exact absurd (ln_overlaps (hg l (by simp)).1 (hg pre (by simp)).1 hov h) (List.rel_of_pairwise_cons hp (by simp)).2

/-- **C68**: each joined line is made of the contents of lines that are pairwise in one row; when no lines overlap, each of these starts
where its predecessor ends, up to `line_merging_threshold`. -/
theorem C68_same_row (ov mg : ℚ) (ls : List (Ln σ)) (hg : ∀ l ∈ ls, LineGood l) :
    ∃ parts : List (List (Ln σ)), parts.flatten.Sublist (Lns.sort ls) ∧
      (∀ p ∈ parts, p ≠ [] ∧ p.Pairwise fun a b => SameRow b a) ∧
      (1 / 1000000 < ov → (ls.Pairwise fun a b => ¬ OverlapBy ov a.bbox b.bbox ∧ ¬ OverlapBy ov b.bbox a.bbox) →
        parts.flatten = Lns.sort ls ∧ ∀ p ∈ parts, p.IsChain (Next mg)) ∧
      (join ov mg ls).map (fun l => content [l]) = parts.map content := by
  have hgs : ∀ l ∈ Lns.sort ls, LineGood l := fun l hl => hg l ((C67_permutation ls).subset hl)
  obtain ⟨parts, h1, h2, h4, h3⟩ := ln_joinSorted ov mg (Lns.sort ls) hgs
  refine ⟨parts, by rw [h1]; exact ln_keptAll_sub _ _, h2, ?_, ?_⟩
  · intro hov hno
    have hsym : (Lns.sort ls).Pairwise fun a b => ¬ OverlapBy ov a.bbox b.bbox ∧ ¬ OverlapBy ov b.bbox a.bbox :=
      (C67_permutation ls).symm.pairwise hno (fun h => ⟨h.2, h.1⟩)
    exact ⟨by rw [h1, ln_kept_all hov _ hgs hsym], h4 (by
      intro l ls' he
      rw [he] at hgs hsym
      exact ln_clean hov ls' l hgs hsym)⟩
  unfold join
  rw [h3]
  have hgp : ∀ l ∈ parts.flatten, LineGood l := fun l hl => hgs l ((ln_keptAll_sub ov _).subset (by rw [← h1]; exact hl))
  clear h1 h3 h4
  induction parts with
  | nil => rfl
  | cons p ps ih =>
    have ih := ih (fun q hq => h2 q (by simp [hq])) (fun l hl => hgp l (by simp only [List.flatten_cons, List.mem_append]; exact Or.inr hl))
    cases p with
    | nil => exact absurd rfl (h2 [] (by simp)).1
    | cons c cs =>
      have hone := ln_merge_content [c :: cs] (fun l hl => hgp l (by
        simp only [List.flatten_cons, List.flatten_nil, List.append_nil] at hl
        simp only [List.flatten_cons, List.mem_append]; exact Or.inl hl))
      simp only [List.filterMap_cons, lnMerge, List.map_cons, ih]
      simp only [List.filterMap_cons, lnMerge, List.filterMap_nil, List.flatten_cons, List.flatten_nil, List.append_nil] at hone
      rw [hone]

/-- A line of the examples with whole-number coordinates is good. -/
theorem lnEx_good (x0 y0 x1 y1 : ℤ) (t : String) (hx : x0 < x1) (hy : y0 < y1) : LineGood (lnEx x0 y0 x1 y1 t) := by
  have hp : Proper (⟨x0, y0, x1, y1⟩ : Rect) := ⟨by simpa using hx, by simpa using hy⟩
  refine ⟨hp, ⟨10 * x0, 10 * y0, 10 * x1, 10 * y1, ?_⟩, ?_⟩
  · simp [lnEx]
  · intro s hs
    obtain rfl : s = (⟨x0, y0, x1, y1⟩, t) := by simpa [lnEx] using hs
    exact st_proper_ne hp

instance (ov : ℚ) (a b : Rect) : Decidable (OverlapBy ov a b) := by unfold OverlapBy; infer_instance

/-- Non-vacuity: lines A and B of one row are joined, C below is not, and no two overlap. -/
def lnExLines : List (Ln String) := [lnEx 41 9 80 20 "B", lnEx 10 10 40 20 "A", lnEx 10 30 40 40 "C"]

example : (∀ l ∈ lnExLines, LineGood l) ∧
    (lnExLines.Pairwise fun a b => ¬ OverlapBy (9 / 10) a.bbox b.bbox ∧ ¬ OverlapBy (9 / 10) b.bbox a.bbox) ∧
    (join (9 / 10) 2 lnExLines).map (fun l => content [l]) = [["A", "B"], ["C"]] := by
  refine ⟨?_, by decide +kernel, by decide +kernel⟩
  intro l hl
  simp only [lnExLines, List.mem_cons, List.not_mem_nil, or_false] at hl
  rcases hl with rfl | rfl | rfl
  · exact_mod_cast lnEx_good 41 9 80 20 "B" (by norm_num) (by norm_num)
  · exact_mod_cast lnEx_good 10 10 40 20 "A" (by norm_num) (by norm_num)
  · exact_mod_cast lnEx_good 10 30 40 40 "C" (by norm_num) (by norm_num)

/-- **C68** refuted (joining adjacent lines): B and C are in one row, one point apart, but since B is far from its predecessor A they are
not joined: B was added on its own and C starts a new line. Without A they are joined. -/
theorem C68_refuted_adjacent_not_joined :
    (join (9 / 10) 2 [lnEx 10 10 20 20 "A", lnEx 50 10 60 20 "B", lnEx 61 10 70 20 "C"]).map (fun l => content [l]) =
      [["A"], ["B"], ["C"]] ∧
    (join (9 / 10) 2 [lnEx 50 10 60 20 "B", lnEx 61 10 70 20 "C"]).map (fun l => content [l]) = [["B", "C"]] := by
  decide +kernel

/-- **C68** refuted (content of overlapping lines): the wide line O lies over the short line A; it is longer, but it is the one whose text is
lost. B, which follows O, is then joined to A, 21 points away although only 2 are allowed. -/
theorem C68_refuted_overlap_loses_text :
    (join (9 / 10) 2 [lnEx 0 0 10 10 "A", lnEx 1 0 30 10 "O", lnEx 31 0 40 10 "B"]).map (fun l => content [l]) = [["A", "B"]] ∧
    ¬ Next 2 (lnEx 0 0 10 10 "A") (lnEx 31 0 40 10 "B") := by
  refine ⟨by decide +kernel, ?_⟩
  unfold Next lnEx
  norm_num [abs_of_pos]

/-! ## C69: splitting back into the original blocks -/

/-- **C69**: splitting the lines of a block back gives every line exactly once; the lines of a group come from one original block and those of
different groups from different ones (or from none); each group is sorted. For every iteration order of the sets. -/
theorem C69_split_back (iter : List ℕ → List ℕ) (hi : ∀ l, (iter l).Perm l) (ls : List (Ln σ)) :
    ∃ gs, splitBack iter ls = .ok gs ∧ gs.flatten.Perm ls ∧
      (∀ g ∈ gs, g ≠ [] ∧ (∀ a ∈ g, ∀ b ∈ g, a.pid = b.pid) ∧ ∃ g0, g = Lns.sort g0) ∧
      gs.Pairwise fun g h => ∀ a ∈ g, ∀ b ∈ h, a.pid = none ∨ a.pid ≠ b.pid := by
  have hsym : ∀ a b : Ln σ, sameParent a b = sameParent b a := by
    intro a b
    unfold sameParent
    cases ha : a.pid with
    | none => cases hb : b.pid <;> simp
    | some x => cases hb : b.pid <;> simp [eq_comm]
  have hpid : ∀ a b : Ln σ, sameParent a b = true → a.pid = b.pid := by
    intro a b h
    unfold sameParent at h
    split at h
    · cases h
    · simpa using h
  obtain ⟨gs, h1, h2, h3, h4⟩ := C21_groups iter hi sameParent hsym ls
  refine ⟨gs.map Lns.sort, by unfold splitBack; rw [h1], (ln_flatten_map_perm _ C67_permutation gs).trans h2, ?_, ?_⟩
  · intro g hg
    obtain ⟨g0, hg0, rfl⟩ := List.mem_map.1 hg
    obtain ⟨hne, hchain⟩ := h4 g0 hg0
    refine ⟨fun h => hne (by have := C67_permutation g0; rw [h] at this; exact this.symm.eq_nil), ?_, g0, rfl⟩
    intro a ha b hb
    have := hchain a ((C67_permutation g0).subset ha) b ((C67_permutation g0).subset hb)
    induction this with
    | refl => rfl
    | tail _ hyz ih => exact (ih ((C67_permutation g0).symm.subset hyz.1)).trans (hpid _ _ hyz.2.2)
  · rw [List.pairwise_map]
    refine h3.imp ?_
    intro g h hgh a ha b hb
    have := hgh a ((C67_permutation g).subset ha) b ((C67_permutation h).subset hb)
    unfold sameParent at this
    split at this
    · rename_i h0; exact Or.inl h0
    · exact Or.inr (by simpa using this)

example : (sameParent (lnEx 0 0 10 10 "A") (lnEx 0 20 10 30 "B") = true) ∧
    sameParent (lnEx 0 0 10 10 "A") { lnEx 0 20 10 30 "B" with pid := some 2 } = false := by decide +kernel

/-! ## C70: joining blocks side by side -/

/-- The y-range of `r` is bounded by boxes of `g`. -/
def lnWithin (g : List Rect) (r : Rect) : Prop := (∃ a ∈ g, a.y0 ≤ r.y0) ∧ ∃ a ∈ g, r.y1 ≤ a.y1

theorem ln_within_round {g : List Rect} (hg : ∀ a ∈ g, Tenths a) {r : Rect} (h : lnWithin g r) : lnWithin g r.round := by
  obtain ⟨⟨a, ha, h1⟩, b, hb, h2⟩ := h
  refine ⟨⟨a, ha, ?_⟩, b, hb, ?_⟩
  · have := st_round_tenths (hg a ha)
    rw [← this]; exact round1_mono h1
  · have := st_round_tenths (hg b hb)
    rw [← this]; exact round1_mono h2

theorem ln_within_union {g : List Rect} {a b : Rect} (ha : a = Rect.zero ∨ lnWithin g a) (hb : b = Rect.zero ∨ lnWithin g b) :
    a.union b = Rect.zero ∨ lnWithin g (a.union b) := by
  unfold Rect.union
  split
  · exact ha
  · rename_i hbe
    split
    · exact hb
    · rename_i hae
      rcases ha with rfl | ha
      · exact absurd zero_empty hae
      · rcases hb with rfl | hb
        · exact absurd zero_empty hbe
        · refine Or.inr ⟨?_, ?_⟩
          · rcases min_choice a.y0 b.y0 with h | h
            · obtain ⟨x, hx, hx'⟩ := ha.1; exact ⟨x, hx, by simp only [h]; exact hx'⟩
            · obtain ⟨x, hx, hx'⟩ := hb.1; exact ⟨x, hx, by simp only [h]; exact hx'⟩
          · rcases max_choice a.y1 b.y1 with h | h
            · obtain ⟨x, hx, hx'⟩ := ha.2; exact ⟨x, hx, by simp only [h]; exact hx'⟩
            · obtain ⟨x, hx, hx'⟩ := hb.2; exact ⟨x, hx, by simp only [h]; exact hx'⟩

theorem ln_within_unionBbox {g : List Rect} (hg : ∀ a ∈ g, Tenths a) {a b : Rect} (ha : a = Rect.zero ∨ lnWithin g a)
    (hb : b = Rect.zero ∨ lnWithin g b) : Coll.unionBbox a b = Rect.zero ∨ lnWithin g (Coll.unionBbox a b) := by
  unfold Coll.unionBbox Coll.updateBbox
  rcases ln_within_union ha hb with h | h
  · rw [h]; exact Or.inl (by decide +kernel)
  · exact Or.inr (ln_within_round hg h)

theorem ln_within_add {g : List Rect} (hg : ∀ a ∈ g, Tenths a) (l : Ln σ) (ss : List (Rect × σ))
    (hl : l.bbox = Rect.zero ∨ lnWithin g l.bbox) (hs : ∀ s ∈ ss, s.1 = Rect.zero ∨ lnWithin g s.1) :
    (l.add ss).bbox = Rect.zero ∨ lnWithin g (l.add ss).bbox := by
  unfold Ln.add
  induction ss generalizing l with
  | nil => exact hl
  | cons s ss ih =>
    rw [List.foldl_cons]
    refine ih _ ?_ (fun s' hs' => hs s' (by simp [hs']))
    split
    · exact ln_within_unionBbox hg hl (hs s (by simp))
    · exact hl

theorem ln_within_fold {g : List Rect} (hg : ∀ a ∈ g, Tenths a) (rs : List Rect) (r : Rect) (hr : r = Rect.zero ∨ lnWithin g r)
    (h : ∀ x ∈ rs, x = Rect.zero ∨ lnWithin g x) :
    rs.foldl Coll.unionBbox r = Rect.zero ∨ lnWithin g (rs.foldl Coll.unionBbox r) := by
  induction rs generalizing r with
  | nil => exact hr
  | cons x rs ih => exact ih _ (ln_within_unionBbox hg hr (h x (by simp))) (fun y hy => h y (by simp [hy]))

/-- Lines with boxes are gathered unchanged; the box is their union. -/
theorem ln_gather (g : List (Blk σ)) (h : ∀ b ∈ g, ∀ l ∈ b.lines, LineGood l) :
    gather g = (((g.flatMap Blk.lines).map Ln.bbox).foldl Coll.unionBbox Rect.zero, g.flatMap Blk.lines) := by
  have key : ∀ (ls : List (Ln σ)) (r : Rect) (acc : List (Ln σ)), (∀ l ∈ ls, LineGood l) →
      ls.foldl (fun (s : Rect × List (Ln σ)) l => if l.bbox.truthy then (Coll.unionBbox s.1 l.bbox, s.2 ++ [l]) else s) (r, acc) =
        ((ls.map Ln.bbox).foldl Coll.unionBbox r, acc ++ ls) := by
    intro ls
    induction ls with
    | nil => intro r acc _; simp
    | cons l ls ih =>
      intro r acc hl
      have ht : l.bbox.truthy = true := truthy_of_proper (hl l (by simp)).1
      simp only [List.foldl_cons, ht, if_true, List.map_cons]
      rw [ih _ _ (fun x hx => hl x (by simp [hx]))]
      simp
  unfold gather
  rw [key _ _ _ (by
    intro l hl
    obtain ⟨b, hb, hl⟩ := List.mem_flatMap.1 hl
    exact h b hb l hl)]
  simp

theorem ln_joined_within (ov mg : ℚ) (g : List (Blk σ)) (h : ∀ b ∈ g, BlockGood b) :
    (joinedBlock ov mg g).bbox = Rect.zero ∨ lnWithin (g.map Blk.bbox) (joinedBlock ov mg g).bbox := by
  have hten : ∀ a ∈ g.map Blk.bbox, Tenths a := by
    intro a ha
    obtain ⟨b, hb, rfl⟩ := List.mem_map.1 ha
    exact (h b hb).tenths
  have hline : ∀ l ∈ g.flatMap Blk.lines, LineGood l ∧ lnWithin (g.map Blk.bbox) l.bbox ∧ ∀ s ∈ l.spans, lnWithin (g.map Blk.bbox) s.1 := by
    intro l hl
    obtain ⟨b, hb, hl⟩ := List.mem_flatMap.1 hl
    obtain ⟨h1, h2, h3⟩ := (h b hb).lines l hl
    have hb' : b.bbox ∈ g.map Blk.bbox := List.mem_map_of_mem hb
    exact ⟨h1, ⟨⟨_, hb', h2.2.1⟩, _, hb', h2.2.2.2⟩, fun s hs =>
      ⟨⟨_, hb', h2.2.1.trans (h3 s hs).2.1⟩, _, hb', (h3 s hs).2.2.2.trans h2.2.2.2⟩⟩
  unfold joinedBlock
  simp only
  rw [ln_gather g (fun b hb l hl => ((h b hb).lines l hl).1)]
  have hjoin : ∀ x ∈ (join ov mg (g.flatMap Blk.lines)).map Ln.bbox, x = Rect.zero ∨ lnWithin (g.map Blk.bbox) x := by
    intro x hx
    obtain ⟨l, hl, rfl⟩ := List.mem_map.1 hx
    have hgs : ∀ l ∈ Lns.sort (g.flatMap Blk.lines), LineGood l := fun l hl => (hline l ((C67_permutation _).subset hl)).1
    obtain ⟨parts, h1, _, _, h3⟩ := ln_joinSorted ov mg (Lns.sort (g.flatMap Blk.lines)) hgs
    unfold join at hl
    rw [h3] at hl
    obtain ⟨p, hp, hm⟩ := List.mem_filterMap.1 hl
    have hsub : ∀ l ∈ p, l ∈ g.flatMap Blk.lines := fun l hl => (C67_permutation _).subset ((ln_keptAll_sub ov _).subset
      (by rw [← h1]; exact List.mem_flatten.2 ⟨p, hp, hl⟩))
    cases p with
    | nil => simp [lnMerge] at hm
    | cons c cs =>
      simp only [lnMerge, Option.some.injEq] at hm
      rw [← hm]
      refine ln_within_add hten c _ (Or.inr (hline c (hsub c (by simp))).2.1) ?_
      intro s hs
      obtain ⟨l', hl', hs⟩ := List.mem_flatMap.1 hs
      exact Or.inr ((hline l' (hsub l' (by simp [hl']))).2.2 s hs)
  have e : ∀ (ls : List (Ln σ)) (r : Rect), ls.foldl (fun b l => Coll.unionBbox b l.bbox) r = (ls.map Ln.bbox).foldl Coll.unionBbox r := by
    intro ls r
    rw [List.foldl_map]
  rw [e]
  refine ln_within_fold hten _ _ (ln_within_fold hten _ _ (Or.inl rfl) ?_) hjoin
  intro x hx
  obtain ⟨l, hl, rfl⟩ := List.mem_map.1 hx
  exact Or.inr (hline l hl).2.1

theorem ln_aligned {a b : Blk σ} (ha : BlockGood a) (hb : BlockGood b) :
    El.horizontallyAlign ⟨a.bbox, .leftRight⟩ ⟨b.bbox, .leftRight⟩ 0 false = true ↔ a.bbox.y0 ≤ b.bbox.y1 ∧ b.bbox.y0 ≤ a.bbox.y1 := by
  have h1 := truthy_of_proper ha.proper
  have h2 := truthy_of_proper hb.proper
  have h3 := ha.proper.2
  have h4 := hb.proper.2
  unfold El.horizontallyAlign
  simp only [El.truthy, h1, h2, Bool.not_true, Bool.or_self, Bool.false_eq_true, if_false, El.overlapEnough, El.ext, decide_eq_true_eq,
    zero_mul]
  rcases max_cases a.bbox.y1 b.bbox.y1 with ⟨e1, _⟩ | ⟨e1, _⟩ <;> rcases min_cases a.bbox.y0 b.bbox.y0 with ⟨e2, _⟩ | ⟨e2, _⟩ <;>
    rw [e1, e2] <;> constructor <;> intro h <;> (try constructor) <;> linarith [h]

/-- Two groups of blocks, each linked by overlapping y-ranges and not overlapping each other, lie one above the other. -/
theorem ln_groups_separated {g h : List (Blk σ)} (hg : ∀ b ∈ g, BlockGood b) (hh : ∀ b ∈ h, BlockGood b) (gn : g ≠ []) (hn : h ≠ [])
    (cg : ∀ a ∈ g, ∀ b ∈ g, Relation.ReflTransGen (fun x y => x ∈ g ∧ y ∈ g ∧ (x.bbox.y0 ≤ y.bbox.y1 ∧ y.bbox.y0 ≤ x.bbox.y1)) a b)
    (ch : ∀ a ∈ h, ∀ b ∈ h, Relation.ReflTransGen (fun x y => x ∈ h ∧ y ∈ h ∧ (x.bbox.y0 ≤ y.bbox.y1 ∧ y.bbox.y0 ≤ x.bbox.y1)) a b)
    (dis : ∀ a ∈ g, ∀ b ∈ h, ¬ (a.bbox.y0 ≤ b.bbox.y1 ∧ b.bbox.y0 ≤ a.bbox.y1)) :
    (∀ a ∈ g, ∀ b ∈ h, a.bbox.y1 < b.bbox.y0) ∨ ∀ a ∈ g, ∀ b ∈ h, b.bbox.y1 < a.bbox.y0 := by
  have dis' : ∀ a ∈ g, ∀ b ∈ h, a.bbox.y1 < b.bbox.y0 ∨ b.bbox.y1 < a.bbox.y0 := by
    intro a ha b hb
    by_contra hc
    push Not at hc
    exact dis a ha b hb ⟨hc.2, hc.1⟩
  obtain ⟨a0, ha0⟩ := List.exists_mem_of_ne_nil _ gn
  obtain ⟨b0, hb0⟩ := List.exists_mem_of_ne_nil _ hn
  rcases dis' a0 ha0 b0 hb0 with h0 | h0
  · left
    have s1 : ∀ a ∈ g, a.bbox.y1 < b0.bbox.y0 := by
      intro a ha
      have := cg a0 ha0 a ha
      induction this with
      | refl => exact h0
      | tail _ hyz ih =>
        have ih := ih hyz.1
        rcases dis' _ hyz.2.1 b0 hb0 with h1 | h1
        · exact h1
        · exact absurd (lt_of_lt_of_le h1 hyz.2.2.2) (not_lt.2 (le_of_lt (ih.trans (hh b0 hb0).proper.2)))
    intro a ha b hb
    have := ch b0 hb0 b hb
    induction this with
    | refl => exact s1 a ha
    | tail _ hyz ih =>
      have ih := ih hyz.1
      rcases dis' a ha _ hyz.2.1 with h1 | h1
      · exact h1
      · have h2 := (hg a ha).proper.2
        have h3 := hyz.2.2.1
        linarith
  · right
    have s1 : ∀ a ∈ g, b0.bbox.y1 < a.bbox.y0 := by
      intro a ha
      have := cg a0 ha0 a ha
      induction this with
      | refl => exact h0
      | tail _ hyz ih =>
        have ih := ih hyz.1
        rcases dis' _ hyz.2.1 b0 hb0 with h1 | h1
        · have h2 := (hh b0 hb0).proper.2
          have h3 := hyz.2.2.1
          linarith
        · exact h1
    intro a ha b hb
    have := ch b0 hb0 b hb
    induction this with
    | refl => exact s1 a ha
    | tail _ hyz ih =>
      have ih := ih hyz.1
      rcases dis' a ha _ hyz.2.1 with h1 | h1
      · have h2 := (hg a ha).proper.2
        have h3 := hyz.2.2.2
        linarith
      · exact h1

theorem ln_group_blocks (iter : List ℕ → List ℕ) (hi : ∀ l, (iter l).Perm l) (bs : List (Blk σ)) (hb : ∀ b ∈ bs, BlockGood b) :
    ∃ gs, Graph.group iter (fun a b : Blk σ => El.horizontallyAlign ⟨a.bbox, .leftRight⟩ ⟨b.bbox, .leftRight⟩ 0 false) bs = .ok gs ∧
      gs.flatten.Perm bs ∧ (∀ g ∈ gs, g ≠ []) ∧
      gs.Pairwise fun g h => (∀ a ∈ g, ∀ b ∈ h, a.bbox.y1 < b.bbox.y0) ∨ ∀ a ∈ g, ∀ b ∈ h, b.bbox.y1 < a.bbox.y0 := by
  obtain ⟨gs, h1, h2, h3, h4⟩ := C21_groups iter hi
    (fun a b : Blk σ => El.horizontallyAlign ⟨a.bbox, .leftRight⟩ ⟨b.bbox, .leftRight⟩ 0 false)
    (fun a b => C25_horizontal_symm_partial _ _ 0 false (by simp)) bs
  have hgood : ∀ g ∈ gs, ∀ b ∈ g, BlockGood b := fun g hg b hbg => hb b (h2.subset (List.mem_flatten.2 ⟨g, hg, hbg⟩))
  refine ⟨gs, h1, h2, fun g hg => (h4 g hg).1, h3.imp_of_mem ?_⟩
  intro g h hg hh hgh
  have conv : ∀ k ∈ gs, ∀ a ∈ k, ∀ b ∈ k,
      Relation.ReflTransGen (fun x y : Blk σ => x ∈ k ∧ y ∈ k ∧ (x.bbox.y0 ≤ y.bbox.y1 ∧ y.bbox.y0 ≤ x.bbox.y1)) a b := by
    intro k hk a ha b hb'
    refine Relation.ReflTransGen.mono ?_ _ _ ((h4 k hk).2 a ha b hb')
    rintro x y ⟨hx, hy, hxy⟩
    exact ⟨hx, hy, (ln_aligned (hgood k hk x hx) (hgood k hk y hy)).1 hxy⟩
  refine ln_groups_separated (hgood g hg) (hgood h hh) (h4 g hg).1 (h4 h hh).1 (conv g hg) (conv h hh) ?_
  intro a ha b hb' hab
  have := (ln_aligned (hgood g hg a ha) (hgood h hh b hb')).2 hab
  rw [hgh a ha b hb'] at this
  cases this

theorem ln_filter_truthy (g : List (Blk σ)) (h : ∀ b ∈ g, BlockGood b) : (g.filter fun b => b.bbox.truthy) = g := by
  rw [List.filter_eq_self]
  exact fun b hb => truthy_of_proper (h b hb).proper

/-- **C70**: after joining blocks side by side, the blocks of the page lie one below the other: any two are strictly apart vertically. For every
iteration order of the sets. -/
theorem C70_separated (iter : List ℕ → List ℕ) (hi : ∀ l, (iter l).Perm l) (ov mg : ℚ) (bs : List (Blk σ)) (hb : ∀ b ∈ bs, BlockGood b) :
    ∃ rs, joinHorizontally iter ov mg bs = .ok rs ∧
      rs.Pairwise fun a b => a.bbox.y1 < b.bbox.y0 ∨ b.bbox.y1 < a.bbox.y0 := by
  obtain ⟨gs, h1, h2, _, h4⟩ := ln_group_blocks iter hi bs hb
  have hgood : ∀ g ∈ gs, ∀ b ∈ g, BlockGood b := fun g hg b hbg => hb b (h2.subset (List.mem_flatten.2 ⟨g, hg, hbg⟩))
  refine ⟨_, by unfold joinHorizontally; rw [h1], ?_⟩
  rw [List.pairwise_filter, List.pairwise_map]
  refine h4.imp_of_mem ?_
  intro g h hg hh hs hx hy
  rw [ln_filter_truthy g (hgood g hg)] at hx ⊢
  rw [ln_filter_truthy h (hgood h hh)] at hy ⊢
  have wg := (ln_joined_within ov mg g (hgood g hg)).resolve_left (st_truthy.1 hx)
  have wh := (ln_joined_within ov mg h (hgood h hh)).resolve_left (st_truthy.1 hy)
  obtain ⟨⟨ra, ia, ha'⟩, rb, ib, hb''⟩ := wg
  obtain ⟨⟨rc, ic, hc'⟩, rd, id', hd'⟩ := wh
  obtain ⟨a, ha, rfl⟩ := List.mem_map.1 ia
  obtain ⟨b, hb', rfl⟩ := List.mem_map.1 ib
  obtain ⟨c, hc, rfl⟩ := List.mem_map.1 ic
  obtain ⟨d, hd, rfl⟩ := List.mem_map.1 id'
  rcases hs with hs | hs
  · exact Or.inl (lt_of_le_of_lt hb'' (lt_of_lt_of_le (hs b hb' c hc) hc'))
  · exact Or.inr (lt_of_le_of_lt hd' (lt_of_lt_of_le (hs a ha d hd) ha'))

theorem ln_joined_proper (ov mg : ℚ) (g : List (Blk σ)) (h : ∀ b ∈ g, BlockGood b) (l : Ln σ) (hl : l ∈ g.flatMap Blk.lines) :
    Proper (joinedBlock ov mg g).bbox := by
  have keep : ∀ (rs : List Rect) (r : Rect), Proper r → Tenths r → Proper (rs.foldl Coll.unionBbox r) ∧ Tenths (rs.foldl Coll.unionBbox r) := by
    intro rs
    induction rs with
    | nil => exact fun r h1 h2 => ⟨h1, h2⟩
    | cons x rs ih => exact fun r h1 h2 => ih _ (ln_covers_proper (ln_unionBbox_covers h1 h2) h1) (st_round_is_tenths _)
  have hlg : ∀ x ∈ g.flatMap Blk.lines, LineGood x := by
    intro x hx
    obtain ⟨b, hb, hx⟩ := List.mem_flatMap.1 hx
    exact ((h b hb).lines x hx).1
  have e : ∀ (ls : List (Ln σ)) (r : Rect), ls.foldl (fun b l => Coll.unionBbox b l.bbox) r = (ls.map Ln.bbox).foldl Coll.unionBbox r := by
    intro ls r
    rw [List.foldl_map]
  unfold joinedBlock
  simp only
  rw [ln_gather g (fun b hb l hl => ((h b hb).lines l hl).1), e]
  have h0 : Proper (((g.flatMap Blk.lines).map Ln.bbox).foldl Coll.unionBbox Rect.zero) ∧
      Tenths (((g.flatMap Blk.lines).map Ln.bbox).foldl Coll.unionBbox Rect.zero) := by
    cases hc : g.flatMap Blk.lines with
    | nil => rw [hc] at hl; simp at hl
    | cons x xs =>
      have hx := hlg x (by rw [hc]; simp)
      rw [List.map_cons, List.foldl_cons]
      refine keep _ _ ?_ (st_round_is_tenths _)
      unfold Coll.unionBbox Coll.updateBbox
      rw [union_zero_left hx.1, st_round_tenths hx.2.1]
      exact hx.1
  exact (keep _ _ h0.1 h0.2).1

/-- **C70**: when no line overlaps another one by the threshold, joining blocks side by side keeps all text and images,
each once. Of two overlapping lines one is lost (`C68_refuted_overlap_loses_text`). -/
theorem C70_content_kept (iter : List ℕ → List ℕ) (hi : ∀ l, (iter l).Perm l) (ov mg : ℚ) (hov : 1 / 1000000 < ov) (bs : List (Blk σ))
    (hb : ∀ b ∈ bs, BlockGood b)
    (hno : (bs.flatMap Blk.lines).Pairwise fun a b => ¬ OverlapBy ov a.bbox b.bbox ∧ ¬ OverlapBy ov b.bbox a.bbox) :
    ∃ rs, joinHorizontally iter ov mg bs = .ok rs ∧ (content (rs.flatMap Blk.lines)).Perm (content (bs.flatMap Blk.lines)) := by
  obtain ⟨gs, h1, h2, h3, h4⟩ := ln_group_blocks iter hi bs hb
  clear h3 h4
  have hgood : ∀ g ∈ gs, ∀ b ∈ g, BlockGood b := fun g hg b hbg => hb b (h2.subset (List.mem_flatten.2 ⟨g, hg, hbg⟩))
  refine ⟨_, by unfold joinHorizontally; rw [h1], ?_⟩
  have hperm : (gs.flatten.flatMap Blk.lines).Perm (bs.flatMap Blk.lines) := h2.flatMap_right _
  have hno' : (gs.flatten.flatMap Blk.lines).Pairwise fun a b => ¬ OverlapBy ov a.bbox b.bbox ∧ ¬ OverlapBy ov b.bbox a.bbox :=
    hperm.symm.pairwise hno (fun h => ⟨h.2, h.1⟩)
  refine List.Perm.trans ?_ (hperm.flatMap_right (fun l : Ln σ => l.spans.map Prod.snd))
  clear h1 h2 hperm hno
  induction gs with
  | nil => simp [content]
  | cons g gs ih =>
    have ih := ih (fun g' hg' => hgood g' (by simp [hg'])) (by
      rw [List.flatten_cons, List.flatMap_append] at hno'
      exact (List.pairwise_append.1 hno').2.1)
    have hg := hgood g (by simp)
    have hgl : ∀ l ∈ g.flatMap Blk.lines, LineGood l := by
      intro x hx
      obtain ⟨b, hb, hx⟩ := List.mem_flatMap.1 hx
      exact ((hg b hb).lines x hx).1
    rw [List.flatten_cons, List.flatMap_append] at hno' ⊢
    rw [List.flatMap_append, List.map_cons, List.filter_cons, ln_filter_truthy g hg]
    have hone : (content (joinedBlock ov mg g).lines).Perm ((g.flatMap Blk.lines).flatMap fun l : Ln σ => l.spans.map Prod.snd) := by
      unfold joinedBlock
      simp only
      rw [ln_gather g (fun b hb l hl => ((hg b hb).lines l hl).1)]
      exact (C68_nothing_lost ov mg hov _ hgl (List.pairwise_append.1 hno').1).2
    split
    · rw [List.flatMap_cons]
      unfold content at ih hone ⊢
      rw [List.flatMap_append]
      exact hone.append ih
    · rename_i hf
      cases hc : g.flatMap Blk.lines with
      | nil => simpa using ih
      | cons l ls =>
        exact absurd (truthy_of_proper (ln_joined_proper ov mg g hg l (by rw [hc]; simp))) hf

/-- Non-vacuity for C70: two blocks side by side and one below. -/
def blkEx (x0 y0 x1 y1 : ℚ) (t : String) : Blk String := ⟨⟨x0, y0, x1, y1⟩, none, [lnEx x0 y0 x1 y1 t]⟩

theorem blkEx_good (x0 y0 x1 y1 : ℤ) (t : String) (hx : x0 < x1) (hy : y0 < y1) : BlockGood (blkEx x0 y0 x1 y1 t) := by
  have h := lnEx_good x0 y0 x1 y1 t hx hy
  refine ⟨h.1, h.2.1, ?_⟩
  intro l hl
  obtain rfl : l = lnEx x0 y0 x1 y1 t := by simpa [blkEx] using hl
  refine ⟨h, covers_refl _, ?_⟩
  intro s hs
  obtain rfl : s = (⟨x0, y0, x1, y1⟩, t) := by simpa [lnEx] using hs
  exact covers_refl _

example : (∀ b ∈ [blkEx 10 10 40 20 "A", blkEx 60 12 90 22 "B", blkEx 10 30 90 40 "C"], BlockGood b) ∧
    (([blkEx 10 10 40 20 "A", blkEx 60 12 90 22 "B", blkEx 10 30 90 40 "C"].flatMap Blk.lines).Pairwise
      fun a b => ¬ OverlapBy (9 / 10) a.bbox b.bbox ∧ ¬ OverlapBy (9 / 10) b.bbox a.bbox) ∧
    (joinedBlock (9 / 10) 2 [blkEx 10 10 40 20 "A", blkEx 60 12 90 22 "B"]).bbox = ⟨10, 10, 90, 22⟩ := by
  refine ⟨?_, by decide +kernel, by decide +kernel⟩
  intro b hb
  simp only [List.mem_cons, List.not_mem_nil, or_false] at hb
  rcases hb with rfl | rfl | rfl
  · exact_mod_cast blkEx_good 10 10 40 20 "A" (by norm_num) (by norm_num)
  · exact_mod_cast blkEx_good 60 12 90 22 "B" (by norm_num) (by norm_num)
  · exact_mod_cast blkEx_good 10 30 90 40 "C" (by norm_num) (by norm_num)

/-! ## C71: floating images -/

theorem ln_table_mem (bs : List (Blk σ)) (i : ℕ) (l : Ln σ) :
    (i, l) ∈ lineTable bs ↔ ∃ b, bs[i]? = some b ∧ l ∈ b.lines ∧ l.bbox ≠ Rect.zero := by
  unfold lineTable
  simp only [List.mem_flatMap, List.mem_map, List.mem_filter, Prod.mk.injEq, Prod.exists]
  constructor
  · rintro ⟨b, k, hk, l', ⟨h1, h2⟩, rfl, rfl⟩
    exact ⟨b, List.mem_zipIdx_iff_getElem?.1 hk, h1, st_truthy.1 h2⟩
  · rintro ⟨b, hb, h1, h2⟩
    exact ⟨b, i, List.mem_zipIdx_iff_getElem?.2 hb, l, ⟨h1, st_truthy.2 h2⟩, rfl, rfl⟩

/-- How often block `i` occurs in the table: once for each line. -/
theorem ln_table_count (bs : List (Blk σ)) (i : ℕ) (b : Blk σ) (hb : bs[i]? = some b) :
    ((lineTable bs).map Prod.fst).count i = (b.lines.filter fun l => l.bbox.truthy).length := by
  have key : ∀ (bs : List (Blk σ)) (k i : ℕ) (b : Blk σ), bs[i]? = some b →
      (((bs.zipIdx k).flatMap fun b => (b.1.lines.filter fun l => l.bbox.truthy).map fun l => (b.2, l)).map Prod.fst).count (k + i) =
        (b.lines.filter fun l => l.bbox.truthy).length := by
    intro bs
    induction bs with
    | nil => intro k i b h; simp at h
    | cons c cs ih =>
      intro k i b h
      rw [List.zipIdx_cons, List.flatMap_cons, List.map_append, List.count_append]
      have hrest : ∀ m, m ≤ k → (((cs.zipIdx (k + 1)).flatMap fun b => (b.1.lines.filter fun l => l.bbox.truthy).map fun l =>
          (b.2, l)).map Prod.fst).count m = 0 := by
        intro m hm
        rw [List.count_eq_zero]
        intro hmem
        obtain ⟨⟨x, y⟩, hx, rfl⟩ := List.mem_map.1 hmem
        obtain ⟨⟨b', n⟩, hn, hx⟩ := List.mem_flatMap.1 hx
        obtain ⟨_, _, he⟩ := List.mem_map.1 hx
        have := List.le_snd_of_mem_zipIdx hn
        simp only [Prod.mk.injEq] at he
        omega
      have hfst : ((c.lines.filter fun l => l.bbox.truthy).map fun l => (k, l)).map Prod.fst =
          List.replicate (c.lines.filter fun l => l.bbox.truthy).length k := by
        rw [List.map_map]
        exact List.map_const'
      simp only [hfst]
      cases i with
      | zero =>
        simp only [List.getElem?_cons_zero, Option.some.injEq] at h
        subst h
        rw [Nat.add_zero, hrest k (le_refl _), List.count_replicate_self, Nat.add_zero]
      | succ i =>
        rw [List.getElem?_cons_succ] at h
        have := ih (k + 1) i b h
        rw [show k + (i + 1) = k + 1 + i by omega, this, List.count_replicate]
        have : (k == k + 1 + i) = false := by simp; omega
        rw [if_neg (by simp [this]), Nat.zero_add]
  have := key bs 0 i b hb
  simpa [lineTable] using this

/-- The blocks hit by the groups of at least two lines. -/
def lnHits (groups : List (List ℕ)) : List ℕ := (groups.filter fun g => 1 < g.length).flatten

/-- Every image block has exactly one line, with a box, and a box itself (Blocks.py L37-40: it was made from an image). -/
def ImagesGood (bs : List (Blk σ)) : Prop :=
  ∀ b ∈ bs, b.image.isSome → b.bbox ≠ Rect.zero ∧ (b.lines.filter fun l => l.bbox.truthy).length = 1

theorem ln_groups_perm (bs : List (Blk σ)) (gs : List (List ℕ)) (h : gs.flatten.Perm (List.range (lineTable bs).length)) :
    (gs.map fun g => g.filterMap fun k => (lineTable bs)[k]?.map Prod.fst).flatten.Perm ((lineTable bs).map Prod.fst) := by
  have e : (gs.map fun g => g.filterMap fun k => (lineTable bs)[k]?.map Prod.fst).flatten =
      gs.flatten.filterMap fun k => (lineTable bs)[k]?.map Prod.fst := by
    clear h
    induction gs with
    | nil => rfl
    | cons g gs ih => simp only [List.map_cons, List.flatten_cons, List.filterMap_append, ih]
  rw [e]
  refine (h.filterMap _).trans ?_
  have : ∀ (t : List (ℕ × Ln σ)), (List.range t.length).filterMap (fun k => t[k]?.map Prod.fst) = t.map Prod.fst := by
    intro t
    induction t with
    | nil => rfl
    | cons x t ih =>
      rw [List.length_cons, List.range_succ_eq_map, List.filterMap_cons]
      simp only [List.getElem?_cons_zero, Option.map_some, List.map_cons, List.cons.injEq, true_and, List.filterMap_map]
      simpa [Function.comp_def] using ih
  rw [this]

theorem ln_hits_count (bs : List (Blk σ)) (hg : ImagesGood bs) (gs : List (List ℕ)) (h : gs.flatten.Perm (List.range (lineTable bs).length))
    (i : ℕ) (b : Blk σ) (hb : bs[i]? = some b) (hi : b.image.isSome) :
    (lnHits (gs.map fun g => g.filterMap fun k => (lineTable bs)[k]?.map Prod.fst)).count i ≤ 1 := by
  have h1 := (ln_groups_perm bs gs h).count_eq i
  rw [ln_table_count bs i b hb, (hg b (List.mem_of_getElem? hb) hi).2] at h1
  rw [← h1]
  unfold lnHits
  exact (List.Sublist.flatten List.filter_sublist).count_le i

/-- **C71**: identifying floating images never raises and neither loses nor duplicates an image: the images that stay in the flow and those that
become floating are together the images of the page. Text blocks stay as they are, and no block loses its lines. -/
theorem C71_images_conserved (gap : ℚ) (bs : List (Blk σ)) (hg : ImagesGood bs) :
    ∃ bs' fs, identifyFloats gap bs = .ok (bs', fs) ∧
      ((bs'.filter fun b => b.bbox ≠ Rect.zero).filterMap Blk.image ++ fs).Perm (bs.filterMap Blk.image) ∧
      bs'.length = bs.length ∧
      ∀ (i : ℕ) (b : Blk σ), bs[i]? = some b → ∃ b', bs'[i]? = some b' ∧ b'.lines = b.lines ∧ b'.image = b.image ∧
        (b.image = none → b' = b) ∧ (b'.bbox = b.bbox ∨ b'.bbox = Rect.zero) := by
  obtain ⟨gs, h1, h2, _⟩ := C22_never_raises (-gap) (-gap) ((lineTable bs).map fun t => t.2.bbox)
  rw [List.length_map] at h2
  have hcount := ln_hits_count bs hg gs h2
  refine ⟨_, _, by unfold identifyFloats; rw [h1], ?_, by simp [markFloats], ?_⟩
  · generalize (gs.map fun g => g.filterMap fun k => (lineTable bs)[k]?.map Prod.fst) = groups at hcount
    unfold markFloats
    simp only
    change ((_ : List (Blk σ)).filterMap _ ++ _).Perm _
    set hits := lnHits groups with hh
    have hh' : (groups.filter fun g => 1 < g.length).flatten = hits := rfl
    rw [hh']
    -- everything in terms of `zipIdx`
    let P : Blk σ × ℕ → Bool := fun x => decide (x.2 ∈ hits) && x.1.image.isSome
    have e1 : bs.filterMap Blk.image = bs.zipIdx.filterMap fun x => x.1.image := by
      conv_lhs => rw [← List.zipIdx_map_fst 0 bs, List.filterMap_map]
      rfl
    have e2 : ((bs.mapIdx fun i b => if i ∈ hits ∧ b.image.isSome then { b with bbox := Rect.zero } else b).filter
        fun b => b.bbox ≠ Rect.zero).filterMap Blk.image = (bs.zipIdx.filter fun x => !P x).filterMap fun x => x.1.image := by
      rw [List.mapIdx_eq_zipIdx_map, List.filterMap_filter, List.filterMap_filter, List.filterMap_map]
      refine List.filterMap_congr ?_
      rintro ⟨b, i⟩ hx
      have hb : b ∈ bs := List.fst_mem_of_mem_zipIdx hx
      simp only [Function.comp, P]
      by_cases hp : i ∈ hits ∧ b.image.isSome = true
      · simp [hp.1, hp.2]
      · simp only [if_neg hp]
        have : (decide (i ∈ hits) && b.image.isSome) = false := by
          by_contra hc
          apply hp
          rw [Bool.not_eq_false, Bool.and_eq_true, decide_eq_true_eq] at hc
          exact hc
        rw [this]
        cases him : b.image with
        | none => simp
        | some x =>
          have := (hg b hb (by rw [him]; rfl)).1
          simp [this]
    have e3 : (hits.filterMap fun i => bs[i]?.bind Blk.image).Perm ((bs.zipIdx.filter P).filterMap fun x => x.1.image) := by
      have f1 : (hits.filterMap fun i => bs[i]?.bind Blk.image) =
          (hits.filter fun i => (bs[i]?.bind Blk.image).isSome).filterMap fun i => bs[i]?.bind Blk.image := by
        rw [List.filterMap_filter]
        refine List.filterMap_congr ?_
        intro i _
        cases h : bs[i]?.bind Blk.image <;> simp
      have f2 : ((bs.zipIdx.filter P).filterMap fun x => x.1.image) =
          ((bs.zipIdx.filter P).map Prod.snd).filterMap fun i => bs[i]?.bind Blk.image := by
        rw [List.filterMap_map]
        refine List.filterMap_congr ?_
        rintro ⟨b, i⟩ hx
        have := List.mem_zipIdx_iff_getElem?.1 (List.mem_of_mem_filter hx)
        simp only [Function.comp] at this ⊢
        rw [this]; rfl
      rw [f1, f2]
      refine List.Perm.filterMap _ ?_
      rw [List.perm_ext_iff_of_nodup]
      · intro i
        simp only [List.mem_filter, List.mem_map, Prod.exists, P, Bool.and_eq_true, decide_eq_true_eq, exists_eq_right]
        constructor
        · rintro ⟨hi, hs⟩
          cases hb : bs[i]? with
          | none => rw [hb] at hs; simp at hs
          | some b =>
            rw [hb] at hs
            exact ⟨b, List.mem_zipIdx_iff_getElem?.2 hb, hi, by simpa using hs⟩
        · rintro ⟨b, hb, hi, hs⟩
          have hb := List.mem_zipIdx_iff_getElem?.1 hb
          simp only at hb
          exact ⟨hi, by rw [hb]; simpa using hs⟩
      · rw [List.nodup_iff_count_le_one]
        intro i
        by_cases hs : (bs[i]?.bind Blk.image).isSome = true
        · cases hb : bs[i]? with
          | none => rw [hb] at hs; simp at hs
          | some b =>
            rw [hb] at hs
            refine le_trans (List.filter_sublist.count_le i) (hcount i b hb (by simpa using hs))
        · rw [List.count_eq_zero.2]
          · exact Nat.zero_le _
          · intro hm
            exact hs (List.mem_filter.1 hm).2
      · refine List.Nodup.sublist (List.filter_sublist.map _) ?_
        rw [List.zipIdx_map_snd]
        exact List.nodup_range'
    rw [e1, e2]
    refine (List.Perm.append_left _ e3).trans ?_
    rw [← List.filterMap_append]
    refine List.Perm.filterMap _ ?_
    exact (List.perm_append_comm).trans (List.filter_append_perm P _)
  · intro i b hb
    refine ⟨if i ∈ ((gs.map fun g => g.filterMap fun k => (lineTable bs)[k]?.map Prod.fst).filter fun g => 1 < g.length).flatten ∧
      b.image.isSome then { b with bbox := Rect.zero } else b, ?_, ?_⟩
    · simp only [markFloats, List.getElem?_mapIdx, hb, Option.map_some]
    · split
      · rename_i h
        exact ⟨rfl, rfl, fun hn => by rw [hn] at h; simp at h, Or.inr rfl⟩
      · exact ⟨rfl, rfl, fun _ => rfl, Or.inl rfl⟩

theorem ln_leaves {α : Type} {r : α → α → Prop} {a b : α} (h : Relation.ReflTransGen r a b) (hne : a ≠ b) : ∃ c, c ≠ a ∧ r a c := by
  induction h using Relation.ReflTransGen.head_induction_on with
  | refl => exact absurd rfl hne
  | head hac _ ih =>
    rename_i x c _
    by_cases hc : c = x
    · subst hc; exact ih hne
    · exact ⟨c, hc, hac⟩

/-- **C71**: an image is taken out of the flow only if it comes near (with the gap taken off both boxes) a line of another block. `Solid` says
that boxes are larger than the gap. -/
theorem C71_floats_overlap (gap : ℚ) (bs : List (Blk σ)) (hg : ImagesGood bs)
    (hs : Solid (-gap) (-gap) ((lineTable bs).map fun t => t.2.bbox)) (bs' : List (Blk σ)) (fs : List σ)
    (h : identifyFloats gap bs = .ok (bs', fs)) (i : ℕ) (b b' : Blk σ) (hb : bs[i]? = some b) (hbox : b.bbox ≠ Rect.zero)
    (hb' : bs'[i]? = some b') (hz : b'.bbox = Rect.zero) :
    ∃ l ∈ b.lines, ∃ (k : ℕ) (c : Blk σ), k ≠ i ∧ bs[k]? = some c ∧ ∃ l' ∈ c.lines, Near (-gap) (-gap) l.bbox l'.bbox := by
  obtain ⟨gs, h1, h2, h3⟩ := C22_groups_are_chains (-gap) (-gap) _ hs
  unfold identifyFloats at h
  rw [h1] at h
  simp only [Except.ok.injEq, markFloats, Prod.mk.injEq] at h
  obtain ⟨hbs, _⟩ := h
  rw [← hbs, List.getElem?_mapIdx, hb] at hb'
  simp only [Option.map_some, Option.some.injEq] at hb'
  split at hb'
  · rename_i hhit
    obtain ⟨hhit, himg⟩ := hhit
    obtain ⟨g', hg', hig'⟩ := List.mem_flatten.1 hhit
    obtain ⟨hg', hlen⟩ := List.mem_filter.1 hg'
    obtain ⟨g, hgm, rfl⟩ := List.mem_map.1 hg'
    obtain ⟨k, hk, hki⟩ := List.mem_filterMap.1 hig'
    have hnd : gs.flatten.Nodup := h2.nodup_iff.2 List.nodup_range
    have hgnd : g.Nodup := (List.nodup_flatten.1 hnd).1 g hgm
    have hlen' : 1 < g.length := lt_of_lt_of_le (by simpa using hlen) (List.length_filterMap_le _ _)
    obtain ⟨m, hm, hmk⟩ : ∃ m ∈ g, m ≠ k := by
      by_contra hc
      push Not at hc
      have : g ⊆ [k] := fun x hx => by simpa using hc x hx
      have := (hgnd.subperm this).length_le
      simp at this; omega
    obtain ⟨c, hck, hc1, hc2, hor⟩ := ln_leaves (h3 g hgm k hk m hm) (Ne.symm hmk)
    have near : ∀ x y : Rect, Near (-gap) (-gap) x y → Near (-gap) (-gap) y x := fun x y hxy => ⟨hxy.2.1, hxy.1, hxy.2.2.2, hxy.2.2.1⟩
    obtain ⟨ra, rb, hra, hrb, hnear⟩ : ∃ a b, ((lineTable bs).map fun t => t.2.bbox)[k]? = some a ∧
        ((lineTable bs).map fun t => t.2.bbox)[c]? = some b ∧ Near (-gap) (-gap) a b := by
      rcases hor with ⟨a, b, h1, h2, h3⟩ | ⟨a, b, h1, h2, h3⟩
      · exact ⟨a, b, h1, h2, h3⟩
      · exact ⟨b, a, h2, h1, near _ _ h3⟩
    rw [List.getElem?_map, Option.map_eq_some_iff] at hra hrb
    obtain ⟨⟨i1, l1⟩, ht1, rfl⟩ := hra
    obtain ⟨⟨i2, l2⟩, ht2, rfl⟩ := hrb
    rw [ht1] at hki
    simp only [Option.map_some, Option.some.injEq] at hki
    subst hki
    obtain ⟨b1, hb1, hl1, _⟩ := (ln_table_mem bs i1 l1).1 (List.mem_of_getElem? ht1)
    obtain ⟨b2, hb2, hl2, _⟩ := (ln_table_mem bs i2 l2).1 (List.mem_of_getElem? ht2)
    obtain rfl : b = b1 := by rw [hb] at hb1; simpa using hb1
    refine ⟨l1, hl1, i2, b2, ?_, hb2, l2, hl2, hnear⟩
    rintro rfl
    have hcnt := ln_table_count bs i2 b hb
    rw [(hg b (List.mem_of_getElem? hb) himg).2] at hcnt
    have hdup : List.Duplicate i2 ((lineTable bs).map Prod.fst) := by
      rw [List.duplicate_iff_exists_distinct_get]
      have e1 : ((lineTable bs).map Prod.fst)[k]? = some i2 := by rw [List.getElem?_map, ht1]; rfl
      have e2 : ((lineTable bs).map Prod.fst)[c]? = some i2 := by rw [List.getElem?_map, ht2]; rfl
      obtain ⟨k1, e1⟩ := List.getElem?_eq_some_iff.1 e1
      obtain ⟨k2, e2⟩ := List.getElem?_eq_some_iff.1 e2
      rcases lt_or_gt_of_ne hck with h | h
      · exact ⟨⟨c, k2⟩, ⟨k, k1⟩, h, by simp [← e2], by simp [← e1]⟩
      · exact ⟨⟨k, k1⟩, ⟨c, k2⟩, h, by simp [← e1], by simp [← e2]⟩
    rw [List.duplicate_iff_two_le_count] at hdup
    omega
  · rw [← hb'] at hz
    exact absurd hz hbox

/-- Non-vacuity: an image with a text line across it; the image goes, the text stays. -/
def imgPage : List (Blk String) :=
  [⟨⟨10, 10, 110, 110⟩, some "picture", [lnEx 10 10 110 110 "picture"]⟩, blkEx 50 50 200 65 "text", blkEx 10 200 200 215 "more"]

example : ImagesGood imgPage ∧ Solid (-5) (-5) ((lineTable imgPage).map fun t => t.2.bbox) ∧
    ((markFloats imgPage [[0, 1], [2]]).1.map Blk.bbox, (markFloats imgPage [[0, 1], [2]]).2) =
      ([Rect.zero, ⟨50, 50, 200, 65⟩, ⟨10, 200, 200, 215⟩], ["picture"]) := by
  refine ⟨?_, ?_, by decide +kernel⟩
  · intro b hb hi
    simp only [imgPage, List.mem_cons, List.not_mem_nil, or_false] at hb
    rcases hb with rfl | rfl | rfl
    · exact ⟨by decide +kernel, by decide +kernel⟩
    · cases hi
    · cases hi
  · have : ∀ r ∈ (lineTable imgPage).map (fun t => t.2.bbox), r.x0 - -5 ≤ r.x1 + -5 ∧ r.y0 - -5 < r.y1 + -5 := by decide +kernel
    exact this

end Props
