import Verif.Props.Table
/-! # Further theorems about table frames (C59) and the grouping of strokes (C41); written after wrong programs had passed the
first versions. -/

namespace Props
open Py Geom Table

/-! ## C41: both directions -/

/-- **C41** (partial: clustered positions, see `C41_clusters_partial`): every stroke that is horizontal or vertical goes into exactly one group –
a row for a horizontal one, a column for a vertical one that is not a dot – and slanted strokes into none. -/
theorem C41_rows_and_columns_partial (c : ℚ) (hc : 0 ≤ c) (strokes : List St)
    (hh : ∀ x ∈ strokes, ∀ y ∈ strokes, ∀ z ∈ strokes, |round1 x.y0 - round1 y.y0| ≤ c → |round1 y.y0 - round1 z.y0| ≤ c →
      |round1 x.y0 - round1 z.y0| ≤ c)
    (hv : ∀ x ∈ strokes, ∀ y ∈ strokes, ∀ z ∈ strokes, |round1 x.x0 - round1 y.x0| ≤ c → |round1 y.x0 - round1 z.x0| ≤ c →
      |round1 x.x0 - round1 z.x0| ≤ c) :
    ((groupHV c strokes).1.flatMap Prod.snd ++ (groupHV c strokes).2.flatMap Prod.snd).Perm
        (strokes.filter fun s => decide (|s.y0 - s.y1| < 1 / 1000) || decide (|s.x0 - s.x1| < 1 / 1000)) ∧
    (∀ e ∈ (groupHV c strokes).1, ∀ s ∈ e.2, |s.y0 - s.y1| < 1 / 1000) ∧
    (∀ e ∈ (groupHV c strokes).2, ∀ s ∈ e.2, |s.x0 - s.x1| < 1 / 1000) := by
  unfold groupHV
  dsimp only
  have p1 := (C41_clusters_partial c hc (fun s : St => round1 s.y0) (strokes.filter St.horizontal) (by
    intro x hx y hy z hz
    exact hh x (List.mem_of_mem_filter hx) y (List.mem_of_mem_filter hy) z (List.mem_of_mem_filter hz))).1
  have p2 := (C41_clusters_partial c hc (fun s : St => round1 s.x0) (strokes.filter fun s => !s.horizontal && s.vertical) (by
    intro x hx y hy z hz
    exact hv x (List.mem_of_mem_filter hx) y (List.mem_of_mem_filter hy) z (List.mem_of_mem_filter hz))).1
  refine ⟨(p1.append p2).trans ?_, ?_, ?_⟩
  · rw [List.perm_iff_count]
    clear p1 p2 hh hv
    intro a
    induction strokes with
    | nil => rfl
    | cons s l ih =>
      simp only [List.count_append, List.filter_cons] at ih ⊢
      have e1 : St.horizontal s = decide (|s.y0 - s.y1| < 1 / 1000) := rfl
      have e2 : St.vertical s = decide (|s.x0 - s.x1| < 1 / 1000) := rfl
      rw [← e1, ← e2]
      have ih' := ih
      cases hhs : s.horizontal <;> cases hvs : s.vertical <;>
        simp only [Bool.not_true, Bool.not_false, Bool.true_and, Bool.false_and, Bool.or_true, Bool.or_false, if_true, if_false,
          Bool.false_eq_true, List.count_cons] <;> omega
  · intro e he s hs
    have := p1.mem_iff.1 (List.mem_flatMap.2 ⟨e, he, hs⟩)
    exact of_decide_eq_true (List.mem_filter.1 this).2
  · intro e he s hs
    have := p2.mem_iff.1 (List.mem_flatMap.2 ⟨e, he, hs⟩)
    have := (List.mem_filter.1 this).2
    rw [Bool.and_eq_true] at this
    exact of_decide_eq_true this.2

/-- Non-vacuity: two rows, two columns, a slanted line and a dot. -/
example : let l : List St := [hst 0 100 0 1, hst 0 100 50 1, vst 0 0 50 1, vst 100 0 50 1, ⟨0, 0, 50, 50, ⟨0, 0, 50, 50⟩, 1, 0⟩,
      ⟨0, 0, 0, 0, ⟨0, 0, 1, 1⟩, 1, 0⟩]
    (∀ x ∈ l, ∀ y ∈ l, ∀ z ∈ l, |round1 x.y0 - round1 y.y0| ≤ 2 → |round1 y.y0 - round1 z.y0| ≤ 2 → |round1 x.y0 - round1 z.y0| ≤ 2) ∧
    (∀ x ∈ l, ∀ y ∈ l, ∀ z ∈ l, |round1 x.x0 - round1 y.x0| ≤ 2 → |round1 y.x0 - round1 z.x0| ≤ 2 → |round1 x.x0 - round1 z.x0| ≤ 2) ∧
    ((groupHV 2 l).1.map fun e => e.2.length) = [1, 2] := by decide +kernel

/-! ## C59: all four sides of the frame -/

/-- Some line of `d` within `w` of position `target` leaves no point between `start` and `stop` further than 1pt from a stroke; `ext` gives the
extent of a stroke along the line. -/
def Bordered (w target start stop : ℚ) (ext : St → ℚ × ℚ) (d : Dict St) : Prop :=
  ∃ e ∈ d, |target - e.1| ≤ w ∧ ∀ p, start ≤ p → p ≤ stop → ∃ t ∈ e.2, (ext t).1 - 1 ≤ p ∧ p ≤ (ext t).2 + 1

/-- Extent of the box in x or y. -/
def xExt (t : St) : ℚ × ℚ := (t.bbox.x0, t.bbox.x1)
def yExt (t : St) : ℚ × ℚ := (t.bbox.y0, t.bbox.y1)

theorem mem_dset {α : Type} (d : Dict α) (k : ℚ) (g : List α) (e : ℚ × List α) (he : e ∈ d) :
    (e.1 ≠ k ∧ e ∈ dset d k g) ∨ (e.1 = k ∧ (k, g) ∈ dset d k g) := by
  unfold dset
  by_cases h : e.1 = k
  · right
    refine ⟨h, ?_⟩
    rw [if_pos (List.any_eq_true.2 ⟨e, he, by simpa using h⟩)]
    exact List.mem_map.2 ⟨e, he, by rw [if_pos h]⟩
  · left
    refine ⟨h, ?_⟩
    split_ifs
    · exact List.mem_map.2 ⟨e, he, by rw [if_neg h]⟩
    · exact List.mem_append_left _ he

/-- Completing another side of the same direction keeps what is there, or replaces it by a full line. -/
theorem bordered_checkOuter (table : Rect) (s s' : Side) (hfr : (frame table s).2 = (frame table s').2) (hal : along s = along s') (w w' : ℚ)
    (d : Dict St) (h : Bordered w (frame table s).1 (frame table s).2.1 (frame table s).2.2 (along s) d) :
    Bordered w (frame table s).1 (frame table s).2.1 (frame table s).2.2 (along s) (checkOuter table s' w' d) := by
  obtain ⟨e, he, hw, hp⟩ := h
  rw [checkOuter_eq]
  dsimp only
  -- the first map only sorts
  obtain ⟨e1, he1, hk1, hs1⟩ : ∃ e1 ∈ d.map (fun e => if e.1 = outermost s' d then (e.1, sortSide s' e.2) else e), e1.1 = e.1 ∧
      ∀ t ∈ e.2, t ∈ e1.2 := by
    refine ⟨_, List.mem_map.2 ⟨e, he, rfl⟩, ?_, ?_⟩
    · split_ifs <;> rfl
    · intro t ht
      split_ifs
      · exact (mem_sortSide _ _ _).2 ht
      · exact ht
  generalize d.map (fun e => if e.1 = outermost s' d then (e.1, sortSide s' e.2) else e) = d1 at he1
  split_ifs with hc
  · rcases mem_dset d1 (frame table s').1 [frameLine s' (frame table s').1 (frame table s').2.1 (frame table s').2.2] e1 he1 with ⟨_, h⟩ | ⟨hk, h⟩
    · refine ⟨e1, h, by rw [hk1]; exact hw, fun p h1 h2 => ?_⟩
      obtain ⟨t, ht, h3⟩ := hp p h1 h2
      exact ⟨t, hs1 t ht, h3⟩
    · refine ⟨_, h, by dsimp only; rw [← hk, hk1]; exact hw, fun p h1 h2 => ?_⟩
      refine ⟨_, List.mem_singleton.2 rfl, ?_⟩
      have ha := abs_round1_sub (frame table s').2.1
      have hb := abs_round1_sub (frame table s').2.2
      rw [abs_le] at ha hb
      rw [hfr] at h1 h2
      rw [hal]
      cases s' <;> simp only [along, frameLine, St.line, Rect.round] <;> constructor <;> linarith [ha.2, hb.1]
  · refine ⟨_, List.mem_map.2 ⟨e1, he1, rfl⟩, ?_, fun p h1 h2 => ?_⟩
    · have : (if e1.1 = outermost s' d then
          (e1.1, sortSide s' (e1.2 ++ missing s' (frame table s').1 (frame table s').2.1 (frame table s').2.2 (e1.2.map (along s')))) else e1).1 =
          e1.1 := by split_ifs <;> rfl
      rw [this, hk1]
      exact hw
    · obtain ⟨t, ht, h3⟩ := hp p h1 h2
      refine ⟨t, ?_, h3⟩
      split_ifs
      · exact (mem_sortSide _ _ _).2 (List.mem_append_left _ (hs1 t ht))
      · exact hs1 t ht

/-- A group has strokes, all from the input. -/
theorem groupBy_from {α : Type} (c : ℚ) (l : List (ℚ × α)) : ∀ e ∈ groupBy c l, e.2 ≠ [] ∧ ∀ t ∈ e.2, ∃ p ∈ l, p.2 = t := by
  induction l using List.reverseRecOn with
  | nil => simp [groupBy]
  | append_singleton l x ih =>
    rw [groupBy_concat]
    have hdset : ∀ (d : Dict α) (k : ℚ) (g : List α) (P : ℚ × List α → Prop), (∀ e ∈ d, P e) → P (k, g) → ∀ e ∈ dset d k g, P e := by
      intro d k g P hd hg e he
      unfold dset at he
      split_ifs at he
      · obtain ⟨e', he', rfl⟩ := List.mem_map.1 he
        split_ifs
        · exact hg
        · exact hd e' he'
      · rcases List.mem_append.1 he with he | he
        · exact hd e he
        · rw [List.mem_singleton] at he; rw [he]; exact hg
    have hold : ∀ e ∈ groupBy c l, e.2 ≠ [] ∧ ∀ t ∈ e.2, ∃ p ∈ l ++ [x], p.2 = t := by
      intro e he
      refine ⟨(ih e he).1, fun t ht => ?_⟩
      obtain ⟨p, hp, hpt⟩ := (ih e he).2 t ht
      exact ⟨p, List.mem_append_left _ hp, hpt⟩
    unfold addStroke
    split
    · rename_i k g hf
      have hmem := List.mem_of_find?_eq_some hf
      refine hdset _ _ _ (fun e => e.2 ≠ [] ∧ ∀ t ∈ e.2, ∃ p ∈ l ++ [x], p.2 = t) ?_ ?_
      · intro e he; exact hold e (List.mem_of_mem_filter he)
      · refine ⟨by simp, fun t ht => ?_⟩
        rcases List.mem_append.1 ht with ht | ht
        · exact (hold _ hmem).2 t ht
        · rw [List.mem_singleton] at ht; exact ⟨x, by simp, ht.symm⟩
    · refine hdset _ _ _ (fun e => e.2 ≠ [] ∧ ∀ t ∈ e.2, ∃ p ∈ l ++ [x], p.2 = t) hold ⟨by simp, fun t ht => ?_⟩
      rw [List.mem_singleton] at ht; exact ⟨x, by simp, ht.symm⟩

/-- What `C59_frame_complete` needs still holds after completing the first side. -/
theorem checkOuter_good (table : Rect) (s : Side) (w : ℚ) (d : Dict St) (hd : d ≠ [])
    (hne : ∀ e ∈ d, e.2 ≠ []) :
    checkOuter table s w d ≠ [] ∧ (∀ e ∈ checkOuter table s w d, e.2 ≠ []) := by
  constructor
  · intro h
    have := checkOuter_length table s w d
    rw [h] at this
    exact hd (List.length_eq_zero_iff.1 (by simpa using this))
  · rw [checkOuter_eq]
    dsimp only
    have h1 : ∀ e ∈ d.map (fun e => if e.1 = outermost s d then (e.1, sortSide s e.2) else e), e.2 ≠ [] := by
      intro e he
      obtain ⟨e', he', rfl⟩ := List.mem_map.1 he
      obtain ⟨t, ht⟩ := List.exists_mem_of_ne_nil _ (hne e' he')
      split_ifs
      · exact List.ne_nil_of_mem ((mem_sortSide s _ t).2 ht)
      · exact List.ne_nil_of_mem ht
    generalize d.map (fun e => if e.1 = outermost s d then (e.1, sortSide s e.2) else e) = d1 at h1
    split_ifs
    · intro e he
      unfold dset at he
      split_ifs at he
      · obtain ⟨e', he', rfl⟩ := List.mem_map.1 he
        split_ifs
        · simp
        · exact h1 e' he'
      · rcases List.mem_append.1 he with he | he
        · exact h1 e he
        · rw [List.mem_singleton] at he; rw [he]; simp
    · intro e he
      obtain ⟨e', he', rfl⟩ := List.mem_map.1 he
      split_ifs
      · obtain ⟨t, ht⟩ := List.exists_mem_of_ne_nil _ (h1 e' he')
        exact List.ne_nil_of_mem ((mem_sortSide s _ t).2 (List.mem_append_left _ ht))
      · exact h1 e' he'

/-- **C59**: when a table is recognised, all four sides of the region of its strokes (`x` from the horizontal, `y` from the vertical strokes, rounded
to 0.1) are drawn: within the border width of the side there is a line along which no point of the side is further than 1pt from a
stroke. -/
theorem C59_all_sides (c w : ℚ) (hw : 0 ≤ w) (strokes : List St) (h v : Dict St) (hg : groupStrokes c w strokes = some (h, v)) :
    ∃ R : Rect, R = region strokes ∧ Bordered w R.y0 R.x0 R.x1 xExt h ∧ Bordered w R.y1 R.x0 R.x1 xExt h ∧
      Bordered w R.x0 R.y0 R.y1 yExt v ∧ Bordered w R.x1 R.y0 R.y1 yExt v := by
  refine ⟨_, rfl, ?_⟩
  unfold groupStrokes at hg
  have hsrc : ∀ e ∈ (groupHV c strokes).1, e.2 ≠ [] := fun e he => (groupBy_from _ _ e he).1
  have hsrc' : ∀ e ∈ (groupHV c strokes).2, e.2 ≠ [] := fun e he => (groupBy_from _ _ e he).1
  generalize groupHV c strokes = gh at hg hsrc hsrc'
  obtain ⟨h0, v0⟩ := gh
  dsimp only at hg hsrc hsrc'
  split_ifs at hg with hne
  rw [not_or] at hne
  simp only [Option.some.injEq, Prod.mk.injEq] at hg
  obtain ⟨rfl, rfl⟩ := hg
  have g1 := checkOuter_good (region strokes) .top w h0 hne.1 hsrc
  have g2 := checkOuter_good (region strokes) .left w v0 hne.2 hsrc'
  refine ⟨?_, ?_, ?_, ?_⟩
  · exact bordered_checkOuter (region strokes) .top .bottom rfl rfl w w _ (C59_frame_complete (region strokes) .top w hw h0 hne.1 hsrc)
  · exact C59_frame_complete (region strokes) .bottom w hw _ g1.1 g1.2
  · exact bordered_checkOuter (region strokes) .left .right rfl rfl w w _ (C59_frame_complete (region strokes) .left w hw v0 hne.2 hsrc')
  · exact C59_frame_complete (region strokes) .right w hw _ g2.1 g2.2

/-- Non-vacuity: three horizontal lines and one vertical line; three sides are missing. -/
example : (groupStrokes 2 6 [hst 0 100 20 1, hst 0 100 50 1, hst 0 100 80 1, vst 50 0 100 1]).map (fun p => (p.1.map Prod.fst, p.2.map Prod.fst)) =
    some ([20, 50, 80, 0, 100], [50, 0, 100]) := by decide +kernel

/-- **C59**: the strokes of the outermost line of each side (where it counts as the frame) are left in the order of their starts, as the
later checks (`C60`, `C61`) need. -/
theorem C59_sorted (table : Rect) (s : Side) (w : ℚ) (d : Dict St) (hw : |(frame table s).1 - outermost s d| ≤ w) :
    ∀ e ∈ checkOuter table s w d, e.1 = outermost s d →
      (s = .top ∨ s = .bottom → e.2.Pairwise fun a b => a.bbox.x0 ≤ b.bbox.x0) ∧
      (s = .left ∨ s = .right → e.2.Pairwise fun a b => a.bbox.y0 ≤ b.bbox.y0) := by
  intro e he hk
  have hsort : ∀ l : List St, (s = .top ∨ s = .bottom → (sortSide s l).Pairwise fun a b => a.bbox.x0 ≤ b.bbox.x0) ∧
      (s = .left ∨ s = .right → (sortSide s l).Pairwise fun a b => a.bbox.y0 ≤ b.bbox.y0) := by
    intro l
    have fst_le : ∀ a b c a' b' c' : ℚ, Coll.key a b c ≤ Coll.key a' b' c' → a ≤ a' := by
      intro a b c a' b' c' h
      rcases Prod.Lex.toLex_le_toLex.1 h with h | h
      · exact le_of_lt h
      · exact le_of_eq h.1
    constructor
    · rintro (rfl | rfl) <;>
        exact (sortBy_pairwise (fun e : St => Coll.key e.bbox.x0 e.bbox.y0 e.bbox.x1) l).imp fun h => fst_le _ _ _ _ _ _ h
    · rintro (rfl | rfl) <;>
        exact (sortBy_pairwise (fun e : St => Coll.key e.bbox.y0 e.bbox.x0 e.bbox.x1) l).imp fun h => fst_le _ _ _ _ _ _ h
  rw [checkOuter_eq] at he
  dsimp only at he
  rw [if_neg (not_lt.2 hw), List.map_map] at he
  obtain ⟨e', _, rfl⟩ := List.mem_map.1 he
  have h1 : e'.1 = outermost s d := by
    by_contra hne
    simp only [Function.comp, hne, if_false] at hk
  simp only [Function.comp, h1, if_true]
  exact hsort _

example : let d : Dict St := [(0, [hst 60 100 0 1, hst 0 20 0 1]), (100, [hst 0 100 100 1])]
    |(frame ⟨0, 0, 100, 100⟩ .top).1 - outermost .top d| ≤ 6 ∧
    ((checkOuter ⟨0, 0, 100, 100⟩ .top 6 d).map fun e => e.2.map fun t => (t.x0, t.x1)) = [[(0, 20), (41 / 2, 119 / 2), (60, 100)], [(0, 100)]] := by
  decide +kernel

end Props
