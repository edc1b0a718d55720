import Verif.Spec.RuledGrid
import Verif.Props.RuledPage
/-! # C91: a full grid and other lines on a page -/

namespace Props
open Py Geom Table Spec Sweep Graph Lattice

section
variable {X Y : ℕ → ℚ} {r k : ℕ} {W gap d : ℚ}

/-- Box of horizontal line `i` of the grid. -/
def rowBox (X Y : ℕ → ℚ) (k : ℕ) (W : ℚ) (i : ℕ) : Rect := ⟨X 0 - W / 2, Y i - W / 2, X k + W / 2, Y i + W / 2⟩

/-- Box of vertical line `j` of the grid. -/
def colBox (X Y : ℕ → ℚ) (r : ℕ) (W : ℚ) (j : ℕ) : Rect := ⟨X j - W / 2, Y 0 - W / 2, X j + W / 2, Y r + W / 2⟩

theorem rg_ten {x : ℚ} (h : ∃ m : ℤ, x = m / 10) : round1 x = x := by
  obtain ⟨m, rfl⟩ := h
  exact round1_tenths m

theorem rg_add {x y : ℚ} (h : ∃ m : ℤ, x = m / 10) (h' : ∃ m : ℤ, y = m / 10) : ∃ m : ℤ, x + y = m / 10 := by
  obtain ⟨m, rfl⟩ := h
  obtain ⟨n, rfl⟩ := h'
  exact ⟨m + n, by push_cast; ring⟩

theorem rg_neg {x : ℚ} (h : ∃ m : ℤ, x = m / 10) : ∃ m : ℤ, -x = m / 10 := by
  obtain ⟨m, rfl⟩ := h
  exact ⟨-m, by push_cast; ring⟩

theorem rg_row (hg : Grid X Y r k W gap) (i : ℕ) (hi : i ≤ r) : (Seg.stroke X Y ⟨true, W, i, 0, k⟩).bbox = rowBox X Y k W i := by
  simp only [Seg.stroke, if_true, rowSegment, Rect.round, rowBox]
  rw [rg_ten (rg_add (hg.tenX 0 (by omega)) (rg_neg hg.tenW)), rg_ten (rg_add (hg.tenY i hi) (rg_neg hg.tenW)), rg_ten (rg_add (hg.tenX k (le_refl _)) hg.tenW),
    rg_ten (rg_add (hg.tenY i hi) hg.tenW)]
  simp only [sub_eq_add_neg]

theorem rg_col (hg : Grid X Y r k W gap) (j : ℕ) (hj : j ≤ k) : (Seg.stroke X Y ⟨false, W, j, 0, r⟩).bbox = colBox X Y r W j := by
  simp only [Seg.stroke, Bool.false_eq_true, if_false, colSegment, Rect.round, colBox]
  rw [rg_ten (rg_add (hg.tenX j hj) (rg_neg hg.tenW)), rg_ten (rg_add (hg.tenY 0 (by omega)) (rg_neg hg.tenW)), rg_ten (rg_add (hg.tenX j hj) hg.tenW),
    rg_ten (rg_add (hg.tenY r (le_refl _)) hg.tenW)]
  simp only [sub_eq_add_neg]

theorem rg_mem (s : St) : s ∈ gridStrokes X Y r k W ↔ (∃ i ≤ r, s = Seg.stroke X Y ⟨true, W, i, 0, k⟩) ∨ ∃ j ≤ k, s = Seg.stroke X Y ⟨false, W, j, 0, r⟩ := by
  unfold gridStrokes gridSegs
  simp only [List.mem_map, List.mem_append, List.mem_range]
  constructor
  · rintro ⟨g, ⟨i, hi, rfl⟩ | ⟨i, hi, rfl⟩, rfl⟩
    · exact Or.inl ⟨i, by omega, rfl⟩
    · exact Or.inr ⟨i, by omega, rfl⟩
  · rintro (⟨i, hi, rfl⟩ | ⟨i, hi, rfl⟩)
    · exact ⟨_, Or.inl ⟨i, by omega, rfl⟩, rfl⟩
    · exact ⟨_, Or.inr ⟨i, by omega, rfl⟩, rfl⟩

theorem rg_draws (hg : Grid X Y r k W gap) : DrawsCells r k unitCell (gridSegs r k W) := by
  have hr := hg.rows
  have hk := hg.cols
  have mem : ∀ g, g ∈ gridSegs r k W ↔ (∃ i, i ≤ r ∧ g = ⟨true, W, i, 0, k⟩) ∨ ∃ j, j ≤ k ∧ g = ⟨false, W, j, 0, r⟩ := by
    intro g
    unfold gridSegs
    simp only [List.mem_map, List.mem_append, List.mem_range, Nat.lt_succ_iff, ← Nat.succ_eq_add_one]
    simp only [eq_comm]
  constructor
  · exact hr
  · exact hk
  · intro g h
    obtain ⟨i, hi, rfl⟩ | ⟨j, hj, rfl⟩ := (mem g).1 h
    · exact ⟨by dsimp only; omega, fun _ => ⟨hi, le_refl _⟩, fun h => by simp at h⟩
    · exact ⟨by dsimp only; omega, fun h => by simp at h, fun _ => ⟨hj, le_refl _⟩⟩
  · intro i hi j hj
    exact ⟨fun _ => rfl, fun _ => ⟨⟨true, W, i, 0, k⟩, (mem _).2 (Or.inl ⟨i, by omega, rfl⟩), rfl, rfl, by simp, hj⟩⟩
  · intro i hi j hj
    exact ⟨fun _ => rfl, fun _ => ⟨⟨false, W, j, 0, r⟩, (mem _).2 (Or.inr ⟨j, by omega, rfl⟩), rfl, rfl, by simp, hi⟩⟩
  · intro j hj
    exact ⟨⟨true, W, r, 0, k⟩, (mem _).2 (Or.inl ⟨r, by omega, rfl⟩), rfl, rfl, by simp, hj⟩
  · intro i hi
    exact ⟨⟨false, W, k, 0, r⟩, (mem _).2 (Or.inr ⟨k, by omega, rfl⟩), rfl, rfl, by simp, hi⟩
  · intro i hi
    exact ⟨0, by omega, rfl⟩
  · intro j hj
    exact ⟨0, by omega, rfl⟩

theorem rg_division : Division r k unitCell := by
  constructor
  · intro i _ j _
    simp [unitCell, GRect.Has]
  · intro i hi j hj
    simp only [unitCell]
    omega
  · intro i _ j _ i' j' h
    simp only [unitCell, GRect.Has] at h ⊢
    obtain ⟨h1, h2, h3, h4⟩ := h
    have e1 : i' = i := by omega
    have e2 : j' = j := by omega
    rw [e1, e2]

/-- `Ruled` only depends on which strokes there are. -/
theorem rg_ruled_congr {δ e : ℚ} {cell : ℕ → ℕ → GRect} {l l' : List St} (h : ∀ s, s ∈ l' ↔ s ∈ l) (hr : Ruled δ e gap X Y r k cell l) : Ruled δ e gap X Y r k cell l' := by
  obtain ⟨h1, h2, h3, h4, h5, h6, h7, h8, h9, h10, h11⟩ := hr
  constructor
  · exact h1
  · exact h2
  · exact h3
  · exact h4
  · simpa only [h] using h5
  · simpa only [h] using h6
  · simpa only [h] using h7
  · simpa only [h] using h8
  · simpa only [h] using h9
  · exact h10
  · exact h11

/-- The table of the stroke at a position. -/
def gridOwn (grid strokes : List St) (i : ℕ) : Option ℕ := if strokes[i]?.elim false (fun s => decide (s ∈ grid)) then some 0 else none

theorem rg_own (grid strokes : List St) (i t : ℕ) : gridOwn grid strokes i = some t ↔ t = 0 ∧ ∃ s ∈ grid, strokes[i]? = some s := by
  unfold gridOwn
  cases h : strokes[i]? with
  | none => simp
  | some s =>
    by_cases hs : s ∈ grid
    · simp [hs, eq_comm]
    · simp [hs]

theorem rg_own_none (grid strokes : List St) (i : ℕ) (s : St) (h : strokes[i]? = some s) : gridOwn grid strokes i = none ↔ s ∉ grid := by
  unfold gridOwn
  rw [h]
  by_cases hs : s ∈ grid <;> simp [hs]

theorem rg_gap (hg : Grid X Y r k W gap) (h0 : 0 ≤ gap) (i j : ℕ) (h : i < j) (hj : j ≤ k) : X i + gap < X j := rl_gap X k gap h0 hg.gapX i j h hj
theorem rg_gapY (hg : Grid X Y r k W gap) (h0 : 0 ≤ gap) (i j : ℕ) (h : i < j) (hj : j ≤ r) : Y i + gap < Y j := rl_gap Y r gap h0 hg.gapY i j h hj
theorem rg_leX (hg : Grid X Y r k W gap) (h0 : 0 ≤ gap) (i j : ℕ) (h : i ≤ j) (hj : j ≤ k) : X i ≤ X j := by
  rcases Nat.eq_or_lt_of_le h with rfl | h
  · exact le_refl _
  · linarith [rg_gap hg h0 i j h hj]
theorem rg_leY (hg : Grid X Y r k W gap) (h0 : 0 ≤ gap) (i j : ℕ) (h : i ≤ j) (hj : j ≤ r) : Y i ≤ Y j := by
  rcases Nat.eq_or_lt_of_le h with rfl | h
  · exact le_refl _
  · linarith [rg_gapY hg h0 i j h hj]

theorem rg_row_proper (hg : Grid X Y r k W gap) (h0 : 0 ≤ gap) (i : ℕ) (hi : i ≤ r) : Proper (rowBox X Y k W i) ∧ Tenths (rowBox X Y k W i) := by
  have := hg.width
  have := rg_leX hg h0 0 k (by omega) (le_refl _)
  refine ⟨⟨by simp only [rowBox]; linarith, by simp only [rowBox]; linarith⟩, (tenths_iff _).2 ?_⟩
  rw [← rg_row hg i hi]
  simp [Seg.stroke, rowSegment, Rect.round]

theorem rg_col_proper (hg : Grid X Y r k W gap) (h0 : 0 ≤ gap) (j : ℕ) (hj : j ≤ k) : Proper (colBox X Y r W j) ∧ Tenths (colBox X Y r W j) := by
  have := hg.width
  have := rg_leY hg h0 0 r (by omega) (le_refl _)
  refine ⟨⟨by simp only [colBox]; linarith, by simp only [colBox]; linarith⟩, (tenths_iff _).2 ?_⟩
  rw [← rg_col hg j hj]
  simp [Seg.stroke, colSegment, Rect.round]

theorem rg_near_self {d : ℚ} (hd : 0 ≤ d) {a : Rect} (h : Proper a) : Near d d a a := by
  obtain ⟨h1, h2⟩ := h
  exact ⟨by linarith, by linarith, by linarith, by linarith⟩

theorem rg_near_symm {d : ℚ} {a b : Rect} (h : Near d d a b) : Near d d b a := ⟨h.2.1, h.1, h.2.2.2, h.2.2.1⟩

/-- The segments of a grid are different strokes. -/
theorem rg_inj (hg : Grid X Y r k W gap) (h0 : 1 / 1000 ≤ gap) (g h : Seg) (hg' : g ∈ gridSegs r k W) (hh' : h ∈ gridSegs r k W) (e : Seg.stroke X Y g = Seg.stroke X Y h) : g = h := by
  have hd := rg_draws hg
  have tX : ∀ j ≤ k, round1 (X j) = X j := fun j hj => rg_ten (hg.tenX j hj)
  have tY : ∀ j ≤ r, round1 (Y j) = Y j := fun j hj => rg_ten (hg.tenY j hj)
  have hw : ∀ g ∈ gridSegs r k W, g.width = W := by
    intro g hg
    unfold gridSegs at hg
    simp only [List.mem_map, List.mem_append, List.mem_range] at hg
    obtain ⟨_, _, rfl⟩ | ⟨_, _, rfl⟩ := hg <;> rfl
  have wpos := hg.width
  have k1 := fun i a b => rl_seg W gap h0 hg.gapX hg.gapY tX tY g ⟨by rw [hw g hg']; linarith, by rw [hw g hg']⟩ (hd.each g hg') i a b
  have k2 := fun i a b => rl_seg W gap h0 hg.gapX hg.gapY tX tY h ⟨by rw [hw h hh']; linarith, by rw [hw h hh']⟩ (hd.each h hh') i a b
  have w1 := hw g hg'
  have w2 := hw h hh'
  cases hh : g.hor
  · have := (k1 g.line g.a g.b).2.2 ⟨hh, rfl, rfl, rfl⟩
    rw [e] at this
    obtain ⟨e1, e2, e3, e4⟩ := (k2 _ _ _).2.1 this
    obtain ⟨_, _, _, _, _⟩ := g
    obtain ⟨_, _, _, _, _⟩ := h
    simp only at *
    subst_vars
    rfl
  · have := (k1 g.line g.a g.b).1.2 ⟨hh, rfl, rfl, rfl⟩
    rw [e] at this
    obtain ⟨e1, e2, e3, e4⟩ := (k2 _ _ _).1.1 this
    obtain ⟨_, _, _, _, _⟩ := g
    obtain ⟨_, _, _, _, _⟩ := h
    simp only at *
    subst_vars
    rfl

theorem rg_nodup (hg : Grid X Y r k W gap) (h0 : 1 / 1000 ≤ gap) : (gridStrokes X Y r k W).Nodup := by
  unfold gridStrokes
  refine List.Nodup.map_on (fun g hg' h hh e => rg_inj hg h0 g h hg' hh e) ?_
  unfold gridSegs
  rw [List.nodup_append]
  refine ⟨List.Nodup.map (fun a b h => by simpa using h) List.nodup_range, List.Nodup.map (fun a b h => by simpa using h) List.nodup_range, ?_⟩
  intro a ha b hb e
  obtain ⟨_, _, rfl⟩ := List.mem_map.1 ha
  obtain ⟨_, _, rfl⟩ := List.mem_map.1 hb
  simp at e

theorem rg_filter (p : ℕ → Bool) (strokes : List St) (q : St → Bool) (h : ∀ i s, strokes[i]? = some s → p i = q s) : strokesAt p strokes = strokes.filter q := by
  unfold strokesAt
  induction strokes using List.reverseRecOn with
  | nil => simp
  | append_singleton l a ih =>
    rw [List.length_append, List.length_singleton, List.range_succ, List.filter_append, List.filterMap_append, List.filter_append]
    have e1 : ((List.range l.length).filter p).filterMap ((l ++ [a])[·]?) = ((List.range l.length).filter p).filterMap (l[·]?) := by
      refine List.filterMap_congr ?_
      intro i hi
      exact List.getElem?_append_left (List.mem_range.1 (List.mem_filter.1 hi).1)
    rw [e1, ih (by intro i s hs; exact h i s (by rw [List.getElem?_append_left (List.getElem?_eq_some_iff.1 hs).1]; exact hs))]
    have hl := h l.length a (by simp)
    by_cases hp : p l.length = true
    · rw [List.filter_cons_of_pos (by exact hp), List.filter_cons_of_pos (by rw [← hl]; exact hp)]
      simp
    · rw [List.filter_cons_of_neg (by exact hp), List.filter_cons_of_neg (by rw [← hl]; exact hp)]
      simp

/-- The page drawn. -/
theorem rg_page (hg : Grid X Y r k W gap) {w : ℚ} (hd : 0 ≤ d) (hgap : W + 2 * d ≤ gap) (hwg : w + 1 / 20 ≤ gap) (h0 : 1 / 1000 ≤ gap) {strokes others : List St}
    (hp : strokes.Perm (gridStrokes X Y r k W ++ others)) (ho : OtherLines d X Y r k W others) :
    DrawnPage d w 0 (W / 2 + 1 / 20) gap strokes (gridOwn (gridStrokes X Y r k W) strokes) (fun i => decide (strokes[i]? = some (Seg.stroke X Y ⟨false, W, 0, 0, r⟩))) 1
      (fun _ => ⟨X, Y, r, k, unitCell⟩) (fun _ => gridFrame X Y r k W) ∧
    OnePerLine 0 (W / 2 + 1 / 20) X Y r k (strokesOf (gridOwn (gridStrokes X Y r k W) strokes) 0 strokes) := by
  have hW := hg.width
  have hr := hg.rows
  have hk := hg.cols
  have h0' : 0 ≤ gap := by linarith
  have tX : ∀ j ≤ k, round1 (X j) = X j := fun j hj => rg_ten (hg.tenX j hj)
  have tY : ∀ j ≤ r, round1 (Y j) = Y j := fun j hj => rg_ten (hg.tenY j hj)
  have hww : ∀ g ∈ gridSegs r k W, 0 ≤ g.width ∧ g.width ≤ W := by
    intro g hg
    unfold gridSegs at hg
    simp only [List.mem_map, List.mem_append, List.mem_range] at hg
    obtain ⟨_, _, rfl⟩ | ⟨_, _, rfl⟩ := hg
    · exact ⟨by dsimp only; linarith, le_refl _⟩
    · exact ⟨by dsimp only; linarith, le_refl _⟩
  have gridProper : ∀ s ∈ gridStrokes X Y r k W, Proper s.bbox ∧ Tenths s.bbox := by
    intro s hs
    obtain ⟨i, hi, rfl⟩ | ⟨j, hj, rfl⟩ := (rg_mem s).1 hs
    · rw [rg_row hg i hi]; exact rg_row_proper hg h0' i hi
    · rw [rg_col hg j hj]; exact rg_col_proper hg h0' j hj
  have memS : ∀ s, s ∈ strokes ↔ s ∈ gridStrokes X Y r k W ∨ s ∈ others := fun s => by rw [hp.mem_iff, List.mem_append]
  have othNot : ∀ o ∈ others, o ∉ gridStrokes X Y r k W := fun o h1 h2 => ho.away o h1 o h2 (rg_near_self hd (ho.proper o h1).1)
  have othNd : others.Nodup := by
    refine List.Pairwise.imp_of_mem ?_ ho.apart
    rintro a b ha hb h rfl
    exact h (rg_near_self hd (ho.proper a ha).1)
  have hnd : strokes.Nodup := by
    rw [hp.nodup_iff, List.nodup_append]
    exact ⟨rg_nodup hg h0, othNd, fun a ha b hb e => othNot b hb (e ▸ ha)⟩
  have posInj : ∀ (i j : ℕ) (s : St), strokes[i]? = some s → strokes[j]? = some s → i = j := by
    intro i j s h1 h2
    obtain ⟨l1, e1⟩ := List.getElem?_eq_some_iff.1 h1
    obtain ⟨l2, e2⟩ := List.getElem?_eq_some_iff.1 h2
    exact (List.Nodup.getElem_inj_iff hnd).1 (e1.trans e2.symm)
  have memOf : ∀ s, s ∈ strokesOf (gridOwn (gridStrokes X Y r k W) strokes) 0 strokes ↔ s ∈ gridStrokes X Y r k W := by
    intro s
    rw [rp_mem_of]
    constructor
    · rintro ⟨i, h1, h2⟩
      obtain ⟨_, s', hs', e⟩ := (rg_own _ _ _ _).1 h2
      rw [h1] at e
      rw [Option.some.inj e]
      exact hs'
    · intro hs
      obtain ⟨i, hi⟩ := List.mem_iff_getElem?.1 ((memS s).2 (Or.inl hs))
      exact ⟨i, hi, (rg_own _ _ _ _).2 ⟨rfl, s, hs, hi⟩⟩
  have apartAll : ∀ a ∈ strokes, ∀ b ∈ others, a ≠ b → ¬ Near d d a.bbox b.bbox := by
    intro a ha b hb hne
    rcases (memS a).1 ha with h | h
    · exact ho.away b hb a h
    · haveI : Std.Symm fun o p : St => ¬ Near d d o.bbox p.bbox := ⟨fun a b h h' => h (rg_near_symm h')⟩
      exact ho.apart.forall h hb hne
  have hook : ∀ ia ib i j : ℕ, i ≤ r → 1 ≤ j → j ≤ k → strokes[ia]? = some (Seg.stroke X Y ⟨true, W, i, 0, k⟩) → strokes[ib]? = some (Seg.stroke X Y ⟨false, W, j, 0, r⟩) →
      Hook d strokes ia ib := by
    intro ia ib i j hi h1 hj ha hb
    have g0 := rg_gap hg h0' 0 j (by omega) hj
    have g1 := rg_leX hg h0' j k hj (le_refl _)
    have g2 := rg_leY hg h0' 0 i (by omega) hi
    have g3 := rg_leY hg h0' i r hi (le_refl _)
    refine ⟨_, _, ha, hb, ?_, ?_, ?_⟩
    · rw [rg_row hg i hi, rg_col hg j hj]
      simp only [rowBox, colBox]
      linarith
    · rw [rg_row hg i hi, rg_col hg j hj]
      simp only [rowBox, colBox, Overlap]
      exact ⟨by linarith, by linarith, by linarith, by linarith⟩
    · intro q hq m s hm hs
      rw [List.getElem?_map, hb, Option.map_some, Option.some.injEq, rg_col hg j hj] at hq
      subst hq
      rw [List.getElem?_map, Option.map_eq_some_iff] at hs
      obtain ⟨s, hs, rfl⟩ := hs
      have hne : m ≠ ib := by omega
      rcases (memS s).1 (List.mem_of_getElem? hs) with h | h
      · obtain ⟨i', hi', rfl⟩ | ⟨j', hj', rfl⟩ := (rg_mem s).1 h
        · rw [rg_row hg i' hi']
          simp only [rowBox, colBox]
          exact ⟨by intro e; linarith, by intro e; linarith⟩
        · rw [rg_col hg j' hj']
          simp only [colBox]
          rcases lt_trichotomy j' j with hlt | rfl | hlt
          · have := rg_gap hg h0' j' j hlt hj
            exact ⟨by intro e; linarith, by intro e; linarith⟩
          · exact absurd (posInj _ _ _ hs hb) hne
          · have := rg_gap hg h0' j j' hlt hj'
            exact ⟨by intro e; linarith, by intro e; linarith⟩
      · obtain ⟨e1, e2⟩ := ho.ends s h j h1 hj
        simp only [colBox]
        exact ⟨by intro e; exact e1 (by linarith), by intro e; exact e2 (by linarith)⟩
  have v0in : Seg.stroke X Y ⟨false, W, 0, 0, r⟩ ∈ gridStrokes X Y r k W := (rg_mem _).2 (Or.inr ⟨0, by omega, rfl⟩)
  have v1in : Seg.stroke X Y ⟨false, W, 1, 0, r⟩ ∈ gridStrokes X Y r k W := (rg_mem _).2 (Or.inr ⟨1, by omega, rfl⟩)
  have r0in : Seg.stroke X Y ⟨true, W, 0, 0, k⟩ ∈ gridStrokes X Y r k W := (rg_mem _).2 (Or.inl ⟨0, by omega, rfl⟩)
  obtain ⟨p1, hp1⟩ := List.mem_iff_getElem?.1 ((memS _).2 (Or.inl v1in))
  obtain ⟨p0, hp0⟩ := List.mem_iff_getElem?.1 ((memS _).2 (Or.inl r0in))
  have lp1 := (List.getElem?_eq_some_iff.1 hp1).1
  have lp0 := (List.getElem?_eq_some_iff.1 hp0).1
  have link1 : ∀ i t : ℕ, i < strokes.length → gridOwn (gridStrokes X Y r k W) strokes i = some t → decide (strokes[i]? = some (Seg.stroke X Y ⟨false, W, 0, 0, r⟩)) = false →
      Linked strokes.length (Hook d strokes) i p1 := by
    intro i t hi hio hil
    obtain ⟨rfl, s, hs, his⟩ := (rg_own _ _ _ _).1 hio
    obtain ⟨a, ha, rfl⟩ | ⟨j, hj, rfl⟩ := (rg_mem s).1 hs
    · exact Relation.ReflTransGen.single ⟨hi, lp1, Or.inl (hook _ _ a 1 ha (le_refl _) (by omega) his hp1)⟩
    · have hj1 : 1 ≤ j := by
        by_contra hc
        have : j = 0 := by omega
        subst this
        exact absurd his (by simpa using hil)
      exact (Relation.ReflTransGen.single ⟨hi, lp0, Or.inr (hook _ _ 0 j (by omega) hj1 hj hp0 his)⟩).tail
        ⟨lp0, lp1, Or.inl (hook _ _ 0 1 (by omega) (le_refl _) (by omega) hp0 hp1)⟩
  have linkSymm : ∀ i j, Linked strokes.length (Hook d strokes) i j → Linked strokes.length (Hook d strokes) j i := by
    intro i j h
    unfold Linked at h ⊢
    induction h with
    | refl => exact Relation.ReflTransGen.refl
    | tail _ h ih => exact Relation.ReflTransGen.head ⟨h.2.1, h.1, h.2.2.symm⟩ ih
  have key := fun g (hg' : g ∈ gridSegs r k W) i a b => rl_seg W gap h0 hg.gapX hg.gapY tX tY g (hww g hg') ((rg_draws hg).each g hg') i a b
  have cover : ∀ s ∈ gridStrokes X Y r k W, Covers (gridFrame X Y r k W) s.bbox := by
    intro s hs
    obtain ⟨i, hi, rfl⟩ | ⟨j, hj, rfl⟩ := (rg_mem s).1 hs
    · rw [rg_row hg i hi]
      have g2 := rg_leY hg h0' 0 i (by omega) hi
      have g3 := rg_leY hg h0' i r hi (le_refl _)
      exact ⟨le_refl _, by simp only [gridFrame, rowBox]; linarith, le_refl _, by simp only [gridFrame, rowBox]; linarith⟩
    · rw [rg_col hg j hj]
      have g2 := rg_leX hg h0' 0 j (by omega) hj
      have g3 := rg_leX hg h0' j k hj (le_refl _)
      exact ⟨by simp only [gridFrame, colBox]; linarith, le_refl _, by simp only [gridFrame, colBox]; linarith, le_refl _⟩
  refine ⟨⟨?_, hd, ?_, ?_, ?_, ?_, ?_, ?_, ?_, ?_, ?_⟩, ?_⟩
  · intro s hs
    rcases (memS s).1 hs with h | h
    · exact gridProper s h
    · exact ho.proper s h
  · intro i t h
    rw [((rg_own _ _ _ _).1 h).1]
    omega
  · intro t _
    exact rg_division
  · intro t ht
    obtain rfl : t = 0 := by omega
    exact rg_ruled_congr memOf (rl_ruled W gap h0 hg.gapX hg.gapY tX tY unitCell _ hww (rg_draws hg)).1
  · intro i j a b hij hi hj hown
    have hne : a ≠ b := by
      rintro rfl
      exact hij (posInj _ _ _ hi hj)
    have ha := List.mem_of_getElem? hi
    have hb := List.mem_of_getElem? hj
    by_cases h1 : a ∈ gridStrokes X Y r k W
    · by_cases h2 : b ∈ gridStrokes X Y r k W
      · exfalso
        have e1 := (rg_own (gridStrokes X Y r k W) strokes i 0).2 ⟨rfl, a, h1, hi⟩
        have e2 := (rg_own (gridStrokes X Y r k W) strokes j 0).2 ⟨rfl, b, h2, hj⟩
        rw [e1, e2] at hown
        simp at hown
      · exact apartAll a ha b (((memS b).1 hb).resolve_left h2) hne
    · intro h
      exact apartAll b hb a (((memS a).1 ha).resolve_left h1) hne.symm (rg_near_symm h)
  · intro i j t hi hj hoi hoj hli hlj
    exact (link1 i t hi hoi hli).trans (linkSymm _ _ (link1 j t hj hoj hlj))
  · intro i t s hs hio hil
    obtain ⟨rfl, _⟩ := (rg_own _ _ _ _).1 hio
    have hs0 : s = Seg.stroke X Y ⟨false, W, 0, 0, r⟩ := by
      have := of_decide_eq_true hil
      rw [hs] at this
      exact Option.some.inj this
    subst hs0
    have hseg : (⟨false, W, 0, 0, r⟩ : Seg) ∈ gridSegs r k W := by
      unfold gridSegs
      exact List.mem_append_right _ (List.mem_map.2 ⟨0, List.mem_range.2 (by omega), rfl⟩)
    refine ⟨⟨0, r, (key _ hseg 0 0 r).2.2 ⟨rfl, rfl, rfl, rfl⟩⟩, by linarith, cover _ v0in, ?_, ?_⟩
    · rw [rg_col hg 0 (by omega)]
      rintro ⟨_, _, h, _⟩
      simp only [gridFrame, colBox] at h
      linarith [rg_gap hg h0' 0 k (by omega) (le_refl _)]
    · intro j s' a b hj hjo hon
      obtain ⟨_, s'', hs'', e⟩ := (rg_own _ _ _ _).1 hjo
      rw [hj] at e
      obtain rfl := Option.some.inj e
      obtain ⟨g, hgm, rfl⟩ := List.mem_map.1 hs''
      obtain ⟨e1, e2, e3, e4⟩ := (key g hgm 0 a b).2.1 hon
      have : g = ⟨false, W, 0, 0, r⟩ := by
        unfold gridSegs at hgm
        simp only [List.mem_append, List.mem_map, List.mem_range] at hgm
        obtain ⟨i', _, rfl⟩ | ⟨i', _, rfl⟩ := hgm
        · simp at e1
        · simp only at e2
          rw [← e2]
      rw [this] at hj
      exact posInj _ _ _ hj hs
  · intro t ht
    obtain rfl : t = 0 := by omega
    have mem' : ∀ s, s ∈ strokesAt (fun i => decide (gridOwn (gridStrokes X Y r k W) strokes i = some 0) && !decide (strokes[i]? = some (Seg.stroke X Y ⟨false, W, 0, 0, r⟩))) strokes ↔
        s ∈ gridStrokes X Y r k W ∧ s ≠ Seg.stroke X Y ⟨false, W, 0, 0, r⟩ := by
      intro s
      rw [rp_mem_at]
      constructor
      · rintro ⟨i, h1, h2⟩
        simp only [Bool.and_eq_true, decide_eq_true_eq, Bool.not_eq_true', decide_eq_false_iff_not] at h2
        refine ⟨(memOf s).1 ((rp_mem_of _ _ _ _).2 ⟨i, h1, h2.1⟩), fun e => h2.2 (e ▸ h1)⟩
      · rintro ⟨h1, h2⟩
        obtain ⟨i, hi, hio⟩ := (rp_mem_of _ _ _ _).1 ((memOf s).2 h1)
        refine ⟨i, hi, ?_⟩
        simp only [Bool.and_eq_true, decide_eq_true_eq, Bool.not_eq_true', decide_eq_false_iff_not]
        exact ⟨hio, fun e => h2 (Option.some.inj (hi.symm.trans e))⟩
    constructor
    · intro q hq
      obtain ⟨s, hs, rfl⟩ := List.mem_map.1 hq
      exact cover s ((mem' s).1 hs).1
    · intro h hc
      have ne : ∀ i ≤ r, Seg.stroke X Y ⟨true, W, i, 0, k⟩ ≠ Seg.stroke X Y ⟨false, W, 0, 0, r⟩ := by
        intro i hi e
        have := rg_inj hg h0 _ _ (by unfold gridSegs; exact List.mem_append_left _ (List.mem_map.2 ⟨i, List.mem_range.2 (by omega), rfl⟩))
          (by unfold gridSegs; exact List.mem_append_right _ (List.mem_map.2 ⟨0, List.mem_range.2 (by omega), rfl⟩)) e
        simp at this
      have c0 := hc (rowBox X Y k W 0) (List.mem_map.2 ⟨_, (mem' _).2 ⟨r0in, ne 0 (by omega)⟩, rg_row hg 0 (by omega)⟩)
      have c1 := hc (rowBox X Y k W r) (List.mem_map.2 ⟨_, (mem' _).2 ⟨(rg_mem _).2 (Or.inl ⟨r, le_refl _, rfl⟩), ne r (le_refl _)⟩, rg_row hg r (le_refl _)⟩)
      exact ⟨c0.1, c0.2.1, c0.2.2.1, c1.2.2.2⟩
  · intro t ht u hu hne
    omega
  · intro i s t hs hio _
    have hnot := (rg_own_none _ _ _ _ hs).1 hio
    exact ho.place s (((memS s).1 (List.mem_of_getElem? hs)).resolve_left hnot)
  · have e : strokesOf (gridOwn (gridStrokes X Y r k W) strokes) 0 strokes = strokes.filter fun s => decide (s ∈ gridStrokes X Y r k W) := by
      refine rg_filter _ _ _ ?_
      intro i s hs
      rw [decide_eq_decide, rg_own]
      constructor
      · rintro ⟨_, s', hs', e⟩
        rw [hs] at e
        rw [Option.some.inj e]
        exact hs'
      · intro h
        exact ⟨rfl, s, h, hs⟩
    have hnd' : (strokesOf (gridOwn (gridStrokes X Y r k W) strokes) 0 strokes).Nodup := by
      rw [e]
      exact hnd.filter _
    constructor
    · refine List.Pairwise.imp_of_mem ?_ hnd'
      intro s t hs ht hne i a b a' b' _ _ ⟨h1, h2⟩
      obtain ⟨g, hgm, rfl⟩ := List.mem_map.1 ((memOf s).1 hs)
      obtain ⟨g', hgm', rfl⟩ := List.mem_map.1 ((memOf t).1 ht)
      obtain ⟨e1, e2, e3, e4⟩ := (key g hgm i a b).1.1 h1
      obtain ⟨f1, f2, f3, f4⟩ := (key g' hgm' i a' b').1.1 h2
      refine hne (congrArg _ ?_)
      unfold gridSegs at hgm hgm'
      simp only [List.mem_append, List.mem_map, List.mem_range] at hgm hgm'
      obtain ⟨i1, _, rfl⟩ | ⟨i1, _, rfl⟩ := hgm
      · obtain ⟨i2, _, rfl⟩ | ⟨i2, _, rfl⟩ := hgm'
        · simp only at e2 f2
          rw [← e2, ← f2]
        · simp at f1
      · simp at e1
    · refine List.Pairwise.imp_of_mem ?_ hnd'
      intro s t hs ht hne i a b a' b' _ _ ⟨h1, h2⟩
      obtain ⟨g, hgm, rfl⟩ := List.mem_map.1 ((memOf s).1 hs)
      obtain ⟨g', hgm', rfl⟩ := List.mem_map.1 ((memOf t).1 ht)
      obtain ⟨e1, e2, e3, e4⟩ := (key g hgm i a b).2.1 h1
      obtain ⟨f1, f2, f3, f4⟩ := (key g' hgm' i a' b').2.1 h2
      refine hne (congrArg _ ?_)
      unfold gridSegs at hgm hgm'
      simp only [List.mem_append, List.mem_map, List.mem_range] at hgm hgm'
      obtain ⟨i1, _, rfl⟩ | ⟨i1, _, rfl⟩ := hgm
      · simp at e1
      · obtain ⟨i2, _, rfl⟩ | ⟨i2, _, rfl⟩ := hgm'
        · simp at f1
        · simp only at e2 f2
          rw [← e2, ← f2]

/-- **C91** (partial: a full grid with one stroke per line). A page with a grid of lines, in any order among other lines (away from the grid's lines, beside the grid or within its cells, with
no end exactly at the start of a vertical line of the grid): one table is found, with exactly the squares of the grid as cells. -/
theorem C91_grid_partial (iter : List ℕ → List ℕ) (hi : ∀ l, (iter l).Perm l) (d c w : ℚ) (hd : 0 ≤ d) (hc : 0 ≤ c) (hw : 1 / 20 ≤ w) (hg : Grid X Y r k W gap)
    (hgd : W + 2 * d ≤ gap) (hgw : w + 1 / 20 ≤ gap) (hgc : c ≤ gap) (hgW : W + 3 / 10 ≤ gap) (strokes others : List St)
    (hp : strokes.Perm (gridStrokes X Y r k W ++ others)) (ho : OtherLines d X Y r k W others) :
    ∃ table, Lattice.tables iter d c w strokes = .ok [table] ∧ ShowsCells (1 / 20) X Y r k unitCell table := by
  have hW := hg.width
  obtain ⟨h1, h2⟩ := rg_page (w := w) hg hd hgd hgw (by linarith) hp ho
  obtain ⟨order, ts, ho1, ho2, ho3⟩ := C91_page_partial iter hi c ⟨le_refl _, by linarith, by linarith, by linarith, by linarith, by linarith⟩ h1 (by
    intro t ht
    obtain rfl : t = 0 := by omega
    exact h2)
  have : order = [0] := by simpa using ho1
  subst this
  obtain ⟨table, rest, hh, ht, rfl⟩ := List.forall₂_cons_left_iff.1 ho3
  obtain rfl := List.forall₂_nil_left_iff.1 ht
  exact ⟨table, ho2, by simpa using hh⟩

end

/-- Non-vacuity: a 2 × 3 grid, an underline above it and one within a cell. -/
example : Grid (fun j => 100 + 50 * j) (fun i => 100 + 20 * i) 2 3 1 7 ∧
    OtherLines (1 / 2) (fun j => 100 + 50 * j) (fun i => 100 + 20 * i) 2 3 1 [hst 10 60 20 1, hst 110 140 115 1] := by
  refine ⟨⟨by omega, by omega, ?_, ?_, ?_, ?_, by norm_num, ⟨5, by norm_num⟩⟩, ⟨?_, ?_, by decide +kernel, ?_, ?_⟩⟩
  · intro j _; push_cast; linarith
  · intro j _; push_cast; linarith
  · intro j _; exact ⟨1000 + 500 * j, by push_cast; ring⟩
  · intro j _; exact ⟨1000 + 200 * j, by push_cast; ring⟩
  · intro o ho
    rw [tenths_iff]
    simp only [List.mem_cons, List.not_mem_nil, or_false] at ho
    rcases ho with rfl | rfl <;> exact ⟨by decide +kernel, by decide +kernel⟩
  · decide +kernel
  · unfold BoxBeside; decide +kernel
  · intro o ho j h1 h3
    simp only [List.mem_cons, List.not_mem_nil, or_false] at ho
    interval_cases j <;> rcases ho with rfl | rfl <;> decide +kernel

theorem rg_ok {α : Type} {x : Except Err α} {y : α} (h : x.toOption = some y) : x = .ok y := by
  cases x with
  | error e => simp [Except.toOption] at h
  | ok z => simpa [Except.toOption] using h

instance : DecidableEq CellOut := inferInstanceAs (DecidableEq (Option ((ℕ × ℕ) × Rect)))

/-- Reading order (C13). -/
def strokesRead (l : List St) : List St := sortBy (fun e : St => Coll.key e.bbox.y0 e.bbox.x0 e.bbox.x1) l

/-- C91 (refuted): two grids of four columns below each other (2 rows and 1 row, same vertical positions) and four short lines above, at the left and at the right. All lines are in
reading order and the strokes of different things are far from each other; but vertical lines of the second grid start where lines of the first start, and which pairs of lines are compared
depends on where such ties are inserted: the second vertical line of the second grid is not connected to it. The second table found has three columns. -/
theorem C91_refuted_column_lost :
    ∃ strokes : List St, strokes.Perm (gridStrokes (fun j => 100 + 50 * j) (fun i => 100 + 20 * i) 2 4 1 ++ gridStrokes (fun j => 100 + 50 * j) (fun i => 500 + 20 * i) 1 4 1 ++
        [hst 10 25 20 1, hst 30 45 20 1, hst 500 515 20 1, hst 520 535 20 1]) ∧
      strokes.Pairwise (fun a b => a.bbox.y0 ≤ b.bbox.y0) ∧
      ∃ t t', Lattice.tables id (1 / 2) 2 6 strokes = .ok [t, t'] ∧ ShowsCells (1 / 20) (fun j => 100 + 50 * j) (fun i => 100 + 20 * i) 2 4 unitCell t ∧ t'.map List.length = [3] := by
  refine ⟨strokesRead (gridStrokes (fun j => 100 + 50 * j) (fun i => 100 + 20 * i) 2 4 1 ++ gridStrokes (fun j => 100 + 50 * j) (fun i => 500 + 20 * i) 1 4 1 ++
        [hst 10 25 20 1, hst 30 45 20 1, hst 500 515 20 1, hst 520 535 20 1]), sortBy_perm _ _, by decide +kernel, ?_⟩
  refine ⟨[[some ((1, 1), ⟨100, 100, 150, 120⟩), some ((1, 1), ⟨150, 100, 200, 120⟩), some ((1, 1), ⟨200, 100, 250, 120⟩), some ((1, 1), ⟨250, 100, 300, 120⟩)],
      [some ((1, 1), ⟨100, 120, 150, 140⟩), some ((1, 1), ⟨150, 120, 200, 140⟩), some ((1, 1), ⟨200, 120, 250, 140⟩), some ((1, 1), ⟨250, 120, 300, 140⟩)]],
    [[some ((1, 1), ⟨100, 500, 200, 520⟩), some ((1, 1), ⟨200, 500, 250, 520⟩), some ((1, 1), ⟨250, 500, 300, 520⟩)]], ?_, ?_, rfl⟩
  · refine rg_ok ?_
    decide +kernel
  · refine ⟨rfl, by decide, ?_⟩
    intro i hi j hj
    interval_cases i <;> interval_cases j <;> simp only [unitCell, and_self, if_true] <;> exact ⟨_, rfl, by decide +kernel⟩

/-- A 2 × 2 grid, its inner horizontal line in two pieces, the right one thicker. -/
def thickSegs : List Seg := [⟨true, 1, 0, 0, 2⟩, ⟨false, 1, 0, 0, 2⟩, ⟨false, 1, 1, 0, 2⟩, ⟨false, 1, 2, 0, 2⟩, ⟨true, 1, 1, 0, 1⟩, ⟨true, 2, 1, 1, 2⟩, ⟨true, 1, 2, 0, 2⟩]

/-- C91 (refuted): reading order puts the thicker piece of the inner horizontal line first. Looking for a line above the lower left square stops at this piece, since it starts further right:
the two squares at the left come out as one cell. -/
theorem C91_refuted_thick_piece :
    DrawsCells 2 2 unitCell thickSegs ∧
    ∃ t, Lattice.tables (List.insertionSort (· ≤ ·)) (1 / 2) 2 6 (strokesRead (thickSegs.map (Seg.stroke (fun j => 100 + 50 * j) (fun i => 100 + 20 * i)))) = .ok [t] ∧
      (∃ box, (t.getD 0 []).getD 0 none = some ((2, 1), box)) ∧ (t.getD 1 []).getD 0 none = none := by
  refine ⟨by constructor <;> decide, [[some ((2, 1), ⟨100, 100, 150, 140⟩), some ((1, 1), ⟨150, 100, 200, 120⟩)], [none, some ((1, 1), ⟨150, 120, 200, 140⟩)]], rg_ok ?_, ⟨_, rfl⟩, rfl⟩
  decide +kernel

end Props
