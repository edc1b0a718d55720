import Verif.Props.FullColumn
/-! # Drawn tables in the closed layout model (towards C92) -/

namespace Props
open Py Geom Spec

section FLattice
open Full

/-- The table found has the boxes of the table. -/
structure SameBoxes (f : Found) (t : List (List Table.CellOut)) : Prop where
  box : f.box = Columns.tableBox t
  cells : f.cells.map CellInfo.box = (t.flatten.filterMap fun c => c.map Prod.snd).filter Rect.truthy
  rows : f.rows = t.map fun r => r.map fun c => (c.map Prod.snd).elim false Rect.truthy

theorem fx_tableBox (g : Rows) (t : List (List Table.CellOut)) (h : (g.map fun r => r.map fun c => c.map CellInfo.box) = t.map fun r => r.map fun c => c.map Prod.snd) :
    Columns.tableBox g.boxes = Columns.tableBox t := by
  have row : ∀ r : List Table.CellOut, Table.rowBox r = (r.map fun c => c.map Prod.snd).foldl (fun b c => Coll.unionBbox b (c.getD Rect.zero)) Rect.zero := by
    intro r
    unfold Table.rowBox
    rw [List.foldl_map]
  have tab : ∀ u : List (List Table.CellOut), Columns.tableBox u =
      (u.map fun r => r.map fun c => c.map Prod.snd).foldl (fun b r => Coll.unionBbox b (r.foldl (fun b c => Coll.unionBbox b (c.getD Rect.zero)) Rect.zero)) Rect.zero := by
    intro u
    unfold Columns.tableBox
    rw [List.foldl_map]
    simp only [row]
  rw [tab, tab, ← h]
  congr 1
  unfold Rows.boxes
  simp only [List.map_map, Function.comp_def, Option.map_map]

theorem fx_same (g : Rows) (t : List (List Table.CellOut)) (h : (g.map fun r => r.map fun c => c.map CellInfo.box) = t.map fun r => r.map fun c => c.map Prod.snd) :
    SameBoxes (found g) t := by
  refine ⟨fx_tableBox g t h, ?_, ?_⟩
  rotate_left
  · have e : ∀ (u : List (List (Option Rect))), (g.map fun r => r.map fun c => c.map CellInfo.box) = u → (found g).rows = u.map fun r => r.map fun c => c.elim false Rect.truthy := by
      intro u hu
      subst hu
      unfold found
      dsimp only
      rw [List.map_map]
      refine List.map_congr_left fun r _ => ?_
      show r.map isCell = (r.map fun c => c.map CellInfo.box).map _
      rw [List.map_map]
      refine List.map_congr_left fun c _ => ?_
      cases c <;> rfl
    rw [e _ h, List.map_map]
    refine List.map_congr_left fun r _ => ?_
    show (r.map fun c => c.map Prod.snd).map _ = _
    rw [List.map_map]
    rfl
  unfold found
  dsimp only
  have e1 : (t.flatten.filterMap fun c => c.map Prod.snd) = (t.map fun r => r.map fun c => c.map Prod.snd).flatten.filterMap id := by
    rw [← List.map_flatten, List.filterMap_map]
    rfl
  have e2 : (g.map fun r => r.map fun c => c.map CellInfo.box).flatten.filterMap id = (g.flatten.filterMap id).map CellInfo.box := by
    rw [← List.map_flatten, List.filterMap_map, List.map_filterMap]
    rfl
  rw [e1, ← h, e2, List.filter_map]
  rfl

/-- The structure with styles and the one without have the same boxes. -/
theorem fx_structure_rows (c w : ℚ) (strokes : List Table.St) (fills : List (Rect × ℕ)) (t : List (List Table.CellOut)) (h : Table.parse c w strokes = .ok t) :
    ∃ r, structure_ c w strokes fills = .ok r ∧ (r.1.map fun r => r.map fun c => c.map CellInfo.box) = t.map fun r => r.map fun c => c.map Prod.snd := by
  unfold Table.parse at h
  unfold structure_
  cases hg : Table.groupStrokes c w strokes with
  | none =>
    rw [hg] at h
    injection h with h
    subst h
    exact ⟨_, rfl, rfl⟩
  | some p =>
    obtain ⟨H, V⟩ := p
    rw [hg] at h
    dsimp only at h ⊢
    unfold Table.tableBlock at h
    by_cases h1 : (Table.keys H).length < 2
    · rw [if_pos h1] at h ⊢
      injection h with h
      subst h
      exact ⟨_, rfl, rfl⟩
    · rw [if_neg h1] at h ⊢
      by_cases h2 : (Table.keys V).length < 2
      · rw [if_pos h2] at h; cases h
      · rw [if_neg h2] at h ⊢
        injection h with h
        subst h
        refine ⟨_, rfl, ?_⟩
        dsimp only
        unfold styles Table.grid
        rw [List.map_map, List.filter_map, List.filter_map, List.map_map, List.map_map]
        have key : ∀ i, ((((List.range ((Table.keys V).length - 1)).map fun j =>
              (boxAt (Table.keys V) (Table.keys H) (Table.statusRows H V) (Table.statusCols H V) i j).map (cellStyle H V fills)).map fun c => c.map Prod.fst).map
                fun c => c.map CellInfo.box) =
            ((List.range ((Table.keys V).length - 1)).map fun j => Table.cellAt (Table.keys V) (Table.keys H) (Table.statusRows H V) (Table.statusCols H V) i j).map
                fun c => c.map Prod.snd := by
          intro i
          rw [List.map_map, List.map_map, List.map_map]
          refine List.map_congr_left fun j _ => ?_
          simp only [Function.comp_apply]
          unfold boxAt Table.cellAt
          dsimp only
          split_ifs <;> rfl
        have row : ∀ r : List Table.CellOut, Table.rowBox r = (r.map fun c => c.map Prod.snd).foldl (fun b c => Coll.unionBbox b (c.getD Rect.zero)) Rect.zero := by
          intro r
          unfold Table.rowBox
          rw [List.foldl_map]
        have row' : ∀ r : List (Option CellInfo), Full.rowBox r = (r.map fun c => c.map CellInfo.box).foldl (fun b c => Coll.unionBbox b (c.getD Rect.zero)) Rect.zero := by
          intro r
          unfold Full.rowBox
          rw [List.foldl_map]
        have hfil : ∀ i, (Full.rowBox (((List.range ((Table.keys V).length - 1)).map fun j =>
              (boxAt (Table.keys V) (Table.keys H) (Table.statusRows H V) (Table.statusCols H V) i j).map (cellStyle H V fills)).map fun c => c.map Prod.fst)).truthy =
            (Table.rowBox ((List.range ((Table.keys V).length - 1)).map fun j => Table.cellAt (Table.keys V) (Table.keys H) (Table.statusRows H V) (Table.statusCols H V) i j)).truthy := by
          intro i
          rw [row, row', key]
        have e : (List.range ((Table.keys H).length - 1)).filter ((fun r => (Full.rowBox r).truthy) ∘ ((fun r => r.map fun c => c.map Prod.fst) ∘ fun i =>
              (List.range ((Table.keys V).length - 1)).map fun j =>
                (boxAt (Table.keys V) (Table.keys H) (Table.statusRows H V) (Table.statusCols H V) i j).map (cellStyle H V fills))) =
            (List.range ((Table.keys H).length - 1)).filter ((fun r => (Table.rowBox r).truthy) ∘ fun i =>
              (List.range ((Table.keys V).length - 1)).map fun j => Table.cellAt (Table.keys V) (Table.keys H) (Table.statusRows H V) (Table.statusCols H V) i j) :=
          List.filter_congr fun i _ => hfil i
        rw [e]
        exact List.map_congr_left fun i _ => key i

theorem fx_structure (c w : ℚ) (strokes : List Table.St) (fills : List (Rect × ℕ)) (t : List (List Table.CellOut)) (h : Table.parse c w strokes = .ok t) :
    ∃ r, structure_ c w strokes fills = .ok r ∧ SameBoxes (found r.1) t := by
  obtain ⟨r, h1, h2⟩ := fx_structure_rows c w strokes fills t h
  exact ⟨r, h1, fx_same _ _ h2⟩

theorem fx_loop (c : Full.Cfg) (fills : List (Rect × ℕ)) (gs : List (List Table.St)) (us : List (List (List Table.CellOut)))
    (h : gs.mapM (Table.parse c.base.clear c.base.maxW) = .ok us) (hu : ∀ u ∈ us, u = [] ∨ (Columns.tableBox u).truthy = true) (ty : Types) :
    ∃ fs ty', latticeLoop c fills ty gs = .ok (fs, ty') ∧ List.Forall₂ SameBoxes fs (us.filter fun u => !u.isEmpty) := by
  induction gs generalizing us ty with
  | nil =>
    rw [List.mapM_nil] at h
    obtain rfl : [] = us := by injection h
    exact ⟨[], ty, rfl, List.Forall₂.nil⟩
  | cons g gs ih =>
    rw [List.mapM_cons] at h
    cases hp : Table.parse c.base.clear c.base.maxW g with
    | error e => rw [hp] at h; cases h
    | ok t =>
      cases hm : gs.mapM (Table.parse c.base.clear c.base.maxW) with
      | error e => rw [hp, hm] at h; cases h
      | ok vs =>
        rw [hp, hm] at h
        obtain rfl : t :: vs = us := by injection h
        obtain ⟨r, hr, hs⟩ := fx_structure c.base.clear c.base.maxW g (fills.filter fun f => (Lattice.box g).contains f.1) t hp
        unfold latticeLoop
        rw [hr]
        dsimp only
        rw [hs.box]
        rcases hu t (by simp) with rfl | ht
        · rw [if_neg (show ¬ (Columns.tableBox []).truthy = true from by decide)]
          rw [List.filter_cons_of_neg (by simp)]
          exact ih vs hm (fun u hu' => hu u (by simp [hu'])) ty
        · rw [if_pos ht]
          have hne : t.isEmpty = false := by
            cases t with
            | nil => revert ht; decide
            | cons _ _ => rfl
          rw [List.filter_cons_of_pos (by simp [hne])]
          obtain ⟨fs, ty', h1, h2⟩ := ih vs hm (fun u hu' => hu u (by simp [hu']))
            (ty.mark (r.2.1.map Sh.stroke ++ r.2.2.map fun f => Sh.fill f.1 f.2))
          rw [h1]
          exact ⟨found r.1 :: fs, ty', rfl, List.Forall₂.cons hs h2⟩

/-- The lattice stage finds the tables found from the strokes. -/
theorem fx_stage (c : Full.Cfg) (ty : Types) (sub : Sub) (ts : List (List (List Table.CellOut))) (hn : sub.shapes = [] → ts = [])
    (h : Lattice.tables c.base.lay.iter c.conn c.base.clear c.base.maxW sub.strokes = .ok ts) (ht : ∀ u ∈ ts, (Columns.tableBox u).truthy = true) :
    ∃ fs ty', latticeStage c ty sub = .ok (fs, ty') ∧ List.Forall₂ SameBoxes fs ts := by
  unfold latticeStage
  by_cases he : sub.shapes.isEmpty = true
  · rw [if_pos he]
    rw [hn (List.isEmpty_iff.1 he)]
    exact ⟨[], ty, rfl, List.Forall₂.nil⟩
  · rw [if_neg he]
    unfold Lattice.tables at h
    cases hm : (Lattice.removeOverlap c.base.lay.iter Lattice.box (Lattice.strokeGroups c.base.lay.iter c.conn sub.strokes)).mapM (Table.parse c.base.clear c.base.maxW) with
    | error e => rw [hm] at h; cases h
    | ok us =>
      rw [hm] at h
      obtain rfl : us.filter (fun t => !t.isEmpty) = ts := by injection h
      refine fx_loop c _ _ us hm ?_ ty
      intro u hu
      cases u with
      | nil => exact Or.inl rfl
      | cons a b => exact Or.inr (ht _ (List.mem_filter.2 ⟨hu, rfl⟩))

/-- Strokes away from each other make no table. -/
theorem fx_quiet (iter : List ℕ → List ℕ) (hi : ∀ l, (iter l).Perm l) (d c w : ℚ) (hd : 0 ≤ d) (hc : 0 ≤ c) (hw : 1 / 20 ≤ w) (strokes : List Table.St)
    (hp : ∀ s ∈ strokes, Proper s.bbox ∧ Tenths s.bbox) (ha : strokes.Pairwise fun a b => ¬ Near d d a.bbox b.bbox) :
    Lattice.tables iter d c w strokes = .ok [] := by
  have hpage : DrawnPage d w 0 0 (c + 1) strokes (fun _ => none) (fun _ => false) 0 (fun _ => ⟨fun _ => 0, fun _ => 0, 0, 0, unitCell⟩) (fun _ => Rect.zero) := by
    refine ⟨hp, hd, ?_, ?_, ?_, ?_, ?_, ?_, ?_, ?_, ?_⟩
    · intro i t h; cases h
    · intro t h; omega
    · intro t h; omega
    · intro i j a b hij hi' hj _ hn
      obtain ⟨l1, e1⟩ := List.getElem?_eq_some_iff.1 hi'
      obtain ⟨l2, e2⟩ := List.getElem?_eq_some_iff.1 hj
      rw [List.pairwise_iff_getElem] at ha
      rcases lt_or_gt_of_ne hij with h | h
      · exact ha i j l1 l2 h (by rw [e1, e2]; exact hn)
      · exact ha j i l2 l1 h (by rw [e1, e2]; exact rg_near_symm hn)
    · intro i j t _ _ h; cases h
    · intro i t s _ h; cases h
    · intro t h; omega
    · intro t h; omega
    · intro i s t _ _ h; omega
  obtain ⟨order, ts, h1, h2, h3⟩ := rp_page iter hi c ⟨le_refl _, le_refl _, by linarith, by linarith, by linarith, by linarith⟩ hpage (by
    intro t g hm
    exact absurd hm.lt (by omega))
  rw [List.range_zero, List.perm_nil] at h1
  subst h1
  rw [h2, List.forall₂_nil_left_iff.1 h3]

/-! ## The cells of a grid -/

theorem fx_round_eq (q x : ℚ) (hx : ∃ m : ℤ, x = m / 10) (h : |round1 q - x| ≤ 1 / 20) : round1 q = x := by
  obtain ⟨m, rfl⟩ := hx
  unfold round1 at h ⊢
  set n := roundHE (10 * q)
  rw [abs_le] at h
  have h1 : ((n - m : ℤ) : ℚ) < 1 := by push_cast; linarith [h.2]
  have h2 : (-1 : ℚ) < ((n - m : ℤ) : ℚ) := by push_cast; linarith [h.1]
  have h3 : n - m < 1 := by exact_mod_cast h1
  have h4 : -1 < n - m := by exact_mod_cast h2
  have : n = m := by omega
  rw [this]

/-- Boxes of parsed tables are rounded. -/
theorem fx_rounded (c w : ℚ) (strokes : List Table.St) (t : List (List Table.CellOut)) (h : Table.parse c w strokes = .ok t) :
    ∀ row ∈ t, ∀ x, some x ∈ row → ∃ q : Rect, x.2 = q.round := by
  unfold Table.parse at h
  cases hg : Table.groupStrokes c w strokes with
  | none =>
    rw [hg] at h
    injection h with h
    subst h
    intro row hr; cases hr
  | some p =>
    obtain ⟨H, V⟩ := p
    rw [hg] at h
    dsimp only at h
    unfold Table.tableBlock at h
    split_ifs at h
    · injection h with h
      subst h
      intro row hr; cases hr
    · injection h with h
      subst h
      intro row hr x hx
      obtain ⟨hr, _⟩ := List.mem_filter.1 hr
      unfold Table.grid at hr
      obtain ⟨i, _, rfl⟩ := List.mem_map.1 hr
      obtain ⟨j, _, hj⟩ := List.mem_map.1 hx
      unfold Table.cellAt at hj
      dsimp only at hj
      split_ifs at hj
      exact ⟨_, by rw [← Option.some.inj hj]⟩

/-- The rows of a grid. -/
def gridRows (X Y : ℕ → ℚ) (r k : ℕ) : List (List Table.CellOut) := (List.range r).map fun i => (List.range k).map fun j => some ((1, 1), gridCell X Y i j)

variable {X Y : ℕ → ℚ} {r k : ℕ} {W gap : ℚ}

theorem fx_exact (tX : ∀ j ≤ k, ∃ m : ℤ, X j = m / 10) (tY : ∀ i ≤ r, ∃ m : ℤ, Y i = m / 10) (t : List (List Table.CellOut)) (hs : ShowsCells (1 / 20) X Y r k unitCell t)
    (hr : ∀ row ∈ t, ∀ x, some x ∈ row → ∃ q : Rect, x.2 = q.round) : t = gridRows X Y r k := by
  obtain ⟨h1, h2, h3⟩ := hs
  refine List.ext_getElem (by simp [gridRows, h1]) ?_
  intro i hi hi'
  have hir : i < r := by omega
  have hlen := h2 _ (List.getElem_mem hi)
  have e0 : (gridRows X Y r k)[i] = (List.range k).map fun j => some ((1, 1), gridCell X Y i j) := by simp [gridRows]
  rw [e0]
  refine List.ext_getElem (by simp [hlen]) ?_
  intro j hj hj'
  have hjk : j < k := by omega
  rw [List.getElem_map, List.getElem_range]
  have := h3 i hir j hjk
  dsimp only at this
  rw [if_pos (by simp [unitCell])] at this
  obtain ⟨b, e, k1, k2, k3, k4⟩ := this
  rw [List.getD_eq_getElem _ _ hi, List.getD_eq_getElem _ _ hj] at e
  rw [e]
  have hm : some ((((unitCell i j).bot - (unitCell i j).top, (unitCell i j).right - (unitCell i j).left), b) : (ℕ × ℕ) × Rect) ∈ t[i] := by
    rw [← e]; exact List.getElem_mem hj
  obtain ⟨q, hq⟩ := hr _ (List.getElem_mem hi) _ hm
  dsimp only at hq
  subst hq
  have e1 := fx_round_eq q.x0 (X j) (tX j (by omega)) k1
  have e2 := fx_round_eq q.y0 (Y i) (tY i (by omega)) k2
  have e3 := fx_round_eq q.x1 (X (j + 1)) (tX (j + 1) (by omega)) k3
  have e4 := fx_round_eq q.y1 (Y (i + 1)) (tY (i + 1) (by omega)) k4
  unfold gridCell Rect.round
  rw [e1, e2, e3, e4]
  simp [unitCell]

theorem fx_cell_real (hg : Grid X Y r k W gap) (h0 : 0 ≤ gap) (i j : ℕ) (hi : i < r) (hj : j < k) : RealBox (gridCell X Y i j) := by
  refine ⟨⟨?_, ?_⟩, ?_⟩
  · show X j < X (j + 1)
    linarith [hg.gapX j hj]
  · show Y i < Y (i + 1)
    linarith [hg.gapY i hi]
  · rw [tenths_iff]
    unfold gridCell Rect.round
    simp only [rg_ten (hg.tenX j (by omega)), rg_ten (hg.tenX (j + 1) (by omega)), rg_ten (hg.tenY i (by omega)), rg_ten (hg.tenY (i + 1) (by omega))]

theorem fx_box_real (hg : Grid X Y r k W gap) (h0 : 0 ≤ gap) : RealBox (gridBox X Y r k) := by
  have hr := hg.rows
  have hk := hg.cols
  refine ⟨⟨?_, ?_⟩, ?_⟩
  · show X 0 < X k
    linarith [rg_gap hg h0 0 k (by omega) (le_refl _)]
  · show Y 0 < Y r
    linarith [rg_gapY hg h0 0 r (by omega) (le_refl _)]
  · rw [tenths_iff]
    unfold gridBox Rect.round
    simp only [rg_ten (hg.tenX 0 (by omega)), rg_ten (hg.tenX k (by omega)), rg_ten (hg.tenY 0 (by omega)), rg_ten (hg.tenY r (by omega))]

/-- The box of a row of the grid. -/
theorem fx_row_box (hg : Grid X Y r k W gap) (h0 : 0 ≤ gap) (i : ℕ) (hi : i < r) :
    Table.rowBox ((List.range k).map fun j => some ((1, 1), gridCell X Y i j)) = ⟨X 0, Y i, X k, Y (i + 1)⟩ := by
  have hk := hg.cols
  unfold Table.rowBox
  rw [List.foldl_map]
  simp only [Option.map_some, Option.getD_some]
  obtain ⟨_, h2⟩ := ft_fold_hull (fun j => gridCell X Y i j) (List.range k) (fun j hj => fx_cell_real hg h0 i j hi (List.mem_range.1 hj)) (by
    intro h
    have := congrArg List.length h
    simp at this
    omega)
  refine ft_hull_unique h2 ⟨?_, ?_⟩
  · intro c hc
    obtain ⟨j, hj, rfl⟩ := List.mem_map.1 hc
    rw [List.mem_range] at hj
    exact ⟨rg_leX hg h0 0 j (by omega) (by omega), le_refl _, rg_leX hg h0 (j + 1) k (by omega) (le_refl _), le_refl _⟩
  · intro b hb
    have b0 := hb _ (List.mem_map.2 ⟨0, List.mem_range.2 (by omega), rfl⟩)
    have b1 := hb _ (List.mem_map.2 ⟨k - 1, List.mem_range.2 (by omega), rfl⟩)
    have e : k - 1 + 1 = k := by omega
    refine ⟨b0.1, b0.2.1, ?_, b0.2.2.2⟩
    have := b1.2.2.1
    unfold gridCell at this
    rw [e] at this
    exact this

theorem fx_grid_box (hg : Grid X Y r k W gap) (h0 : 0 ≤ gap) : Columns.tableBox (gridRows X Y r k) = gridBox X Y r k := by
  have hr := hg.rows
  have hk := hg.cols
  unfold Columns.tableBox gridRows
  rw [List.foldl_map]
  have e : ∀ (l : List ℕ) (b : Rect), (∀ i ∈ l, i < r) → l.foldl (fun b i => Coll.unionBbox b (Table.rowBox ((List.range k).map fun j => some ((1, 1), gridCell X Y i j)))) b =
      l.foldl (fun b i => Coll.unionBbox b ⟨X 0, Y i, X k, Y (i + 1)⟩) b := by
    intro l
    induction l with
    | nil => intro b _; rfl
    | cons i l ih =>
      intro b h
      rw [List.foldl_cons, List.foldl_cons, fx_row_box hg h0 i (h i (by simp))]
      exact ih _ fun i hi => h i (by simp [hi])
  rw [e _ _ fun i hi => List.mem_range.1 hi]
  obtain ⟨_, h2⟩ := ft_fold_hull (fun i => (⟨X 0, Y i, X k, Y (i + 1)⟩ : Rect)) (List.range r) (fun i hi => by
    rw [List.mem_range] at hi
    have h1 := rg_gap hg h0 0 k (by omega) (le_refl _)
    refine ⟨⟨show X 0 < X k by linarith, show Y i < Y (i + 1) by linarith [hg.gapY i hi]⟩, ?_⟩
    rw [tenths_iff]
    unfold Rect.round
    simp only [rg_ten (hg.tenX 0 (by omega)), rg_ten (hg.tenX k (by omega)), rg_ten (hg.tenY i (by omega)), rg_ten (hg.tenY (i + 1) (by omega))]) (by
    intro h
    have := congrArg List.length h
    simp at this
    omega)
  refine ft_hull_unique h2 ⟨?_, ?_⟩
  · intro c hc
    obtain ⟨j, hj, rfl⟩ := List.mem_map.1 hc
    rw [List.mem_range] at hj
    exact ⟨le_refl _, rg_leY hg h0 0 j (by omega) (by omega), le_refl _, rg_leY hg h0 (j + 1) r (by omega) (le_refl _)⟩
  · intro b hb
    have b0 := hb _ (List.mem_map.2 ⟨0, List.mem_range.2 (by omega), rfl⟩)
    have b1 := hb _ (List.mem_map.2 ⟨r - 1, List.mem_range.2 (by omega), rfl⟩)
    have e : r - 1 + 1 = r := by omega
    refine ⟨b0.1, b0.2.1, b0.2.2.1, ?_⟩
    have := b1.2.2.2
    dsimp only at this
    rw [e] at this
    exact this

theorem fx_grid_cells (hg : Grid X Y r k W gap) (h0 : 0 ≤ gap) : ((gridRows X Y r k).flatten.filterMap fun c => c.map Prod.snd).filter Rect.truthy = gridCells X Y r k := by
  have e : ((gridRows X Y r k).flatten.filterMap fun c => c.map Prod.snd) = gridCells X Y r k := by
    unfold gridRows gridCells
    rw [← List.flatMap_def, List.filterMap_flatMap]
    refine List.flatMap_congr fun i _ => ?_
    rw [List.filterMap_map]
    show (List.range k).filterMap (fun j => some (gridCell X Y i j)) = _
    rw [List.filterMap_eq_map']
  rw [e]
  refine List.filter_eq_self.2 ?_
  intro c hc
  obtain ⟨i, hi, hc⟩ := List.mem_flatMap.1 hc
  obtain ⟨j, hj, rfl⟩ := List.mem_map.1 hc
  exact ly_real_truthy (fx_cell_real hg h0 i j (List.mem_range.1 hi) (List.mem_range.1 hj))

theorem fx_mapM_mem {β γ : Type} {f : β → Except Err γ} {l : List β} {r : List γ} (h : l.mapM f = .ok r) : ∀ y ∈ r, ∃ x ∈ l, f x = .ok y := ly_mapM_mem l r h

theorem fx_grid_full (hg : Grid X Y r k W gap) (h0 : 0 ≤ gap) : ((gridRows X Y r k).map fun r => r.map fun c => (c.map Prod.snd).elim false Rect.truthy) = fullGrid r k := by
  unfold gridRows fullGrid
  rw [List.map_map]
  refine List.eq_replicate_iff.2 ⟨by simp, ?_⟩
  intro row hrow
  obtain ⟨i, hi, rfl⟩ := List.mem_map.1 hrow
  refine List.eq_replicate_iff.2 ⟨by simp, ?_⟩
  intro b hb
  simp only [Function.comp_apply, List.mem_map] at hb
  obtain ⟨c, ⟨j, hj, rfl⟩, rfl⟩ := hb
  exact ly_real_truthy (fx_cell_real hg h0 i j (List.mem_range.1 hi) (List.mem_range.1 hj))

/-- A page with a grid: the lattice stage finds it. -/
theorem fx_grid (c : Full.Cfg) (hi : ∀ l, (c.base.lay.iter l).Perm l) (hd : 0 ≤ c.conn) (hc : 0 ≤ c.base.clear) (hw : 1 / 20 ≤ c.base.maxW) (hg : Grid X Y r k W gap)
    (hgd : W + 2 * c.conn ≤ gap) (hgw : c.base.maxW + 1 / 20 ≤ gap) (hgc : c.base.clear ≤ gap) (hgW : W + 3 / 10 ≤ gap) (sub : Sub) (others : List Table.St)
    (hp : sub.strokes.Perm (gridStrokes X Y r k W ++ others)) (ho : OtherLines c.conn X Y r k W others) (hne : sub.shapes ≠ []) (ty : Types) :
    ∃ f ty', latticeStage c ty sub = .ok ([f], ty') ∧ f.box = gridBox X Y r k ∧ f.cells.map CellInfo.box = gridCells X Y r k ∧ f.rows = fullGrid r k := by
  have hW := hg.width
  have h0 : 0 ≤ gap := by linarith
  obtain ⟨t, ht, hs⟩ := C91_grid_partial c.base.lay.iter hi c.conn c.base.clear c.base.maxW hd hc hw hg hgd hgw hgc hgW sub.strokes others hp ho
  have hr : ∀ row ∈ t, ∀ x, some x ∈ row → ∃ q : Rect, x.2 = q.round := by
    unfold Lattice.tables at ht
    cases hm : (Lattice.removeOverlap c.base.lay.iter Lattice.box (Lattice.strokeGroups c.base.lay.iter c.conn sub.strokes)).mapM (Table.parse c.base.clear c.base.maxW) with
    | error e => rw [hm] at ht; cases ht
    | ok us =>
      rw [hm] at ht
      have e : us.filter (fun t => !t.isEmpty) = [t] := by injection ht
      have : t ∈ us := (List.mem_filter.1 (by rw [e]; simp)).1
      obtain ⟨g, _, hg'⟩ := fx_mapM_mem hm t this
      exact fx_rounded _ _ _ _ hg'
  have hex := fx_exact hg.tenX hg.tenY t hs hr
  subst hex
  have hb := fx_grid_box hg h0
  obtain ⟨fs, ty', h1, h2⟩ := fx_stage c ty sub _ (fun h => absurd h hne) ht (by
    intro u hu
    rw [List.mem_singleton] at hu
    subst hu
    rw [hb]
    exact ly_real_truthy (fx_box_real hg h0))
  obtain ⟨f, fs, hf, hfs, rfl⟩ := List.forall₂_cons_right_iff.1 h2
  obtain rfl := List.forall₂_nil_right_iff.1 hfs
  exact ⟨f, ty', h1, by rw [hf.box, hb], by rw [hf.cells, fx_grid_cells hg h0], by rw [hf.rows, fx_grid_full hg h0]⟩

end FLattice

end Props
