import Verif.Props.Draw
import Verif.Props.WholeTable
/-! # C110: a table drawn with lines becomes a table of the document -/

namespace Props
open Geom Py Pipe Spec Assign

section DTable
variable {π : Type} {X Y : ℕ → ℚ} {r k : ℕ} {W gap : ℚ}

theorem dt_distinct_symm {t : ℚ} {a b : Table.St} (h : Distinct t a b) : Distinct t b a := by
  rcases h with h | h
  · exact .inl (Ne.symm h)
  · right
    unfold commonArea at h ⊢
    rw [min_comm b.bbox.x1, max_comm b.bbox.x0, min_comm b.bbox.y1, max_comm b.bbox.y0, min_comm b.bbox.area]
    exact h

theorem dt_area_pos {a : Rect} (h : Proper a) : 0 < a.area := mul_pos (sub_pos.2 h.1) (sub_pos.2 h.2)

/-- Boxes away from each other. -/
theorem dt_away {t : ℚ} (ht : 0 < t) {a b : Table.St} (ha : Proper a.bbox) (hb : Proper b.bbox) (h : a.bbox.x1 ≤ b.bbox.x0 ∨ b.bbox.x1 ≤ a.bbox.x0 ∨ a.bbox.y1 ≤ b.bbox.y0 ∨ b.bbox.y1 ≤ a.bbox.y0) :
    Distinct t a b := by
  right
  have h0 : commonArea a.bbox b.bbox = 0 := by
    unfold commonArea
    rcases h with h | h | h | h
    · have : min a.bbox.x1 b.bbox.x1 - max a.bbox.x0 b.bbox.x0 ≤ 0 := by linarith [min_le_left a.bbox.x1 b.bbox.x1, le_max_right a.bbox.x0 b.bbox.x0]
      rw [max_eq_left this, zero_mul]
    · have : min a.bbox.x1 b.bbox.x1 - max a.bbox.x0 b.bbox.x0 ≤ 0 := by linarith [min_le_right a.bbox.x1 b.bbox.x1, le_max_left a.bbox.x0 b.bbox.x0]
      rw [max_eq_left this, zero_mul]
    · have : min a.bbox.y1 b.bbox.y1 - max a.bbox.y0 b.bbox.y0 ≤ 0 := by linarith [min_le_left a.bbox.y1 b.bbox.y1, le_max_right a.bbox.y0 b.bbox.y0]
      rw [max_eq_left this, mul_zero]
    · have : min a.bbox.y1 b.bbox.y1 - max a.bbox.y0 b.bbox.y0 ≤ 0 := by linarith [min_le_right a.bbox.y1 b.bbox.y1, le_max_left a.bbox.y0 b.bbox.y0]
      rw [max_eq_left this, mul_zero]
  rw [h0]
  exact mul_pos ht (lt_min (dt_area_pos ha) (dt_area_pos hb))

theorem dt_not_near {t d : ℚ} (ht : 0 < t) (hd : 0 ≤ d) {a b : Table.St} (ha : Proper a.bbox) (hb : Proper b.bbox) (h : ¬ Near d d a.bbox b.bbox) : Distinct t a b := by
  apply dt_away ht ha hb
  by_contra hc
  rw [not_or, not_or, not_or, not_le, not_le, not_le, not_le] at hc
  exact h ⟨by linarith [hc.2.1], by linarith [hc.1], by linarith [hc.2.2.2], by linarith [hc.2.2.1]⟩

/-- A row line and a column line of a grid share little. -/
theorem dt_cross {t : ℚ} (ht : 1 / 2 ≤ t) (hg : Grid X Y r k W gap) (hw : W + 3 / 10 ≤ gap) (i j : ℕ) (hi : i ≤ r) (hj : j ≤ k) :
    Distinct t (Seg.stroke X Y ⟨true, W, i, 0, k⟩) (Seg.stroke X Y ⟨false, W, j, 0, r⟩) := by
  right
  have hW := hg.width
  have h0 : 0 ≤ gap := by linarith
  rw [rg_row hg i hi, rg_col hg j hj]
  have hx := rg_gap hg h0 0 k hg.cols le_rfl
  have hy := rg_gapY hg h0 0 r hg.rows le_rfl
  have h1 : commonArea (rowBox X Y k W i) (colBox X Y r W j) ≤ W * W := by
    unfold commonArea
    apply mul_le_mul
    · apply max_le hW.le
      simp only [rowBox, colBox]
      linarith [min_le_right (X k + W / 2) (X j + W / 2), le_max_right (X 0 - W / 2) (X j - W / 2)]
    · apply max_le hW.le
      simp only [rowBox, colBox]
      linarith [min_le_left (Y i + W / 2) (Y r + W / 2), le_max_left (Y i - W / 2) (Y 0 - W / 2)]
    · exact le_max_left _ _
    · exact hW.le
  have h2 : 2 * (W * W) < min (rowBox X Y k W i).area (colBox X Y r W j).area := by
    apply lt_min
    · simp only [Rect.area, Rect.width, Rect.height, rowBox]
      have : (X k + W / 2 - (X 0 - W / 2)) * (Y i + W / 2 - (Y i - W / 2)) = (X k - X 0 + W) * W := by ring
      rw [this]
      nlinarith
    · simp only [Rect.area, Rect.width, Rect.height, colBox]
      have : (X j + W / 2 - (X j - W / 2)) * (Y r + W / 2 - (Y 0 - W / 2)) = W * (Y r - Y 0 + W) := by ring
      rw [this]
      nlinarith
  have h3 : 0 < W * W := mul_pos hW hW
  nlinarith

theorem dt_grid_distinct {t : ℚ} (ht : 1 / 2 ≤ t) (hg : Grid X Y r k W gap) (hw : W + 3 / 10 ≤ gap) : (gridStrokes X Y r k W).Pairwise (Distinct t) := by
  have hW := hg.width
  have h0 : 0 ≤ gap := by linarith
  have ht0 : 0 < t := by linarith
  unfold gridStrokes gridSegs
  rw [List.map_append, List.map_map, List.map_map, List.pairwise_append]
  refine ⟨?_, ?_, ?_⟩
  · rw [List.pairwise_map]
    refine List.Pairwise.imp_of_mem ?_ List.pairwise_lt_range
    intro i j hi hj hij
    rw [List.mem_range] at hi hj
    dsimp only [Function.comp]
    have e1 := rg_row hg i (by omega)
    have e2 := rg_row hg j (by omega)
    refine dt_away ht0 (by rw [e1]; exact (rg_row_proper hg h0 i (by omega)).1) (by rw [e2]; exact (rg_row_proper hg h0 j (by omega)).1) ?_
    rw [e1, e2]
    right; right; left
    simp only [rowBox]
    linarith [rg_gapY hg h0 i j hij (by omega)]
  · rw [List.pairwise_map]
    refine List.Pairwise.imp_of_mem ?_ List.pairwise_lt_range
    intro i j hi hj hij
    rw [List.mem_range] at hi hj
    dsimp only [Function.comp]
    have e1 := rg_col hg i (by omega)
    have e2 := rg_col hg j (by omega)
    refine dt_away ht0 (by rw [e1]; exact (rg_col_proper hg h0 i (by omega)).1) (by rw [e2]; exact (rg_col_proper hg h0 j (by omega)).1) ?_
    rw [e1, e2]
    left
    simp only [colBox]
    linarith [rg_gap hg h0 i j hij (by omega)]
  · intro a ha b hb
    obtain ⟨i, hi, rfl⟩ := List.mem_map.1 ha
    obtain ⟨j, hj, rfl⟩ := List.mem_map.1 hb
    rw [List.mem_range] at hi hj
    exact dt_cross ht hg hw i j (by omega) (by omega)

/-- The lines of the grid are visible. -/
theorem dt_visible {page : Rect} {m : ℚ} (hg : Grid X Y r k W gap) (hw : W + 3 / 10 ≤ gap) (hm : m ≤ gap)
    (hx : ∀ s ∈ gridStrokes X Y r k W, page.x0 ≤ s.bbox.x0 ∧ s.bbox.x1 ≤ page.x1) (htop : page.y0 < Y 0 + W / 2) (hbot : Y r - W / 2 < page.y1) :
    ∀ s ∈ gridStrokes X Y r k W, Visible page m s.bbox := by
  have hW := hg.width
  have h0 : 0 ≤ gap := by linarith
  intro s hs
  have hsx := hx s hs
  rcases (rg_mem s).1 hs with ⟨i, hi, rfl⟩ | ⟨j, hj, rfl⟩
  · have hp := (rg_row_proper hg h0 i hi).1
    rw [rg_row hg i hi] at hsx ⊢
    have h1 := rg_gap hg h0 0 k hg.cols le_rfl
    have h2 := rg_leY hg h0 0 i (by omega) hi
    have h3 := rg_leY hg h0 i r hi le_rfl
    refine ⟨hp, ⟨?_, ?_, ?_, ?_⟩, ?_⟩
    · linarith [hp.1, hsx.2]
    · linarith [hp.1, hsx.1]
    · simp only [rowBox]; linarith
    · simp only [rowBox]; linarith
    · left; simp only [rowBox]; linarith
  · have hp := (rg_col_proper hg h0 j hj).1
    rw [rg_col hg j hj] at hsx ⊢
    have h1 := rg_gapY hg h0 0 r hg.rows le_rfl
    refine ⟨hp, ⟨?_, ?_, ?_, ?_⟩, ?_⟩
    · linarith [hp.1, hsx.2]
    · linarith [hp.1, hsx.1]
    · simp only [colBox]; linarith
    · simp only [colBox]; linarith
    · right; simp only [colBox]; linarith

theorem dt_strokes_append (a b : List Full.Sh) : strokesOnly (a ++ b) = strokesOnly a ++ strokesOnly b := List.filterMap_append
theorem dt_strokes_strokes (a : List Table.St) : strokesOnly (a.map Full.Sh.stroke) = a := by
  unfold strokesOnly
  induction a with
  | nil => rfl
  | cons x a ih => rw [List.map_cons, List.filterMap_cons, ih]
theorem dt_strokes_links (a : List Rect) : strokesOnly (a.map Full.Sh.link) = [] := by
  unfold strokesOnly
  induction a with
  | nil => rfl
  | cons x a ih => rw [List.map_cons, List.filterMap_cons, ih]

theorem dt_others {d : ℚ} {os ps : List Table.St} (h : OtherLines d X Y r k W os) (hs : ps.Sublist os) : OtherLines d X Y r k W ps :=
  ⟨fun o ho => h.proper o (hs.subset ho), fun o ho => h.away o (hs.subset ho), h.apart.sublist hs, fun o ho => h.place o (hs.subset ho), fun o ho => h.ends o (hs.subset ho)⟩

/-- A page with a grid drawn by lines is, after preparation of its drawings, a page with that grid. -/
theorem dt_page (c : Draw.Cfg) (hc : SaneDraw c) (hg : Grid X Y r k W gap) (hw : WideFor c.whole.full W gap) (hm : c.minDim ≤ gap) (p : Draw.Page π) (hp : LinePage c X Y r k W p) :
    ∃ q, Draw.page c p = .ok q ∧ GridPage c.whole X Y r k W q ∧ pageBlocks c.whole.ws q = pageBlocks c.whole.ws (asDrawn p) := by
  obtain ⟨others, hd⟩ := hp.grid.drawn
  have hlinks : (p.links.map fun l => Full.Sh.link l.round) = (p.links.map Rect.round).map Full.Sh.link := by rw [List.map_map]; rfl
  have hst : (p.drawings.flatMap drawnStrokes).Perm (gridStrokes X Y r k W ++ others) := by
    have := hd.strokes
    unfold asDrawn at this
    dsimp only at this
    rwa [dt_strokes_append, dt_strokes_strokes, hlinks, dt_strokes_links, List.append_nil] at this
  have hx : ∀ s ∈ gridStrokes X Y r k W, p.box.x0 ≤ s.bbox.x0 ∧ s.bbox.x1 ≤ p.box.x1 := by
    intro s hs
    have := hp.grid.shapes (.stroke s) (by
      unfold asDrawn
      dsimp only
      exact List.mem_append_left _ (List.mem_map_of_mem (hst.symm.subset (List.mem_append_left _ hs))))
    exact ⟨hp.work.1.trans this.1, this.2.trans hp.work.2.2.1⟩
  have hvis := dt_visible hg hw.width hm hx hp.top hp.bottom
  have ht0 : 0 < c.threshold := by linarith [hc.threshold]
  have hW := hg.width
  have h0 : 0 ≤ gap := by linarith [hw.width]
  have hgp : ∀ s ∈ gridStrokes X Y r k W, Proper s.bbox := fun s hs => (hvis s hs).1
  have hpw : (gridStrokes X Y r k W ++ others).Pairwise (Distinct c.threshold) := by
    rw [List.pairwise_append]
    refine ⟨dt_grid_distinct hc.threshold hg hw.width, ?_, ?_⟩
    · refine List.Pairwise.imp_of_mem ?_ hd.others.apart
      intro a b ha hb h
      exact dt_not_near ht0 hc.whole.conn (hd.others.proper a ha).1 (hd.others.proper b hb).1 h
    · intro a ha b hb
      exact dt_not_near ht0 hc.whole.conn (hgp a ha) (hd.others.proper b hb).1 (hd.others.away b hb a ha)
  have hsep := ((hst.pairwise_iff (fun {a b} h => dt_distinct_symm h)).2 hpw).filter fun s => Visible p.box c.minDim s.bbox
  obtain ⟨s, hs1, hs2⟩ := C109_lines_kept c p hc.ratio (by linarith [hc.threshold]) hp.page (fun d h => ⟨(hp.straight d h).1, .inl (hp.straight d h).2⟩) hp.links hsep
  have hsub : ∀ x ∈ s, x ∈ (asDrawn p).shapes := by
    intro x hx
    unfold asDrawn
    dsimp only
    rcases List.mem_append.1 (hs2.subset hx) with h | h
    · obtain ⟨u, hu, rfl⟩ := List.mem_map.1 h
      exact List.mem_append_left _ (List.mem_map_of_mem (List.mem_of_mem_filter hu))
    · obtain ⟨u, hu, rfl⟩ := List.mem_map.1 h
      rw [hlinks]
      exact List.mem_append_right _ (List.mem_map_of_mem (List.mem_of_mem_filter hu))
  refine ⟨⟨p.box, p.work, p.props, p.raw, s, p.ids, p.styled, p.fmt⟩, ?_, ?_, rfl⟩
  · unfold Draw.page
    rw [hs1]
    simp
  · refine ⟨hp.grid.raw, hp.grid.text, hp.grid.lines, ⟨others.filter fun s => Visible p.box c.minDim s.bbox, ?_, ?_, ?_, ?_⟩, ?_, hp.grid.left, hp.grid.right, hp.grid.floats, hp.grid.whole⟩
    · have h1 : (strokesOnly s).Perm ((p.drawings.flatMap drawnStrokes).filter fun s => Visible p.box c.minDim s.bbox) := by
        have := hs2.filterMap (fun s => match s with | .stroke s => some s | _ => none)
        have h2 : (strokesOnly s).Perm _ := this
        refine h2.trans (List.Perm.of_eq ?_)
        have h3 := dt_strokes_append (((p.drawings.flatMap drawnStrokes).filter fun s => Visible p.box c.minDim s.bbox).map Full.Sh.stroke)
          (((p.links.map Rect.round).filter fun b => Visible p.box c.minDim b).map Full.Sh.link)
        rw [dt_strokes_strokes, dt_strokes_links, List.append_nil] at h3
        exact h3
      refine h1.trans ((hst.filter _).trans (List.Perm.of_eq ?_))
      rw [List.filter_append, List.filter_eq_self.2 (fun s hs => by simpa using hvis s hs)]
    · exact dt_others hd.others List.filter_sublist
    · intro b col h
      exact (hd.fills b col (hsub _ h)).imp_right fun hP =>
        ⟨hP.within, hP.cells, hP.some_, hP.text, fun b' c' hm => hP.alone b' c' (hsub _ hm), hP.sizeX, hP.sizeY, hP.thin⟩
    · intro x hx
      exact hd.real x (hsub x hx)
    · intro x hx
      exact hp.grid.shapes x (hsub x hx)

/-- **C110** (partial: one full grid drawn by separate lines or rectangles; no filled areas). From the drawing commands to the document: the section of a page with a grid of `r` rows and
`k` columns drawn by lines (and rectangles) has one table of `r` rows of `k` cells; before it the lines of text above the grid, in cell `(i, j)` those within the square, after it those below. -/
theorem C110_table_partial (c : Draw.Cfg) (hc : SaneDraw c) (hg : Grid X Y r k W gap) (hw : WideFor c.whole.full W gap) (hm : c.minDim ≤ gap) (depth : ℕ) (p0 : π)
    (pages : List (Draw.Page π)) (d : Docx.Doc Par Sp π) (h : Draw.convertDoc c (depth + 2) p0 pages = .ok d) (i : ℕ) (p : Draw.Page π) (s : π × List (Docx.Item Par Sp π))
    (hp : pages[i]? = some p) (hs : (sectionsOf d)[i]? = some s) (hgp : LinePage c X Y r k W p) :
    TableShown c.whole.ws X Y r k ((pageBlocks c.whole.ws (asDrawn p)).flatMap Lns.Blk.lines) (ofItems s.2) := by
  unfold Draw.convertDoc at h
  split at h
  · cases h
  rename_i ps hps
  obtain ⟨q, hq1, hq2, hq3⟩ := dt_page c hc hg hw hm p hgp
  have hq : ps[i]? = some q := by
    have hf := pp_mapM_forall _ _ hps
    have hlt := (List.getElem?_eq_some_iff.1 hp).1
    have hl := hf.length_eq
    have h2 := (List.forall₂_iff_get.1 hf).2 i hlt (by omega)
    rw [List.getElem?_eq_some_iff] at hp
    obtain ⟨h3, h4⟩ := hp
    rw [List.get_eq_getElem, List.get_eq_getElem, h4, hq1] at h2
    rw [List.getElem?_eq_some_iff]
    exact ⟨by omega, (Except.ok.inj h2).symm⟩
  rw [← hq3]
  exact C108_table_partial c.whole hc.whole hg hw depth p0 ps d h i q s hq hs hq2

/-- **C110**: such pages are converted without error, one section for each. -/
theorem C110_converts_partial (c : Draw.Cfg) (hc : SaneDraw c) (depth : ℕ) (p0 : π) (pages : List (Draw.Page π)) (hne : pages ≠ [])
    (hgp : ∀ p ∈ pages, ∃ X Y r k W gap, Grid X Y r k W gap ∧ WideFor c.whole.full W gap ∧ c.minDim ≤ gap ∧ LinePage c X Y r k W p) :
    ∃ d, Draw.convertDoc c (depth + 2) p0 pages = .ok d ∧ (sectionsOf d).length = pages.length := by
  have hok : ∀ p ∈ pages, ∃ q, Draw.page c p = .ok q := by
    intro p hp
    obtain ⟨X, Y, r, k, W, gap, h1, h2, h3, h4⟩ := hgp p hp
    obtain ⟨q, hq, _⟩ := dt_page c hc h1 h2 h3 p h4
    exact ⟨q, hq⟩
  obtain ⟨ps, hps⟩ := ly_mapM_ok pages hok
  have hl := (pp_mapM_forall _ _ hps).length_eq
  obtain ⟨d, hd1, hd2⟩ := C108_converts_partial c.whole hc.whole depth p0 ps (by rintro rfl; exact hne (List.length_eq_zero_iff.1 hl)) (by
    intro q hq
    obtain ⟨p, hp, hpq⟩ := ly_mapM_mem _ _ hps q hq
    obtain ⟨X, Y, r, k, W, gap, h1, h2, h3, h4⟩ := hgp p hp
    obtain ⟨q', hq1, hq2, _⟩ := dt_page c hc h1 h2 h3 p h4
    rw [hpq] at hq1
    obtain rfl := Except.ok.inj hq1
    exact ⟨X, Y, r, k, W, gap, h1, h2, hq2⟩)
  refine ⟨d, ?_, by rw [hd2, hl]⟩
  unfold Draw.convertDoc
  rw [hps]
  exact hd1

/-! ## An example -/

/-- The default settings. -/
def dwCfg : Draw.Cfg := ⟨whCfg, 1 / 5, 1 / 2, 2⟩

/-- The grid: a frame drawn as a rectangle, the inner lines in one drawing, backwards; a rule below the title. -/
def dwDrawings : List Path.Raw :=
  [⟨[.l ⟨200, 200⟩ ⟨200, 100⟩, .l ⟨100, 150⟩ ⟨300, 150⟩], false, 1, some 0, none⟩, ⟨[.re ⟨100, 100, 300, 200⟩], false, 1 / 2, some 0, none⟩,
   ⟨[.l ⟨21, 40⟩ ⟨299, 40⟩], false, 2, some 0, none⟩]

/-- The page: the texts of `whRaw`, these drawings, and a link. -/
def dwPage : Draw.Page ℕ := ⟨⟨0, 0, 400, 600⟩, ⟨20, 10, 328, 528⟩, 3, whRaw, dwDrawings, [⟨20, 20, 60, 30⟩], [], fun _ _ _ _ _ => 0, fun _ _ _ _ => [], ppFmt⟩

theorem dw_ex_sane : SaneDraw dwCfg := ⟨wh_ex_sane, by decide +kernel, by decide +kernel⟩

/-- The rule. -/
def dwRule : Table.St := lineStroke 2 0 ⟨21, 40⟩ ⟨299, 40⟩

theorem dw_ex_others : OtherLines (1 / 2) (fun j => 100 + 100 * j) (fun i => 100 + 50 * i) 2 2 1 [dwRule] := by
  have h := (fy_ex_drawn [] (fun _ _ _ _ _ _ _ l hl => absurd hl (by simp))).others
  have e : dwRule.bbox = fyRule.bbox := by decide +kernel
  have hm : ∀ o ∈ [dwRule], o.bbox = fyRule.bbox := by
    intro o ho
    rw [List.mem_singleton] at ho
    rw [ho, e]
  refine ⟨fun o ho => ?_, fun o ho => ?_, List.pairwise_singleton _ _, fun o ho => ?_, fun o ho => ?_⟩ <;> rw [hm o ho]
  · exact h.proper fyRule (by simp)
  · exact h.away fyRule (by simp)
  · exact h.place fyRule (by simp)
  · exact h.ends fyRule (by simp)

theorem dw_ex_drawn (lines : List Rect) : DrawnAround (1 / 2) (fun j => 100 + 100 * j) (fun i => 100 + 50 * i) 2 2 1 lines [dwRule] (asDrawn dwPage).shapes := by
  refine ⟨?_, dw_ex_others, ?_, ?_⟩
  · have h1 : (strokesOnly (asDrawn dwPage).shapes).Nodup := by decide +kernel
    have h2 : (gridStrokes (fun j => 100 + 100 * j) (fun i => 100 + 50 * i) 2 2 1 ++ [dwRule]).Nodup := by decide +kernel
    have h3 : ∀ s ∈ strokesOnly (asDrawn dwPage).shapes, s ∈ gridStrokes (fun j => 100 + 100 * j) (fun i => 100 + 50 * i) 2 2 1 ++ [dwRule] := by decide +kernel
    have h4 : ∀ s ∈ gridStrokes (fun j => 100 + 100 * j) (fun i => 100 + 50 * i) 2 2 1 ++ [dwRule], s ∈ strokesOnly (asDrawn dwPage).shapes := by decide +kernel
    exact (List.perm_ext_iff_of_nodup h1 h2).2 fun s => ⟨h3 s, h4 s⟩
  · intro b c h
    exfalso
    have : ∀ s ∈ (asDrawn dwPage).shapes, (match s with | .fill _ _ => false | _ => true) = true := by decide +kernel
    simpa using this _ h
  · have : ∀ s ∈ (asDrawn dwPage).shapes, s.bbox.x0 < s.bbox.x1 ∧ s.bbox.y0 < s.bbox.y1 ∧ Rect.round s.bbox = s.bbox := by decide +kernel
    intro s hs
    exact ly_ex_real (this s hs)

theorem dw_ex_straight : ∀ d ∈ dwDrawings, Straight d ∧ PointOn ⟨0, 0, 400, 600⟩ d := by
  intro d hd
  simp only [dwDrawings, List.mem_cons, List.not_mem_nil, or_false] at hd
  rcases hd with rfl | rfl | rfl
  · refine ⟨⟨rfl, by norm_num, ?_, ?_⟩, ⟨_, by simp; exact .inl rfl, ⟨200, 100⟩, by simp [corners], by norm_num, by norm_num, by norm_num, by norm_num⟩⟩
    · intro it hit
      simp only [List.mem_cons, List.not_mem_nil, or_false] at hit
      rcases hit with rfl | rfl
      · exact .inl ⟨_, _, rfl, .inl rfl⟩
      · exact .inl ⟨_, _, rfl, .inr rfl⟩
    · refine List.isChain_cons_cons.2 ⟨?_, List.isChain_singleton _⟩
      intro a b c d h1 h2 h
      injection h1 with h11 h12
      injection h2 with h21 h22
      rw [← h12, ← h21] at h
      injection h with h3 h4
      norm_num at h3
  · refine ⟨⟨rfl, by norm_num, ?_, List.isChain_singleton _⟩, ⟨_, by simp; exact rfl, ⟨100, 100⟩, by simp [corners], by norm_num, by norm_num, by norm_num, by norm_num⟩⟩
    intro it hit
    rw [List.mem_singleton] at hit
    exact .inr ⟨_, hit, by constructor <;> norm_num⟩
  · refine ⟨⟨rfl, by norm_num, ?_, List.isChain_singleton _⟩, ⟨_, by simp; exact rfl, ⟨21, 40⟩, by simp [corners], by norm_num, by norm_num, by norm_num, by norm_num⟩⟩
    intro it hit
    rw [List.mem_singleton] at hit
    exact .inl ⟨_, _, hit, .inr rfl⟩

theorem dw_ex_page : LinePage dwCfg (fun j => 100 + 100 * j) (fun i => 100 + 50 * i) 2 2 1 dwPage := by
  refine ⟨⟨wh_ex_page.raw, wh_ex_on, by decide +kernel, ⟨[dwRule], dw_ex_drawn _⟩, by decide +kernel, by decide +kernel, by decide +kernel, wh_ex_page.floats, wh_ex_page.whole⟩,
    dw_ex_straight, ?_, ?_, by decide +kernel, by decide +kernel, by decide +kernel⟩
  · intro l hl
    obtain rfl : l = _ := by simpa [dwPage] using hl
    constructor <;> norm_num
  · constructor <;> norm_num [dwPage]

/-- The hypotheses of C110 are met. -/
example : ∃ d, Draw.convertDoc dwCfg 4 0 [dwPage, dwPage] = .ok d ∧ ∀ (i : ℕ) (s : ℕ × List (Docx.Item Par Sp ℕ)), (sectionsOf d)[i]? = some s →
    TableShown whCfg.ws (fun j => 100 + 100 * j) (fun i => 100 + 50 * i) 2 2 ((pageBlocks whCfg.ws (asDrawn dwPage)).flatMap Lns.Blk.lines) (ofItems s.2) := by
  obtain ⟨d, h, hl⟩ := C110_converts_partial dwCfg dw_ex_sane 2 0 [dwPage, dwPage] (by simp) (by
    intro p hp
    have : p = dwPage := by simpa using hp
    subst this
    exact ⟨_, _, _, _, _, _, fy_ex_grid, wh_ex_wide, by decide +kernel, dw_ex_page⟩)
  refine ⟨d, h, ?_⟩
  intro i s hs
  have hi : i < 2 := by
    have := (List.getElem?_eq_some_iff.1 hs).1
    rw [hl] at this
    simpa using this
  refine C110_table_partial dwCfg dw_ex_sane fy_ex_grid wh_ex_wide (by decide +kernel) 2 0 _ d h i dwPage s ?_ hs dw_ex_page
  match i, hi with
  | 0, _ => rfl
  | 1, _ => rfl

/-- The hypotheses of C109 are met: a title underlined, a frame, a line of another colour over it. -/
example : ∃ s, Draw.shapes dwCfg dwPage = .ok (s, false) ∧ s.length = 8 := by
  obtain ⟨s, h1, h2⟩ := C109_lines_kept dwCfg dwPage (by decide +kernel) (by decide +kernel) (by constructor <;> norm_num [dwPage])
    (fun d h => ⟨(dw_ex_straight d h).1, .inl (dw_ex_straight d h).2⟩) dw_ex_page.links (by unfold Distinct; decide +kernel)
  refine ⟨s, h1, ?_⟩
  rw [h2.length_eq]
  decide +kernel

end DTable

end Props
