import Verif.Props.WholeShade
/-! # C110: a table with coloured cells, from the drawing commands to the document -/

namespace Props
open Geom Py Pipe Spec Assign Path

section DCells

variable {π : Type} {X Y : ℕ → ℚ} {r k : ℕ} {W gap : ℚ}

/-- The order in which the drawings are listed does not matter. -/
theorem dc_drawn_perm {d : ℚ} {lines : List Rect} {others : List Table.St} {s t : List Full.Sh} (h : s.Perm t) (hd : DrawnAround d X Y r k W lines others t) : DrawnAround d X Y r k W lines others s := by
  refine ⟨?_, hd.others, fun b c hm => (hd.fills b c (h.subset hm)).imp_right fun hP => ?_, fun x hx => hd.real x (h.subset hx)⟩
  · exact (h.filterMap _).trans hd.strokes
  · exact ⟨hP.within, hP.cells, hP.some_, hP.text, fun b' c' hm' => hP.alone b' c' (h.subset hm'), hP.sizeX, hP.sizeY, hP.thin⟩

theorem dc_grid {c : Whole.Cfg} (p : Whole.Page π) (s : List Full.Sh) (h : s.Perm p.shapes) (hp : GridPage c X Y r k W p) :
    GridPage c X Y r k W (⟨p.box, p.work, p.props, p.raw, s, p.ids, p.styled, p.fmt⟩ : Whole.Page π) := by
  obtain ⟨others, hd⟩ := hp.drawn
  exact ⟨hp.raw, hp.text, hp.lines, ⟨others, dc_drawn_perm h hd⟩, fun x hx => hp.shapes x (h.subset hx), hp.left, hp.right, hp.floats, hp.whole⟩

/-- **C110** (partial: one full grid of separate lines or rectangles), with filled rectangles behind cells: the section of the page has the table of `r` rows of `k` cells; before it the lines of text
above the grid, in cell `(i, j)` those within the square, after it those below. -/
theorem C110_painted_partial (c : Draw.Cfg) (hc : SaneDraw c) (hg : Grid X Y r k W gap) (hw : WideFor c.whole.full W gap) (depth : ℕ) (p0 : π)
    (pages : List (Draw.Page π)) (d : Docx.Doc Par Sp π) (h : Draw.convertDoc c (depth + 2) p0 pages = .ok d) (i : ℕ) (p : Draw.Page π) (s : π × List (Docx.Item Par Sp π))
    (hp : pages[i]? = some p) (hs : (sectionsOf d)[i]? = some s) (hpt : Painted c p) (hgp : GridPage c.whole X Y r k W (asPainted c p)) :
    TableShown c.whole.ws X Y r k ((pageBlocks c.whole.ws (asPainted c p)).flatMap Lns.Blk.lines) (ofItems s.2) := by
  unfold Draw.convertDoc at h
  split at h
  · cases h
  rename_i ps hps
  obtain ⟨t, hq1, hq2⟩ := ws_page c hc p hpt
  exact C108_table_partial c.whole hc.whole hg hw depth p0 ps d h i ⟨p.box, p.work, p.props, p.raw, t, p.ids, p.styled, p.fmt⟩ s (dp_get hps hp hq1) hs (dc_grid (asPainted c p) t hq2 hgp)

/-- **C110**: such pages are converted without error, one section for each. -/
theorem C110_painted_converts_partial (c : Draw.Cfg) (hc : SaneDraw c) (depth : ℕ) (p0 : π) (pages : List (Draw.Page π)) (hne : pages ≠ [])
    (hgp : ∀ p ∈ pages, Painted c p ∧ ∃ X Y r k W gap, Grid X Y r k W gap ∧ WideFor c.whole.full W gap ∧ GridPage c.whole X Y r k W (asPainted c p)) :
    ∃ d, Draw.convertDoc c (depth + 2) p0 pages = .ok d ∧ (sectionsOf d).length = pages.length := by
  have hok : ∀ p ∈ pages, ∃ q, Draw.page c p = .ok q := by
    intro p hp
    obtain ⟨t, hq, _⟩ := ws_page c hc p (hgp p hp).1
    exact ⟨_, hq⟩
  obtain ⟨ps, hps⟩ := ly_mapM_ok pages hok
  have hl := (pp_mapM_forall _ _ hps).length_eq
  obtain ⟨d, hd1, hd2⟩ := C108_converts_partial c.whole hc.whole depth p0 ps (by rintro rfl; exact hne (List.length_eq_zero_iff.1 hl)) (by
    intro q hq
    obtain ⟨p, hp, hpq⟩ := ly_mapM_mem _ _ hps q hq
    obtain ⟨h0, X, Y, r, k, W, gap, h1, h2, h4⟩ := hgp p hp
    obtain ⟨t, hq1, hq2⟩ := ws_page c hc p h0
    rw [hpq] at hq1
    obtain rfl := Except.ok.inj hq1
    exact ⟨X, Y, r, k, W, gap, h1, h2, dc_grid (asPainted c p) t hq2 h4⟩)
  refine ⟨d, ?_, by rw [hd2, hl]⟩
  unfold Draw.convertDoc
  rw [hps]
  exact hd1

/-! ## An example -/

/-- The page of `dwPage` with a filled rectangle behind the first row and one behind the last cell. -/
def dcPage : Draw.Page ℕ := ⟨⟨0, 0, 400, 600⟩, ⟨20, 10, 328, 528⟩, 3, whRaw,
  ⟨[.re ⟨100, 100, 300, 150⟩], false, 1, none, some 7⟩ :: ⟨[.re ⟨401 / 2, 301 / 2, 599 / 2, 399 / 2⟩], false, 1, none, some 9⟩ :: dwDrawings, [⟨20, 20, 60, 30⟩], [], fun _ _ _ _ _ => 0, fun _ _ _ _ => [], ppFmt⟩

theorem dc_ex_boxed : ∀ d ∈ dcPage.drawings, BoxDrawing d ∧ PointOn ⟨0, 0, 400, 600⟩ d := by
  have hre : ∀ (r : Rect) (w : ℚ) (c : ℕ), 0 < w → r.x0 ≤ r.x1 → r.y0 ≤ r.y1 → 0 + 1 / 100 < r.x0 → 0 + 1 / 100 < r.y0 → r.x0 < 400 - 1 / 100 → r.y0 < 600 - 1 / 100 →
      BoxDrawing ⟨[.re r], false, w, none, some c⟩ ∧ PointOn ⟨0, 0, 400, 600⟩ ⟨[.re r], false, w, none, some c⟩ := by
    intro r w c hw h1 h2 h3 h4 h5 h6
    refine ⟨⟨⟨rfl, hw, ?_, List.isChain_singleton _⟩, ?_⟩, ⟨_, by simp; exact rfl, ⟨r.x0, r.y0⟩, by simp [corners], h3, h5, h4, h6⟩⟩
    · intro it hit
      rw [List.mem_singleton] at hit
      exact .inr ⟨_, hit, h1, h2⟩
    · intro _ it hit
      rw [List.mem_singleton] at hit
      exact ⟨_, hit⟩
  intro d hd
  rcases List.mem_cons.1 hd with rfl | hd
  · apply hre <;> norm_num
  rcases List.mem_cons.1 hd with rfl | hd
  · apply hre <;> norm_num
  obtain ⟨h1, h2⟩ := dw_ex_straight d hd
  have hf : d.fill = none := h1.hollow
  refine ⟨⟨?_, fun h => absurd hf h⟩, h2⟩
  have e : ({ d with fill := none } : Path.Raw) = d := by
    cases d
    dsimp only at hf
    subst hf
    rfl
  rw [e]
  exact h1

theorem dc_ex_painted : Painted dwCfg dcPage :=
  ⟨by constructor <;> norm_num [dcPage], fun d h => ⟨(dc_ex_boxed d h).1, .inl (dc_ex_boxed d h).2⟩, by
    intro l hl
    obtain rfl : l = _ := by simpa [dcPage] using hl
    constructor <;> norm_num, by unfold Separate; decide +kernel⟩

theorem dc_ex_page : GridPage whCfg (fun j => 100 + 100 * j) (fun i => 100 + 50 * i) 2 2 1 (asPainted dwCfg dcPage) := by
  have hlines : fyOn (((pageBlocks whCfg.ws (asPainted dwCfg dcPage)).flatMap Lns.Blk.lines).map fun l => l.bbox) := by unfold fyOn innerCell gridCell; decide +kernel
  have hfill : ∀ b c, Full.Sh.fill b c ∈ (asPainted dwCfg dcPage).shapes → (b, c) = (⟨100, 100, 300, 150⟩, 7) ∨ (b, c) = (⟨401 / 2, 301 / 2, 599 / 2, 399 / 2⟩, 9) := by
    intro b c h
    have : ∀ s ∈ (asPainted dwCfg dcPage).shapes, (match s with | .fill b c => decide ((b, c) = (⟨100, 100, 300, 150⟩, 7) ∨ (b, c) = (⟨401 / 2, 301 / 2, 599 / 2, 399 / 2⟩, 9)) | _ => true) = true := by
      decide +kernel
    exact of_decide_eq_true (this _ h)
  refine ⟨wh_ex_page.raw, wh_ex_on, (by decide +kernel), ⟨[dwRule], ?_, dw_ex_others, ?_, ?_⟩, by decide +kernel, by decide +kernel, by decide +kernel, wh_ex_page.floats, wh_ex_page.whole⟩
  · have h1 : (strokesOnly (asPainted dwCfg dcPage).shapes).Nodup := by decide +kernel
    have h2 : (gridStrokes (fun j => 100 + 100 * j) (fun i => 100 + 50 * i) 2 2 1 ++ [dwRule]).Nodup := by decide +kernel
    have h3 : ∀ s ∈ strokesOnly (asPainted dwCfg dcPage).shapes, s ∈ gridStrokes (fun j => 100 + 100 * j) (fun i => 100 + 50 * i) 2 2 1 ++ [dwRule] := by decide +kernel
    have h4 : ∀ s ∈ gridStrokes (fun j => 100 + 100 * j) (fun i => 100 + 50 * i) 2 2 1 ++ [dwRule], s ∈ strokesOnly (asPainted dwCfg dcPage).shapes := by decide +kernel
    exact (List.perm_ext_iff_of_nodup h1 h2).2 fun s => ⟨h3 s, h4 s⟩
  · intro b c h
    right
    have key := fy_ex_paint _ hlines b c (hfill b c h)
    refine ⟨key.within, key.cells, key.some_, key.text, fun b' c' hm => key.alone b' c' ?_, key.sizeX, key.sizeY, key.thin⟩
    rcases hfill b' c' hm with e | e <;> obtain ⟨rfl, rfl⟩ := Prod.mk.inj e <;> decide +kernel
  · have : ∀ s ∈ (asPainted dwCfg dcPage).shapes, s.bbox.x0 < s.bbox.x1 ∧ s.bbox.y0 < s.bbox.y1 ∧ Rect.round s.bbox = s.bbox := by decide +kernel
    intro s hs
    exact ly_ex_real (this s hs)

/-- The hypotheses are met: a table with coloured cells in the document. -/
example : ∃ d, Draw.convertDoc dwCfg 4 0 [dcPage] = .ok d ∧ ∃ s : ℕ × List (Docx.Item Par Sp ℕ), (sectionsOf d)[0]? = some s ∧
    TableShown whCfg.ws (fun j => 100 + 100 * j) (fun i => 100 + 50 * i) 2 2 ((pageBlocks whCfg.ws (asPainted dwCfg dcPage)).flatMap Lns.Blk.lines) (ofItems s.2) := by
  obtain ⟨d, h, hl⟩ := C110_painted_converts_partial dwCfg dw_ex_sane 2 0 [dcPage] (by simp) (by
    intro p hp
    rw [List.mem_singleton] at hp
    subst hp
    exact ⟨dc_ex_painted, _, _, _, _, _, _, fy_ex_grid, wh_ex_wide, dc_ex_page⟩)
  have hlt : 0 < (sectionsOf d).length := by rw [hl]; simp
  exact ⟨d, h, _, List.getElem?_eq_getElem hlt,
    C110_painted_partial dwCfg dw_ex_sane fy_ex_grid wh_ex_wide 2 0 _ d h 0 dcPage _ rfl (List.getElem?_eq_getElem hlt) dc_ex_painted dc_ex_page⟩

end DCells

end Props
