import Verif.Props.CellPlaces
import Verif.Spec.Frames
/-! # C130, C131: the columns of tables, and the colours of their cells -/

namespace Props
open Geom Py Pipe Spec

section Frames130

theorem fm_mapM {α β : Type} (f : α → Except Err β) (xs : List α) (ys : List β) (h : List.Forall₂ (fun x y => f x = .ok y) xs ys) : xs.mapM f = .ok ys := by
  induction h with
  | nil => rfl
  | cons h1 _ ih => rw [List.mapM_cons, h1, ih]; rfl

/-- A parsed page has a layout. -/
theorem fm_layout (c : Pose.Cfg) (depth : ℕ) (p : Pose.Page) (dd : Docx.PageData Pose.Par Sp Pose.Sect) (h : Pose.parsePage c depth p = .ok dd) :
    ∃ xs, Pose.pageLayout c depth p = .ok xs := by
  unfold Pose.parsePage at h
  unfold Pose.pageLayout
  cases h1 : cleanUp c.whole.pipe p.box p.raw with
  | error e => rw [h1] at h; cases h
  | ok r =>
    rw [h1] at h
    dsimp only at h ⊢
    cases h2 : Deco.layout c.whole.full p.uri p.ids depth (p.workOf c r.1) p.shapes (r.1.map fun b => .text b.bbox b.lines) with
    | error e => rw [h2] at h; cases h
    | ok bs =>
      rw [h2] at h
      dsimp only at h ⊢
      cases h3 : Pose.layout c (p.workOf c r.1) bs.1 with
      | error e => rw [h3] at h; cases h
      | ok x => exact ⟨x, rfl⟩

/-- What is written of the tables of a converted document. -/
theorem fm_frames (c : Pose.Cfg) (depth : ℕ) (s0 : Pose.Sect) (pages : List Pose.Page) (d : Docx.Doc Pose.Par Sp Pose.Sect) (h : Pose.convert c depth s0 pages = .ok d) :
    ∃ F, Pose.convertFrames c depth pages = .ok F ∧ List.Forall₂ (fun p fs => ∃ xs, Pose.pageLayout c depth p = .ok xs ∧ fs = Pose.frames xs) pages F := by
  unfold Pose.convert at h
  cases hm : pages.mapM (Pose.parsePage c depth) with
  | error e => rw [hm] at h; cases h
  | ok ds =>
    have hall := pp_mapM_forall pages ds hm
    have key : ∀ (ps : List Pose.Page) ds, List.Forall₂ (fun p d => Pose.parsePage c depth p = .ok d) ps ds → ∃ xss, List.Forall₂ (fun p xs => Pose.pageLayout c depth p = .ok xs) ps xss := by
      intro ps ds h
      induction h with
      | nil => exact ⟨[], .nil⟩
      | cons h1 _ ih =>
        obtain ⟨xss, hx⟩ := ih
        obtain ⟨xs, h2⟩ := fm_layout c depth _ _ h1
        exact ⟨xs :: xss, .cons h2 hx⟩
    obtain ⟨xss, hx⟩ := key pages ds hall
    refine ⟨xss.map Pose.frames, ?_, ?_⟩
    · unfold Pose.convertFrames
      rw [fm_mapM _ _ _ hx]
    · rw [List.forall₂_map_right_iff]
      exact hx.imp fun p xs h => ⟨xs, h, rfl⟩

theorem fm_texts (c : Pose.Cfg) (box : Rect) (ts : List TextTriple) (xs : List Pose.Blk) (h : List.Forall₂ (WrittenIn c box) (ts.map fun t => .text t.1 t.2.1 t.2.2) xs) (ys : List Pose.Blk) :
    Pose.frames (xs ++ ys) = Pose.frames ys := by
  induction ts generalizing xs with
  | nil =>
    obtain rfl := List.forall₂_nil_left_iff.1 h
    rfl
  | cons t ts ih =>
    rw [List.map_cons] at h
    obtain ⟨x, xs', h1, h2, rfl⟩ := List.forall₂_cons_left_iff.1 h
    cases x with
    | table _ _ _ _ _ => exact absurd h1 (by simp [WrittenIn])
    | text q =>
      show Pose.frames (xs' ++ ys) = _
      exact ih xs' h2

/-- The edges of a row of cells of the columns of a grid. -/
theorem fm_edges (X : ℕ → ℚ) (g : ℕ → Pose.FrameCell) (k : ℕ) (m : ℕ) (hg : ∀ j < k, (g (m + j)).width = X (m + j + 1) - X (m + j)) :
    columnEdges (X m) ((List.range k).map fun j => some (g (m + j))) = (List.range (k + 1)).map fun j => X (m + j) := by
  induction k generalizing m with
  | zero => rfl
  | succ k ih =>
    rw [List.range_succ_eq_map, List.map_cons, List.map_map, List.range_succ_eq_map (n := k + 1), List.map_cons, List.map_map]
    unfold columnEdges
    have h0 := hg 0 (by omega)
    rw [Nat.add_zero] at h0 ⊢
    rw [h0]
    have e : X m + (X (m + 1) - X m) = X (m + 1) := by ring
    rw [e]
    have hs : ∀ j, m + (j + 1) = m + 1 + j := by intro j; omega
    have := ih (m + 1) (by
      intro j hj
      have := hg (j + 1) (by omega)
      rw [hs j] at this
      rw [this])
    have e1 : (fun j => some (g (m + j))) ∘ Nat.succ = fun j => some (g (m + 1 + j)) := funext fun j => congrArg (fun n => some (g n)) (hs j)
    have e2 : (fun j => X (m + j)) ∘ Nat.succ = fun j => X (m + 1 + j) := funext fun j => congrArg X (hs j)
    rw [e1, e2, this]

theorem fm_found (c : Pose.Cfg) (box : Rect) (bs : List Deco.Blk) (xs : List Pose.Blk) (h : List.Forall₂ (WrittenIn c box) bs xs) :
    List.Forall₂ (AsFound box.x0) (foundTables bs) (Pose.frames xs) := by
  induction h with
  | nil => exact .nil
  | @cons b x bs xs h1 h2 ih =>
    cases b with
    | text b ls s =>
      cases x with
      | text q => exact ih
      | table _ _ _ _ _ => exact absurd h1 (by simp [WrittenIn])
    | table b g cs =>
      cases x with
      | text q => exact absurd h1 (by simp [WrittenIn])
      | table b' ind before g' cs' =>
        obtain ⟨-, rfl, rfl, hcs⟩ := h1
        refine .cons ⟨?_, ?_⟩ ih
        · show box.x0 + (b.x0 - box.x0) = b.x0
          ring
        · have hcells := tr_cells c cs cs' hcs
          have : cs'.map (fun x => x.1.info) = cs.map fun x => x.1.info := by
            clear hcs h2 ih
            induction hcells with
            | nil => rfl
            | cons h _ ih => rw [List.map_cons, List.map_cons, ih, h.1]
          show place g' (cs'.map ((fun i : Full.CellInfo => Pose.frameCell i) ∘ fun x => x.1.info)) = _
          rw [← List.map_map, this]
          rfl

/-- **C130** for any page: the tables written in its section are the ones found on the page, in their order; each starts where the table does on the page, and has its cells, with their widths, borders and backgrounds. The example below meets its hypotheses, with one table on each page. -/
theorem C130_any_table (c : Pose.Cfg) (depth : ℕ) (s0 : Pose.Sect) (pages : List Pose.Page) (d : Docx.Doc Pose.Par Sp Pose.Sect) (h : Pose.convert c depth s0 pages = .ok d) (n : ℕ) (p : Pose.Page)
    (s : Pose.Sect × List (Docx.Item Pose.Par Sp Pose.Sect)) (hp : pages[n]? = some p) (hs : (sectionsOf d)[n]? = some s) :
    ∃ (js : List Raw) (dl : List Deco.Blk × Full.Types) (F : List (List Pose.Frame)) (fs : List Pose.Frame), (cleanUp c.whole.pipe p.box p.raw).map Prod.fst = .ok js ∧
      Deco.layout c.whole.full p.uri p.ids depth (p.workOf c js) p.shapes (js.map fun b => .text b.bbox b.lines) = .ok dl ∧ Pose.convertFrames c depth pages = .ok F ∧ F[n]? = some fs ∧
      List.Forall₂ (AsFound s.1.margin.left) (foundTables dl.1) fs := by
  obtain ⟨dd, h1, h2, -, -⟩ := tq_section c depth s0 pages d h n p s hp hs
  obtain ⟨F, hF, hall⟩ := fm_frames c depth s0 pages d h
  obtain ⟨hn, hpn⟩ := List.getElem?_eq_some_iff.1 hp
  have hn' : n < F.length := hall.length_eq ▸ hn
  have hrel := (List.forall₂_iff_get.1 hall).2 n hn hn'
  simp only [List.get_eq_getElem, hpn] at hrel
  obtain ⟨xs, hl, hfs⟩ := hrel
  unfold Pose.pageLayout at hl
  unfold Pose.parsePage at h1
  cases hc : cleanUp c.whole.pipe p.box p.raw with
  | error e => rw [hc] at hl; cases hl
  | ok r =>
    rw [hc] at hl h1
    dsimp only at hl h1
    cases hd : Deco.layout c.whole.full p.uri p.ids depth (p.workOf c r.1) p.shapes (r.1.map fun b => .text b.bbox b.lines) with
    | error e => rw [hd] at hl; cases hl
    | ok dl =>
      rw [hd] at hl h1
      dsimp only at hl h1
      rw [hl] at h1
      obtain rfl := (Except.ok.inj h1).symm
      refine ⟨r.1, dl, F, F[n], rfl, hd, hF, List.getElem?_eq_getElem hn', ?_⟩
      have ex0 : s.1.margin.left = (p.workOf c r.1).x0 := by
        rw [h2]
        show (p.margin c r.1).left = 0 + (p.margin c r.1).left
        rw [zero_add]
      rw [ex0, hfs]
      exact fm_found c _ _ _ (tr_layout c _ _ xs hl)

variable {X Y : ℕ → ℚ} {r k : ℕ} {W gap : ℚ}

/-- The table of a page with a grid. -/
theorem fm_grid (c : Pose.Cfg) (hc : Sane c.whole) (f : Fmt) (hg : Grid X Y r k W gap) (hw : WideFor c.whole.full W gap) (h5 : 5 ≤ gap) (depth : ℕ)
    (s0 : Pose.Sect) (pages : List Pose.Page) (d : Docx.Doc Pose.Par Sp Pose.Sect) (h : Pose.convert c (depth + 2) s0 pages = .ok d) (n : ℕ) (p : Pose.Page)
    (s : Pose.Sect × List (Docx.Item Pose.Par Sp Pose.Sect)) (hp : pages[n]? = some p) (hs : (sectionsOf d)[n]? = some s) (hgp : GridPage c.whole X Y r k W (withFormats c f p).whole) :
    ∃ (F : List (List Pose.Frame)) (t : Pose.Frame), Pose.convertFrames c (depth + 2) pages = .ok F ∧ F[n]? = some [t] ∧ t.cells.length = r ∧
      ∀ i < r, ∃ row, t.cells[i]? = some row ∧ columnEdges (s.1.margin.left + t.indent) row = (List.range (k + 1)).map X ∧
        ∀ j < k, ∃ x, row[j]? = some (some x) ∧ (x.borders.top = some (8 * W) ∧ x.borders.right = some (8 * W) ∧ x.borders.bottom = some (8 * W) ∧
          (x.borders.left = some (8 * W) ∨ j = 0 ∧ x.borders.left = none)) ∧
            Coloured (innerCell X Y W i j) p.shapes ((linesOn c.whole.ws (withFormats c f p)).map fun l => l.bbox) x.shading := by
  have h0 : 0 ≤ gap := by linarith
  obtain ⟨dd, h1, h2, -, -⟩ := tq_section c (depth + 2) s0 pages d h n p s hp hs
  obtain ⟨F, hF, hall⟩ := fm_frames c (depth + 2) s0 pages d h
  obtain ⟨hn, hpn⟩ := List.getElem?_eq_some_iff.1 hp
  have hn' : n < F.length := hall.length_eq ▸ hn
  have hrel := (List.forall₂_iff_get.1 hall).2 n hn hn'
  simp only [List.get_eq_getElem, hpn] at hrel
  obtain ⟨xs, hl, hfs⟩ := hrel
  obtain ⟨js, j1, j2, -⟩ := wt_page c.whole hc.blank hc.order hc.overlap hc.merging hg h0 (withFormats c f p).whole hgp
  have j1' : cleanUp c.whole.pipe p.box p.raw = .ok (js, []) := j1
  have hcl : cleaned c p = js := by
    unfold cleaned
    rw [j1']
  unfold Pose.pageLayout at hl
  unfold Pose.parsePage at h1
  rw [j1'] at hl h1
  dsimp only at hl h1
  rw [← hcl] at hl h1
  cases hd : Deco.layout c.whole.full p.uri p.ids (depth + 2) (p.workOf c (cleaned c p)) p.shapes ((cleaned c p).map fun b => .text b.bbox b.lines) with
  | error e => rw [hd] at hl; cases hl
  | ok dl =>
    rw [hd] at hl h1
    dsimp only at hl h1
    rw [hl] at h1
    obtain rfl := (Except.ok.inj h1).symm
    obtain ⟨ts₁, ts₂, cells, e1, -, -, -, -, -, -, -, e9, e10⟩ := tq_deco c.whole hc hg hw h5 (withFormats c f p) depth hgp js j1 dl (by rw [← hcl]; exact hd)
    have hwr := tr_layout c _ _ xs hl
    rw [e1] at hwr
    obtain ⟨x₁, x', rfl, a1, a2⟩ := tq_split _ _ _ hwr
    obtain ⟨xt, x₂, a3, a4, rfl⟩ := List.forall₂_cons_left_iff.1 a2
    have ex0 : s.1.margin.left = (p.workOf c (cleaned c p)).x0 := by
      rw [h2]
      show (p.margin c (cleaned c p)).left = 0 + (p.margin c (cleaned c p)).left
      rw [zero_add]
    cases xt with
    | text _ => exact absurd a3 (by simp [WrittenIn])
    | table b' ind before g' cs' =>
      obtain ⟨-, rfl, rfl, hcs⟩ := a3
      have hcells := tr_cells c cells cs' hcs
      have hclen : cs'.length = r * k := by rw [← hcells.length_eq, e9]
      have hplace := wh_place r k (cs'.map fun x => Pose.frameCell x.1.info) (by rw [List.length_map]; exact hclen)
      have hcell : ∀ i < r, ∀ j < k, ∃ x : Full.CellInfo, (cs'.map fun x => Pose.frameCell x.1.info)[i * k + j]? = some (Pose.frameCell x) ∧ x.box = gridCell X Y i j ∧
          x.top = W ∧ x.right = W ∧ x.bottom = W ∧ (x.left = W ∨ j = 0 ∧ x.left = 0) ∧
          Coloured (innerCell X Y W i j) p.shapes ((linesOn c.whole.ws (withFormats c f p)).map fun l => l.bbox) x.bg := by
        intro i hi j hj
        obtain ⟨x, ts, a, c1, c2, c3⟩ := e10 i hi j hj
        obtain ⟨hlt, hxe⟩ := List.getElem?_eq_some_iff.1 c1
        have hlt' : i * k + j < cs'.length := by rw [← hcells.length_eq]; exact hlt
        have hrel := (List.forall₂_iff_get.1 hcells).2 (i * k + j) hlt hlt'
        simp only [List.get_eq_getElem, hxe] at hrel
        refine ⟨x.1.info, ?_, c2.box, c2.borders.1, c2.borders.2.1, c2.borders.2.2.1, c2.borders.2.2.2, ?_⟩
        · rw [List.getElem?_map, List.getElem?_eq_getElem hlt', Option.map_some, hrel.1]
        · refine ⟨fun b col hb hcol hcv hl => c3.1 b col hb hcol hcv ?_, c3.2⟩
          obtain ⟨l, hl, hbl⟩ := hl
          obtain ⟨l', hl', rfl⟩ := List.mem_map.1 hl
          rw [tq_grid_lines] at hl'
          exact ⟨l'.bbox, List.mem_map_of_mem (j2.symm.subset hl'), hbl⟩
      have hW0 : W ≠ 0 := ne_of_gt hg.width
      refine ⟨F, ⟨(gridBox X Y r k).x0 - (p.workOf c (cleaned c p)).x0, place (fullGrid r k) (cs'.map fun x => Pose.frameCell x.1.info)⟩, hF, ?_, ?_, ?_⟩
      · rw [List.getElem?_eq_getElem hn', hfs, fm_texts c _ ts₁ x₁ a1]
        congr 1
        unfold Pose.frames
        have := fm_texts c _ ts₂ x₂ a4 []
        rw [List.append_nil] at this
        rw [this]
        rfl
      · rw [hplace]
        simp
      · intro i hi
        rw [hplace]
        refine ⟨(List.range k).map fun j => (cs'.map fun x => Pose.frameCell x.1.info)[i * k + j]?, by simp [hi], ?_, ?_⟩
        · rw [ex0]
          have e : (p.workOf c (cleaned c p)).x0 + ((gridBox X Y r k).x0 - (p.workOf c (cleaned c p)).x0) = X 0 := by
            show _ + (X 0 - _) = X 0
            ring
          rw [e]
          choose g hg1 hg2 using hcell i hi
          have := fm_edges X (fun j => if hj : j < k then Pose.frameCell (g j hj) else ⟨0, ⟨none, none, none, none⟩, none⟩) k 0 (by
            intro j hj
            rw [Nat.zero_add, dif_pos hj]
            unfold Pose.frameCell
            rw [(hg2 j hj).1]
            rfl)
          simp only [Nat.zero_add] at this
          rw [← this]
          congr 1
          apply List.map_congr_left
          intro j hj
          have hj := List.mem_range.1 hj
          rw [hg1 j hj, dif_pos hj]
        · intro j hj
          obtain ⟨x, c1, -, b1, b2, b3, b4, b5'⟩ := hcell i hi j hj
          have hb : Pose.borderSize W = some (8 * W) := by
            unfold Pose.borderSize
            rw [if_neg hW0]
          refine ⟨Pose.frameCell x, ?_, ⟨?_, ?_, ?_, ?_⟩, b5'⟩
          · rw [List.getElem?_map, List.getElem?_range hj, Option.map_some, c1]
          · show Pose.borderSize x.top = _
            rw [b1, hb]
          · show Pose.borderSize x.right = _
            rw [b2, hb]
          · show Pose.borderSize x.bottom = _
            rw [b3, hb]
          · show Pose.borderSize x.left = _ ∨ _ ∧ Pose.borderSize x.left = _
            rcases b4 with b4 | ⟨b4, b5⟩
            · left; rw [b4, hb]
            · right; rw [b5]; exact ⟨b4, if_pos rfl⟩

/-- **C130** (partial: pages as C127). One table is written for such a page; it has `r` rows of `k` cells, and in each row, the columns start and end where those of the grid on the page do, counting from the
left edge of the page: the left margin of the section, the indent of the table, and the widths of the cells. The cells have borders of the width of the strokes (in eighths of a point); the left borders of
the cells in the first column may be missing (see `C92_refuted_left_border`). -/
theorem C130_table_columns_partial (c : Pose.Cfg) (hc : Sane c.whole) (f : Fmt) (hg : Grid X Y r k W gap) (hw : WideFor c.whole.full W gap) (h5 : 5 ≤ gap) (depth : ℕ)
    (s0 : Pose.Sect) (pages : List Pose.Page) (d : Docx.Doc Pose.Par Sp Pose.Sect) (h : Pose.convert c (depth + 2) s0 pages = .ok d) (n : ℕ) (p : Pose.Page)
    (s : Pose.Sect × List (Docx.Item Pose.Par Sp Pose.Sect)) (hp : pages[n]? = some p) (hs : (sectionsOf d)[n]? = some s) (hgp : GridPage c.whole X Y r k W (withFormats c f p).whole) :
    ∃ (F : List (List Pose.Frame)) (t : Pose.Frame), Pose.convertFrames c (depth + 2) pages = .ok F ∧ F[n]? = some [t] ∧ t.cells.length = r ∧
      ∀ i < r, ∃ row, t.cells[i]? = some row ∧ columnEdges (s.1.margin.left + t.indent) row = (List.range (k + 1)).map X ∧
        ∀ j < k, ∃ x, row[j]? = some (some x) ∧ x.borders.top = some (8 * W) ∧ x.borders.right = some (8 * W) ∧ x.borders.bottom = some (8 * W) ∧
          (x.borders.left = some (8 * W) ∨ j = 0 ∧ x.borders.left = none) := by
  obtain ⟨F, t, h1, h2, h3, h4⟩ := fm_grid c hc f hg hw h5 depth s0 pages d h n p s hp hs hgp
  refine ⟨F, t, h1, h2, h3, fun i hi => ?_⟩
  obtain ⟨row, q1, q2, q3⟩ := h4 i hi
  refine ⟨row, q1, q2, fun j hj => ?_⟩
  obtain ⟨x, y1, y2, -⟩ := q3 j hj
  exact ⟨x, y1, y2⟩

/-- **C131** (partial: pages as C127; areas with text). In the table written for such a page, a cell on a coloured area that has text on it has the colour of this area, and a cell has no colour other than that
of an area drawn behind it (or white). -/
theorem C131_cell_colours_partial (c : Pose.Cfg) (hc : Sane c.whole) (f : Fmt) (hg : Grid X Y r k W gap) (hw : WideFor c.whole.full W gap) (h5 : 5 ≤ gap) (depth : ℕ)
    (s0 : Pose.Sect) (pages : List Pose.Page) (d : Docx.Doc Pose.Par Sp Pose.Sect) (h : Pose.convert c (depth + 2) s0 pages = .ok d) (n : ℕ) (p : Pose.Page)
    (s : Pose.Sect × List (Docx.Item Pose.Par Sp Pose.Sect)) (hp : pages[n]? = some p) (hs : (sectionsOf d)[n]? = some s) (hgp : GridPage c.whole X Y r k W (withFormats c f p).whole) :
    ∃ (F : List (List Pose.Frame)) (t : Pose.Frame), Pose.convertFrames c (depth + 2) pages = .ok F ∧ F[n]? = some [t] ∧
      ∀ i < r, ∀ j < k, ∃ x, t.cells[i]?.bind (fun row => row[j]?) = some (some x) ∧
        Coloured (innerCell X Y W i j) p.shapes ((linesOn c.whole.ws (withFormats c f p)).map fun l => l.bbox) x.shading := by
  obtain ⟨F, t, h1, h2, h3, h4⟩ := fm_grid c hc f hg hw h5 depth s0 pages d h n p s hp hs hgp
  refine ⟨F, t, h1, h2, fun i hi j hj => ?_⟩
  obtain ⟨row, q1, -, q3⟩ := h4 i hi
  obtain ⟨x, y1, -, y3⟩ := q3 j hj
  exact ⟨x, by rw [q1]; exact y1, y3⟩

/-- For the tables of a document: where the columns of the first row start and end, and the borders of its first cell. -/
def fmColumns (left : ℚ) (F : Except Err (List (List Pose.Frame))) : Option (List (List (List (List ℚ) × Option (Option (CellDocx.Sides (Option ℚ)))))) :=
  F.toOption.map fun F => F.map fun fs => fs.map fun t => (t.cells.map fun r => columnEdges (left + t.indent) r, t.cells.head?.bind fun r => r.head?.map fun c => c.map fun x => x.borders)

set_option synthInstance.maxSize 1024 in
/-- Non-vacuity: the page of C108, twice, meets the hypotheses; the left margin of the sections is 0, the columns are at 100, 200 and 300, and the strokes are 1pt wide. -/
example : Sane poCfg.whole ∧ Grid (fun j => 100 + 100 * j) (fun i => 100 + 50 * i) 2 2 1 7 ∧ WideFor poCfg.whole.full 1 7 ∧
    GridPage poCfg.whole (fun j => 100 + 100 * j) (fun i => 100 + 50 * i) 2 2 1 (withFormats poCfg ppFmt tqPage).whole ∧
    (Pose.convert poCfg 4 ⟨0, 0, ⟨0, 0, 0, 0⟩⟩ [tqPage, tqPage]).toOption.map (fun d => (sectionsOf d).map fun s => s.1.margin.left) = some [0, 0] ∧
    fmColumns 0 (Pose.convertFrames poCfg 4 [tqPage, tqPage]) = some [[([[100, 200, 300], [100, 200, 300]], some (some ⟨some 8, some 8, some 8, some 8⟩))],
      [([[100, 200, 300], [100, 200, 300]], some (some ⟨some 8, some 8, some 8, some 8⟩))]] := by
  refine ⟨wh_ex_sane, fy_ex_grid, wh_ex_wide, tq_ex_page, by decide +kernel, by decide +kernel⟩

/-- The backgrounds of the cells of the tables of a document. -/
def fmColours (F : Except Err (List (List Pose.Frame))) : Option (List (List (List (List (Option (Option ℕ)))))) :=
  F.toOption.map fun F => F.map fun fs => fs.map fun t => t.cells.map fun r => r.map fun c => c.map fun x => x.shading

set_option synthInstance.maxSize 1024 in
/-- Non-vacuity of C131: the page of C108 meets the hypotheses; there is an area of colour 7 behind the cells of the first row (with text on it), which have this colour; the others have none. -/
example : Sane poCfg.whole ∧ Grid (fun j => 100 + 100 * j) (fun i => 100 + 50 * i) 2 2 1 7 ∧ WideFor poCfg.whole.full 1 7 ∧
    GridPage poCfg.whole (fun j => 100 + 100 * j) (fun i => 100 + 50 * i) 2 2 1 (withFormats poCfg ppFmt tqPage).whole ∧
    fmColours (Pose.convertFrames poCfg 4 [tqPage]) = some [[[[some (some 7), some (some 7)], [some none, some none]]]] ∧
    Full.Sh.fill ⟨100, 100, 300, 150⟩ 7 ∈ tqPage.shapes := by
  refine ⟨wh_ex_sane, fy_ex_grid, wh_ex_wide, tq_ex_page, by decide +kernel, by decide +kernel⟩

end Frames130
end Props
