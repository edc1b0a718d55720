import Verif.Props.TableRows
/-! # C129: where the text of a table is in its cells -/

namespace Props
open Geom Py Pipe Spec

section Cells129

theorem cp_rows (rows : List (List (Option (List (Docx.Block Pose.Par))))) : ofBlockRows rows = rows.map fun r => r.map fun c => c.map ofBlocks := by
  have hr : ∀ r : List (Option (List (Docx.Block Pose.Par))), ofBlockRow r = r.map fun c => c.map ofBlocks := by
    intro r
    induction r with
    | nil => simp [ofBlockRow]
    | cons c r ih => cases c <;> simp [ofBlockRow, ofBlockCell, ih]
  induction rows with
  | nil => simp [ofBlockRows]
  | cons r rs ih => simp [ofBlockRows, ih, hr]

theorem cp_cellBlocks (cs : List (Full.Cell × List Pose.Blk)) : Pose.cellBlocks cs = cs.map fun x => Pose.blocks x.2 := by
  induction cs with
  | nil => rfl
  | cons x cs ih =>
    obtain ⟨c, bs⟩ := x
    simp only [Pose.cellBlocks, ih, List.map_cons]

variable {X Y : ℕ → ℚ} {r k : ℕ} {W gap : ℚ}

/-- The layout of a cell. -/
theorem cp_cell (c : Pose.Cfg) (hc : Sane c.whole) (hl0 : 0 ≤ c.left) (hr0 : 0 ≤ c.right) (i j : ℕ) (L : List (Lay.Ln Tok)) (x : Full.Cell × List Deco.Blk) (ts : List TextTriple) (a : ℚ)
    (h : CellLaid X Y W i j L x ts a) (hW : 0 < W) (hin : ∀ l ∈ L, Covers (gridCell X Y i j) l.bbox → X j + W / 2 ≤ l.bbox.x0 ∧ l.bbox.x1 ≤ X (j + 1) - W / 2)
    (xs : List Pose.Blk) (hx : Pose.layout c x.1.info.working x.2 = .ok xs) :
    ∃ qs : List Pose.Par, Pose.blocks xs = qs.map Docx.Block.text ∧ List.Forall₂ (InPlace c a (X (j + 1) - W / 2)) qs (ts.map fun t => t.2.1) ∧
      (bottoms (Y i + W / 2) qs).length = ts.length ∧
      ∀ n y ls, (bottoms (Y i + W / 2) qs)[n]? = some y → (ts.map fun t => t.2.1)[n]? = some ls → |y - bottomOf ls| ≤ rounding ((ts.map fun t => t.2.1).take (n + 1)) := by
  rw [h.working, h.texts] at hx
  have hxr := tr_layout c _ _ xs hx
  have hw : ∀ l ∈ ts.flatMap fun t => t.2.1, a ≤ l.bbox.x0 ∧ l.bbox.x1 ≤ X (j + 1) - W / 2 := by
    intro l hl
    obtain ⟨h1, h2⟩ := List.mem_filter.1 (h.lines.subset hl)
    rw [decide_eq_true_eq] at h2
    have := hin l h1 h2
    refine ⟨?_, this.2⟩
    rcases h.left with e | ⟨-, e⟩
    · rw [e]; exact this.1
    · rw [e]; linarith [this.1]
  obtain ⟨qs, e1, e2⟩ := tr_texts c hc.order hl0 hr0 ⟨a, Y i + W / 2, X (j + 1) - W / 2, Y (i + 1) - W / 2⟩ ts h.laid hw xs hxr
  obtain ⟨qs', e3, e4, e5⟩ := ps_column c ⟨a, Y i + W / 2, X (j + 1) - W / 2, Y (i + 1) - W / 2⟩ ts h.laid xs hx
  have : qs' = qs := by
    rw [e1] at e3
    have key : ∀ (a b : List Pose.Par), a.map Docx.Block.text = b.map Docx.Block.text → b = a := by
      intro a
      induction a with
      | nil => intro b hb; cases b with
        | nil => rfl
        | cons _ _ => cases hb
      | cons x a ih =>
        intro b hb
        cases b with
        | nil => cases hb
        | cons y b =>
          rw [List.map_cons, List.map_cons] at hb
          obtain ⟨h1, h2⟩ := List.cons.inj hb
          obtain rfl := Docx.Block.text.inj h1
          rw [ih b h2]
    exact key _ _ e3
  subst this
  refine ⟨qs', e1, e2, ?_, ?_⟩
  · have e6 := e4.length_eq
    have key : ∀ (qs : List Pose.Par) y, (bottoms y qs).length = qs.length := by
      intro qs
      induction qs with
      | nil => intro y; rfl
      | cons q qs ih => intro y; simp [bottoms, ih]
    rw [key, e6]
  · intro n y ls hy hls
    rw [List.getElem?_map] at hls
    obtain ⟨t, ht, rfl⟩ := Option.map_eq_some_iff.1 hls
    have := e5 n y t hy ht
    obtain ⟨l, l1, l2⟩ := ps_last (h.laid t (List.mem_of_getElem? ht))
    have eb : bottomOf t.2.1 = t.1.y1 := by
      unfold bottomOf
      rw [l1, Option.map_some, Option.getD_some, l2]
    rw [eb]
    unfold rounding
    rw [← List.map_take, List.map_map]
    exact this

/-- **C129** (partial: pages as C127; the lines in the cells do not reach over the borders at their sides). The table in the section of such a page has `r` rows of `k` cells; each has paragraphs showing
groups of the lines within the cell, from top to bottom. If a word processor sets the paragraphs of a cell within its borders, from the top on, their rows start where the lines do on the page (as C122 says)
and are broken where they have to be (as C126 says), and the bottom of each paragraph is the bottom of its last line, up to 0.05pt for each line above and the two distances of each paragraph. The left border of
the cells in the first column may be missing (see `C92_refuted_left_border`). -/
theorem C129_cell_places_partial (c : Pose.Cfg) (hc : Sane c.whole) (hl0 : 0 ≤ c.left) (hr0 : 0 ≤ c.right) (f : Fmt) (hg : Grid X Y r k W gap) (hw : WideFor c.whole.full W gap) (h5 : 5 ≤ gap) (depth : ℕ)
    (s0 : Pose.Sect) (pages : List Pose.Page) (d : Docx.Doc Pose.Par Sp Pose.Sect) (h : Pose.convert c (depth + 2) s0 pages = .ok d) (n : ℕ) (p : Pose.Page)
    (s : Pose.Sect × List (Docx.Item Pose.Par Sp Pose.Sect)) (hp : pages[n]? = some p) (hs : (sectionsOf d)[n]? = some s) (hgp : GridPage c.whole X Y r k W (withFormats c f p).whole)
    (hin : ∀ l ∈ linesOn c.whole.ws (withFormats c f p), ∀ i < r, ∀ j < k, Covers (gridCell X Y i j) l.bbox → X j + W / 2 ≤ l.bbox.x0 ∧ l.bbox.x1 ≤ X (j + 1) - W / 2) :
    ∃ (above below : List Pose.Par) (rows : List (List (Option (List (Spec.Tree Pose.Par))))),
      ofItems s.2 = above.map Tree.text ++ .table rows :: below.map Tree.text ∧ rows.length = r ∧
      ∀ i < r, ∃ row, rows[i]? = some row ∧ row.length = k ∧ ∀ j < k, ∃ (qs : List Pose.Par) (L : List (List (Lay.Ln Tok))) (a : ℚ),
        row[j]? = some (some (qs.map Tree.text)) ∧ (a = X j + W / 2 ∨ j = 0 ∧ a = X j) ∧
        L.flatten.Perm ((linesOn c.whole.ws (withFormats c f p)).filter fun l => Covers (gridCell X Y i j) l.bbox) ∧ L.flatten.Pairwise (fun l m => Above l.bbox m.bbox) ∧
        List.Forall₂ (InPlace c a (X (j + 1) - W / 2)) qs L ∧ (bottoms (Y i + W / 2) qs).length = L.length ∧
        ∀ n y ls, (bottoms (Y i + W / 2) qs)[n]? = some y → L[n]? = some ls → |y - bottomOf ls| ≤ rounding (L.take (n + 1)) := by
  have h0 : 0 ≤ gap := by linarith
  obtain ⟨dd, h1, h2, h3, -⟩ := tq_section c (depth + 2) s0 pages d h n p s hp hs
  obtain ⟨js, j1, j2, -⟩ := wt_page c.whole hc.blank hc.order hc.overlap hc.merging hg h0 (withFormats c f p).whole hgp
  have j1' : cleanUp c.whole.pipe p.box p.raw = .ok (js, []) := j1
  have hcl : cleaned c p = js := by
    unfold cleaned
    rw [j1']
  unfold Pose.parsePage at h1
  rw [j1'] at h1
  dsimp only at h1
  rw [← hcl] at h1
  cases hd : Deco.layout c.whole.full p.uri p.ids (depth + 2) (p.workOf c (cleaned c p)) p.shapes ((cleaned c p).map fun b => .text b.bbox b.lines) with
  | error e => rw [hd] at h1; cases h1
  | ok dl =>
    rw [hd] at h1
    dsimp only at h1
    cases hx : Pose.layout c (p.workOf c (cleaned c p)) dl.1 with
    | error e => rw [hx] at h1; cases h1
    | ok xs =>
      rw [hx] at h1
      obtain rfl := (Except.ok.inj h1).symm
      obtain ⟨ts₁, ts₂, cells, e1, e2, e3, e4, e5, e6, e7, e8, e9, e10⟩ := tq_deco c.whole hc hg hw h5 (withFormats c f p) depth hgp js j1 dl (by rw [← hcl]; exact hd)
      have p1 : (ts₁.flatMap fun t => t.2.1).Perm ((linesOn c.whole.ws (withFormats c f p)).filter fun l => l.bbox.y1 < Y 0) := by
        rw [tq_grid_lines]
        exact e5.trans (j2.filter _)
      have p2 : (ts₂.flatMap fun t => t.2.1).Perm ((linesOn c.whole.ws (withFormats c f p)).filter fun l => Y r < l.bbox.y0) := by
        rw [tq_grid_lines]
        exact e7.trans (j2.filter _)
      have w1 : ∀ l ∈ ts₁.flatMap fun t => t.2.1, (p.workOf c (cleaned c p)).x0 ≤ l.bbox.x0 ∧ l.bbox.x1 ≤ (p.workOf c (cleaned c p)).x1 :=
        fun l hl => tr_within c hc.blank f p hgp l (List.mem_of_mem_filter (p1.subset hl))
      have w2 : ∀ l ∈ ts₂.flatMap fun t => t.2.1, (p.workOf c (cleaned c p)).x0 ≤ l.bbox.x0 ∧ l.bbox.x1 ≤ (p.workOf c (cleaned c p)).x1 :=
        fun l hl => tr_within c hc.blank f p hgp l (List.mem_of_mem_filter (p2.subset hl))
      have hlines : ∀ l ∈ js.flatMap Lns.Blk.lines, l ∈ linesOn c.whole.ws (withFormats c f p) := by
        intro l hl
        rw [tq_grid_lines]
        exact j2.subset hl
      have hwr := tr_layout c _ _ xs hx
      rw [e1] at hwr
      obtain ⟨x₁, x', rfl, a1, a2⟩ := tq_split _ _ _ hwr
      obtain ⟨xt, x₂, a3, a4, rfl⟩ := List.forall₂_cons_left_iff.1 a2
      obtain ⟨qs₁, b1, b2⟩ := tr_texts c hc.order hl0 hr0 _ ts₁ (fun t ht => e2 t (List.mem_append_left _ ht)) w1 x₁ a1
      obtain ⟨qs₂, b3, b4⟩ := tr_texts c hc.order hl0 hr0 _ ts₂ (fun t ht => e2 t (List.mem_append_right _ ht)) w2 x₂ a4
      cases xt with
      | text _ => exact absurd a3 (by simp [WrittenIn])
      | table b' ind before g' cs' =>
        obtain ⟨-, -, rfl, hcs⟩ := a3
        have hcells := tr_cells c cells cs' hcs
        have hclen : cs'.length = r * k := by rw [← hcells.length_eq, e9]
        refine ⟨qs₁, qs₂, ofBlockRows (Pipe.place (fullGrid r k) (Pose.cellBlocks cs')), ?_, ?_, ?_⟩
        · rw [h3]
          dsimp only
          rw [tr_blocks_append, b1]
          simp only [Pose.blocks, Pose.block, b3]
          exact tq_leaves _ _ _ _
        · rw [cp_rows, cp_cellBlocks, wh_place r k _ (by rw [List.length_map]; exact hclen)]
          simp
        · intro i hi
          rw [cp_rows, cp_cellBlocks, wh_place r k _ (by rw [List.length_map]; exact hclen)]
          refine ⟨(List.range k).map fun j => (cs'[i * k + j]?).map fun x => ofBlocks (Pose.blocks x.2), by simp [hi, Function.comp_def], by simp, ?_⟩
          intro j hj
          obtain ⟨x, ts, a, c1, c2, -⟩ := e10 i hi j hj
          obtain ⟨hlt, hxe⟩ := List.getElem?_eq_some_iff.1 c1
          have hlt' : i * k + j < cs'.length := by rw [← hcells.length_eq]; exact hlt
          have hrel := (List.forall₂_iff_get.1 hcells).2 (i * k + j) hlt hlt'
          simp only [List.get_eq_getElem, hxe] at hrel
          obtain ⟨qs, f1, f2, f3, f4⟩ := cp_cell c hc hl0 hr0 i j _ x ts a c2 hg.width (fun l hl hcv => hin l (hlines l hl) i hi j hj hcv) _ hrel.2
          refine ⟨qs, ts.map fun t => t.2.1, a, ?_, c2.left, ?_, ?_, f2, by rw [f3, List.length_map], f4⟩
          · rw [List.getElem?_map, List.getElem?_range hj, Option.map_some, List.getElem?_eq_getElem hlt', Option.map_some, f1, ps_leaves]
          · rw [← List.flatMap_def, tq_grid_lines]
            exact c2.lines.trans (j2.filter _)
          · rw [← List.flatMap_def]; exact c2.order

/-- For the paragraphs in the cells of the tables of a document: the alignment, the indents, the bottoms when set from `y` on. -/
def cpCells (y : ℚ) (d : Except Err (Docx.Doc Pose.Par Sp Pose.Sect)) : Option (List (List (Para.Align × ℚ × ℚ) × List ℚ)) :=
  d.toOption.map fun d => (sectionsOf d).flatMap fun s => (ofItems s.2).flatMap fun
    | .table rows => rows.flatten.filterMap fun c => c.map fun ts => ((leaves ts).map fun q => (q.align, q.indents.1, q.indents.2.1), bottoms y (leaves ts))
    | _ => []

set_option synthInstance.maxSize 1024 in
/-- Non-vacuity: the page of C108 meets the hypotheses. Three of its cells have a line, from 120, 210 and 110 on (the borders of the cells end at 100.5, 200.5 and 100.5), 10pt high, and 9.5pt below the border. -/
example : Sane poCfg.whole ∧ 0 ≤ poCfg.left ∧ 0 ≤ poCfg.right ∧ Grid (fun j => 100 + 100 * j) (fun i => 100 + 50 * i) 2 2 1 7 ∧ WideFor poCfg.whole.full 1 7 ∧
    GridPage poCfg.whole (fun j => 100 + 100 * j) (fun i => 100 + 50 * i) 2 2 1 (withFormats poCfg ppFmt tqPage).whole ∧
    (∀ l ∈ linesOn poCfg.whole.ws (withFormats poCfg ppFmt tqPage), ∀ i < 2, ∀ j < 2,
      Covers (gridCell (fun j => 100 + 100 * j) (fun i => 100 + 50 * i) i j) l.bbox → (100 + 100 * j + 1 / 2 : ℚ) ≤ l.bbox.x0 ∧ l.bbox.x1 ≤ (100 + 100 * (j + 1 : ℕ) - 1 / 2 : ℚ)) ∧
    cpCells (201 / 2) (Pose.convert poCfg 4 ⟨0, 0, ⟨0, 0, 0, 0⟩⟩ [tqPage]) = some [([(.left, 39 / 2, 39 / 2)], [120]), ([(.left, 19 / 2, 19 / 2)], [120]), ([(.left, 19 / 2, 19 / 2)], [120]), ([], [])] := by
  refine ⟨wh_ex_sane, by decide +kernel, by decide +kernel, fy_ex_grid, wh_ex_wide, tq_ex_page, by decide +kernel, by decide +kernel⟩

end Cells129
end Props
