import Verif.Spec.Store
import Verif.Props.Element
import Mathlib.Data.List.TakeWhile
/-! # C15: storing a parsed page and restoring it -/

namespace Props
open Geom Store Spec

theorem st_round_tenths {r : Rect} (h : Tenths r) : r.round = r := by
  obtain ⟨a, b, c, d, rfl⟩ := h
  simp [Rect.round, Py.round1_tenths]

theorem st_round_is_tenths (r : Rect) : Tenths r.round :=
  ⟨Py.roundHE (10 * r.x0), Py.roundHE (10 * r.y0), Py.roundHE (10 * r.x1), Py.roundHE (10 * r.y1), rfl⟩

theorem st_initBox {E : Env} (hE : Upright E) {r : Rect} (h : Tenths r) : initBox E r = r := by
  unfold initBox Coll.updateBbox
  rw [hE.1, st_round_tenths h]

theorem st_truthy {r : Rect} : r.truthy = true ↔ r ≠ Rect.zero := by simp [Rect.truthy]

/-- Appending elements that all have a box keeps them all. -/
theorem st_appendAll {β : Type} (box : β → Rect) (l : List β) (b : Rect) (pre : List β) (h : ∀ e ∈ l, box e ≠ Rect.zero) :
    l.foldl (fun s e => if (box e).truthy then (Coll.unionBbox s.1 (box e), s.2 ++ [e]) else s) (b, pre) =
      ((l.map box).foldl Coll.unionBbox b, pre ++ l) := by
  induction l generalizing b pre with
  | nil => simp
  | cons e l ih =>
    have he : (box e).truthy = true := st_truthy.2 (h e (by simp))
    simp only [List.foldl_cons, List.map_cons, he, if_true]
    rw [ih _ _ (fun e' he' => h e' (by simp [he']))]
    simp

theorem st_fold_covered (l : List Rect) (b : Rect) (h : BoxOk b l) : l.foldl Coll.unionBbox b = b := by
  induction l with
  | nil => rfl
  | cons c l ih =>
    have hb : ¬ b.isEmpty := by
      unfold Rect.isEmpty; intro hh; rcases h.2.1 with ⟨h1, h2⟩
      rcases hh with hh | hh
      · rw [hh] at h1; exact lt_irrefl _ h1
      · rw [hh] at h2; exact lt_irrefl _ h2
    have hu : Coll.unionBbox b c = b := by
      unfold Coll.unionBbox Coll.updateBbox
      have : b.union c = b := by
        unfold Rect.union
        rcases h.2.2 c (by simp) with hc | hc
        · rw [if_pos hc]
        · by_cases hce : c.isEmpty
          · rw [if_pos hce]
          · rw [if_neg hce, if_neg hb]
            obtain ⟨h1, h2, h3, h4⟩ := hc
            rw [min_eq_left h1, min_eq_left h2, max_eq_left h3, max_eq_left h4]
      rw [this, st_round_tenths h.1]
    rw [List.foldl_cons, hu]
    exact ih ⟨h.1, h.2.1, fun c' hc' => h.2.2 c' (by simp [hc'])⟩

theorem st_char {E : Env} (hE : Upright E) (c : Chr) (h : CharOk c) : c.restore E = c := by
  unfold Chr.restore
  rw [st_initBox hE h]

theorem st_map_id {β : Type} (f : β → β) (l : List β) (h : ∀ e ∈ l, f e = e) : l.map f = l := by
  induction l with
  | nil => rfl
  | cons e l ih => rw [List.map_cons, h e (by simp), ih (fun e' he' => h e' (by simp [he']))]

theorem st_item {E : Env} (hE : Upright E) (i : Item) (h : ItemOk i) :
    (i.store).restore E = i.store ∧ i.store.bbox = i.bbox := by
  cases i with
  | image i => exact ⟨by simp only [Item.store, Item.restore, Img.restore, st_initBox hE h.1], rfl⟩
  | text s =>
    obtain ⟨h1, h2, h3, h4, h5⟩ := h
    refine ⟨?_, rfl⟩
    have hu : unnamed (Text.fontOf s.font) = false := by
      have : unnamed (Text.fontOf s.font) = unnamed s.font := by unfold unnamed; rw [h5]
      rw [this]; exact decide_eq_false h4
    simp only [Item.store, Item.restore, Span.restore, Span.store, hu, st_initBox hE h1,
      st_map_id _ _ (fun c hc => st_char hE c (h3 c hc))]
    rfl

theorem st_item_box {i : Item} (h : ItemOk i) : i.bbox ≠ Rect.zero := by
  cases i with
  | image i => exact h.2
  | text s => exact h.2.1

theorem st_line {E : Env} (hE : Upright E) (l : Line) (h : LineOk l) :
    (l.store).restore E = l.store ∧ l.store.bbox = l.bbox := by
  obtain ⟨_, hs, hb⟩ := h
  refine ⟨?_, rfl⟩
  have hm : (l.spans.map Item.store).map (Item.restore E) = l.spans.map Item.store := by
    rw [List.map_map]
    exact List.map_congr_left fun i hi => (st_item hE i (hs i hi)).1
  have hbx : (l.spans.map Item.store).map Item.bbox = l.spans.map Item.bbox := by
    rw [List.map_map]
    exact List.map_congr_left fun i hi => (st_item hE i (hs i hi)).2
  have ha := st_appendAll Item.bbox (l.spans.map Item.store) Rect.zero [] (by
    intro e he
    obtain ⟨i, hi, rfl⟩ := List.mem_map.1 he
    rw [(st_item hE i (hs i hi)).2]
    exact st_item_box (hs i hi))
  rw [hbx, ← hb] at ha
  simp only [Line.restore, Line.store, appendAll, hm, ha, hE.2, List.nil_append]

theorem st_fmt {f : Fmt} (h : AlignOk f) : f.restore = f := by
  unfold Fmt.restore
  have : -1 ≤ f.alignment ∧ f.alignment ≤ 4 := h
  rw [if_pos this]

theorem st_proper_ne {b : Rect} (h : Proper b) : b ≠ Rect.zero := by
  rintro rfl
  exact lt_irrefl _ h.1

theorem st_row_boxes (rows : List (RowOf (CellOf Block))) : (KeptRows rows).map RowOf.bbox = rows.map RowOf.bbox := by
  induction rows with
  | nil => rfl
  | cons r rs ih => cases r; simp only [KeptRows, KeptRow, List.map_cons, ih]

theorem st_cell_boxes (cells : List (CellOf Block)) : (KeptCells cells).map CellOf.bbox = cells.map CellOf.bbox := by
  induction cells with
  | nil => rfl
  | cons r rs ih => cases r; simp only [KeptCells, KeptCell, List.map_cons, ih]

theorem st_kept_box (b : Block) : (Kept b).bbox = b.bbox := by
  cases b <;> rfl

theorem st_intact_box {b : Block} (h : Intact b) : b.bbox ≠ Rect.zero := by
  cases b with
  | text inl b f lines => exact h.2.2.1
  | table s b f rows => exact st_proper_ne h.2.1.2.1
  | image fl f i => exact h.elim

theorem st_rows_ne (rows : List (RowOf (CellOf Block))) (h : RowsIntact rows) : ∀ r ∈ rows, r.bbox ≠ Rect.zero := by
  induction rows with
  | nil => simp
  | cons r rs ih =>
    intro r' hr'
    rcases List.mem_cons.1 hr' with rfl | hr'
    · cases r'; exact st_proper_ne h.1.1.2.1
    · exact ih h.2 r' hr'

mutual
theorem st_block {E : Env} (hE : Upright E) : (b : Block) → Intact b → (b.store).restore E = some (Kept b)
  | .text inl b f lines, h => by
    obtain ⟨rfl, hf, _, hl, hb⟩ := h
    have hm : (lines.map Line.store).map (Line.restore E) = lines.map Line.store := by
      rw [List.map_map]
      exact List.map_congr_left fun i hi => (st_line hE i (hl i hi)).1
    have ha := st_appendAll Line.bbox (lines.map Line.store) Rect.zero [] (by
      intro e he
      obtain ⟨i, hi, rfl⟩ := List.mem_map.1 he
      exact (hl i hi).1)
    have hbx : (lines.map Line.store).map Line.bbox = lines.map Line.bbox := by
      rw [List.map_map]; rfl
    rw [hbx, ← hb] at ha
    simp only [Block.store, Raw.restore, Kept, restoreText, appendAll, hm, ha, List.nil_append, st_fmt hf]
    simp
  | .table s b f rows, h => by
    obtain ⟨hf, hb, hr⟩ := h
    have hrows := st_rows hE rows hr
    have hne : ∀ r ∈ KeptRows rows, r.bbox ≠ Rect.zero := by
      intro r hr'
      have : r.bbox ∈ rows.map RowOf.bbox := by rw [← st_row_boxes]; exact List.mem_map_of_mem hr'
      obtain ⟨r0, hr0, he⟩ := List.mem_map.1 this
      rw [← he]
      exact st_rows_ne rows hr r0 hr0
    have ha := st_appendAll RowOf.bbox (KeptRows rows) b [] hne
    rw [st_row_boxes, st_fold_covered _ _ hb] at ha
    cases s <;>
    · simp only [Block.store, Raw.restore, Kept, hrows, appendAll, st_initBox hE hb.1, ha, List.nil_append, st_fmt hf]
      simp
  | .image _ _ _, h => h.elim
theorem st_rows {E : Env} (hE : Upright E) : (rows : List (RowOf (CellOf Block))) → RowsIntact rows →
    restoreRows E (storeRows rows) = KeptRows rows
  | [], _ => by simp only [storeRows, restoreRows, KeptRows]
  | r :: rs, h => by
    simp only [storeRows, restoreRows, KeptRows, st_row hE r h.1, st_rows hE rs h.2]
theorem st_row {E : Env} (hE : Upright E) : (r : RowOf (CellOf Block)) → RowIntact r → restoreRow E (storeRow r) = KeptRow r
  | ⟨b, h, cells⟩, hr => by
    simp only [storeRow, restoreRow, KeptRow, st_cells hE cells hr.2, appendCells, st_initBox hE hr.1.1]
    have := st_fold_covered _ _ hr.1
    rw [← st_cell_boxes, List.foldl_map] at this
    rw [this]
theorem st_cells {E : Env} (hE : Upright E) : (cells : List (CellOf Block)) → CellsIntact cells →
    restoreCells E (storeCells cells) = KeptCells cells
  | [], _ => by simp only [storeCells, restoreCells, KeptCells]
  | c :: cs, h => by
    simp only [storeCells, restoreCells, KeptCells, st_cell hE c h.1, st_cells hE cs h.2]
theorem st_cell {E : Env} (hE : Upright E) : (c : CellOf Block) → CellIntact c → restoreCell E (storeCell c) = KeptCell c
  | ⟨b, bg, bc, bw, m, blocks⟩, hc => by
    rcases hc with ⟨rfl, rfl, rfl, rfl, rfl, rfl⟩ | ⟨hb, ht, hbl⟩
    · simp [storeCell, restoreCell, KeptCell, KeptBlocks, Rect.truthy, emptyCell]
    · have : b.truthy = true := st_truthy.2 hb
      simp only [storeCell, this, if_true, restoreCell, KeptCell, st_initBox hE ht, st_blocks hE blocks hbl]
theorem st_blocks {E : Env} (hE : Upright E) : (bs : List Block) → BlocksIntact bs →
    restoreBlocks E (storeBlocks bs) = KeptBlocks bs
  | [], _ => by simp only [storeBlocks, restoreBlocks, KeptBlocks]
  | b :: bs, h => by
    have hb : (Kept b).bbox.truthy = true := by rw [st_kept_box]; exact st_truthy.2 (st_intact_box h.1)
    simp only [storeBlocks, restoreBlocks, KeptBlocks, st_block hE b h.1, hb, if_true, st_blocks hE bs h.2]
end


/-! ## Rendering what is kept -/

theorem st_seen_idem (lines : List Line) (h : ∀ l ∈ lines, LineOk l) : (lines.map Line.store).map Line.store = lines.map Line.store := by
  rw [List.map_map]
  refine List.map_congr_left fun l hl => ?_
  have : (l.spans.map Item.store).map Item.store = l.spans.map Item.store := by
    rw [List.map_map]
    refine List.map_congr_left fun i hi => ?_
    have hi := (h l hl).2.1 i hi
    cases i with
    | image i => rfl
    | text s => simp only [Function.comp, Item.store, Span.store, hi.2.2.2.2]
  simp only [Function.comp, Line.store, this]

mutual
theorem st_docx : (b : Block) → Intact b → (Kept b).toDocx = b.toDocx
  | .text _ b f lines, h => by
    simp only [Kept, Block.toDocx, ParaData.seen, st_seen_idem lines h.2.2.2.1]
  | .table _ b f rows, h => by
    simp only [Kept, Block.toDocx, st_docxRows rows h.2.2]
  | .image _ _ _, h => h.elim
theorem st_docxRows : (rows : List (RowOf (CellOf Block))) → RowsIntact rows → docxRows (KeptRows rows) = docxRows rows
  | [], _ => by simp only [KeptRows]
  | ⟨b, hh, cells⟩ :: rs, h => by
    simp only [KeptRows, KeptRow, docxRows, docxRow, st_docxRows rs h.2, st_docxCells cells h.1.2]
theorem st_docxCells : (cells : List (CellOf Block)) → CellsIntact cells → docxCells (KeptCells cells) = docxCells cells
  | [], _ => by simp only [KeptCells]
  | ⟨b, bg, bc, bw, m, blocks⟩ :: cs, h => by
    have : docxBlocks (KeptBlocks blocks) = docxBlocks blocks := by
      rcases h.1 with ⟨_, _, _, _, _, rfl⟩ | ⟨_, _, hb⟩
      · simp only [KeptBlocks]
      · exact st_docxBlocks blocks hb
    simp only [KeptCells, KeptCell, docxCells, docxCell, st_docxCells cs h.2, this]
theorem st_docxBlocks : (bs : List Block) → BlocksIntact bs → docxBlocks (KeptBlocks bs) = docxBlocks bs
  | [], _ => by simp only [KeptBlocks]
  | b :: bs, h => by simp only [KeptBlocks, docxBlocks, st_docx b h.1, st_docxBlocks bs h.2]
end

theorem st_cellText (ws : Char → Bool) (b : Block) : (Kept b).cellText ws = b.cellText ws := by
  cases b with
  | text inl b f lines =>
    cases inl with
    | true => rfl
    | false =>
      simp only [Kept, Block.cellText, List.map_map]
      congr 1
      refine List.map_congr_left fun l _ => ?_
      simp only [Function.comp, Line.text, Line.store, List.map_map]
      congr 1
      refine List.map_congr_left fun i _ => ?_
      cases i <;> rfl
  | table => rfl
  | image => rfl

theorem st_blocksText (ws : Char → Bool) (bs : List Block) : (KeptBlocks bs).map (Block.cellText ws) = bs.map (Block.cellText ws) := by
  induction bs with
  | nil => rfl
  | cons b bs ih => simp only [KeptBlocks, List.map_cons, st_cellText, ih]

theorem st_tableText (ws : Char → Bool) (rows : List (RowOf (CellOf Block))) : tableText ws (KeptRows rows) = tableText ws rows := by
  have hc : ∀ cells : List (CellOf Block), (KeptCells cells).map (Store.cellText ws) = cells.map (Store.cellText ws) := by
    intro cells
    induction cells with
    | nil => rfl
    | cons c cs ih =>
      cases c
      simp only [KeptCells, KeptCell, List.map_cons, ih, Store.cellText, st_blocksText]
  induction rows with
  | nil => rfl
  | cons r rs ih =>
    cases r
    unfold tableText at ih ⊢
    simp only [KeptRows, KeptRow, List.map_cons, ih, hc]

theorem st_keptBlocks_map (bs : List Block) : KeptBlocks bs = bs.map Kept := by
  induction bs with
  | nil => rfl
  | cons b bs ih => simp only [KeptBlocks, List.map_cons, ih]

theorem st_storeBlocks_map (bs : List Block) : storeBlocks bs = bs.map Block.store := by
  induction bs with
  | nil => rfl
  | cons b bs ih => simp only [storeBlocks, List.map_cons, ih]

theorem st_docxBlocks_map (bs : List Block) : docxBlocks bs = bs.map Block.toDocx := by
  induction bs with
  | nil => rfl
  | cons b bs ih => simp only [docxBlocks, List.map_cons, ih]

theorem st_restore_append (E : Env) (a b : List Raw) : restoreBlocks E (a ++ b) = restoreBlocks E a ++ restoreBlocks E b := by
  induction a with
  | nil => simp only [List.nil_append, restoreBlocks]
  | cons r rs ih =>
    simp only [List.cons_append, restoreBlocks, ih]
    cases r.restore E with
    | none => rfl
    | some x => by_cases hx : x.bbox.truthy = true <;> simp [hx]

/-! ## The property -/

/-- **C15** (partial): a page stored and restored (into a new page, with no rotation in effect) keeps its number, size and margins and
all its blocks in order, with all lines, spans, characters, spacing, rows, cells, borders and nested blocks, at any depth of nesting;
fonts keep their parsed names, and every table becomes a lattice table. *Missing*: floating images, stream tables, rotated pages,
the two restrictions in `Intact`; each is refuted below. -/
theorem C15_roundtrip_partial (E : Env) (hE : Upright E) (p : Store.Page) (h : BlocksIntact p.blocks) (hf : p.floats = []) :
    p.store.restore E [] = { p with blocks := p.blocks.map Kept } := by
  unfold Page.store RawPage.restore
  rw [hf, List.map_nil, List.append_nil, st_blocks hE _ h, st_keptBlocks_map, ← hf]

/-- **C15** (partial): the docx made from the restored pages is the one made from the original pages (under the conditions of
`C15_roundtrip_partial`). -/
theorem C15_docx_partial (E : Env) (hE : Upright E) (ps : List Store.Page)
    (h : ∀ p ∈ ps, BlocksIntact p.blocks ∧ p.floats = []) (d0 : ℚ × ℚ × List ℚ) :
    Docx.makeDoc d0 (ps.map fun p => (p.store.restore E []).toDocx) = Docx.makeDoc d0 (ps.map Page.toDocx) := by
  congr 1
  refine List.map_congr_left fun p hp => ?_
  rw [C15_roundtrip_partial E hE p (h p hp).1 (h p hp).2]
  unfold Page.toDocx
  rw [← st_keptBlocks_map, st_docxBlocks _ (h p hp).1]

/-- **C15** (partial): the tables extracted from the restored page are those of the original, if stream tables are wanted or there are
none. -/
theorem C15_tables_partial (E : Env) (hE : Upright E) (ws : Char → Bool) (streams : Bool) (p : Store.Page)
    (h : BlocksIntact p.blocks) (hf : p.floats = [])
    (hs : streams = true ∨ ∀ s b f rows, Block.table s b f rows ∈ p.blocks → s = false) :
    (p.store.restore E []).tables ws streams = p.tables ws streams := by
  rw [C15_roundtrip_partial E hE p h hf]
  unfold Page.tables
  simp only [List.filterMap_map]
  refine List.filterMap_congr fun b hb => ?_
  cases b with
  | text => rfl
  | image => rfl
  | table s bx f rows =>
    simp only [Function.comp, Kept, st_tableText]
    rcases hs with rfl | hs
    · simp
    · rw [hs s bx f rows hb]

theorem st_floats {E : Env} (hE : Upright E) (fs : List (Fmt × Img))
    (hf : ∀ x ∈ fs, AlignOk x.1 ∧ Tenths x.2.bbox ∧ x.2.bbox ≠ Rect.zero) :
    restoreBlocks E ((fs.map fun x => Block.image true x.1 x.2).map Block.store) = fs.map fun x => Block.image true x.1 x.2 := by
  induction fs with
  | nil => simp only [List.map_nil, restoreBlocks]
  | cons x fs ih =>
    obtain ⟨h1, h2, h3⟩ := hf x (by simp)
    have ht : x.2.bbox.truthy = true := st_truthy.2 h3
    have ih := ih (fun y hy => hf y (by simp [hy]))
    have hr : ((Block.image true x.1 x.2).store).restore E = some (.image true x.1 x.2) := by
      simp only [Block.store, Raw.restore, rawImg, st_initBox hE h2, st_fmt h1]
      simp
    rw [List.map_cons, List.map_cons, restoreBlocks, hr]
    simp only [Block.bbox, ht, if_true, ih]

/-- What becomes of floating images: stored after the blocks, they come back at the end of the flow and not as floating images. -/
theorem C15_floating_images_partial (E : Env) (hE : Upright E) (p : Store.Page) (h : BlocksIntact p.blocks)
    (hf : ∀ x ∈ p.floats, AlignOk x.1 ∧ Tenths x.2.bbox ∧ x.2.bbox ≠ Rect.zero) :
    p.store.restore E [] = { p with blocks := p.blocks.map Kept ++ p.floats.map (fun x => .image true x.1 x.2), floats := [] } := by
  unfold Page.store RawPage.restore
  rw [st_storeBlocks_map, List.map_append, st_restore_append, ← st_storeBlocks_map, st_blocks hE _ h, st_keptBlocks_map]
  congr 2
  exact st_floats hE p.floats hf

theorem st_render_floats {α ι π : Type} (c : Bool) (bs : List (Docx.Block α)) (n : ℕ) (pre : Bool) :
    (Docx.renderBlocks c (bs ++ List.replicate n .floatImg) pre : List (Docx.Item α ι π)) = Docx.renderBlocks c bs pre := by
  induction bs generalizing pre with
  | nil =>
    rw [List.nil_append]
    induction n with
    | zero => rfl
    | succ n ih => simp only [List.replicate_succ, Docx.renderBlocks] at ih ⊢; exact ih
  | cons b bs ih =>
    cases b <;> simp only [List.cons_append, Docx.renderBlocks, ih]

theorem st_trailing_floats {α : Type} (bs : List (Docx.Block α)) (n : ℕ) :
    Docx.trailing (bs ++ List.replicate n Docx.Block.floatImg).reverse = Docx.trailing bs.reverse := by
  rw [List.reverse_append, List.reverse_replicate]
  induction n with
  | zero => simp
  | succ n ih => rw [List.replicate_succ, List.cons_append, Docx.trailing, ih]

theorem st_make_floats {α ι π : Type} (bs : List (Docx.Block α)) (n : ℕ) (fs : List ι) (body : List (Docx.Item α ι π)) :
    Docx.makeBlocks (bs ++ List.replicate n .floatImg) fs body = Docx.makeBlocks bs fs body := by
  unfold Docx.makeBlocks
  rw [st_render_floats, st_trailing_floats]

/-- **C15** (the other side): after storing and restoring, floating images are never drawn: the docx is the one of pages without
them. -/
theorem C15_floating_images_dropped_partial (E : Env) (hE : Upright E) (ps : List Store.Page)
    (h : ∀ p ∈ ps, BlocksIntact p.blocks ∧ ∀ x ∈ p.floats, AlignOk x.1 ∧ Tenths x.2.bbox ∧ x.2.bbox ≠ Rect.zero)
    (d0 : ℚ × ℚ × List ℚ) :
    Docx.makeDoc d0 (ps.map fun p => (p.store.restore E []).toDocx) =
      Docx.makeDoc d0 (ps.map fun p => Page.toDocx { p with floats := [] }) := by
  unfold Docx.makeDoc
  rw [List.foldl_map, List.foldl_map]
  have step : ∀ p ∈ ps, ∀ d : Docx.Doc ParaData Img (ℚ × ℚ × List ℚ),
      Docx.makePage d (p.store.restore E []).toDocx = Docx.makePage d (Page.toDocx { p with floats := [] }) := by
    intro p hp d
    rw [C15_floating_images_partial E hE p (h p hp).1 (h p hp).2]
    have hb : docxBlocks (p.blocks.map Kept ++ p.floats.map (fun x => Block.image true x.1 x.2)) =
        docxBlocks p.blocks ++ List.replicate p.floats.length .floatImg := by
      rw [st_docxBlocks_map, List.map_append, ← st_keptBlocks_map, ← st_docxBlocks_map, st_docxBlocks _ (h p hp).1]
      congr 1
      rw [List.map_map, List.eq_replicate_iff]
      refine ⟨by simp, ?_⟩
      intro x hx
      obtain ⟨y, _, rfl⟩ := List.mem_map.1 hx
      rfl
    simp only [Page.toDocx, Docx.makePage, hb, st_make_floats]
  generalize (⟨[], d0⟩ : Docx.Doc ParaData Img (ℚ × ℚ × List ℚ)) = d
  clear h
  induction ps generalizing d with
  | nil => rfl
  | cons p ps ih =>
    rw [List.foldl_cons, List.foldl_cons, step p (by simp)]
    exact ih (fun q hq => step q (by simp [hq])) _

/-! ## Concrete pages -/

/-- No rotation. -/
def stEnv : Env := ⟨id, id, id⟩

theorem stEnv_upright : Upright stEnv := ⟨fun _ => rfl, fun _ => rfl⟩

def stChr : Chr := ⟨'A', none, ⟨10, 10, 16, 20⟩⟩
def stSpan : Span := ⟨⟨10, 10, 16, 20⟩, 255, "ABCDEF+Times-Bold".toList, 12, 16, [stChr], []⟩
def stLine : Line := ⟨⟨10, 10, 16, 20⟩, 0, (1, 0), 0, [.text stSpan]⟩
def stText : Block := .text false ⟨10, 10, 16, 20⟩ { before := 3, line := 12 } [stLine]
def stImg : Img := ⟨⟨12, 12, 30, 40⟩, "png", 18, 28, [137, 80]⟩
/-- A table of one row with a cell holding a text and a nested table, and a merged-away cell. -/
def stInner : Block := .table false ⟨10, 10, 50, 30⟩ {} [⟨⟨10, 10, 50, 30⟩, 20, [⟨⟨10, 10, 50, 30⟩, some 255, [0, 0, 0, 0], [1, 1, 1, 1], (1, 1), [stText]⟩]⟩]
def stTable (stream : Bool) : Block :=
  .table stream ⟨0, 0, 100, 50⟩ {} [⟨⟨0, 0, 100, 50⟩, 50,
    [⟨⟨0, 0, 100, 50⟩, none, [0, 0, 0, 0], [1, 1, 1, 1], (1, 2), [stText, stInner]⟩, emptyCell]⟩]
def stPage (bs : List Block) (fs : List (Fmt × Img)) : Store.Page := ⟨0, 595, 842, [72, 72, 72, 72], bs, fs⟩

theorem st_tenths_int (a b c d : ℤ) : Tenths ⟨a, b, c, d⟩ :=
  ⟨10 * a, 10 * b, 10 * c, 10 * d, by simp only [Rect.mk.injEq]; push_cast; refine ⟨?_, ?_, ?_, ?_⟩ <;> ring⟩

theorem st_line_ok : LineOk stLine := by
  have ht : Tenths ⟨10, 10, 16, 20⟩ := by simpa using st_tenths_int 10 10 16 20
  refine ⟨by decide +kernel, ?_, by decide +kernel⟩
  intro i hi
  obtain rfl : i = .text stSpan := by simpa [stLine] using hi
  refine ⟨ht, by decide +kernel, ?_, by decide +kernel, by decide +kernel⟩
  intro c hc
  obtain rfl : c = stChr := by simpa [stSpan] using hc
  exact ht

theorem st_text_ok : Intact stText := by
  refine ⟨rfl, by decide +kernel, by decide +kernel, ?_, by decide +kernel⟩
  intro l hl
  obtain rfl : l = stLine := by simpa using hl
  exact st_line_ok

theorem st_table_ok (s : Bool) : Intact (stTable s) := by
  have t1 : Tenths ⟨0, 0, 100, 50⟩ := by simpa using st_tenths_int 0 0 100 50
  have t2 : Tenths ⟨10, 10, 50, 30⟩ := by simpa using st_tenths_int 10 10 50 30
  have hi : Intact stInner := by
    refine ⟨by decide +kernel, ⟨t2, by decide +kernel, by decide +kernel⟩, ⟨⟨t2, by decide +kernel, ?_⟩, Or.inr ⟨by decide +kernel, t2, st_text_ok, trivial⟩, trivial⟩, trivial⟩
    decide +kernel
  refine ⟨by decide +kernel, ⟨t1, by decide +kernel, by decide +kernel⟩, ⟨⟨t1, by decide +kernel, ?_⟩, Or.inr ⟨by decide +kernel, t1, st_text_ok, hi, trivial⟩,
    Or.inl ⟨rfl, rfl, rfl, rfl, rfl, rfl⟩, trivial⟩, trivial⟩
  decide +kernel

/-- The hypotheses of `C15_roundtrip_partial`, `C15_docx_partial` and `C15_tables_partial` hold of a page with text, a table with a
merged cell and a table nested in it. -/
example : BlocksIntact (stPage [stText, stTable true] []).blocks ∧ (stPage [stText, stTable true] []).floats = [] :=
  ⟨⟨st_text_ok, st_table_ok true, trivial⟩, rfl⟩

example : BlocksIntact (stPage [stText, stTable false] [({}, stImg)]).blocks ∧
    ∀ x ∈ (stPage [stText, stTable false] [({}, stImg)]).floats, AlignOk x.1 ∧ Tenths x.2.bbox ∧ x.2.bbox ≠ Rect.zero := by
  refine ⟨⟨st_text_ok, st_table_ok false, trivial⟩, ?_⟩
  intro x hx
  obtain rfl : x = (({} : Fmt), stImg) := by simpa [stPage] using hx
  exact ⟨by decide +kernel, by simpa [stImg] using st_tenths_int 12 12 30 40, by decide +kernel⟩

/-! ## Where the full statement is false -/

/-- The images drawn in a docx body made of paragraphs. -/
def stDrawn (d : Docx.Doc ParaData Img (ℚ × ℚ × List ℚ)) : List Img :=
  d.body.flatMap fun | .para _ _ fs => fs | .sect _ fs => fs | .table _ => []

/-- **C15** refuted: a floating image is drawn when the docx is made directly, and is missing after serialising and deserialising (which
is also what multi-processing does). -/
theorem C15_refuted_floating_image :
    let p := stPage [stText] [({}, stImg)]
    stDrawn (Docx.makeDoc (0, 0, []) [p.toDocx]) = [stImg] ∧
    stDrawn (Docx.makeDoc (0, 0, []) [(p.store.restore stEnv []).toDocx]) = [] := by
  refine ⟨by decide +kernel, ?_⟩
  have := C15_floating_images_dropped_partial stEnv stEnv_upright [stPage [stText] [({}, stImg)]] (by
    intro p hp
    obtain rfl : p = stPage [stText] [({}, stImg)] := by simpa using hp
    refine ⟨⟨st_text_ok, trivial⟩, ?_⟩
    intro x hx
    obtain rfl : x = (({} : Fmt), stImg) := by simpa [stPage] using hx
    exact ⟨by decide +kernel, by simpa [stImg] using st_tenths_int 12 12 30 40, by decide +kernel⟩) (0, 0, [])
  simp only [List.map_cons, List.map_nil] at this
  simp only [this]
  decide +kernel

/-- **C15** refuted: restoring a page over a parsed one (as `deserialize` on a used converter does, and every new parse) keeps the old
floating images. -/
theorem C15_refuted_stale_floating_image :
    ∃ (p : Store.Page) (old : List (Fmt × Img)), p.floats = [] ∧ (p.store.restore stEnv old).floats ≠ p.floats :=
  ⟨stPage [stText] [], [({}, stImg)], rfl, by simp [RawPage.restore, Store.Page.store, stPage]⟩

/-- **C15** refuted: a stream table comes back as a lattice table, so that `extract_tables` (which by default takes lattice tables
only) finds nothing before and a table after. -/
theorem C15_refuted_stream_table :
    ((stPage [stTable true] []).tables (fun _ => false) false).length = 0 ∧
    (((stPage [stTable true] []).store.restore stEnv []).tables (fun _ => false) false).length = 1 := by
  refine ⟨rfl, ?_⟩
  rw [C15_roundtrip_partial stEnv stEnv_upright (stPage [stTable true] []) ⟨st_table_ok true, trivial⟩ rfl]
  rfl

/-- Rotation by 90 degrees on a page 842 wide: the matrix `(0, 1, -1, 0, 842, 0)`. -/
def stRot : Env := ⟨fun r => ⟨842 - r.y1, r.x0, 842 - r.y0, r.x1⟩, fun d => (-d.2, d.1), id⟩

/-- **C15** refuted: if the page parsed last was rotated, restoring rotates all boxes once more. -/
theorem C15_refuted_rotated :
    ((stPage [stText] []).store.restore stRot []).blocks.map Block.bbox = [⟨822, 10, 832, 16⟩] := by
  decide +kernel

/-- **C15** refuted: a font name with a comma may be another font after restoring. -/
theorem C15_refuted_font :
    let s : Span := { stSpan with font := "Sim,Sun".toList }
    Text.fontOf s.font = "Sim Sun".toList ∧ Text.fontOf (s.store.restore stEnv).font = "宋体".toList := by
  decide +kernel

/-- **C15** refuted: a line whose box is larger than those of its spans (a span split at a shape that covers only a part of its first
character starts where the shape starts) comes back with a smaller box, and the tab before it is computed from that box. -/
theorem C15_refuted_line_box :
    let l : Line := { stLine with bbox := ⟨7, 10, 16, 20⟩ }
    (l.store.restore stEnv).bbox = ⟨10, 10, 16, 20⟩ := by
  decide +kernel

/-! ## Font names (C66) -/

theorem fo_base_no (raw : List Char) : ∀ c ∈ Text.fontBase raw, c ≠ '+' ∧ c ≠ '-' := by
  intro c hc
  unfold Text.fontBase at hc
  have h1 : c ≠ '-' := by simpa using List.mem_takeWhile_imp hc
  have h2 := (List.takeWhile_sublist _).subset hc
  rw [List.mem_reverse] at h2
  have h3 : c ≠ '+' := by simpa using List.mem_takeWhile_imp h2
  exact ⟨h3, h1⟩

theorem fo_base_id (l : List Char) (h : ∀ c ∈ l, c ≠ '+' ∧ c ≠ '-') : Text.fontBase l = l := by
  have h1 : l.reverse.takeWhile (· ≠ '+') = l.reverse :=
    List.takeWhile_eq_self_iff.2 (by intro c hc; simpa using (h c (by simpa using hc)).1)
  unfold Text.fontBase
  rw [h1, List.reverse_reverse]
  exact List.takeWhile_eq_self_iff.2 (by intro c hc; simpa using (h c hc).2)

theorem fo_table : ∀ e ∈ Text.dictFonts, Text.fontOf e.2.toList = e.2.toList := by decide +kernel

theorem fo_table_clean : ∀ e ∈ Text.dictFonts, ∀ c ∈ e.2.toList, c ≠ '+' ∧ c ≠ '-' ∧ c ≠ ',' := by decide +kernel

theorem fo_no_comma (l : List Char) (h : ∀ c ∈ l, c ≠ ',') : (l.map fun c => if c = ',' then ' ' else c) = l :=
  st_map_id _ l fun c hc => by simp [h c hc]

/-- **C66**: the name of the font given to a run has no subset prefix, style suffix or comma left. -/
theorem C66_no_markers (raw : List Char) : ∀ c ∈ Text.fontOf raw, c ≠ '+' ∧ c ≠ '-' ∧ c ≠ ',' := by
  intro c hc
  unfold Text.fontOf at hc
  simp only [List.mem_map] at hc
  obtain ⟨d, hd, rfl⟩ := hc
  have hbase : d ≠ '+' ∧ d ≠ '-' := by
    split at hd
    · rename_i e he
      have := fo_table_clean e (List.mem_of_find?_eq_some he) d hd
      exact ⟨this.1, this.2.1⟩
    · exact fo_base_no raw d hd
  by_cases h : d = ','
  · simp [h]
  · simp [h, hbase]

/-- **C66**: `PREFIX+Name-Style` gives `Name`, for every name without `+`, `-` and `,` that is not in the table of localised names. -/
theorem C66_name_between (pre name style : List Char) (hn : ∀ c ∈ name, c ≠ '+' ∧ c ≠ '-' ∧ c ≠ ',')
    (hs : ∀ c ∈ style, c ≠ '+') (ht : ∀ e ∈ Text.dictFonts, e.1.toList ≠ Text.fontKey name) :
    Text.fontOf (pre ++ '+' :: (name ++ '-' :: style)) = name ∧ Text.fontOf (pre ++ '+' :: name) = name ∧
    Text.fontOf name = name := by
  have key : ∀ raw, Text.fontBase raw = name → Text.fontOf raw = name := by
    intro raw hb
    have hf : Text.dictFonts.find? (fun e => e.1.toList = Text.fontKey (Text.fontBase raw)) = none := by
      rw [List.find?_eq_none]
      intro e he
      rw [hb]
      simpa using ht e he
    unfold Text.fontOf
    rw [hf, hb]
    exact fo_no_comma name fun c hc => (hn c hc).2.2
  have tw : ∀ (tail rest : List Char), (∀ c ∈ tail, c ≠ '+') →
      (((rest ++ '+' :: tail).reverse.takeWhile (· ≠ '+')).reverse) = tail := by
    intro tail rest h
    rw [List.reverse_append, List.reverse_cons, List.append_assoc, List.takeWhile_append_of_pos]
    · simp
    · intro c hc
      simpa using h c (by simpa using hc)
  have tw2 : ∀ (tail : List Char), (name ++ '-' :: tail).takeWhile (· ≠ '-') = name := by
    intro tail
    rw [List.takeWhile_append_of_pos]
    · simp
    · intro c hc
      simpa using (hn c hc).2.1
  refine ⟨key _ ?_, key _ ?_, key _ (fo_base_id name fun c hc => ⟨(hn c hc).1, (hn c hc).2.1⟩)⟩
  · unfold Text.fontBase
    rw [tw _ _ (by
      intro c hc
      rcases List.mem_append.1 hc with h | h
      · exact (hn c h).1
      · rcases List.mem_cons.1 h with rfl | h
        · decide
        · exact hs c h), tw2]
  · unfold Text.fontBase
    rw [tw _ _ (fun c hc => (hn c hc).1)]
    exact List.takeWhile_eq_self_iff.2 (by intro c hc; simpa using (hn c hc).2.1)

example : (∀ c ∈ "Calibri".toList, c ≠ '+' ∧ c ≠ '-' ∧ c ≠ ',') ∧ (∀ e ∈ Text.dictFonts, e.1.toList ≠ Text.fontKey "Calibri".toList) ∧
    Text.fontOf "BCDGEE+Calibri-Bold".toList = "Calibri".toList := by decide +kernel

/-- **C66**: a name is looked up in the table whatever its case and whatever blanks and underscores it contains. -/
theorem C66_localised (raw : List Char) (e : String × String) (he : e ∈ Text.dictFonts)
    (hk : Text.fontKey (Text.fontBase raw) = e.1.toList) : Text.fontOf raw = e.2.toList := by
  have huniq : ∀ a ∈ Text.dictFonts, ∀ b ∈ Text.dictFonts, a.1.toList = b.1.toList → a = b := by decide +kernel
  unfold Text.fontOf
  cases hf : Text.dictFonts.find? (fun e => e.1.toList = Text.fontKey (Text.fontBase raw)) with
  | none =>
    rw [List.find?_eq_none] at hf
    have := hf e he
    simp [hk] at this
  | some a =>
    have ha : a.1.toList = Text.fontKey (Text.fontBase raw) := by simpa using List.find?_some hf
    obtain rfl := huniq a (List.mem_of_find?_eq_some hf) e he (ha.trans hk)
    exact fo_no_comma _ fun c hc => (fo_table_clean a he c hc).2.2

example : Text.fontKey (Text.fontBase "ABCDEF+Kai ti_GB2312".toList) = "KAITIGB2312".toList := by decide +kernel

/-- **C66** (partial): the name parses to itself – so it survives storing and restoring – if the source name has no comma.
*Missing*: names with a comma, see `C15_refuted_font`. -/
theorem C66_stable_partial (raw : List Char) (h : ',' ∉ raw) : Text.fontOf (Text.fontOf raw) = Text.fontOf raw := by
  have hb : ∀ c ∈ Text.fontBase raw, c ≠ ',' := by
    rintro c hc rfl
    unfold Text.fontBase at hc
    have h2 := (List.takeWhile_sublist _).subset hc
    rw [List.mem_reverse] at h2
    have h3 := (List.takeWhile_sublist _).subset h2
    exact h (by simpa using h3)
  cases hf : Text.dictFonts.find? (fun e => e.1.toList = Text.fontKey (Text.fontBase raw)) with
  | some a =>
    have hm := List.mem_of_find?_eq_some hf
    have : Text.fontOf raw = a.2.toList :=
      C66_localised raw a hm (by have := List.find?_some hf; simp only [decide_eq_true_eq] at this; exact this.symm)
    rw [this]
    exact fo_table a hm
  | none =>
    have h1 : Text.fontOf raw = Text.fontBase raw := by
      unfold Text.fontOf
      rw [hf]
      exact fo_no_comma _ hb
    have h2 : Text.fontBase (Text.fontBase raw) = Text.fontBase raw := fo_base_id _ (fo_base_no raw)
    rw [h1]
    unfold Text.fontOf
    rw [h2, hf]
    exact fo_no_comma _ hb

example : ',' ∉ "ABCDEF+ArialMT".toList := by decide +kernel

/-- **C66** refuted: the table lists `DFKAISB` for the font `DFKai-SB`, but the name is cut at `-` before it is looked up. -/
theorem C66_refuted_dfkai : ("DFKAISB", "标楷体") ∈ Text.dictFonts ∧ Text.fontOf "DFKai-SB".toList = "DFKai".toList := by
  decide +kernel

end Props
