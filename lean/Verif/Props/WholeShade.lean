import Verif.Spec.WholeShade
import Verif.Props.WholePlain
import Verif.Props.FullShade
import Verif.Props.DrawFill
import Verif.Props.DrawPlain
/-! # C114: text on a coloured area in the document -/

namespace Props
open Geom Py Pipe Spec Assign

section WShade
variable {π : Type}

theorem ws_same_area {α : Type} {xs ys : List (Full.Blk α)} (h : SameText xs ys) {F : Rect} {color : ℕ} {shapes : List Full.Sh} (hh : OnArea F color ys shapes) : OnArea F color xs shapes := by
  refine ⟨hh.real, hh.area, hh.visible, ?_, fun s hs => wp_same_in h _ (hh.strokes s hs), ?_, ?_, ?_, ?_⟩
  · intro r c hr
    rcases hh.fills r c hr with h' | h'
    · exact .inl h'
    · right
      intro x hx
      obtain ⟨y, hy, e, hxy⟩ := h.1 x hx
      rw [e]
      exact ⟨(h' y hy).1, fun l hl => (h' y hy).2 l ((hxy l).1 hl)⟩
  · intro x hx
    obtain ⟨y, hy, e, _⟩ := h.1 x hx
    rw [e]
    exact hh.place y hy
  · obtain ⟨y, hy, hc⟩ := hh.some_
    obtain ⟨x, hx, e, _⟩ := h.2 y hy
    exact ⟨x, hx, e ▸ hc⟩
  · intro x hx hc l hl
    obtain ⟨y, hy, e, hxy⟩ := h.1 x hx
    exact hh.size y hy (e ▸ hc) l ((hxy l).1 hl)
  · intro a ha hca b hb hcb l hl m hm
    obtain ⟨a', ha', ea, hxa⟩ := h.1 a ha
    obtain ⟨b', hb', eb, hxb⟩ := h.1 b hb
    exact hh.column a' ha' (ea ▸ hca) b' hb' (eb ▸ hcb) l ((hxa l).1 hl) m ((hxb m).1 hm)

/-- Parsing such a page. -/
theorem ws_parse (c : Whole.Cfg) (hc : Sane c) (hord : ∀ l, (c.full.base.order l).Perm l) (depth : ℕ) (F : Rect) (color : ℕ) (p : Whole.Page π) (hp : ShadedPage c F color p) :
    ∃ dd, Whole.parsePage c (depth + 2) p = .ok dd ∧ AreaShown c.ws F ((pageBlocks c.ws p).flatMap Lns.Blk.lines) (ofBlocks dd.blocks) := by
  obtain ⟨js, g2, hjl, e3, hsame, hperm⟩ := wp_clean c hc p hp.raw hp.text hp.floats
  obtain ⟨A, cell, C, B, ty, q1, q2, q3, -, q4⟩ := C97_shaded_partial c.full hc.order hord hc.tol hc.conn hc.clear hc.border p.styled p.ids depth p.work F color p.shapes _ e3
    (ws_same_area hsame hp.drawn) hp.width hp.height hp.area
    (fun r hr => hp.within r ((wp_same_boxes hsame p.shapes r).1 hr)) (by
      obtain ⟨e, he, x, hx, h⟩ := hp.columns
      exact ⟨e, (wp_same_boxes hsame p.shapes e).2 he, x, (wp_same_boxes hsame p.shapes x).2 hx, h⟩)
  have hfl : (js.map fun b => Full.Blk.text b.bbox b.lines).flatMap Full.Blk.lines = js.flatMap Lns.Blk.lines := by
    rw [List.flatMap_map]
    rfl
  rw [hfl] at q2 q3 q4
  refine ⟨⟨p.props, Whole.blocks c.ws p.fmt (A ++ .table F [[true]] [(cell, C)] :: B), []⟩, ?_, ?_⟩
  · unfold Whole.parsePage
    rw [g2]
    dsimp only
    rw [q1]
  set K := (pageBlocks c.ws p).flatMap Lns.Blk.lines with hK
  have hKb : ∀ l ∈ K, ∃ b ∈ pageBlocks c.ws p, l ∈ b.lines ∧ RawOK b := by
    intro l hl
    obtain ⟨b, hb, hl⟩ := List.mem_flatMap.1 hl
    exact ⟨b, hb, hl, hp.raw b (List.mem_of_mem_filter hb)⟩
  have hlok : ∀ l ∈ K, LineOK l := by
    intro l hl
    obtain ⟨b, _, hlb, hok⟩ := hKb l hl
    exact (hok.boxes.2 l hlb).1
  have hv : K.Pairwise fun l m => VSep l.bbox m.bbox := wp_vsep_in hp.text fun b hb => hp.raw b (List.mem_of_mem_filter hb)
  have hsh : ∀ (P : Rect → Prop) [DecidablePred P] (bs : List (Full.Blk Tok)), ShowsDown bs ((js.flatMap Lns.Blk.lines).filter fun l => decide (P l.bbox)) →
      (∀ l ∈ K, P (stripLine c.ws l).1.bbox ↔ P l.bbox) → ShowsLines c.ws (ofBlocks (Whole.blocks c.ws p.fmt bs)) (K.filter fun l => decide (P l.bbox)) := by
    intro P _ bs h hP
    refine wt_shows c.ws hc.blank K _ hperm hlok P hP (hv.imp fun h _ _ => h) _ ?_
    exact wh_shows c.ws p.fmt bs _ h (fun l hl => (hjl l (List.mem_of_mem_filter hl)).1) (fun l hl => (hjl l (List.mem_of_mem_filter hl)).2)
  -- where a line is
  have hF : RealBox F := hp.drawn.real _ (List.count_pos_iff.1 (by rw [hp.drawn.area]; omega : 0 < p.shapes.count (.fill F color)))
  have hst : ∀ l ∈ K, Covers l.bbox (stripLine c.ws l).1.bbox ∧ (stripLine c.ws l).1.bbox.y0 < (stripLine c.ws l).1.bbox.y1 ∧ l.bbox.y0 < l.bbox.y1 ∧
      (Covers F l.bbox ∨ l.bbox.y1 < F.y0 ∨ F.y1 < l.bbox.y0) := by
    intro l hl
    have hs := wc_strip_line c.ws hc.blank l (hlok l hl)
    obtain ⟨b, hb, hlb, hok⟩ := hKb l hl
    have hcb := (hok.boxes.2 l hlb).2
    refine ⟨hs, ((pp_stripLine c.ws hc.blank l).ok (hlok l hl)).1.1.2, (hlok l hl).1.1.2, ?_⟩
    · rcases hp.place b hb with h | h | h
      · exact .inl (wc_trans h hcb)
      · exact .inr (.inl (lt_of_le_of_lt hcb.2.2.2 h))
      · exact .inr (.inr (lt_of_lt_of_le h hcb.2.1))
  have hFy := hF.1.2
  refine ⟨ofBlocks (Whole.blocks c.ws p.fmt A), ofBlocks (Whole.blocks c.ws p.fmt C), ofBlocks (Whole.blocks c.ws p.fmt B), ?_, ?_, ?_, ?_⟩
  · show ofBlocks (Whole.blocks c.ws p.fmt (A ++ .table F [[true]] [(cell, C)] :: B)) = _
    rw [wh_blocks_map, List.map_append, wh_ofBlocks_append, List.map_cons, ← wh_blocks_map, ← wh_blocks_map]
    simp only [Whole.block, ofBlocks]
    simp [Whole.cells, place, placeRow, ofBlockRows, ofBlockRow, ofBlockCell]
  · refine hsh (fun x => x.y1 < F.y0) A q2 ?_
    intro l hl
    obtain ⟨h1, h2, h3, h4⟩ := hst l hl
    simp only [Covers] at h1 h4
    constructor
    · intro h
      rcases h4 with h' | h' | h' <;> linarith [h1.2.1, h1.2.2.2]
    · intro h; linarith [h1.2.2.2]
  · refine hsh (fun x => Covers F x) C q4 ?_
    intro l hl
    obtain ⟨h1, h2, h3, h4⟩ := hst l hl
    constructor
    · intro h
      rcases h4 with h' | h' | h'
      · exact h'
      · exfalso; simp only [Covers] at h1 h; linarith [h1.2.1, h1.2.2.2, h.2.1, h.2.2.2]
      · exfalso; simp only [Covers] at h1 h; linarith [h1.2.1, h1.2.2.2, h.2.1, h.2.2.2]
    · intro h; exact wc_trans h h1
  · refine hsh (fun x => F.y1 < x.y0) B q3 ?_
    intro l hl
    obtain ⟨h1, h2, h3, h4⟩ := hst l hl
    simp only [Covers] at h1 h4
    constructor
    · intro h
      rcases h4 with h' | h' | h' <;> linarith [h1.2.1, h1.2.2.2]
    · intro h; linarith [h1.2.1]

/-- **C114** (partial: one area; one column, see C90). From the extracted page to the document: of a page of text, some of it on a coloured area, the section has the text above the area as
paragraphs, then a table of one cell with the text on the area, then the text below as paragraphs; each shows exactly the lines of the page that are there, from top to bottom, complete up to
blanks. -/
theorem C114_shaded_partial (c : Whole.Cfg) (hc : Sane c) (hord : ∀ l, (c.full.base.order l).Perm l) (depth : ℕ) (p0 : π) (pages : List (Whole.Page π)) (d : Docx.Doc Par Sp π)
    (h : Whole.convert c (depth + 2) p0 pages = .ok d) (i : ℕ) (p : Whole.Page π) (s : π × List (Docx.Item Par Sp π))
    (hp : pages[i]? = some p) (hs : (sectionsOf d)[i]? = some s) (F : Rect) (color : ℕ) (hsp : ShadedPage c F color p) :
    AreaShown c.ws F ((pageBlocks c.ws p).flatMap Lns.Blk.lines) (ofItems s.2) := by
  obtain ⟨dd, h1, h2⟩ := wh_section c (depth + 2) p0 pages d h i p s hp hs
  obtain ⟨dd', h3, h4⟩ := ws_parse c hc hord depth F color p hsp
  rw [h1] at h3
  obtain rfl := Except.ok.inj h3
  rw [h2]
  exact h4

/-- **C114**: documents of such pages are converted without error, one section for each. -/
theorem C114_converts_partial (c : Whole.Cfg) (hc : Sane c) (hord : ∀ l, (c.full.base.order l).Perm l) (depth : ℕ) (p0 : π) (pages : List (Whole.Page π)) (hne : pages ≠ [])
    (hsp : ∀ p ∈ pages, ∃ F color, ShadedPage c F color p) :
    ∃ d, Whole.convert c (depth + 2) p0 pages = .ok d ∧ (sectionsOf d).length = pages.length := by
  obtain ⟨ds, h1⟩ := ly_mapM_ok (f := Whole.parsePage c (depth + 2)) pages fun p hp => by
    obtain ⟨F, color, hF⟩ := hsp p hp
    obtain ⟨dd, h, _⟩ := ws_parse c hc hord depth F color p hF
    exact ⟨dd, h⟩
  have h2 := (pp_mapM_forall _ _ h1).length_eq
  refine ⟨_, by unfold Whole.convert; rw [h1], ?_⟩
  have hdne : ds ≠ [] := by
    rintro rfl
    exact hne (List.length_eq_zero_iff.1 h2)
  have := congrArg List.length (C31_one_section_per_page p0 ds hdne)
  simpa [h2] using this

/-! ## From the drawing commands -/

theorem ws_page (c : Draw.Cfg) (hc : SaneDraw c) (p : Draw.Page π) (hp : Painted c p) :
    ∃ s, Draw.page c p = .ok ⟨p.box, p.work, p.props, p.raw, s, p.ids, p.styled, p.fmt⟩ ∧ s.Perm (paintedShapes c p) := by
  obtain ⟨s, h1, h2⟩ := C112_shapes_kept c p hc.ratio (by linarith [hc.threshold]) hp.page hp.boxes hp.links hp.apart
  refine ⟨s, ?_, h2⟩
  unfold Draw.page
  rw [h1]
  simp

theorem ws_boxes {α : Type} {bs : List (Full.Blk α)} {s t : List Full.Sh} (h : s.Perm t) (r : Rect) : r ∈ pageBoxes bs s ↔ r ∈ pageBoxes bs t :=
  ((h.map _).append_left _).mem_iff

theorem ws_area_perm {α : Type} {F : Rect} {color : ℕ} {bs : List (Full.Blk α)} {s t : List Full.Sh} (h : s.Perm t) (hh : OnArea F color bs t) : OnArea F color bs s :=
  ⟨fun x hx => hh.real x (h.subset hx), (h.count_eq _).trans hh.area, hh.visible, fun r c hr => hh.fills r c (h.subset hr), fun x hx => hh.strokes x (h.subset hx), hh.place, hh.some_, hh.size,
    hh.column⟩

theorem ws_columns {α : Type} {bs : List (Full.Blk α)} {s t : List Full.Sh} (h : s.Perm t) {x : ℚ} (hn : NotTwoColumns x (pageBoxes bs t)) : NotTwoColumns x (pageBoxes bs s) := by
  obtain ⟨e, he, x, hx, h'⟩ := hn
  exact ⟨e, (ws_boxes h e).2 he, x, (ws_boxes h x).2 hx, h'⟩

/-- **C114** (partial, as above), from the drawing commands: the area is a filled rectangle, or part of a drawing of several; other filled rectangles, thin ones among them, and lines. -/
theorem C114_painted_partial (c : Draw.Cfg) (hc : SaneDraw c) (hord : ∀ l, (c.whole.full.base.order l).Perm l) (depth : ℕ) (p0 : π) (pages : List (Draw.Page π)) (d : Docx.Doc Par Sp π)
    (h : Draw.convertDoc c (depth + 2) p0 pages = .ok d) (i : ℕ) (p : Draw.Page π) (s : π × List (Docx.Item Par Sp π))
    (hp : pages[i]? = some p) (hs : (sectionsOf d)[i]? = some s) (hpt : Painted c p) (F : Rect) (color : ℕ) (hsp : ShadedPage c.whole F color (asPainted c p)) :
    AreaShown c.whole.ws F ((pageBlocks c.whole.ws (asPainted c p)).flatMap Lns.Blk.lines) (ofItems s.2) := by
  unfold Draw.convertDoc at h
  split at h
  · cases h
  rename_i ps hps
  obtain ⟨t, hq1, hq2⟩ := ws_page c hc p hpt
  exact C114_shaded_partial c.whole hc.whole hord depth p0 ps d h i ⟨p.box, p.work, p.props, p.raw, t, p.ids, p.styled, p.fmt⟩ s (dp_get hps hp hq1) hs F color
    ⟨hsp.raw, hsp.text, hsp.floats, ws_area_perm hq2 hsp.drawn, hsp.place, hsp.area, hsp.width, hsp.height, fun r hr => hsp.within r ((ws_boxes hq2 r).1 hr), ws_columns hq2 hsp.columns⟩

/-- **C111** (partial, as there), from the drawing commands: text with separate lines and filled rectangles (highlights, thin rectangles as underlines or rules) drawn on the page, and links,
becomes paragraphs that show the lines of the page from top to bottom. -/
theorem C111_painted_partial (c : Draw.Cfg) (hc : SaneDraw c) (depth : ℕ) (p0 : π) (pages : List (Draw.Page π)) (d : Docx.Doc Par Sp π)
    (h : Draw.convertDoc c (depth + 1) p0 pages = .ok d) (i : ℕ) (p : Draw.Page π) (s : π × List (Docx.Item Par Sp π))
    (hp : pages[i]? = some p) (hs : (sectionsOf d)[i]? = some s) (hpt : Painted c p) (htp : TextPage c.whole (asPainted c p)) :
    ShowsLines c.whole.ws (ofItems s.2) ((pageBlocks c.whole.ws (asPainted c p)).flatMap Lns.Blk.lines) := by
  unfold Draw.convertDoc at h
  split at h
  · cases h
  rename_i ps hps
  obtain ⟨t, hq1, hq2⟩ := ws_page c hc p hpt
  exact C111_text_partial c.whole hc.whole depth p0 ps d h i ⟨p.box, p.work, p.props, p.raw, t, p.ids, p.styled, p.fmt⟩ s (dp_get hps hp hq1) hs
    ⟨htp.raw, htp.text, htp.floats, dp_harmless hq2 htp.drawn, fun r hr => htp.within r ((ws_boxes hq2 r).1 hr), ws_columns hq2 htp.columns⟩

end WShade

/-! ## An example -/

/-- A title with a blank at its end, a block of two lines extracted in the wrong order, a last line. -/
def wsRaw : List Raw :=
  [plText 2 ⟨25, 55, 300, 75⟩ [(⟨25, 66, 300, 75⟩, [(⟨25, 66, 300, 75⟩, 'c')]), (⟨25, 55, 300, 63⟩, [(⟨25, 55, 300, 63⟩, 'b')])],
   plText 1 ⟨25, 20, 310, 30⟩ [(⟨25, 20, 310, 30⟩, [(⟨25, 20, 300, 30⟩, 'a'), (⟨300, 20, 310, 30⟩, ' ')])],
   plText 3 ⟨20, 400, 300, 410⟩ [(⟨20, 400, 300, 410⟩, [(⟨20, 400, 300, 410⟩, 'd')])]]

/-- A highlighted word and the area, one drawing each; an underline drawn as a thin filled rectangle, one drawn as a line, a link. -/
def wsPage : Draw.Page ℕ := ⟨⟨0, 0, 400, 600⟩, ⟨20, 10, 381, 528⟩, 3, wsRaw,
  [⟨[.re ⟨30, 55, 90, 63⟩], false, 1, none, some 16776960⟩, ⟨[.re ⟨20, 50, 380, 80⟩], false, 1, none, some 1000⟩, ⟨[.re ⟨25, 28, 100, 29⟩], false, 1, none, some 0⟩,
   ⟨[.l ⟨100, 405⟩ ⟨50, 405⟩], false, 1, some 0, none⟩], [⟨30, 66, 80, 75⟩], [], fun _ _ _ _ _ => 0, fun _ _ _ _ => [], ppFmt⟩

theorem ws_ex_boxed : ∀ d ∈ wsPage.drawings, BoxDrawing d ∧ PointOn ⟨0, 0, 400, 600⟩ d := by
  have hre : ∀ (r : Rect) (w : ℚ) (c : ℕ), 0 < w → r.x0 ≤ r.x1 → r.y0 ≤ r.y1 → 0 + 1 / 100 < r.x0 → 0 + 1 / 100 < r.y0 → r.x0 < 400 - 1 / 100 → r.y0 < 600 - 1 / 100 →
      BoxDrawing ⟨[.re r], false, w, none, some c⟩ ∧ PointOn ⟨0, 0, 400, 600⟩ ⟨[.re r], false, w, none, some c⟩ := by
    intro r w c hw h1 h2 h3 h4 h5 h6
    refine ⟨⟨⟨rfl, hw, ?_, List.isChain_singleton _⟩, ?_⟩, ⟨_, by simp; exact rfl, ⟨r.x0, r.y0⟩, by simp [corners], h3, h5, h4, h6⟩⟩
    · intro it hit
      rw [List.mem_singleton] at hit
      exact .inr ⟨_, hit, h1, h2⟩
    · intro _ it hit
      rw [List.mem_singleton] at hit
      exact ⟨_, hit⟩
  intro d hd
  simp only [wsPage, List.mem_cons, List.not_mem_nil, or_false] at hd
  rcases hd with rfl | rfl | rfl | rfl
  · apply hre <;> norm_num
  · apply hre <;> norm_num
  · apply hre <;> norm_num
  · refine ⟨⟨⟨rfl, by norm_num, ?_, List.isChain_singleton _⟩, by simp⟩, ⟨_, by simp; exact rfl, ⟨100, 405⟩, by simp [corners], by norm_num, by norm_num, by norm_num, by norm_num⟩⟩
    intro it hit
    rw [List.mem_singleton] at hit
    exact .inl ⟨_, _, hit, .inr rfl⟩

theorem ws_ex_painted : Painted dwCfg wsPage :=
  ⟨by constructor <;> norm_num [wsPage], fun d h => ⟨(ws_ex_boxed d h).1, .inl (ws_ex_boxed d h).2⟩, by
    intro l hl
    obtain rfl : l = _ := by simpa [wsPage] using hl
    constructor <;> norm_num, by unfold Separate; decide +kernel⟩

theorem ws_ex_text : ColumnText (pageBlocks whCfg.ws (asPainted dwCfg wsPage)) := by
  have hb : pageBlocks whCfg.ws (asPainted dwCfg wsPage) = wsRaw := by decide +kernel
  rw [hb]
  refine ⟨by decide +kernel, ?_, by decide +kernel, by decide +kernel, by unfold Above; decide +kernel⟩
  have : ∀ b ∈ wsRaw, ∃ id ∈ [1, 2, 3], ∀ l ∈ b.lines, l.pid = some id := by decide +kernel
  intro b hb
  obtain ⟨id, _, h⟩ := this b hb
  exact ⟨id, h⟩

theorem ws_ex_shaded : ShadedPage whCfg ⟨20, 50, 380, 80⟩ 1000 (asPainted dwCfg wsPage) := by
  have hs : (asPainted dwCfg wsPage).shapes = [.fill ⟨30, 55, 90, 63⟩ 16776960, .fill ⟨20, 50, 380, 80⟩ 1000, .stroke ⟨25, 57 / 2, 100, 57 / 2, ⟨25, 28, 100, 29⟩, 1, 0⟩,
      .stroke (lineStroke 1 0 ⟨50, 405⟩ ⟨100, 405⟩), .link ⟨30, 66, 80, 75⟩] := by decide +kernel
  refine ⟨?_, ws_ex_text, ?_, ⟨?_, ?_, ?_, ?_, ?_, ?_, ?_, ?_, ?_⟩, ?_, ?_, ?_, ?_, ?_, ?_⟩
  · intro b hb
    simp only [asPainted, wsPage, wsRaw, List.mem_cons, List.not_mem_nil, or_false] at hb
    rcases hb with rfl | rfl | rfl <;> exact plText_ok _ _ _ (pp_ex_text _ _ (by decide +kernel) (by decide +kernel))
  · intro bs fs h
    have : noFloats (beforeJoin whCfg.pipe (asPainted dwCfg wsPage).box (asPainted dwCfg wsPage).raw) = true := by decide +kernel
    rw [h] at this
    simpa [noFloats] using this
  · have : ∀ s ∈ (asPainted dwCfg wsPage).shapes, s.bbox.x0 < s.bbox.x1 ∧ s.bbox.y0 < s.bbox.y1 ∧ Rect.round s.bbox = s.bbox := by decide +kernel
    intro s hs
    exact ly_ex_real (this s hs)
  · decide +kernel
  · decide +kernel
  · intro r k h
    rw [hs] at h
    simp only [List.mem_cons, Full.Sh.fill.injEq, reduceCtorEq, List.not_mem_nil, or_false] at h
    rcases h with ⟨rfl, rfl⟩ | ⟨rfl, rfl⟩
    · right; unfold CoversLittle; decide +kernel
    · exact Or.inl rfl
  · intro s h
    rw [hs] at h
    simp only [List.mem_cons, Full.Sh.stroke.injEq, reduceCtorEq, List.not_mem_nil, or_false, false_or] at h
    rcases h with rfl | rfl <;> (unfold InLine Covers; decide +kernel)
  · unfold Covers; decide +kernel
  · unfold Covers; decide +kernel
  · unfold Covers; decide +kernel
  · unfold Covers; decide +kernel
  · unfold Covers; decide +kernel
  · unfold Covers; decide +kernel
  · decide +kernel
  · decide +kernel
  · decide +kernel
  · unfold NotTwoColumns; decide +kernel

/-- The hypotheses of C114 are met: a document of this page, and what is in it. -/
example : ∃ d, Draw.convertDoc dwCfg 2 0 [wsPage] = .ok d ∧ ∃ s : ℕ × List (Docx.Item Par Sp ℕ), (sectionsOf d)[0]? = some s ∧
    AreaShown whCfg.ws ⟨20, 50, 380, 80⟩ (wsRaw.flatMap Lns.Blk.lines) (ofItems s.2) := by
  obtain ⟨t, hq1, hq2⟩ := ws_page dwCfg dw_ex_sane wsPage ws_ex_painted
  have hsp := ws_ex_shaded
  have hq : ShadedPage whCfg ⟨20, 50, 380, 80⟩ 1000 (⟨wsPage.box, wsPage.work, wsPage.props, wsPage.raw, t, wsPage.ids, wsPage.styled, wsPage.fmt⟩ : Whole.Page ℕ) :=
    ⟨hsp.raw, hsp.text, hsp.floats, ws_area_perm hq2 hsp.drawn, hsp.place, hsp.area, hsp.width, hsp.height, fun r hr => hsp.within r ((ws_boxes hq2 r).1 hr), ws_columns hq2 hsp.columns⟩
  obtain ⟨d, hd, hl⟩ := C114_converts_partial whCfg wh_ex_sane (fun l => List.Perm.refl l) 0 0 [_] (by simp) (by intro p hp; rw [List.mem_singleton] at hp; subst hp; exact ⟨_, _, hq⟩)
  have hcd : Draw.convertDoc dwCfg 2 0 [wsPage] = .ok d := by
    unfold Draw.convertDoc
    rw [List.mapM_cons, hq1]
    exact hd
  have hlt : 0 < (sectionsOf d).length := by rw [hl]; simp
  refine ⟨d, hcd, _, List.getElem?_eq_getElem hlt, ?_⟩
  have hb : pageBlocks dwCfg.whole.ws (asPainted dwCfg wsPage) = wsRaw := by decide +kernel
  rw [← hb]
  exact C114_painted_partial dwCfg dw_ex_sane (fun l => List.Perm.refl l) 0 0 _ d hcd 0 wsPage _ rfl (List.getElem?_eq_getElem hlt) ws_ex_painted _ _ ws_ex_shaded

/-- The page without the area, for C111: the highlighted word and the underlines leave the text as it is. -/
def wsPlain : Draw.Page ℕ := { wsPage with work := ⟨20, 10, 328, 528⟩, drawings := wsPage.drawings.eraseIdx 1 }

theorem ws_ex_plain : Painted dwCfg wsPlain ∧ TextPage whCfg (asPainted dwCfg wsPlain) := by
  have hs : (asPainted dwCfg wsPlain).shapes = [.fill ⟨30, 55, 90, 63⟩ 16776960, .stroke ⟨25, 57 / 2, 100, 57 / 2, ⟨25, 28, 100, 29⟩, 1, 0⟩,
      .stroke (lineStroke 1 0 ⟨50, 405⟩ ⟨100, 405⟩), .link ⟨30, 66, 80, 75⟩] := by decide +kernel
  refine ⟨⟨ws_ex_painted.page, fun d h => ⟨(ws_ex_boxed d (List.mem_of_mem_eraseIdx h)).1, .inl (ws_ex_boxed d (List.mem_of_mem_eraseIdx h)).2⟩, ws_ex_painted.links, by unfold Separate; decide +kernel⟩,
    ws_ex_shaded.raw, ws_ex_text, ws_ex_shaded.floats, ⟨?_, ?_, ?_⟩, ?_, ?_⟩
  · have : ∀ s ∈ (asPainted dwCfg wsPlain).shapes, s.bbox.x0 < s.bbox.x1 ∧ s.bbox.y0 < s.bbox.y1 ∧ Rect.round s.bbox = s.bbox := by decide +kernel
    intro s hs
    exact ly_ex_real (this s hs)
  · unfold InLine Covers Near; decide +kernel
  · intro r k h
    rw [hs] at h
    simp only [List.mem_cons, Full.Sh.fill.injEq, reduceCtorEq, List.not_mem_nil, or_false] at h
    obtain ⟨rfl, rfl⟩ := h
    right; unfold CoversLittle; decide +kernel
  · decide +kernel
  · unfold NotTwoColumns; decide +kernel

/-- The hypotheses of C111 (filled rectangles) are met. -/
example (d : Docx.Doc Par Sp ℕ) (h : Draw.convertDoc dwCfg 1 0 [wsPlain] = .ok d) (s : ℕ × List (Docx.Item Par Sp ℕ)) (hs : (sectionsOf d)[0]? = some s) :
    ShowsLines whCfg.ws (ofItems s.2) (wsRaw.flatMap Lns.Blk.lines) := by
  have hb : pageBlocks dwCfg.whole.ws (asPainted dwCfg wsPlain) = wsRaw := by decide +kernel
  rw [← hb]
  exact C111_painted_partial dwCfg dw_ex_sane 0 0 _ d h 0 wsPlain s rfl hs ws_ex_plain.1 ws_ex_plain.2

end Props
