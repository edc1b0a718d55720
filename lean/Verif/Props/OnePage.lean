import Verif.Props.RowPlaces
import Verif.Props.Page
/-! # C123: a page of text stays one page -/

namespace Props
open Geom Py Pipe Spec

section Page123

theorem op_bottoms_length (y : ℚ) (qs : List Pose.Par) : (bottoms y qs).length = qs.length := by
  induction qs generalizing y with
  | nil => rfl
  | cons q qs ih => simp [bottoms, ih]

theorem op_sum (L : List (List (Lay.Ln Tok))) (h : ∀ ls ∈ L, ls ≠ []) : (L.map fun ls => (ls.length + 2 : ℚ) / 20).sum ≤ 3 * (L.flatten.length : ℚ) / 20 := by
  induction L with
  | nil => simp
  | cons ls L ih =>
    have i := ih fun x hx => h x (by simp [hx])
    have h1 : (1 : ℚ) ≤ ls.length := by
      have := List.length_pos_iff.2 (h ls (by simp))
      exact_mod_cast this
    rw [List.map_cons, List.sum_cons, List.flatten_cons, List.length_append]
    push_cast
    linarith

theorem op_sum_take (L : List (List (Lay.Ln Tok))) (k : ℕ) : ((L.take k).map fun ls => (ls.length + 2 : ℚ) / 20).sum ≤ (L.map fun ls => (ls.length + 2 : ℚ) / 20).sum := by
  induction L generalizing k with
  | nil => simp
  | cons ls L ih =>
    cases k with
    | zero =>
      rw [List.take_zero, List.map_nil, List.sum_nil]
      refine List.sum_nonneg ?_
      intro x hx
      obtain ⟨l, -, rfl⟩ := List.mem_map.1 hx
      positivity
    | succ k =>
      rw [List.take_succ_cons, List.map_cons, List.map_cons, List.sum_cons, List.sum_cons]
      have := ih k
      linarith

/-- The margin below a line. -/
theorem op_margin (c : Pose.Cfg) (hc : Sane c.whole) (hb0 : 0 ≤ c.bottom) (f : Fmt) (p : Pose.Page) (hp : TextPage c.whole (withFormats c f p).whole)
    (h0 : p.box.x0 = 0 ∧ p.box.y0 = 0) (hin : ∀ r ∈ pageBoxes (bareBlocks c.whole.ws (withFormats c f p).whole) p.shapes, Covers p.box r)
    (l : Lay.Ln Tok) (hl : l ∈ linesOn c.whole.ws (withFormats c f p)) : (p.margin c (cleaned c p)).bottom ≤ (p.box.y1 - l.bbox.y1) * c.bottom + 1 / 20 := by
  obtain ⟨js, g2, hjl, e3, hsame, hperm⟩ := wp_clean c.whole hc (withFormats c f p).whole hp.raw hp.text hp.floats
  have hcl : cleaned c p = js := by
    unfold cleaned
    rw [show cleanUp c.whole.pipe p.box p.raw = .ok (js, []) from g2]
  have hlines : (linesOn c.whole.ws (withFormats c f p)) = ((pageBlocks c.whole.ws (withFormats c f p).whole).flatMap Lns.Blk.lines).map fun l => (stripLine c.whole.ws l).1 := by
    unfold linesOn bareLines
    rw [List.map_flatMap]
  rw [hlines] at hl
  obtain ⟨b, hb, hlb⟩ := List.mem_flatMap.1 (hperm.symm.subset hl)
  have hpb : ∀ r ∈ pageBoxes (js.map fun b => Full.Blk.text b.bbox b.lines) p.shapes, Covers p.box r := fun r hr => hin r ((wp_same_boxes hsame p.shapes r).1 hr)
  have hharm := wp_same_harmless hsame hp.drawn
  have hplain : ∀ b ∈ js, PlainText (Full.Blk.text b.bbox b.lines) := fun b hb => e3.text _ (List.mem_map_of_mem hb)
  have hbox : p.box = _root_.Page.pageBox p.box.x1 p.box.y1 := by
    obtain ⟨h1, h2⟩ := h0
    cases hb : p.box; simp_all [_root_.Page.pageBox]
  have hcov : ∀ b ∈ js, Covers p.box b.bbox := by
    intro b hb
    have hh := (hplain b hb).hull
    simp only [Full.Blk.lines, Full.Blk.bbox] at hh
    refine hh.2 _ ?_
    intro r hr
    obtain ⟨m, hm, rfl⟩ := List.mem_map.1 hr
    refine hpb _ ?_
    unfold pageBoxes
    refine List.mem_append_left _ (List.mem_map_of_mem (f := fun l : Lay.Ln Tok => l.bbox) ?_)
    exact List.mem_flatMap.2 ⟨_, List.mem_map_of_mem hb, hm⟩
  have key := content_box p.box.x1 p.box.y1 (js.map fun b => b.bbox) (p.shapes.map fun s => s.bbox) (by
    rintro ⟨e, -⟩
    rw [List.map_eq_nil_iff] at e
    subst e
    cases hb) (by
    intro r hr
    rw [← hbox]
    rw [List.mem_append] at hr
    rcases hr with hr | hr
    · obtain ⟨x, hx, rfl⟩ := List.mem_map.1 hr
      have := (hplain x hx).boxes.1
      exact ⟨this.1, this.2, hcov x hx⟩
    · obtain ⟨x, hx, rfl⟩ := List.mem_map.1 hr
      have := hharm.real x hx
      refine ⟨this.1, this.2, hpb _ ?_⟩
      unfold pageBoxes
      exact List.mem_append_right _ (List.mem_map_of_mem hx))
  dsimp only at key
  have hu := key.2.1 b.bbox (List.mem_append_left _ (List.mem_map_of_mem hb))
  have hh := (hplain b hb).hull
  simp only [Full.Blk.lines, Full.Blk.bbox] at hh
  have hlb' := hh.1 _ (List.mem_map_of_mem hlb)
  have hy := (hcov b hb).2.2.2
  unfold Pose.Page.margin _root_.Page.calMargin
  rw [hcl, if_neg (by
    rintro ⟨e, -⟩
    rw [List.map_eq_nil_iff] at e
    subst e
    cases hb)]
  dsimp only
  generalize (Coll.bbox (js.map fun b => b.bbox)).union (Coll.bbox (p.shapes.map fun s => s.bbox)) = u at *
  refine (min_le_right _ _).trans ?_
  have r1 := abs_round1_sub (max (p.box.y1 - u.y1) 0 * c.bottom)
  rw [abs_le] at r1
  have r2 : max (p.box.y1 - u.y1) 0 ≤ p.box.y1 - l.bbox.y1 := by
    have k1 := hu.2.2.2
    have k2 := hlb'.2.2.2
    exact max_le (by linarith) (by linarith)
  have r3 := mul_le_mul_of_nonneg_right r2 hb0
  linarith [r1.2]

/-- **C123** (partial: pages of text in one column, one line in each row, as C111; the heights of rows are those of exact line spacing). If below each of the `n` lines of such a page enough space is left - the part
`1 - page_margin_factor_bottom` of it, at least 0.15pt for each line of the page and 0.05pt - the paragraphs of its section, set one below the other from the top margin, end above the bottom margin: the
page stays one page. -/
theorem C123_one_page_partial (c : Pose.Cfg) (hc : Sane c.whole) (hb0 : 0 ≤ c.bottom) (f : Fmt) (depth : ℕ) (s0 : Pose.Sect) (pages : List Pose.Page) (d : Docx.Doc Pose.Par Sp Pose.Sect)
    (h : Pose.convert c (depth + 1) s0 pages = .ok d) (i : ℕ) (p : Pose.Page) (s : Pose.Sect × List (Docx.Item Pose.Par Sp Pose.Sect)) (hp : pages[i]? = some p)
    (hs : (sectionsOf d)[i]? = some s) (htp : TextPage c.whole (withFormats c f p).whole)
    (h0 : p.box.x0 = 0 ∧ p.box.y0 = 0) (hin : ∀ r ∈ pageBoxes (bareBlocks c.whole.ws (withFormats c f p).whole) p.shapes, Covers p.box r)
    (hroom : ∀ l ∈ linesOn c.whole.ws (withFormats c f p), 3 * ((linesOn c.whole.ws (withFormats c f p)).length : ℚ) / 20 + 1 / 20 ≤ (p.box.y1 - l.bbox.y1) * (1 - c.bottom)) :
    ∃ qs : List Pose.Par, ofItems s.2 = qs.map Tree.text ∧ ∀ y ∈ bottoms s.1.margin.top qs, y ≤ s.1.height - s.1.margin.bottom := by
  obtain ⟨dd, h1, h2, h3⟩ := ps_section c (depth + 1) s0 pages d h i p s hp hs
  obtain ⟨_, _, _, _, _, _, _, e⟩ := ps_page c hc f depth p htp dd h1
  obtain ⟨qs, L, a1, a2, a3, a4, a5⟩ := C121_vertical_partial c hc f depth s0 pages d h i p s hp hs htp
  refine ⟨qs, a1, ?_⟩
  have hlen := a2.length_eq
  have hne : ∀ ls ∈ L, ls ≠ [] := by
    intro ls hls
    obtain ⟨k, hk, rfl⟩ := List.mem_iff_getElem.1 hls
    have hk2 : k < (bottoms s.1.margin.top qs).length := by rw [op_bottoms_length]; omega
    obtain ⟨l, hl, -⟩ := a5 k _ _ (List.getElem?_eq_getElem hk2) (List.getElem?_eq_getElem hk)
    intro h0
    rw [h0] at hl
    cases hl
  intro y hy
  obtain ⟨k, hk, rfl⟩ := List.mem_iff_getElem.1 hy
  have hkL : k < L.length := by rw [op_bottoms_length] at hk; omega
  obtain ⟨l, hl, hd⟩ := a5 k _ _ (List.getElem?_eq_getElem hk) (List.getElem?_eq_getElem hkL)
  have hmem : l ∈ linesOn c.whole.ws (withFormats c f p) := a3.subset (List.mem_flatten.2 ⟨_, List.getElem_mem hkL, List.mem_of_getLast? hl⟩)
  have hm := op_margin c hc hb0 f p htp h0 hin l hmem
  have hr := hroom l hmem
  have hsum := (op_sum_take L (k + 1)).trans (op_sum L hne)
  rw [a3.length_eq] at hsum
  have es : s.1 = p.sect c (cleaned c p) := by rw [h2, e]
  have eh : s.1.height = p.box.y1 := by rw [es]; rfl
  have em : s.1.margin.bottom = (p.margin c (cleaned c p)).bottom := by rw [es]; rfl
  rw [eh, em]
  rw [abs_le] at hd
  linarith [hd.2]

/-- Non-vacuity: the text page of C120 (400 x 600, three lines, the lowest ending at 150). -/
example : Sane poCfg.whole ∧ 0 ≤ poCfg.bottom ∧ TextPage poCfg.whole (withFormats poCfg ppFmt poText).whole ∧ (poText.box.x0 = 0 ∧ poText.box.y0 = 0) ∧
    (∀ r ∈ pageBoxes (bareBlocks poCfg.whole.ws (withFormats poCfg ppFmt poText).whole) poText.shapes, Covers poText.box r) ∧
    (∀ l ∈ linesOn poCfg.whole.ws (withFormats poCfg ppFmt poText), 3 * ((linesOn poCfg.whole.ws (withFormats poCfg ppFmt poText)).length : ℚ) / 20 + 1 / 20 ≤
      (poText.box.y1 - l.bbox.y1) * (1 - poCfg.bottom)) ∧
    psBottoms (Pose.convert poCfg 3 ⟨0, 0, ⟨0, 0, 0, 0⟩⟩ [poText]) = some [[30, 150]] := by
  refine ⟨wh_ex_sane, by decide +kernel, po_ex_text, by decide +kernel, by decide +kernel, by decide +kernel, by decide +kernel⟩

/-- A page 40pt high whose four lines reach down to its end. -/
def opRaw : Raw := plText 1 ⟨50, 20, 250, 40⟩
  [(⟨50, 20, 250, 124/5⟩, [(⟨50, 20, 250, 124/5⟩, 'a')]), (⟨50, 124/5, 150, 149/5⟩, [(⟨50, 124/5, 150, 149/5⟩, 'b')]),
   (⟨50, 149/5, 250, 349/10⟩, [(⟨50, 149/5, 250, 349/10⟩, 'c')]), (⟨50, 349/10, 250, 40⟩, [(⟨50, 349/10, 250, 40⟩, 'd')])]
def opPage : Pose.Page := ⟨⟨0, 0, 400, 40⟩, [opRaw], [], fun _ => "", fun _ _ _ _ _ => 0⟩

theorem op_ex_text : TextPage poCfg.whole (withFormats poCfg ppFmt opPage).whole := by
  have hb : pageBlocks poCfg.whole.ws (withFormats poCfg ppFmt opPage).whole = [opRaw] := by decide +kernel
  refine ⟨?_, ?_, ?_, ⟨?_, ?_, ?_⟩, ?_, ?_⟩
  · intro b hb
    have hb' : b ∈ [opRaw] := hb
    rw [List.mem_singleton] at hb'
    subst hb'
    exact plText_ok _ _ _ (pp_ex_text _ _ (by decide +kernel) (by decide +kernel))
  · rw [hb]
    refine ⟨by decide +kernel, ?_, by decide +kernel, by decide +kernel, by unfold Above; decide +kernel⟩
    have : ∀ b ∈ [opRaw], ∀ l ∈ b.lines, l.pid = some 1 := by decide +kernel
    exact fun b hb => ⟨1, this b hb⟩
  · intro bs fs h
    have : noFloats (beforeJoin poCfg.whole.pipe (withFormats poCfg ppFmt opPage).whole.box (withFormats poCfg ppFmt opPage).whole.raw) = true := by decide +kernel
    rw [h] at this
    simpa [noFloats] using this
  · intro s hs
    exact absurd hs (by simp [withFormats, opPage, Deco.Page.whole])
  · exact List.Pairwise.nil
  · intro r k h
    exact absurd h (by simp [withFormats, opPage, Deco.Page.whole])
  · decide +kernel
  · unfold NotTwoColumns; decide +kernel

/-- **C123 is false** for text that reaches down to the end of the page: no room is left below it for the rounding of the row heights (to 0.1pt). Here the four rows end 0.1pt below the end of a page
40pt high, so that Word sets the last one on a second page. -/
theorem C123_refuted_bottom : TextPage poCfg.whole (withFormats poCfg ppFmt opPage).whole ∧ (∀ r ∈ pageBoxes (bareBlocks poCfg.whole.ws (withFormats poCfg ppFmt opPage).whole) opPage.shapes, Covers opPage.box r) ∧
    psBottoms (Pose.convert poCfg 3 ⟨0, 0, ⟨0, 0, 0, 0⟩⟩ [opPage]) = some [[401 / 10]] ∧
    (Pose.convert poCfg 3 ⟨0, 0, ⟨0, 0, 0, 0⟩⟩ [opPage]).toOption.map (fun d => (sectionsOf d).map fun s => s.1.height - s.1.margin.bottom) = some [40] := by
  refine ⟨op_ex_text, by decide +kernel, by decide +kernel, by decide +kernel⟩

end Page123
end Props
