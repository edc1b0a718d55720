import Verif.Props.WholeColumns
import Verif.Props.Pose
/-! # C124 with all formats computed -/

namespace Props
open Geom Py Pipe Spec

/-- **C124** (partial, as `C124_document_partial`) with the formats of the paragraphs, margins and sections computed, and the text styled: in the docx file the section of a page of text in
two columns shows the headings, one table of two cells with exactly the text of the left and of the right column, and the notes. -/
theorem C124_formatted_partial (c : Pose.Cfg) (hc : Sane c.whole) (f : Fmt) (depth : ℕ) (s0 : Pose.Sect)
    (pages : List Pose.Page) (hraw : ∀ p ∈ pages, ∀ b ∈ p.raw, RawOK b) (d : Docx.Doc Pose.Par Sp Pose.Sect) (h : Pose.convert c (depth + 2) s0 pages = .ok d) (i : ℕ) (p : Pose.Page)
    (s : Pose.Sect × List (Docx.Item Pose.Par Sp Pose.Sect)) (hp : pages[i]? = some p) (hs : (sectionsOf d)[i]? = some s)
    (hcp : ColumnsPage c.whole (withFormats c f p).whole) :
    ColumnsShown c.whole.ws (centre (withFormats c f p).whole) ((pageBlocks c.whole.ws (withFormats c f p).whole).flatMap Lns.Blk.lines) (formatted c.whole.ws (ofItems s.2)) := by
  obtain ⟨d', s', h1, h2, -, h3⟩ := po_section c hc.blank hc.order f _ s0 pages hraw d h i p s hp hs
  exact wq_shown lineTexts po_shows (po_formatted _ h3) (C124_styled_partial c.whole hc depth s0 _ (po_withFormats c f pages hraw) d' h1 i (withFormats c f p) s'
    (by rw [List.getElem?_map, hp]; rfl) h2 hcp)

/-! ## An example -/

/-- The page of C124. -/
def wqPose : Pose.Page := ⟨⟨0, 0, 400, 600⟩, wqRaw, wqPage.shapes, fun _ => "https://example.org", wqPage.ids⟩

/-- The same as a page of `Whole`: with the working area found, 20 ≤ x ≤ 391. -/
def wqWhole : Whole.Page Pose.Sect := (withFormats poCfg ppFmt wqPose).whole

/-- The blocks after clean-up reach into the columns. -/
def wqReach' (r : Except Err (List Raw × List Sp)) : Bool :=
  match r with
  | .ok x => decide (∀ b ∈ x.1, ∀ l ∈ b.lines, ∀ m ∈ b.lines, LeftOf (411 / 2) l.bbox → RightOf (411 / 2) m.bbox →
      (b.bbox.x1 - b.bbox.x0) / 10 + 1 / 10 ≤ (411 / 2) - b.bbox.x0 ∧ (b.bbox.x1 - b.bbox.x0) / 10 + 1 / 10 ≤ b.bbox.x1 - (411 / 2))
  | .error _ => true

theorem wqp_ex_blocks : pageBlocks whCfg.ws wqWhole = wqRaw := by decide +kernel
theorem wqp_ex_centre : centre wqWhole = (411 / 2) := by decide +kernel

set_option synthInstance.maxSize 1024 in
theorem wqp_ex_on : ColumnsOn whCfg.mg (411 / 2) wqRaw := by
  refine ⟨by decide +kernel, ?_, by decide +kernel, by decide +kernel, by decide +kernel, by decide +kernel, ?_, by decide +kernel, by decide +kernel, ?_, ?_, ?_, ?_⟩
  · have : ∀ b ∈ wqRaw, ∃ id ∈ [1, 2, 3, 4, 5], ∀ l ∈ b.lines, l.pid = some id := by decide +kernel
    intro b hb
    obtain ⟨id, _, h⟩ := this b hb
    exact ⟨id, h⟩
  · unfold Above; decide +kernel
  · unfold Above; decide +kernel
  · unfold Above; decide +kernel
  · unfold DownIn; decide +kernel
  · unfold DownIn; decide +kernel

theorem wqp_ex_page : ColumnsPage whCfg wqWhole := by
  refine ⟨?_, ?_, ?_, ?_, by decide +kernel, ?_, ?_, ?_⟩
  · intro b hb
    change b ∈ wqRaw at hb
    simp only [wqRaw, List.mem_cons, List.not_mem_nil, or_false] at hb
    rcases hb with rfl | rfl | rfl | rfl | rfl <;> exact plText_ok _ _ _ (pp_ex_text _ _ (by decide +kernel) (by decide +kernel))
  · rw [wqp_ex_blocks, wqp_ex_centre]; exact wqp_ex_on
  · rw [wqp_ex_blocks, wqp_ex_centre]; decide +kernel
  · rw [wqp_ex_blocks]; decide +kernel
  · rw [wqp_ex_blocks, wqp_ex_centre]
    intro s hs
    change s ∈ [Full.Sh.link ⟨220, 70, 260, 80⟩] at hs
    rw [List.mem_singleton] at hs
    subst hs
    refine ⟨_, rfl, ly_ex_real (by decide +kernel), ?_⟩
    unfold Covers
    decide +kernel
  · intro bs fs h
    have : noFloats (beforeJoin whCfg.pipe wqWhole.box wqWhole.raw) = true := by decide +kernel
    rw [h] at this
    simpa [noFloats] using this
  · intro js fs h
    have : wqReach' (cleanUp whCfg.pipe wqWhole.box wqWhole.raw) = true := by decide +kernel
    rw [h] at this
    rw [wqp_ex_centre]
    simp only [wqReach', decide_eq_true_eq] at this
    exact this


set_option synthInstance.maxSize 1024 in
/-- Non-vacuity: the page meets the hypotheses, and what its texts become. -/
example : ColumnsPage poCfg.whole (withFormats poCfg ppFmt wqPose).whole ∧ (∀ b ∈ wqPose.raw, RawOK b) ∧
    (poTexts (Pose.convert poCfg 2 ⟨0, 0, ⟨0, 0, 0, 0⟩⟩ [wqPose])).map (fun l => l.map fun x => x.map fun y => y.map fun z => z.map Prod.fst) =
      some [[[[['h', ' ']]], [[['l']]], [[['m']]], [[['r']], [['s']]], [[['n']]]]] :=
  ⟨wqp_ex_page, wq_ex_page.raw, by decide +kernel⟩

end Props
