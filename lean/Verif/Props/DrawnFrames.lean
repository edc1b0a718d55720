import Verif.Props.NestedFrames
import Verif.Spec.DrawnFrames
/-! # C133: no style of a table cell is invented -/

namespace Props
open Geom Py Pipe Spec

section Drawn133

theorem dw_row {β : Type} (g : List Bool) (l : List β) (y : β) (h : some y ∈ placeRow g l) : y ∈ l := by
  induction g generalizing l with
  | nil => simp [placeRow] at h
  | cons b g ih =>
    cases b with
    | false =>
      simp only [placeRow, List.mem_cons, reduceCtorEq, false_or] at h
      exact ih l h
    | true =>
      cases l with
      | nil =>
        simp only [placeRow, List.mem_cons, reduceCtorEq, false_or] at h
        exact ih [] h
      | cons c cs =>
        simp only [placeRow, List.mem_cons, Option.some.injEq] at h
        rcases h with rfl | h
        · exact List.mem_cons_self
        · exact List.mem_cons_of_mem _ (ih cs h)

theorem dw_place {β : Type} (g : List (List Bool)) (l : List β) (row : List (Option β)) (hr : row ∈ place g l) (y : β) (h : some y ∈ row) : y ∈ l := by
  induction g generalizing l with
  | nil => simp [place] at hr
  | cons r g ih =>
    simp only [place, List.mem_cons] at hr
    rcases hr with rfl | hr
    · exact dw_row r l y h
    · exact List.mem_of_mem_drop (ih _ hr)

/-- A cell found with the style of shapes drawn is written with it. -/
theorem dw_cell (shapes : List Full.Sh) (x : Full.CellInfo) (h : StyleDrawn shapes x) : CellStyleDrawn shapes (cellAsFound x) := by
  have key : ∀ (hz : Bool) (w : ℚ), DrawnWidth shapes hz w → BorderDrawn shapes hz (if w = 0 then none else some (8 * w)) := by
    intro hz w hw v hv
    split_ifs at hv with h0
    rcases hw with hw | ⟨s, h1, h2, h3⟩
    · exact absurd hw h0
    · exact ⟨s, h1, by rw [h2]; exact (Option.some.inj hv).symm, h3⟩
  refine ⟨key _ _ h.top, key _ _ h.bottom, key _ _ h.left, key _ _ h.right, ?_⟩
  intro k hk
  obtain ⟨f, hf, -⟩ := h.background k hk
  exact ⟨f, hf⟩

mutual
theorem dw_block (shapes : List Full.Sh) (left : ℚ) : (b : Deco.Blk) → EachCell (fun c => StyleDrawn shapes c.info) b.plain → EachWrittenIn (CellStyleDrawn shapes) (tabFound left b)
  | .text b ls s, _ => by simp only [tabFound, EachWrittenIn]
  | .table b g cs, h => by
    simp only [Deco.Blk.plain, EachCell] at h
    simp only [tabFound, EachWrittenIn, EachWritten, and_true]
    refine ⟨?_, dw_cells shapes cs h⟩
    intro row hrow c hc
    obtain ⟨x, hx, rfl⟩ := List.mem_map.1 (dw_place _ _ _ hrow c hc)
    exact dw_cell shapes _ (dw_infos shapes cs h x hx)
theorem dw_blocks (shapes : List Full.Sh) (left : ℚ) : (bs : List Deco.Blk) → EachCellIn (fun c => StyleDrawn shapes c.info) (Deco.plain bs) → EachWrittenIn (CellStyleDrawn shapes) (tabsFound left bs)
  | [], _ => by simp only [tabsFound, EachWrittenIn]
  | b :: bs, h => by
    simp only [Deco.plain, EachCellIn] at h
    simp only [tabsFound]
    have app : ∀ xs ys : List Pose.Tab, EachWrittenIn (CellStyleDrawn shapes) xs → EachWrittenIn (CellStyleDrawn shapes) ys → EachWrittenIn (CellStyleDrawn shapes) (xs ++ ys) := by
      intro xs ys h1 h2
      induction xs with
      | nil => exact h2
      | cons x xs ih =>
        simp only [EachWrittenIn] at h1
        simp only [List.cons_append, EachWrittenIn]
        exact ⟨h1.1, ih h1.2⟩
    exact app _ _ (dw_block shapes left b h.1) (dw_blocks shapes left bs h.2)
theorem dw_cells (shapes : List Full.Sh) : (cs : List (Full.Cell × List Deco.Blk)) → EachCellOf (fun c => StyleDrawn shapes c.info) (Deco.plainCells cs) →
    EachWrittenCells (CellStyleDrawn shapes) (tabsInCells cs)
  | [], _ => by simp only [tabsInCells, EachWrittenCells]
  | (k, bs) :: cs, h => by
    simp only [Deco.plainCells, EachCellOf] at h
    simp only [tabsInCells, EachWrittenCells]
    exact ⟨dw_blocks shapes _ bs h.2.1, dw_cells shapes cs h.2.2⟩
theorem dw_infos (shapes : List Full.Sh) : (cs : List (Full.Cell × List Deco.Blk)) → EachCellOf (fun c => StyleDrawn shapes c.info) (Deco.plainCells cs) → ∀ x ∈ cs, StyleDrawn shapes x.1.info
  | [], _, x, hx => by cases hx
  | (k, bs) :: cs, h, x, hx => by
    simp only [Deco.plainCells, EachCellOf] at h
    rcases List.mem_cons.1 hx with rfl | hx
    · exact h.1
    · exact dw_infos shapes cs h.2.2 x hx
end

/-- **C133**. The style of the table cells of a docx is never invented: in every table written for a page, at any depth, a border has the width of a line drawn on the page in its direction (in eighths of a
point), and a background the colour of an area drawn on it. -/
theorem C133_style_drawn (c : Pose.Cfg) (hi : ∀ l, (c.whole.full.base.lay.iter l).Perm l) (depth : ℕ) (s0 : Pose.Sect) (pages : List Pose.Page) (d : Docx.Doc Pose.Par Sp Pose.Sect)
    (h : Pose.convert c depth s0 pages = .ok d) (n : ℕ) (p : Pose.Page) (s : Pose.Sect × List (Docx.Item Pose.Par Sp Pose.Sect)) (hp : pages[n]? = some p) (hs : (sectionsOf d)[n]? = some s) :
    ∃ T ts, Pose.convertTabs c depth pages = .ok T ∧ T[n]? = some ts ∧ EachWrittenIn (CellStyleDrawn p.shapes) ts := by
  obtain ⟨js, dl, T, -, h2, h3, h4⟩ := C132_nested_tables c depth s0 pages d h n p s hp hs
  refine ⟨T, _, h3, h4, dw_blocks p.shapes _ dl.1 ?_⟩
  have href := sy_refines c.whole.full p.uri p.ids depth [] (p.workOf c js) [0, 1, 2]
    ⟨Full.sortBlocks (js.map fun b => .text b.bbox b.lines), Full.mkSub (Full.sortBlocks (js.map fun b => .text b.bbox b.lines)) p.shapes, ⟨[], []⟩⟩
  unfold Deco.layout at h2
  rw [h2] at href
  have e : Full.parsePage c.whole.full (Deco.format p.uri) p.ids depth (p.workOf c js) p.shapes (js.map fun b : Raw => Full.Blk.text b.bbox b.lines) = .ok (Deco.plain dl.1, dl.2) := href.symm
  refine C104_style_drawn c.whole.full hi (Deco.format p.uri) p.ids depth (p.workOf c js) p.shapes _ ?_ (Deco.plain dl.1, dl.2) e
  intro b hb
  obtain ⟨x, -, rfl⟩ := List.mem_map.1 hb
  rfl

set_option synthInstance.maxSize 1024 in
/-- Non-vacuity: the page with a table in a table of C132 is converted, and the borders are written with the width of its lines (1pt). -/
example : (Pose.convert poCfg 6 ⟨0, 0, ⟨0, 0, 0, 0⟩⟩ [nfPage]).toOption.isSome = true ∧ (sectionsOf <$> (Pose.convert poCfg 6 ⟨0, 0, ⟨0, 0, 0, 0⟩⟩ [nfPage]).toOption).map List.length = some 1 ∧
    (Pose.convertFrames poCfg 6 [nfPage]).toOption.map (fun F => F.flatten.flatMap fun t => t.cells.flatten.map fun c => c.map fun x => x.borders.top) =
      some [some (some 8), some (some 8), some (some 8), some (some 8)] := by
  refine ⟨by decide +kernel, by decide +kernel, by decide +kernel⟩

end Drawn133
end Props
