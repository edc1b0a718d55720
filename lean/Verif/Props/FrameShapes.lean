import Verif.Props.NestedFrames
/-! # C130: the tables of the document have the rows and cells that `Pose.convertFrames` says -/

namespace Props
open Geom Py Pipe Spec

section FrameShapes

theorem fs_row {β γ : Type} (f : β → γ) (g : List Bool) (l : List β) : placeRow g (l.map f) = (placeRow g l).map (Option.map f) := by
  induction g generalizing l with
  | nil => rfl
  | cons b g ih =>
    cases b with
    | false => simp only [placeRow, ih, List.map_cons, Option.map_none]
    | true =>
      cases l with
      | nil =>
        have := ih []
        rw [List.map_nil] at this
        simp only [List.map_nil, placeRow, List.map_cons, Option.map_none]
        rw [← this]
      | cons c cs => simp only [placeRow, ih, List.map_cons, Option.map_some]

theorem fs_place {β γ : Type} (f : β → γ) (g : List (List Bool)) (l : List β) : place g (l.map f) = (place g l).map fun r => r.map (Option.map f) := by
  induction g generalizing l with
  | nil => rfl
  | cons r g ih => simp only [place, fs_row, ← List.map_drop, ih, List.map_cons]

theorem fs_shape {β γ δ : Type} (f : β → γ) (h : β → δ) (g : List (List Bool)) (l : List β) :
    (place g (l.map f)).map (fun r => r.map Option.isSome) = (place g (l.map h)).map fun r => r.map Option.isSome := by
  rw [fs_place, fs_place, List.map_map, List.map_map]
  apply List.map_congr_left
  intro r _
  simp only [Function.comp_apply, List.map_map]
  apply List.map_congr_left
  intro c _
  cases c <;> rfl

theorem fs_blocks (xs : List Pose.Blk) : cellsOf (ofBlocks (Pose.blocks xs)) = (Pose.frames xs).map fun t => t.cells.map fun r => r.map Option.isSome := by
  induction xs with
  | nil => simp [Pose.blocks, ofBlocks, cellsOf, Pose.frames]
  | cons x xs ih =>
    cases x with
    | text q =>
      simp only [Pose.blocks, Pose.block, ofBlocks, Pose.frames, cellsOf, List.filterMap_cons]
      exact ih
    | table b ind before g cs =>
      simp only [Pose.blocks, Pose.block, ofBlocks, Pose.frames, cellsOf, List.filterMap_cons, List.map_cons]
      congr 1
      rw [cp_rows, cp_cellBlocks, List.map_map]
      have : ∀ rs : List (List (Option (List (Docx.Block Pose.Par)))), rs.map ((fun r => r.map Option.isSome) ∘ fun r => r.map fun c => c.map ofBlocks) = rs.map fun r => r.map Option.isSome := by
        intro rs
        apply List.map_congr_left
        intro r _
        simp only [Function.comp_apply, List.map_map]
        apply List.map_congr_left
        intro c _
        cases c <;> rfl
      rw [this]
      exact fs_shape _ _ _ _

/-- **C130**: the tables in a section of the document have the rows and cells of the tables `Pose.convertFrames` gives for the page, in this order. -/
theorem C130_same_tables (c : Pose.Cfg) (depth : ℕ) (s0 : Pose.Sect) (pages : List Pose.Page) (d : Docx.Doc Pose.Par Sp Pose.Sect) (h : Pose.convert c depth s0 pages = .ok d) (n : ℕ) (p : Pose.Page)
    (s : Pose.Sect × List (Docx.Item Pose.Par Sp Pose.Sect)) (hp : pages[n]? = some p) (hs : (sectionsOf d)[n]? = some s) :
    ∃ F fs, Pose.convertFrames c depth pages = .ok F ∧ F[n]? = some fs ∧ cellsOf (ofItems s.2) = fs.map fun t => t.cells.map fun r => r.map Option.isSome := by
  obtain ⟨dd, h1, -, h3, -⟩ := tq_section c depth s0 pages d h n p s hp hs
  obtain ⟨F, hF, hall⟩ := fm_frames c depth s0 pages d h
  obtain ⟨hn, hpn⟩ := List.getElem?_eq_some_iff.1 hp
  have hn' : n < F.length := hall.length_eq ▸ hn
  have hrel := (List.forall₂_iff_get.1 hall).2 n hn hn'
  simp only [List.get_eq_getElem, hpn] at hrel
  obtain ⟨xs, hl, hfs⟩ := hrel
  unfold Pose.pageLayout at hl
  unfold Pose.parsePage at h1
  cases hc : cleanUp c.whole.pipe p.box p.raw with
  | error e => rw [hc] at hl; cases hl
  | ok r =>
    rw [hc] at hl h1
    dsimp only at hl h1
    cases hd : Deco.layout c.whole.full p.uri p.ids depth (p.workOf c r.1) p.shapes (r.1.map fun b => .text b.bbox b.lines) with
    | error e => rw [hd] at hl; cases hl
    | ok dl =>
      rw [hd] at hl h1
      dsimp only at hl h1
      rw [hl] at h1
      obtain rfl := (Except.ok.inj h1).symm
      refine ⟨F, F[n], hF, List.getElem?_eq_getElem hn', ?_⟩
      rw [h3, hfs]
      exact fs_blocks xs

/-- Non-vacuity: the page with a table in a table of C132. -/
example : (Pose.convert poCfg 6 ⟨0, 0, ⟨0, 0, 0, 0⟩⟩ [nfPage]).toOption.map (fun d => (sectionsOf d).map fun s => cellsOf (ofItems s.2)) = some [[[[true, true], [true, true]]]] := by
  decide +kernel

end FrameShapes
end Props
