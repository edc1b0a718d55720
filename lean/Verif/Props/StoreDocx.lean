import Verif.Spec.Store
import Verif.Spec.Docx
import Verif.Props.Docx
/-! # The docx written from parsed pages (C31, C33) -/

namespace Spec
open Geom Store

mutual
/-- What a parsed layout contains: texts (with their lines) and tables; a cell without box is one merged away; floating images are left out. -/
def contentOf : List Store.Block → List (Tree ParaData)
  | [] => []
  | .text _ b f lines :: bs => .text (ParaData.seen ⟨b, f, lines⟩) :: contentOf bs
  | .table _ _ _ rows :: bs => .table (contentRows rows) :: contentOf bs
  | .image _ _ _ :: bs => contentOf bs
def contentRows : List (RowOf (CellOf Store.Block)) → List (List (Option (List (Tree ParaData))))
  | [] => []
  | ⟨_, _, cells⟩ :: rs => contentRow cells :: contentRows rs
def contentRow : List (CellOf Store.Block) → List (Option (List (Tree ParaData)))
  | [] => []
  | ⟨b, _, _, _, _, blocks⟩ :: cs => (if b = ⟨0, 0, 0, 0⟩ then none else some (contentOf blocks)) :: contentRow cs
end

end Spec

namespace Props
open Geom Store Spec

mutual
theorem sd_blocks : (bs : List Store.Block) → ofBlocks (docxBlocks bs) = contentOf bs
  | [] => by simp only [docxBlocks, ofBlocks, contentOf]
  | .text _ b f lines :: bs => by simp only [docxBlocks, Block.toDocx, ofBlocks, contentOf, sd_blocks bs]
  | .table _ _ f rows :: bs => by simp only [docxBlocks, Block.toDocx, ofBlocks, contentOf, sd_blocks bs, sd_rows rows]
  | .image _ _ _ :: bs => by simp only [docxBlocks, Block.toDocx, ofBlocks, contentOf, sd_blocks bs]
theorem sd_rows : (rs : List (RowOf (CellOf Store.Block))) → ofBlockRows (docxRows rs) = contentRows rs
  | [] => by simp only [docxRows, ofBlockRows, contentRows]
  | ⟨_, _, cells⟩ :: rs => by simp only [docxRows, docxRow, ofBlockRows, contentRows, sd_rows rs, sd_row cells]
theorem sd_row : (cs : List (CellOf Store.Block)) → ofBlockRow (docxCells cs) = contentRow cs
  | [] => by simp only [docxCells, ofBlockRow, contentRow]
  | ⟨b, _, _, _, _, blocks⟩ :: cs => by
    simp only [docxCells, docxCell, ofBlockRow, contentRow, sd_row cs]
    congr 1
    by_cases h : b = ⟨0, 0, 0, 0⟩
    · subst h
      rw [if_pos rfl, if_neg (by decide +kernel)]
      simp only [ofBlockCell]
    · have : b.truthy = true := by unfold Rect.truthy; exact decide_eq_true h
      rw [if_pos this, if_neg h]
      simp only [ofBlockCell, sd_blocks blocks]
end

/-- **C33** (parsed pages): the docx has one section per page, in order, with the size and margins of the page, holding exactly the texts and tables of the page, in order; a
position of a table is empty iff it was merged away, and cells hold their own contents, at any depth. -/
theorem C33_pages_written (d0 : ℚ × ℚ × List ℚ) (ps : List Store.Page) (hne : ps ≠ []) :
    (sectionsOf (Docx.makeDoc d0 (ps.map Page.toDocx))).map (fun s => (s.1, ofItems s.2)) = ps.map fun p => ((p.width, p.height, p.margin), contentOf p.blocks) := by
  rw [C31_one_section_per_page d0 _ (by simpa using hne), List.map_map]
  refine List.map_congr_left fun p _ => ?_
  simp only [Function.comp, Page.toDocx, sd_blocks]

/-- Non-vacuity: a page with a table whose second cell is merged away. -/
example : contentRow [⟨⟨0, 0, 100, 50⟩, none, [], [], (1, 2), [.image true {} ⟨⟨0, 0, 1, 1⟩, "png", 1, 1, []⟩]⟩, emptyCell] = [some [], none] := by
  simp [contentRow, contentOf, emptyCell, Rect.zero]

end Props
