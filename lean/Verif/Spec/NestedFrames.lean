import Verif.NestedFrames
import Verif.Spec.Frames
/-! # Specification: tables in tables as found (C132) -/

namespace Spec
open Geom Pipe

/-- A cell as it should be written: as wide as found, with the borders and the background found. -/
def cellAsFound (x : Full.CellInfo) : Pose.FrameCell :=
  ⟨x.box.x1 - x.box.x0, ⟨if x.top = 0 then none else some (8 * x.top), if x.right = 0 then none else some (8 * x.right), if x.bottom = 0 then none else some (8 * x.bottom), if x.left = 0 then none else some (8 * x.left)⟩, x.bg⟩

mutual
/-- What should be written of a block found in an area that starts at `left`: a table indented so that it starts where it was found, with its cells; the area for the contents of a cell starts at the inner
side of its left border. -/
def tabFound (left : ℚ) : Deco.Blk → List Pose.Tab
  | .text .. => []
  | .table b g cs => [⟨⟨b.x0 - left, place g (cs.map fun x => cellAsFound x.1.info)⟩, tabsInCells cs⟩]
def tabsFound (left : ℚ) : List Deco.Blk → List Pose.Tab
  | [] => []
  | b :: bs => tabFound left b ++ tabsFound left bs
def tabsInCells : List (Full.Cell × List Deco.Blk) → List (List Pose.Tab)
  | [] => []
  | (x, bs) :: cs => tabsFound (x.info.box.x0 + x.info.left / 2) bs :: tabsInCells cs
end

end Spec
