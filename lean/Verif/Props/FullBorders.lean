import Verif.Props.FullGrid
import Verif.Props.FullTableEx
/-! # C92: the borders of the cells of a drawn grid -/

namespace Props
open Geom Py Spec Table

section FBorders

variable {X Y : ℕ → ℚ} {r k : ℕ} {W gap : ℚ}

section
open Full

/-- **C92** (partial, as `C92_grid_partial`, for grids with cells of at least 5pt). In the table found for a drawn grid, every cell has a border of the drawn width on top, right and bottom, and on its
left; except that the cells of the first column may all be without left border (see `C92_refuted_left_border`). -/
theorem C92_borders_partial {α : Type} (c : Full.Cfg) (hi : ∀ l, (c.base.lay.iter l).Perm l) (htol : 0 < c.base.lay.tol) (hd : 0 ≤ c.conn) (hc : 0 ≤ c.base.clear) (hw : 1 / 20 ≤ c.base.maxW)
    (fmt : Format α) (nid : Lay.Ids) (depth : ℕ) (page : Rect) (hg : Grid X Y r k W gap)
    (hgd : W + 2 * c.conn ≤ gap) (hgw : c.base.maxW + 1 / 20 ≤ gap) (hgc : c.base.clear ≤ gap) (hgW : W + 3 / 10 ≤ gap) (h5 : 5 ≤ gap)
    (others : List St) (shapes : List Sh) (bs : List (Full.Blk α)) (hs : DrawnAround c.conn X Y r k W (lineRects bs) others shapes) (ht : TextAround X Y r k W bs)
    (hp : OnPage page X k W shapes bs) :
    ∃ above cells below ty, Full.parsePage c fmt nid (depth + 2) page shapes bs = .ok (above ++ .table (gridBox X Y r k) (fullGrid r k) cells :: below, ty) ∧
      (cells.map fun x => x.1.info.box) = gridCells X Y r k ∧
      ∀ x ∈ cells, ∃ i < r, ∃ j < k, x.1.info.box = gridCell X Y i j ∧ x.1.info.top = W ∧ x.1.info.right = W ∧ x.1.info.bottom = W ∧
        (j ≠ 0 → x.1.info.left = W) ∧ (x.1.info.left = W ∨ x.1.info.left = 0) := by
  obtain ⟨A, cs, D, ty, h1, _, _, h4, f, ty0, ty1, sub, others', g1, g2, g3, _, _, g5⟩ := fy_grid_all c hi htol hd hc hw fmt nid depth page hg hgd hgw hgc hgW others shapes bs hs ht hp
  refine ⟨A, cs, D, ty, h1, h4.1, ?_⟩
  intro x hx
  refine (fb_lattice c hi hd hc (by linarith) hg hgd hgw hgc h5 sub others' g2 g3 ty0 f ty1 g1 ?_ x.1.info ?_).1
  · rw [← g5, List.map_map]
    exact h4.1
  · rw [← g5]
    exact List.mem_map.2 ⟨x, hx, rfl⟩

/-- The hypotheses are met. -/
example : ∃ above cells below ty, Full.parsePage fpCfg fpFmt (fun _ _ _ _ _ => 0) 4 ⟨0, 0, 400, 600⟩ fyShapes fyPage =
    .ok (above ++ .table (gridBox (fun j => 100 + 100 * j) (fun i => 100 + 50 * i) 2 2) (fullGrid 2 2) cells :: below, ty) ∧ ∀ x ∈ cells, x.1.info.top = 1 := by
  obtain ⟨a, cs, b, ty, h, _, h3⟩ := C92_borders_partial fpCfg (fun l => List.Perm.refl l) (by decide +kernel) (by decide +kernel) (by decide +kernel) (by decide +kernel) fpFmt (fun _ _ _ _ _ => 0) 2
    ⟨0, 0, 400, 600⟩ fy_ex_grid (by decide +kernel) (by decide +kernel) (by decide +kernel) (by decide +kernel) (by decide +kernel) [fyRule] fyShapes fyPage (fy_ex_drawn _ (by unfold fyOn innerCell gridCell lineRects; decide +kernel)) fy_ex_text fy_ex_page
  exact ⟨a, cs, b, ty, h, fun x hx => by obtain ⟨_, _, _, _, _, h, _⟩ := h3 x hx; exact h⟩

/-- **C92** (refuted for the left border): four cells in a row, drawn with lines of 1pt, and a short line 80pt above them. The table found has the four cells, but the first one has no left border,
although it is drawn as the others are: which pairs of lines are compared for being connected depends on how ties in the horizontal order fall, and the first vertical line is then on its own. Without the
other line the border is there. -/
theorem C92_refuted_left_border :
    ∃ strokes : List St, strokes.Perm (gridStrokes (fun j => 100 + 100 * j) (fun i => 100 + 50 * i) 1 4 1 ++ [hst 50 150 20 1]) ∧ strokes.Pairwise (fun a b => a.bbox.y0 ≤ b.bbox.y0) ∧
      csSeen (strokes.map Sh.stroke) [] = some [[⟨⟨100, 100, 200, 150⟩, 1, 1, 1, 0, none⟩, ⟨⟨200, 100, 300, 150⟩, 1, 1, 1, 1, none⟩, ⟨⟨300, 100, 400, 150⟩, 1, 1, 1, 1, none⟩,
        ⟨⟨400, 100, 500, 150⟩, 1, 1, 1, 1, none⟩]] ∧
      csSeen ((strokesRead (gridStrokes (fun j => 100 + 100 * j) (fun i => 100 + 50 * i) 1 4 1)).map Sh.stroke) [] = some [[⟨⟨100, 100, 200, 150⟩, 1, 1, 1, 1, none⟩,
        ⟨⟨200, 100, 300, 150⟩, 1, 1, 1, 1, none⟩, ⟨⟨300, 100, 400, 150⟩, 1, 1, 1, 1, none⟩, ⟨⟨400, 100, 500, 150⟩, 1, 1, 1, 1, none⟩]] := by
  refine ⟨strokesRead (gridStrokes (fun j => 100 + 100 * j) (fun i => 100 + 50 * i) 1 4 1 ++ [hst 50 150 20 1]), sortBy_perm _ _, by decide +kernel, by decide +kernel, by decide +kernel⟩

/-- **C92** (refuted for low rows): in a grid with rows of 4pt the vertical borders are lost. -/
theorem C92_refuted_low_rows :
    csSeen ((strokesRead (gridStrokes (fun j => 100 + 100 * j) (fun i => 100 + 4 * i) 2 2 1)).map Sh.stroke) [] = some [[⟨⟨100, 100, 200, 104⟩, 1, 0, 1, 0, none⟩,
      ⟨⟨200, 100, 300, 104⟩, 1, 0, 1, 0, none⟩, ⟨⟨100, 104, 200, 108⟩, 1, 0, 1, 0, none⟩, ⟨⟨200, 104, 300, 108⟩, 1, 0, 1, 0, none⟩]] := by decide +kernel

end

end FBorders

end Props
