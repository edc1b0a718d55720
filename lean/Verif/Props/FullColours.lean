import Verif.Props.FullBorders
import Verif.Spec.Colours
/-! # C115: the colours of the cells of a drawn table -/

namespace Props
open Geom Py Spec Table

section FColours
open Full

variable {α : Type} {X Y : ℕ → ℚ} {r k : ℕ} {W gap : ℚ}

theorem fq_colours (c : Full.Cfg) (hi : ∀ l, (c.base.lay.iter l).Perm l) (hd : 0 ≤ c.conn) (hc : 0 ≤ c.base.clear) (hw : 1 / 20 ≤ c.base.maxW)
    (hg : Grid X Y r k W gap) (hgd : W + 2 * c.conn ≤ gap) (hgw : c.base.maxW + 1 / 20 ≤ gap) (hgc : c.base.clear ≤ gap) (h5 : 5 ≤ gap)
    (others : List St) (shapes : List Sh) (bs : List (Full.Blk α)) (hs : DrawnAround c.conn X Y r k W (lineRects bs) others shapes) (ht : TextAround X Y r k W bs)
    (f : Found) (ty0 ty1 : Types) (others' : List St) (g1 : latticeStage c ty0 (mkSub (sortBlocks bs) shapes) = .ok ([f], ty1))
    (g2 : (mkSub (sortBlocks bs) shapes).strokes.Perm (gridStrokes X Y r k W ++ others')) (g3 : OtherLines c.conn X Y r k W others') (g4 : (f.cells.map CellInfo.box) = gridCells X Y r k)
    (x : CellInfo) (hxm : x ∈ f.cells) (i : ℕ) (hir : i < r) (j : ℕ) (hjk : j < k) (hb : x.box = gridCell X Y i j) : Coloured (innerCell X Y W i j) shapes (lineRects bs) x.bg := by
  constructor
  · intro b col hm hcol hcv ⟨l, hl, hbl⟩
    have hP := (hs.fills b col hm).resolve_left hcol
    obtain ⟨l', hl', rfl⟩ := List.mem_map.1 hl
    obtain ⟨B, hB, hlB⟩ := List.mem_flatMap.1 hl'
    have hpd := fy_background b (hs.real _ hm).1 col bs ht.text ⟨B, hB, l', hlB, hbl⟩
    exact (pn_lattice c hi hd hc (by linarith) hg hgd hgw hgc _ others' g2 g3 _ f ty1 g1 g4 hs.real (fun g hgm => (fy_fill_mem _ _ g hgm).1) hP
      (fy_mem_fill _ _ _ _ hm hpd)).2 x hxm i hir j hjk hb hcv
  · intro col hbg
    obtain ⟨⟨i', hi', j', hj', q1, q2, q3, q4, _, q6⟩, k1, _⟩ := fb_lattice c hi hd hc (by linarith) hg hgd hgw hgc h5 _ others' g2 g3 ty0 f ty1 g1 g4 x hxm
    rw [k1] at hbg
    obtain ⟨p, hpk, rfl⟩ := Option.map_eq_some_iff.1 hbg
    have hpm : p ∈ (mkSub (sortBlocks bs) shapes).fills := by
      have : p ∈ (mkSub (sortBlocks bs) shapes).fills.filter fun f => (gridFrame X Y r k W).contains f.1 := by
        unfold pickFill at hpk
        exact List.mem_of_find?_eq_some hpk
      exact (List.mem_filter.1 this).1
    have hm := (fy_fill_mem _ _ p hpm).1
    refine (hs.fills p.1 p.2 hm).imp_right fun hP => ⟨p.1, hm, ?_⟩
    obtain ⟨rfl, rfl⟩ : i = i' ∧ j = j' := by
      by_contra hne
      have hap := fy_cells_apart hg (by linarith) i j i' j' hir hjk hi' hj' hne
      rw [← q1, hb] at hap
      have hcr := (fx_cell_real hg (by linarith) i j hir hjk).1
      unfold Apart at hap
      rw [min_self, max_self, min_self, max_self] at hap
      rcases hap with q | q
      · exact absurd hcr.1 (not_lt.2 q)
      · exact absurd hcr.2 (not_lt.2 q)
    exact pn_sound hg hP (hs.real _ hm).1 x i j hir hjk q1 q2 q3 q4 q6 _ hpk

/-- **C115** (partial: one full grid, see C92; areas with text). In the table found for a drawn grid, a cell on a coloured area that has text on it has the colour of this area, and a cell has no colour
other than that of an area drawn behind it (or white). -/
theorem C115_colours_partial (c : Full.Cfg) (hi : ∀ l, (c.base.lay.iter l).Perm l) (htol : 0 < c.base.lay.tol) (hd : 0 ≤ c.conn) (hc : 0 ≤ c.base.clear) (hw : 1 / 20 ≤ c.base.maxW)
    (fmt : Format α) (nid : Lay.Ids) (depth : ℕ) (page : Rect) (hg : Grid X Y r k W gap)
    (hgd : W + 2 * c.conn ≤ gap) (hgw : c.base.maxW + 1 / 20 ≤ gap) (hgc : c.base.clear ≤ gap) (hgW : W + 3 / 10 ≤ gap) (h5 : 5 ≤ gap)
    (others : List St) (shapes : List Sh) (bs : List (Full.Blk α)) (hs : DrawnAround c.conn X Y r k W (lineRects bs) others shapes) (ht : TextAround X Y r k W bs)
    (hp : OnPage page X k W shapes bs) :
    ∃ above cells below ty, Full.parsePage c fmt nid (depth + 2) page shapes bs = .ok (above ++ .table (gridBox X Y r k) (fullGrid r k) cells :: below, ty) ∧
      (cells.map fun x => x.1.info.box) = gridCells X Y r k ∧
      ∀ x ∈ cells, ∀ i < r, ∀ j < k, x.1.info.box = gridCell X Y i j →
        (∀ b col, Sh.fill b col ∈ shapes → col ≠ white → Covers b (innerCell X Y W i j) → (∃ l ∈ lineRects bs, Covers b l) → x.1.info.bg = some col) ∧
        ∀ col, x.1.info.bg = some col → col = white ∨ ∃ b, Sh.fill b col ∈ shapes ∧ Covers b (innerCell X Y W i j) := by
  obtain ⟨A, cs, D, ty, h1, _, _, h4, f, ty0, ty1, sub, others', g1, g2, g3, rfl, g4, g5⟩ := fy_grid_all c hi htol hd hc hw fmt nid depth page hg hgd hgw hgc hgW others shapes bs hs ht hp
  refine ⟨A, cs, D, ty, h1, h4.1, ?_⟩
  intro x hx i hir j hjk hb
  have hxm : x.1.info ∈ f.cells := by
    rw [← g5]
    exact List.mem_map.2 ⟨x, hx, rfl⟩
  exact fq_colours c hi hd hc hw hg hgd hgw hgc h5 others shapes bs hs ht f ty0 ty1 others' g1 g2 g3 g4 x.1.info hxm i hir j hjk hb

/-- The hypotheses are met: the first row of the example gets its colour, the other cells none. -/
example : ∃ above cells below ty, Full.parsePage fpCfg fpFmt (fun _ _ _ _ _ => 0) 4 ⟨0, 0, 400, 600⟩ fyShapes fyPage =
    .ok (above ++ .table (gridBox (fun j => 100 + 100 * j) (fun i => 100 + 50 * i) 2 2) (fullGrid 2 2) cells :: below, ty) ∧
      ∀ x ∈ cells, x.1.info.box = ⟨200, 100, 300, 150⟩ → x.1.info.bg = some 7 := by
  obtain ⟨a, cs, b, ty, h, _, h3⟩ := C115_colours_partial fpCfg (fun l => List.Perm.refl l) (by decide +kernel) (by decide +kernel) (by decide +kernel) (by decide +kernel) fpFmt (fun _ _ _ _ _ => 0) 2
    ⟨0, 0, 400, 600⟩ fy_ex_grid (by decide +kernel) (by decide +kernel) (by decide +kernel) (by decide +kernel) (by decide +kernel) [fyRule] fyShapes fyPage
    (fy_ex_drawn _ (by unfold fyOn innerCell gridCell lineRects; decide +kernel)) fy_ex_text fy_ex_page
  refine ⟨a, cs, b, ty, h, fun x hx hb => (h3 x hx 0 (by omega) 1 (by omega) ?_).1 ⟨100, 100, 300, 150⟩ 7 (by decide +kernel) (by decide +kernel) (by unfold innerCell; decide +kernel) ?_⟩
  · rw [hb]; unfold gridCell; decide +kernel
  · exact ⟨⟨110, 110, 150, 120⟩, by unfold lineRects; decide +kernel, by decide +kernel⟩

/-- **C115** (refuted for cells without text): on the page of the example the last cell is drawn on a coloured area, but has no text, and it has no colour. With a text in the cell it has. -/
theorem C115_refuted_no_text :
    Sh.fill ⟨401 / 2, 301 / 2, 599 / 2, 399 / 2⟩ 9 ∈ fyShapes ∧
    csSeen fyShapes fyPage = some [[], [⟨⟨100, 100, 200, 150⟩, 1, 1, 1, 1, some 7⟩, ⟨⟨200, 100, 300, 150⟩, 1, 1, 1, 1, some 7⟩, ⟨⟨100, 150, 200, 200⟩, 1, 1, 1, 1, none⟩,
      ⟨⟨200, 150, 300, 200⟩, 1, 1, 1, 1, none⟩], []] ∧
    csSeen fyShapes (fpText ⟨210, 160, 250, 170⟩ 6 :: fyPage) = some [[], [⟨⟨100, 100, 200, 150⟩, 1, 1, 1, 1, some 7⟩, ⟨⟨200, 100, 300, 150⟩, 1, 1, 1, 1, some 7⟩, ⟨⟨100, 150, 200, 200⟩, 1, 1, 1, 1, none⟩,
      ⟨⟨200, 150, 300, 200⟩, 1, 1, 1, 1, some 9⟩], []] := by
  refine ⟨by decide +kernel, by decide +kernel, by decide +kernel⟩

end FColours

end Props
