import Verif.Props.WholeShade
import Verif.Props.DrawPlain
import Verif.Props.Styled
import Verif.Props.Page
/-! # C34: the working area of the pages converted

The layout of a page is parsed in its working area. In the model the area is a field of the page; here: the content of the page lies in the area the code computes, and the example
pages have that area. -/

namespace Props
open Geom Py Pipe Whole Spec

/-- **C34** (partial): if all cleaned-up blocks and shapes of a page have an area and lie on the page, they lie in the area its layout is parsed in.
*Missing*: contents without area, see `C34_refuted_hairline`; factors above 1/2 at the bottom. -/
theorem C34_page_partial {π : Type} (c : Whole.Cfg) (ft fb : ℚ) (hft : 0 ≤ ft ∧ ft ≤ 1) (hfb : 0 ≤ fb ∧ fb ≤ 1 / 2) (p : Whole.Page π) (h0 : p.box.x0 = 0 ∧ p.box.y0 = 0)
    (r : List Raw × List Sp) (hr : cleanUp c.pipe p.box p.raw = .ok r) (hw : p.workArea c ft fb = .ok p.work)
    (hp : ∀ b ∈ r.1.map (fun b => b.bbox) ++ p.shapes.map (fun s => s.bbox), Proper b ∧ Tenths b ∧ Covers p.box b) :
    (∀ b ∈ r.1, Covers p.work b.bbox) ∧ ∀ s ∈ p.shapes, Covers p.work s.bbox := by
  have hbox : p.box = _root_.Page.pageBox p.box.x1 p.box.y1 := by
    obtain ⟨h1, h2⟩ := h0
    cases hb : p.box; simp_all [_root_.Page.pageBox]
  have key := C34_working_area_contains_content_partial p.box.x1 p.box.y1 _ _ ft fb hft.1 hft.2 hfb.1 (hfb.2.trans (by norm_num))
    (fun b hb => by rw [← hbox]; exact hp b hb)
  dsimp only at key
  have hwork : _root_.Page.workingBbox p.box.x1 p.box.y1 (_root_.Page.calMargin p.box.x1 p.box.y1 (r.1.map fun b => b.bbox) (p.shapes.map fun s => s.bbox) ft fb) = p.work := by
    unfold Whole.Page.workArea at hw
    rw [hr] at hw
    exact Except.ok.inj hw
  rw [hwork] at key
  have all : ∀ b ∈ r.1.map (fun b => b.bbox) ++ p.shapes.map (fun s => s.bbox), Covers p.work b := fun b hb => by
    obtain ⟨a1, a2, a3, -, a5⟩ := key b hb
    exact ⟨a1, a2, a3, a5 hfb.2⟩
  exact ⟨fun b hb => all _ (List.mem_append_left _ (List.mem_map_of_mem hb)), fun s hs => all _ (List.mem_append_right _ (List.mem_map_of_mem hs))⟩

/-! The areas of the example pages are those the code computes with the default settings. -/

example : (whPage.workArea whCfg (1 / 2) (1 / 2)).toOption = some whPage.work := by decide +kernel
example : (syPage.whole.workArea whCfg (1 / 2) (1 / 2)).toOption = some syPage.work := by decide +kernel
example : ((asPainted dwCfg wsPage).workArea whCfg (1 / 2) (1 / 2)).toOption = some wsPage.work := by decide +kernel
example : ((asPainted dwCfg wsPlain).workArea whCfg (1 / 2) (1 / 2)).toOption = some wsPlain.work := by decide +kernel
example : ((asSeen dwCfg dpPage).workArea whCfg (1 / 2) (1 / 2)).toOption = some dpPage.work := by decide +kernel

/-- Non-vacuity of `C34_page_partial`: the content of the table page. -/
example : ∀ b ∈ pageBlocks whCfg.ws whPage, Covers whPage.work b.bbox := by decide +kernel

end Props
