import Verif.Props.WholeText
import Verif.Props.FullTableEx
/-! # C108: a drawn table becomes a table of the document -/

namespace Props
open Geom Py Pipe Spec Assign

section WTable
variable {π : Type}

/-- **C108** (partial: one full grid; no other tables or floating pictures; filled areas behind cells). From the extracted page to the document: the section of a page with a drawn grid of `r` rows and `k` columns has one
table of `r` rows of `k` cells between paragraphs; the paragraphs before it show the lines of the page above the grid, those after it the lines below, and cell `(i, j)` shows exactly the lines
within square `(i, j)`, always from top to bottom and complete up to blanks. -/
theorem C108_table_partial (c : Whole.Cfg) (hc : Sane c) {X Y : ℕ → ℚ} {r k : ℕ} {W gap : ℚ} (hg : Grid X Y r k W gap) (hw : WideFor c.full W gap) (depth : ℕ) (p0 : π)
    (pages : List (Whole.Page π)) (d : Docx.Doc Par Sp π) (h : Whole.convert c (depth + 2) p0 pages = .ok d) (i : ℕ) (p : Whole.Page π) (s : π × List (Docx.Item Par Sp π))
    (hp : pages[i]? = some p) (hs : (sectionsOf d)[i]? = some s) (hgp : GridPage c X Y r k W p) :
    TableShown c.ws X Y r k ((pageBlocks c.ws p).flatMap Lns.Blk.lines) (ofItems s.2) := by
  obtain ⟨dd, h1, h2⟩ := wh_section c (depth + 2) p0 pages d h i p s hp hs
  obtain ⟨dd', h3, h4⟩ := wt_parse c hc.blank hc.order hc.tol hc.overlap hc.merging hc.conn hc.clear hc.border depth hg hw.conn hw.border hw.clear hw.width p hgp
  rw [h1] at h3
  obtain rfl := Except.ok.inj h3
  rw [h2]
  exact h4

/-- **C108**: pages with drawn grids, each with its own one, are converted without error, one section for each. -/
theorem C108_converts_partial (c : Whole.Cfg) (hc : Sane c) (depth : ℕ) (p0 : π) (pages : List (Whole.Page π)) (hne : pages ≠ [])
    (hgp : ∀ p ∈ pages, ∃ X Y r k W gap, Grid X Y r k W gap ∧ WideFor c.full W gap ∧ GridPage c X Y r k W p) :
    ∃ d, Whole.convert c (depth + 2) p0 pages = .ok d ∧ (sectionsOf d).length = pages.length := by
  have hm : ∀ ps : List (Whole.Page π), (∀ p ∈ ps, ∃ X Y r k W gap, Grid X Y r k W gap ∧ WideFor c.full W gap ∧ GridPage c X Y r k W p) →
      ∃ ds, ps.mapM (Whole.parsePage c (depth + 2)) = .ok ds ∧ ds.length = ps.length := by
    intro ps
    induction ps with
    | nil => intro _; exact ⟨[], rfl, rfl⟩
    | cons p ps ih =>
      intro h
      obtain ⟨X, Y, r, k, W, gap, hg, hw, hp⟩ := h p (by simp)
      obtain ⟨dd, h3, _⟩ := wt_parse c hc.blank hc.order hc.tol hc.overlap hc.merging hc.conn hc.clear hc.border depth hg hw.conn hw.border hw.clear hw.width p hp
      obtain ⟨ds, h4, h5⟩ := ih fun q hq => h q (by simp [hq])
      refine ⟨dd :: ds, ?_, by simp [h5]⟩
      rw [List.mapM_cons, h3, h4]
      rfl
  obtain ⟨ds, h1, h2⟩ := hm pages hgp
  refine ⟨_, by unfold Whole.convert; rw [h1], ?_⟩
  have hdne : ds ≠ [] := by
    rintro rfl
    exact hne (List.length_eq_zero_iff.1 h2.symm)
  have := congrArg List.length (C31_one_section_per_page p0 ds hdne)
  simpa [h2] using this

/-! ## An example -/

/-- The default settings. -/
def whCfg : Whole.Cfg := ⟨fun c => c == ' ', 1, 9 / 10, 2, fpCfg⟩

/-- A title; a block over two cells of the first column, extracted with redundant blanks and in the wrong order; a text in the second column beside its first line; a footer; a block beside the page. -/
def whRaw : List Raw :=
  [plText 4 ⟨20, 400, 300, 410⟩ [(⟨20, 400, 300, 410⟩, [(⟨20, 400, 300, 410⟩, 'e')])],
   plText 2 ⟨110, 110, 160, 170⟩ [(⟨110, 160, 160, 170⟩, [(⟨110, 160, 160, 170⟩, 'c')]),
     (⟨110, 110, 150, 120⟩, [(⟨110, 110, 120, 120⟩, ' '), (⟨120, 110, 130, 120⟩, ' '), (⟨130, 110, 150, 120⟩, 'b')])],
   plText 1 ⟨20, 20, 300, 30⟩ [(⟨20, 20, 300, 30⟩, [(⟨20, 20, 300, 30⟩, 'a')])],
   plText 3 ⟨210, 110, 250, 120⟩ [(⟨210, 110, 250, 120⟩, [(⟨210, 110, 250, 120⟩, 'd')])],
   plText 5 ⟨500, 110, 550, 120⟩ [(⟨500, 110, 550, 120⟩, [(⟨500, 110, 550, 120⟩, 'x')])]]

/-- The page: the texts, the drawings of `fyShapes`. -/
def whPage : Whole.Page ℕ := ⟨⟨0, 0, 400, 600⟩, ⟨0, 0, 400, 600⟩, 3, whRaw, fyShapes, fun _ _ _ _ _ => 0, fun _ _ _ _ => [], ppFmt⟩

theorem wh_ex_sane : Sane whCfg := by
  refine ⟨?_, fun l => List.Perm.refl l, ?_, ?_, ?_, ?_, ?_, ?_⟩ <;> decide +kernel

theorem wh_ex_wide : WideFor whCfg.full 1 7 := by
  refine ⟨?_, ?_, ?_, ?_⟩ <;> decide +kernel

instance (mg : ℚ) (a b : Rect) : Decidable (Spaced mg a b) := by unfold Spaced; infer_instance

/-- The blocks after clean-up nearly in a cell are in the cell. -/
def whWhole (r : Except Err (List Raw × List Sp)) : Bool :=
  match r with
  | .ok x => decide (∀ b ∈ x.1, ∀ i < 2, ∀ j < 2, El.contains ⟨gridCell (fun j => 100 + 100 * j) (fun i => 100 + 50 * i) i j, .leftRight⟩ ⟨b.bbox, .leftRight⟩ (19 / 20) = true →
      Covers (gridCell (fun j => 100 + 100 * j) (fun i => 100 + 50 * i) i j) b.bbox)
  | .error _ => true

set_option synthInstance.maxSize 1024 in
theorem wh_ex_on : TextOn whCfg.mg (fun j => 100 + 100 * j) (fun i => 100 + 50 * i) 2 2 1 (pageBlocks whCfg.ws whPage) := by
  have hb : pageBlocks whCfg.ws whPage = whRaw.take 4 := by decide +kernel
  rw [hb]
  refine ⟨by decide +kernel, ?_, by decide +kernel, by decide +kernel, ?_, ?_, ?_, ?_, ?_, ?_⟩
  · have : ∀ b ∈ whRaw.take 4, ∃ id ∈ [1, 2, 3, 4], ∀ l ∈ b.lines, l.pid = some id := by decide +kernel
    intro b hb
    obtain ⟨id, _, h⟩ := this b hb
    exact ⟨id, h⟩
  · unfold gridBox; decide +kernel
  · unfold gridBox; decide +kernel
  · unfold gridBox Above; decide +kernel
  · unfold gridBox gridCell; decide +kernel
  · unfold gridCell Above; decide +kernel
  · unfold gridCell; decide +kernel

theorem wh_ex_page : GridPage whCfg (fun j => 100 + 100 * j) (fun i => 100 + 50 * i) 2 2 1 whPage := by
  refine ⟨?_, wh_ex_on, by decide +kernel, ⟨[fyRule], fy_ex_drawn _ (by unfold fyOn innerCell gridCell; decide +kernel)⟩, by decide +kernel, by decide +kernel, by decide +kernel, ?_, ?_⟩
  · intro b hb
    simp only [whPage, whRaw, List.mem_cons, List.not_mem_nil, or_false] at hb
    rcases hb with rfl | rfl | rfl | rfl | rfl <;> exact plText_ok _ _ _ (pp_ex_text _ _ (by decide +kernel) (by decide +kernel))
  · intro bs fs h
    have : noFloats (beforeJoin whCfg.pipe whPage.box whPage.raw) = true := by decide +kernel
    rw [h] at this
    simpa [noFloats] using this
  · intro js fs h
    have : whWhole (cleanUp whCfg.pipe whPage.box whPage.raw) = true := by decide +kernel
    rw [h] at this
    simp only [whWhole, decide_eq_true_eq] at this
    exact this

/-- The hypotheses of C108 are met. -/
example : ∃ d, Whole.convert whCfg 4 0 [whPage, whPage] = .ok d ∧ ∀ (i : ℕ) (s : ℕ × List (Docx.Item Par Sp ℕ)), (sectionsOf d)[i]? = some s →
    TableShown whCfg.ws (fun j => 100 + 100 * j) (fun i => 100 + 50 * i) 2 2 ((pageBlocks whCfg.ws whPage).flatMap Lns.Blk.lines) (ofItems s.2) := by
  obtain ⟨d, h, hl⟩ := C108_converts_partial whCfg wh_ex_sane 2 0 [whPage, whPage] (by simp) (by
    intro p hp
    have : p = whPage := by simpa using hp
    subst this
    exact ⟨_, _, _, _, _, _, fy_ex_grid, wh_ex_wide, wh_ex_page⟩)
  refine ⟨d, h, ?_⟩
  intro i s hs
  have hi : i < 2 := by
    have := (List.getElem?_eq_some_iff.1 hs).1
    rw [hl] at this
    simpa using this
  refine C108_table_partial whCfg wh_ex_sane fy_ex_grid wh_ex_wide 2 0 _ d h i whPage s ?_ hs wh_ex_page
  match i, hi with
  | 0, _ => rfl
  | 1, _ => rfl

end WTable

end Props
