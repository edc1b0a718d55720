import Verif.Props.FullTable
import Verif.Props.FullPage
import Mathlib.Tactic.IntervalCases
/-! # C92: an example of a page with a drawn table, and two pages where the claim fails -/

namespace Props
open Py Geom Spec

section FTableEx
open Full

/-- A block of lines, each of one character, all from the block `id`. -/
def fyBlocks (b : Rect) (ls : List (Rect × ℕ × ℕ)) : Full.Blk ℕ := .text b (ls.map fun p => ⟨p.1, .leftRight, some p.2.1, [(p.1, .text p.1 [(p.1, p.2.2)])]⟩)

/-- The same with one source block. -/
def fyBlock (b : Rect) (id : ℕ) (ls : List (Rect × ℕ)) : Full.Blk ℕ := .text b (ls.map fun p => ⟨p.1, .leftRight, some id, [(p.1, .text p.1 [(p.1, p.2)])]⟩)

/-- A box around boxes that touches a box on each side is the smallest one around them. -/
theorem fy_hull (b : Rect) (rs : List Rect) (h : ∀ r ∈ rs, Covers b r) (h0 : ∃ r ∈ rs, r.x0 = b.x0) (h1 : ∃ r ∈ rs, r.y0 = b.y0) (h2 : ∃ r ∈ rs, r.x1 = b.x1)
    (h3 : ∃ r ∈ rs, r.y1 = b.y1) : IsHull rs b := by
  refine ⟨h, fun h' hh => ?_⟩
  obtain ⟨a, ha, ea⟩ := h0
  obtain ⟨b', hb, eb⟩ := h1
  obtain ⟨c, hc, ec⟩ := h2
  obtain ⟨d, hd, ed⟩ := h3
  exact ⟨ea ▸ (hh a ha).1, eb ▸ (hh b' hb).2.1, ec ▸ (hh c hc).2.2.1, ed ▸ (hh d hd).2.2.2⟩

theorem fy_line (b : Rect) (ls : List (Rect × ℕ × ℕ)) (hb : b.x0 < b.x1 ∧ b.y0 < b.y1 ∧ Rect.round b = b) (hl : ∀ p ∈ ls, (p.1.x0 < p.1.x1 ∧ p.1.y0 < p.1.y1 ∧ Rect.round p.1 = p.1) ∧ Covers b p.1)
    (hn : ls ≠ []) (h0 : ∃ r ∈ ls.map Prod.fst, r.x0 = b.x0) (h1 : ∃ r ∈ ls.map Prod.fst, r.y0 = b.y0) (h2 : ∃ r ∈ ls.map Prod.fst, r.x1 = b.x1) (h3 : ∃ r ∈ ls.map Prod.fst, r.y1 = b.y1) :
    LineText (fyBlocks b ls) := by
  have e : ((fyBlocks b ls).lines.map fun l => l.bbox) = ls.map Prod.fst := by
    unfold fyBlocks Blk.lines
    rw [List.map_map]
    rfl
  refine ⟨rfl, ⟨ly_ex_real hb, ?_⟩, ?_, ?_, ?_, ?_⟩
  · intro l hl'
    obtain ⟨p, hp, rfl⟩ := List.mem_map.1 hl'
    obtain ⟨q1, q2⟩ := hl p hp
    exact ⟨ly_ex_line q1 (by intro c hc; rw [List.mem_singleton] at hc; subst hc; exact ⟨q1, ⟨le_refl _, le_refl _, le_refl _, le_refl _⟩⟩), q2⟩
  · intro h
    exact hn (List.map_eq_nil_iff.1 h)
  · rw [e]
    refine fy_hull b _ ?_ h0 h1 h2 h3
    intro r hr
    obtain ⟨p, hp, rfl⟩ := List.mem_map.1 hr
    exact (hl p hp).2
  · intro l hl'
    obtain ⟨p, _, rfl⟩ := List.mem_map.1 hl'
    rfl
  · intro l hl'
    obtain ⟨p, _, rfl⟩ := List.mem_map.1 hl'
    simp

theorem fy_plain (b : Rect) (id : ℕ) (ls : List (Rect × ℕ)) (hb : b.x0 < b.x1 ∧ b.y0 < b.y1 ∧ Rect.round b = b) (hl : ∀ p ∈ ls, (p.1.x0 < p.1.x1 ∧ p.1.y0 < p.1.y1 ∧ Rect.round p.1 = p.1) ∧ Covers b p.1)
    (hn : ls ≠ []) (h0 : ∃ r ∈ ls.map Prod.fst, r.x0 = b.x0) (h1 : ∃ r ∈ ls.map Prod.fst, r.y0 = b.y0) (h2 : ∃ r ∈ ls.map Prod.fst, r.x1 = b.x1) (h3 : ∃ r ∈ ls.map Prod.fst, r.y1 = b.y1)
    (hd : (ls.map Prod.fst).Pairwise fun l m => Above l m) : PlainText (fyBlock b id ls) := by
  have e : ((fyBlock b id ls).lines.map fun l => l.bbox) = ls.map Prod.fst := by
    unfold fyBlock Blk.lines
    rw [List.map_map]
    rfl
  have e' : fyBlock b id ls = fyBlocks b (ls.map fun p => (p.1, id, p.2)) := by unfold fyBlock fyBlocks; rw [List.map_map]; rfl
  have e2 : (ls.map fun p => (p.1, id, p.2)).map Prod.fst = ls.map Prod.fst := by rw [List.map_map]; rfl
  refine ⟨?_, ⟨?_, ?_⟩⟩
  · rw [e']
    refine fy_line b _ hb ?_ (by simpa using hn) (by rw [e2]; exact h0) (by rw [e2]; exact h1) (by rw [e2]; exact h2) (by rw [e2]; exact h3)
    intro p hp
    obtain ⟨q, hq, rfl⟩ := List.mem_map.1 hp
    exact hl q hq
  · rw [← e, List.pairwise_map] at hd
    exact hd.imp Or.inl
  · intro l h1 m h2 _ _ _ _ _
    obtain ⟨p, _, rfl⟩ := List.mem_map.1 h1
    obtain ⟨q, _, rfl⟩ := List.mem_map.1 h2
    rfl

/-- The page as it is after cleaning up: a title; a block over two cells of the first column joined with a text in the second column, beside its first line; a footer. -/
def fyPage : List (Full.Blk ℕ) := [fyBlock ⟨20, 20, 300, 30⟩ 1 [(⟨20, 20, 300, 30⟩, 1)],
  fyBlocks ⟨110, 110, 250, 170⟩ [(⟨110, 110, 150, 120⟩, 2, 2), (⟨210, 110, 250, 120⟩, 3, 4), (⟨110, 160, 160, 170⟩, 2, 3)], fyBlock ⟨20, 400, 300, 410⟩ 4 [(⟨20, 400, 300, 410⟩, 5)]]

/-- A rule under the title. -/
def fyRule : Table.St := ⟨20, 40, 300, 40, ⟨20, 39, 300, 41⟩, 2, 0⟩

/-- The drawings, on a white background: the first row has a colour, and the last cell (without text) another. -/
def fyShapes : List Sh := .fill ⟨0, 0, 400, 600⟩ white :: .fill ⟨100, 100, 300, 150⟩ 7 :: .fill ⟨401 / 2, 301 / 2, 599 / 2, 399 / 2⟩ 9 :: .stroke fyRule :: fpGrid

example : fpSeen fyShapes fyPage = some [.inl [1], .inr [[2], [4], [3], []], .inl [5]] := by decide +kernel

theorem fy_ex_text : TextAround (fun j => 100 + 100 * j) (fun i => 100 + 50 * i) 2 2 1 fyPage := by
  have h1 : PlainText (fyBlock ⟨20, 20, 300, 30⟩ 1 [(⟨20, 20, 300, 30⟩, 1)]) := fy_plain _ _ _ (by decide +kernel) (by decide +kernel) (by decide +kernel) (by decide +kernel) (by decide +kernel) (by decide +kernel) (by decide +kernel) (by decide +kernel)
  have h2 : LineText (fyBlocks ⟨110, 110, 250, 170⟩ [(⟨110, 110, 150, 120⟩, 2, 2), (⟨210, 110, 250, 120⟩, 3, 4), (⟨110, 160, 160, 170⟩, 2, 3)]) :=
    fy_line _ _ (by decide +kernel) (by decide +kernel) (by decide +kernel) (by decide +kernel) (by decide +kernel) (by decide +kernel) (by decide +kernel)
  have h3 : PlainText (fyBlock ⟨20, 400, 300, 410⟩ 4 [(⟨20, 400, 300, 410⟩, 5)]) := fy_plain _ _ _ (by decide +kernel) (by decide +kernel) (by decide +kernel) (by decide +kernel) (by decide +kernel) (by decide +kernel) (by decide +kernel) (by decide +kernel)
  refine ⟨?_, by unfold OtherSource; decide +kernel, ?_, ?_, ?_, ?_, ?_, ?_, ?_⟩
  · intro b hb
    simp only [fyPage, List.mem_cons, List.not_mem_nil, or_false] at hb
    rcases hb with rfl | rfl | rfl
    exacts [h1.toLineText, h2, h3.toLineText]
  · unfold gridBox; decide +kernel
  · intro b hb hc
    simp only [fyPage, List.mem_cons, List.not_mem_nil, or_false] at hb
    rcases hb with rfl | rfl | rfl
    · exact h1
    · exact absurd (by unfold gridBox Covers; decide +kernel) hc
    · exact h3
  · unfold gridBox; decide +kernel
  · unfold gridBox gridCell; decide +kernel
  · have h4 : ∀ b ∈ fyPage, ∀ i < 2, ∀ j < 2, (b.lines.filter fun l => decide (Covers (gridCell (fun j => 100 + 100 * j) (fun i => 100 + 50 * i) i j) l.bbox)).Pairwise
        fun l m => Above l.bbox m.bbox ∨ Above m.bbox l.bbox := by unfold gridCell Above; decide +kernel
    have h5 : ∀ b ∈ fyPage, ∀ i < 2, ∀ j < 2, ∀ l ∈ (b.lines.filter fun l => decide (Covers (gridCell (fun j => 100 + 100 * j) (fun i => 100 + 50 * i) i j) l.bbox)),
        ∀ m ∈ (b.lines.filter fun l => decide (Covers (gridCell (fun j => 100 + 100 * j) (fun i => 100 + 50 * i) i j) l.bbox)), m.pid = l.pid := by unfold gridCell; decide +kernel
    exact fun b hb _ i hi j hj => ⟨h4 b hb i hi j hj, fun l h1 m h2 _ _ _ _ _ => h5 b hb i hi j hj l h1 m h2⟩
  · unfold Mostly gridCell; decide +kernel
  · unfold gridCell; decide +kernel

theorem fy_ex_grid : Grid (fun j => 100 + 100 * j) (fun i => 100 + 50 * i) 2 2 1 7 := by
  refine ⟨by omega, by omega, ?_, ?_, ?_, ?_, by norm_num, ⟨5, by norm_num⟩⟩
  · intro j _; push_cast; linarith
  · intro j _; push_cast; linarith
  · intro j _; exact ⟨1000 + 1000 * j, by push_cast; ring⟩
  · intro j _; exact ⟨1000 + 500 * j, by push_cast; ring⟩

/-- The lines of text in the first row and the last cell are within them. -/
def fyOn (lines : List Rect) : Prop := ∀ p ∈ ([⟨100, 100, 300, 150⟩, ⟨401 / 2, 301 / 2, 599 / 2, 399 / 2⟩] : List Rect), ∀ i < 2, ∀ j < 2,
  Covers p (innerCell (fun j => 100 + 100 * j) (fun i => 100 + 50 * i) 1 i j) → ∀ l ∈ lines, Covers (gridCell (fun j => 100 + 100 * j) (fun i => 100 + 50 * i) i j) l → Covers p l

theorem fy_ex_paint (lines : List Rect) (hon : fyOn lines) (b : Rect) (c : ℕ) (h : (b, c) = (⟨100, 100, 300, 150⟩, 7) ∨ (b, c) = (⟨401 / 2, 301 / 2, 599 / 2, 399 / 2⟩, 9)) :
    CellPaint (fun j => 100 + 100 * j) (fun i => 100 + 50 * i) 2 2 1 lines fyShapes b c := by
  have key : ∀ b' c', Sh.fill b' c' ∈ fyShapes → (b', c') ∈ ([(⟨0, 0, 400, 600⟩, white), (⟨100, 100, 300, 150⟩, 7), (⟨401 / 2, 301 / 2, 599 / 2, 399 / 2⟩, 9)] : List (Rect × ℕ)) := by
    intro b' c' hm
    have : ∀ s ∈ fyShapes, (match s with | .fill b c => decide ((b, c) ∈ ([(⟨0, 0, 400, 600⟩, white), (⟨100, 100, 300, 150⟩, 7), (⟨401 / 2, 301 / 2, 599 / 2, 399 / 2⟩, 9)] : List (Rect × ℕ))) | _ => true) = true := by
      decide +kernel
    exact of_decide_eq_true (this _ hm)
  have hall : ∀ p ∈ ([(⟨0, 0, 400, 600⟩, white), (⟨100, 100, 300, 150⟩, 7), (⟨401 / 2, 301 / 2, 599 / 2, 399 / 2⟩, 9)] : List (Rect × ℕ)),
      ∀ q ∈ ([(⟨100, 100, 300, 150⟩, 7), (⟨401 / 2, 301 / 2, 599 / 2, 399 / 2⟩, 9)] : List (Rect × ℕ)), p ≠ q →
      Covers (gridFrame (fun j => 100 + 100 * j) (fun i => 100 + 50 * i) 2 2 1) p.1 → Apart q.1 p.1 := by
    unfold gridFrame Apart
    decide +kernel
  rcases h with h | h
  all_goals
    obtain ⟨rfl, rfl⟩ := Prod.mk.inj h
    refine ⟨by unfold gridFrame; decide +kernel, by unfold innerCell gridCell Apart; decide +kernel, by unfold innerCell; decide +kernel, fun i hi j hj => hon _ (by decide +kernel) i hi j hj, ?_, by decide +kernel, by decide +kernel, by norm_num⟩
    intro b' c' hm
    exact hall (b', c') (key b' c' hm) (_, _) (by decide +kernel)

theorem fy_ex_drawn (lines : List Rect) (hon : fyOn lines) : DrawnAround (1 / 2) (fun j => 100 + 100 * j) (fun i => 100 + 50 * i) 2 2 1 lines [fyRule] fyShapes := by
  refine ⟨?_, ⟨?_, ?_, by decide +kernel, ?_, ?_⟩, ?_, ?_⟩
  · have : strokesOnly fyShapes = [fyRule] ++ gridStrokes (fun j => 100 + 100 * j) (fun i => 100 + 50 * i) 2 2 1 := by
      unfold fyShapes fpGrid strokesOnly
      rw [List.filterMap_cons, List.filterMap_cons, List.filterMap_cons, List.filterMap_cons, List.filterMap_map]
      dsimp only
      congr 1
    rw [this]
    exact List.perm_append_comm
  · intro o ho
    rw [tenths_iff]
    rw [List.mem_singleton] at ho
    subst ho
    exact ⟨by decide +kernel, by decide +kernel⟩
  · decide +kernel
  · unfold BoxBeside; decide +kernel
  · decide +kernel
  · intro b c h
    have : ∀ s ∈ fyShapes, (match s with | .fill b c => decide (c = white ∨ (b, c) = (⟨100, 100, 300, 150⟩, 7) ∨ (b, c) = (⟨401 / 2, 301 / 2, 599 / 2, 399 / 2⟩, 9)) | _ => true) = true := by decide +kernel
    rcases of_decide_eq_true (this _ h) with h | h | h
    · exact Or.inl h
    · obtain ⟨rfl, rfl⟩ := Prod.mk.inj h
      exact Or.inr (fy_ex_paint _ hon _ _ (Or.inl rfl))
    · obtain ⟨rfl, rfl⟩ := Prod.mk.inj h
      exact Or.inr (fy_ex_paint _ hon _ _ (Or.inr rfl))
  · have : ∀ s ∈ fyShapes, s.bbox.x0 < s.bbox.x1 ∧ s.bbox.y0 < s.bbox.y1 ∧ Rect.round s.bbox = s.bbox := by decide +kernel
    intro s hs
    exact ly_ex_real (this s hs)

theorem fy_ex_page : OnPage ⟨0, 0, 400, 600⟩ (fun j => 100 + 100 * j) 2 1 fyShapes fyPage := by
  refine ⟨?_, ?_, by norm_num, by norm_num⟩ <;> decide +kernel

/-- The hypotheses of `C92_grid_partial` are met, with the default settings. -/
example : ∃ above cells below ty, Full.parsePage fpCfg fpFmt (fun _ _ _ _ _ => 0) 4 ⟨0, 0, 400, 600⟩ fyShapes fyPage =
    .ok (above ++ .table (gridBox (fun j => 100 + 100 * j) (fun i => 100 + 50 * i) 2 2) (fullGrid 2 2) cells :: below, ty) := by
  obtain ⟨a, cs, b, ty, h, _⟩ := C92_grid_partial fpCfg (fun l => List.Perm.refl l) (by decide +kernel) (by decide +kernel) (by decide +kernel) (by decide +kernel) fpFmt (fun _ _ _ _ _ => 0) 2
    ⟨0, 0, 400, 600⟩ fy_ex_grid (by decide +kernel) (by decide +kernel) (by decide +kernel) (by decide +kernel) [fyRule] fyShapes fyPage (fy_ex_drawn _ (by unfold fyOn innerCell gridCell lineRects; decide +kernel)) fy_ex_text fy_ex_page
  exact ⟨a, cs, b, ty, h⟩

/-! ## Where it fails -/

/-- A grid in the left column of a page of two columns, a rule under the title. -/
def fyLeft : List Sh := .stroke ⟨20, 40, 380, 40, ⟨20, 39, 380, 41⟩, 2, 0⟩ :: (gridStrokes (fun j => 20 + 80 * j) (fun i => 100 + 50 * i) 2 2 1).map Sh.stroke

/-- The texts: a title, three texts in the grid, a text in the right column. -/
def fyTwo : List (Full.Blk ℕ) := [fpText ⟨20, 20, 300, 30⟩ 1, fpText ⟨25, 110, 50, 120⟩ 2, fpText ⟨110, 110, 150, 120⟩ 3, fpText ⟨25, 160, 50, 170⟩ 4, fpText ⟨220, 90, 380, 210⟩ 5]

/-- The tables of a list of blocks, and of their cells, one level down. -/
def fyTables (bs : List (Full.Blk ℕ)) : List Rect :=
  bs.flatMap fun b => match b with
    | .text _ _ => []
    | .table r _ cs => r :: cs.flatMap fun c => c.2.flatMap fun b' => match b' with
      | .text _ _ => []
      | .table r' _ _ => [r']

/-- The table of the left column appears twice: in the cell of its column, with its text, and once more on the page, empty. -/
theorem C92_refuted_copy : (fpRun fyLeft fyTwo).toOption.map (fun r => fyTables r.1) = some [⟨49 / 5, 85, 390, 215⟩, ⟨20, 100, 180, 200⟩, ⟨20, 100, 180, 200⟩] ∧
    fpSeen fyLeft fyTwo = some [.inl [1], .inr [[2, 3, 4], [5]], .inr [[], [], [], []]] := by
  refine ⟨?_, ?_⟩ <;> decide +kernel

/-- A grid with a wide and a narrow column. -/
def fyNarrow : List Sh := (gridStrokes (fun j => if j = 0 then 5 else if j = 1 then 380 else 395) (fun i => 100 + 50 * i) 1 2 1).map Sh.stroke

/-- A block with a line in each of the two cells. -/
def fyRow : List (Full.Blk ℕ) := [fyBlock ⟨100, 110, 390, 120⟩ 1 [(⟨100, 110, 370, 120⟩, 1), (⟨382, 110, 390, 120⟩, 2)]]

/-- The line in the narrow cell (a block 95% in the wide cell and no wider than it) is shown in both cells. -/
theorem C92_refuted_narrow_column : fpSeen fyNarrow fyRow = some [.inr [[1, 2], [2]]] ∧
    (∀ b ∈ fyRow, ∀ l ∈ b.lines, Covers ⟨5, 100, 380, 150⟩ l.bbox ∨ Covers ⟨380, 100, 395, 150⟩ l.bbox) := by
  refine ⟨?_, ?_⟩ <;> decide +kernel

end FTableEx
end Props
