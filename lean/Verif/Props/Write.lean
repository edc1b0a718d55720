import Verif.Write
import Verif.Props.Spacing
import Verif.Props.Table
/-! # C101, C102: sizes and distances in the docx -/

namespace Props
open Py Geom Spec Spacing Write

/-! ## C101 -/

theorem wr_pt_int (n : ℤ) : pt ((n : ℚ) / 10) = 1270 * n := by
  unfold pt trunc
  have : (n : ℚ) / 10 * 12700 = ((1270 * n : ℤ) : ℚ) := by push_cast; ring
  rw [this, Int.floor_intCast, Int.ceil_intCast, ite_self]

/-- **C101**: a floating picture is written at exactly its position on the page and with exactly its width; an inline picture with exactly its width (12700 units are
1pt). Both keep the proportions of the picture, up to half a unit. -/
theorem C101_place_and_width (box : Rect) (w h : ℤ) (ht : Tenths box) :
    (∃ x y, (floatImage box w h).pos = some (x, y) ∧ (x : ℚ) = 12700 * box.x0 ∧ (y : ℚ) = 12700 * box.y0) ∧
    ((floatImage box w h).cx : ℚ) = 12700 * (box.x1 - box.x0) ∧ ((inlineImage box w h).cx : ℚ) = 12700 * (box.x1 - box.x0) ∧
    |((floatImage box w h).cy : ℚ) - h * (12700 * (box.x1 - box.x0) / w)| ≤ 1 / 2 ∧ |((inlineImage box w h).cy : ℚ) - h * (12700 * (box.x1 - box.x0) / w)| ≤ 1 / 2 := by
  obtain ⟨a, b, c, d, rfl⟩ := ht
  have e1 : ((c : ℚ) / 10 - a / 10) = ((c - a : ℤ) : ℚ) / 10 := by push_cast; ring
  have e2 : (((1270 * (c - a) : ℤ)) : ℚ) = 12700 * ((c : ℚ) / 10 - a / 10) := by push_cast; ring
  have e3 : ∀ n : ℤ, (((1270 * n : ℤ)) : ℚ) = 12700 * ((n : ℚ) / 10) := fun n => by push_cast; ring
  unfold floatImage inlineImage scaled
  dsimp only
  rw [e1, wr_pt_int, wr_pt_int, wr_pt_int, ← e1]
  refine ⟨⟨_, _, rfl, e3 a, e3 b⟩, e2, e2, ?_, ?_⟩
  · rw [← e2]; exact abs_roundHE_sub _
  · rw [← e2]; exact abs_roundHE_sub _

/-- **C101** (partial: pictures whose area on the page has the proportions of the picture): the height is the one on the page, too. -/
theorem C101_height_partial (box : Rect) (w h : ℤ) (ht : Tenths box) (hw : w ≠ 0) (hp : (h : ℚ) * (box.x1 - box.x0) = w * (box.y1 - box.y0)) :
    ((floatImage box w h).cy : ℚ) = 12700 * (box.y1 - box.y0) ∧ ((inlineImage box w h).cy : ℚ) = 12700 * (box.y1 - box.y0) := by
  obtain ⟨_, h1, _, _, _⟩ := C101_place_and_width box w h ht
  obtain ⟨a, b, c, d, rfl⟩ := ht
  have hw' : (w : ℚ) ≠ 0 := by exact_mod_cast hw
  have key : ((scaled w h (pt ((c : ℚ) / 10 - a / 10)) : ℤ) : ℚ) = 12700 * ((d : ℚ) / 10 - b / 10) := by
    unfold scaled
    have h1' : ((pt ((c : ℚ) / 10 - a / 10) : ℤ) : ℚ) = 12700 * ((c : ℚ) / 10 - a / 10) := h1
    rw [h1']
    have e : (h : ℚ) * (12700 * ((c : ℚ) / 10 - a / 10) / w) = ((1270 * (d - b) : ℤ) : ℚ) := by
      dsimp only at hp
      field_simp
      push_cast
      field_simp at hp
      linarith
    rw [e, roundHE_intCast]
    push_cast
    ring
  exact ⟨key, key⟩

/-- Hypotheses: a photo of 400 x 300 pixels shown at 200 x 150pt. -/
example : ((300 : ℤ) : ℚ) * ((⟨100, 200, 300, 350⟩ : Rect).x1 - (⟨100, 200, 300, 350⟩ : Rect).x0) = (400 : ℤ) * ((⟨100, 200, 300, 350⟩ : Rect).y1 - (⟨100, 200, 300, 350⟩ : Rect).y0) := by
  norm_num

/-- **C101** (refuted for the height): a square picture stretched to a band of 400 x 20pt on the page becomes 400 x 400pt in the docx, over all that follows. -/
theorem C101_refuted_stretched : floatImage ⟨100, 100, 500, 120⟩ 9144 9144 = ⟨some (1270000, 1270000), 12700 * 400, 12700 * 400⟩ := by decide +kernel

/-! ## C102 -/

/-- Bound of the deviation of a paragraph: 0.05pt for the space before, for each row and for the space after. -/
def drift (b : VB) : ℚ :=
  match b.kind with
  | .text => (b.rows + 2 : ℚ) / 20
  | .image => 2 / 20
  | .table => 0

theorem wr_max {x : ℚ} (h : 0 ≤ x) : |max (round1 x) 0 - x| ≤ 1 / 20 := by
  have := abs_round1_sub x
  have h2 : 0 ≤ round1 x := by
    have := round1_mono h
    simpa [round1, roundHE] using this
  rw [max_eq_left h2]
  exact this

theorem wr_ends (h : Bool) (l : List (VB × Sp)) : ∀ (pos pos' : ℚ) (pre : Bool) (e : ℚ), (∀ x ∈ l, 0 ≤ x.2.before ∧ 0 ≤ x.2.after) → |pos' - pos| ≤ e →
    ∀ (i : ℕ) (a a' : ℚ), (ends h pos pre l)[i]? = some a → (ends h pos' pre (l.map writtenBlock))[i]? = some a' →
      |a' - a| ≤ e + ((l.take (i + 1)).map fun x => drift x.1).sum := by
  induction l with
  | nil => intro pos pos' pre e _ _ i a a' h1; simp [ends] at h1
  | cons x l ih =>
    intro pos pos' pre e hl hp i a a' h1 h2
    obtain ⟨b, s⟩ := x
    obtain ⟨hb, ha⟩ := hl (b, s) List.mem_cons_self
    dsimp only at hb ha
    rw [List.map_cons] at h2
    have hblock : (writtenBlock (b, s)).1 = b := by unfold writtenBlock; split_ifs <;> rfl
    have hc : |contentHeight h pre b (writtenBlock (b, s)).2 - contentHeight h pre b s| ≤ drift b - (if b.kind = .table then 0 else 1 / 20) ∧
        |(writtenBlock (b, s)).2.after - s.after| ≤ (if b.kind = .table then 0 else 1 / 20) := by
      unfold writtenBlock
      dsimp only
      have h1 := wr_max hb
      have h2 := wr_max ha
      have h3 := abs_round1_sub s.line
      cases hk : b.kind with
      | text =>
        rw [if_neg (by simp), if_neg (by simp)]
        refine ⟨?_, h2⟩
        unfold contentHeight drift written
        simp only [hk]
        have e : max (round1 s.before) 0 + (b.rows : ℚ) * round1 s.line - (s.before + b.rows * s.line) = (max (round1 s.before) 0 - s.before) + b.rows * (round1 s.line - s.line) := by ring
        rw [e]
        refine (abs_add_le _ _).trans ?_
        rw [abs_mul, abs_of_nonneg (Nat.cast_nonneg b.rows : (0 : ℚ) ≤ b.rows)]
        have := mul_le_mul_of_nonneg_left h3 (Nat.cast_nonneg b.rows : (0 : ℚ) ≤ b.rows)
        linarith
      | image =>
        rw [if_neg (by simp), if_neg (by simp)]
        refine ⟨?_, h2⟩
        unfold contentHeight drift written
        simp only [hk]
        have e : ∀ k : ℚ, max (round1 s.before) 0 + k - (s.before + k) = max (round1 s.before) 0 - s.before := fun k => by ring
        rw [e]
        linarith
      | table =>
        rw [if_pos rfl, if_pos rfl]
        unfold drift
        simp [hk]
    rw [ends] at h1
    have he2 : ends h pos' pre (writtenBlock (b, s) :: l.map writtenBlock) = (pos' + contentHeight h pre b (writtenBlock (b, s)).2) ::
        ends h (pos' + contentHeight h pre b (writtenBlock (b, s)).2 + (writtenBlock (b, s)).2.after) (decide (b.kind = .table)) (l.map writtenBlock) := by
      generalize writtenBlock (b, s) = w at hblock
      obtain ⟨b', s'⟩ := w
      dsimp only at hblock
      subst hblock
      rfl
    rw [he2] at h2
    have hd0 : 0 ≤ drift b - (if b.kind = .table then 0 else 1 / 20) := (abs_nonneg _).trans hc.1
    have ht0 : (0 : ℚ) ≤ (if b.kind = .table then 0 else 1 / 20) := (abs_nonneg _).trans hc.2
    cases i with
    | zero =>
      simp only [List.getElem?_cons_zero, Option.some.injEq] at h1 h2
      rw [← h1, ← h2, List.take_succ_cons, List.take_zero, List.map_cons, List.map_nil, List.sum_singleton]
      have e : pos' + contentHeight h pre b (writtenBlock (b, s)).2 - (pos + contentHeight h pre b s) =
        (pos' - pos) + (contentHeight h pre b (writtenBlock (b, s)).2 - contentHeight h pre b s) := by ring
      rw [e]
      refine (abs_add_le _ _).trans ?_
      linarith [hc.1]
    | succ i =>
      simp only [List.getElem?_cons_succ] at h1 h2
      rw [List.take_succ_cons, List.map_cons, List.sum_cons, ← add_assoc]
      refine ih _ _ _ (e + drift b) (fun x hx => hl x (List.mem_cons_of_mem _ hx)) ?_ i a a' h1 h2
      have e : pos' + contentHeight h pre b (writtenBlock (b, s)).2 + (writtenBlock (b, s)).2.after - (pos + contentHeight h pre b s + s.after) =
        (pos' - pos) + (contentHeight h pre b (writtenBlock (b, s)).2 - contentHeight h pre b s) + ((writtenBlock (b, s)).2.after - s.after) := by ring
      rw [e]
      refine (abs_add_le _ _).trans ?_
      have := abs_add_le (pos' - pos) (contentHeight h pre b (writtenBlock (b, s)).2 - contentHeight h pre b s)
      linarith [hc.1, hc.2]

theorem wr_setAfter {a : ℚ} (ha : 0 ≤ a) (l : List (VB × Sp)) (hl : ∀ x ∈ l, 0 ≤ x.2.before ∧ 0 ≤ x.2.after) : ∀ x ∈ setAfter a l, 0 ≤ x.2.before ∧ 0 ≤ x.2.after := by
  induction l using setAfter.induct with
  | case1 => simp [setAfter]
  | case2 b s =>
    intro x hx
    rw [setAfter, List.mem_singleton] at hx
    subst hx
    exact ⟨(hl _ List.mem_cons_self).1, ha⟩
  | case3 x y l ih =>
    intro z hz
    rw [setAfter, List.mem_cons] at hz
    rcases hz with rfl | hz
    · exact hl _ List.mem_cons_self
    · exact ih (fun w hw => hl w (List.mem_cons_of_mem _ hw)) z hz

theorem wr_nonneg (h : Bool) (page : Rect) (bs : List VB) : ∀ (acc : List (VB × Sp)) (ref : ℚ), (∀ x ∈ acc, 0 ≤ x.2.before ∧ 0 ≤ x.2.after) →
    ∀ x ∈ loop h page acc ref bs, 0 ≤ x.2.before ∧ 0 ≤ x.2.after := by
  induction bs with
  | nil => intro acc ref ha; exact ha
  | cons b bs ih =>
    intro acc ref ha
    have hadd : ∀ (l : List (VB × Sp)) (s : Sp), (∀ x ∈ l, 0 ≤ x.2.before ∧ 0 ≤ x.2.after) → 0 ≤ s.before → 0 ≤ s.after → ∀ x ∈ l ++ [(b, s)], 0 ≤ x.2.before ∧ 0 ≤ x.2.after := by
      intro l s hl h1 h2 x hx
      rw [List.mem_append, List.mem_singleton] at hx
      rcases hx with hx | rfl
      · exact hl x hx
      · exact ⟨h1, h2⟩
    rw [loop]
    dsimp only
    split
    · exact ih _ _ (hadd _ _ ha (C45_spacing_nonneg b.horizontal b _).1 (le_refl _))
    · exact ih _ _ (hadd _ _ ha (le_max_right _ _) (le_refl _))
    · split
      · exact ih _ _ (hadd _ _ ha (le_max_right _ _) (le_refl _))
      · split_ifs
        · exact ih _ _ (hadd _ _ ha (zero_le_one.trans (le_max_right _ _)) (le_refl _))
        · exact ih _ _ (hadd _ _ (wr_setAfter (le_max_right _ _) _ ha) (le_refl _) (le_refl _))

/-- **C102**: on every page, the distances written to the docx (rounded to 0.1pt) put the end of each block where the computed distances put it (see C53), up to 0.05pt for
every row of text and every space before or after a paragraph so far. -/
theorem C102_drift (h : Bool) (page : Rect) (blocks : List VB) (i : ℕ) (a a' : ℚ) (h1 : (ends h 0 false (parseSpacing h page blocks))[i]? = some a)
    (h2 : (ends h 0 false ((parseSpacing h page blocks).map writtenBlock))[i]? = some a') :
    |a' - a| ≤ (((parseSpacing h page blocks).take (i + 1)).map fun x => drift x.1).sum := by
  have := wr_ends h (parseSpacing h page blocks) 0 0 false 0 (wr_nonneg h page blocks [] _ (by simp)) (by simp) i a a' h1 h2
  simpa using this

/-- A cell full of text: 31 rows of 10pt, the last one ending at the bottom of the cell. -/
def wrBlock : VB := ⟨.text, ⟨0, 0, 300, 3118 / 10⟩, ⟨⟨0, 0, 300, 10⟩, .leftRight⟩,
  (List.range 30).map (fun k => ⟨(⟨0, 1006 / 100 * (k + 1), 300, 1006 / 100 * (k + 1) + 10⟩ : Rect).round, .leftRight⟩), 0, true⟩

/-- **C102** (refuted: the rows of a table have exact heights, so that what is higher is cut off): 31 rows of text which exactly fill a cell of 311.8pt take 313.1pt in the
docx; the last row is cut. -/
theorem C102_refuted_cut : wrBlock.rows = 31 ∧ ends true 0 false (parseSpacing true ⟨0, 0, 300, 3118 / 10⟩ [wrBlock]) = [3118 / 10] ∧
    ends true 0 false ((parseSpacing true ⟨0, 0, 300, 3118 / 10⟩ [wrBlock]).map writtenBlock) = [3131 / 10] := by
  refine ⟨?_, ?_, ?_⟩ <;> decide +kernel

/-- A page with two paragraphs and a table for `C102_drift`. -/
example : ends true 0 false ((parseSpacing true ⟨0, 0, 500, 700⟩ [wrBlock, ⟨.table, ⟨0, 400, 500, 500⟩, ⟨⟨0, 0, 0, 0⟩, .leftRight⟩, [], 1, true⟩]).map writtenBlock) ≠
    ends true 0 false (parseSpacing true ⟨0, 0, 500, 700⟩ [wrBlock, ⟨.table, ⟨0, 400, 500, 500⟩, ⟨⟨0, 0, 0, 0⟩, .leftRight⟩, [], 1, true⟩]) := by decide +kernel

/-! ## C103 -/

theorem wr_telescope (g : ℕ → ℚ) (N i : ℕ) : ∀ m, i + m ≤ N → ((((List.range N).map fun k => g (k + 1) - g k).drop i).take m).sum = g (i + m) - g i := by
  intro m
  induction m with
  | zero => intro _; simp
  | succ m ih =>
    intro h
    have hl : m < (((List.range N).map fun k => g (k + 1) - g k).drop i).length := by simp; omega
    rw [List.take_succ_eq_append_getElem hl, List.sum_append, List.sum_singleton, ih (by omega)]
    rw [List.getElem_drop, List.getElem_map, List.getElem_range]
    have : i + (m + 1) = i + m + 1 := by omega
    rw [this]
    ring

/-- **C103** (partial: in each row of the grid a cell of positive size starts): the heights of the rows a cell spans add up to the height of the cell (up to rounding), and
all heights to the height of the table. -/
theorem C103_heights_partial (h v : Table.Dict Table.St) (h1 : 2 ≤ (Table.keys h).length) (h2 : 2 ≤ (Table.keys v).length)
    (hr : ∀ i < (Table.keys h).length - 1, ∃ j < (Table.keys v).length - 1, ∃ m r,
      Table.cellAt (Table.keys v) (Table.keys h) (Table.statusRows h v) (Table.statusCols h v) i j = some (m, r) ∧ Proper r) :
    ∃ rows, Table.tableBlock h v = .ok rows ∧ (rowHeights h v).length = rows.length ∧
      (rowHeights h v).sum = (Table.keys h).getLastD 0 - (Table.keys h).headD 0 ∧
      ∀ i < rows.length, ∀ j < (rows.getD i []).length, ∀ m n b, (rows.getD i []).getD j none = some ((m, n), b) →
        |(((rowHeights h v).drop i).take m).sum - (b.y1 - b.y0)| ≤ 1 / 10 := by
  obtain ⟨rows, hrows, hlen, hspan⟩ := C39_table_partial h v h1 h2 hr
  have hg := tableBlock_grid h v h1 h2 hr
  rw [hg] at hrows
  obtain rfl := Except.ok.inj hrows
  have hh : rowHeights h v = (List.range ((Table.keys h).length - 1)).map fun i => (Table.keys h).getD (i + 1) 0 - (Table.keys h).getD i 0 := by
    unfold rowHeights
    congr 1
    rw [List.filter_eq_self]
    intro i hi
    rw [List.mem_range] at hi
    have hg' := hg
    unfold Table.tableBlock at hg'
    rw [if_neg (by omega), if_neg (by omega)] at hg'
    have hf := Except.ok.inj hg'
    rw [List.filter_eq_self] at hf
    refine hf _ ?_
    rw [List.getD_eq_getElem _ _ (by rw [hlen]; exact hi)]
    exact List.getElem_mem _
  refine ⟨_, hg, by rw [hh, hlen]; simp, ?_, ?_⟩
  · have := wr_telescope (fun i => (Table.keys h).getD i 0) ((Table.keys h).length - 1) 0 ((Table.keys h).length - 1) (by omega)
    rw [hh]
    rw [List.drop_zero, List.take_of_length_le (by simp)] at this
    rw [this]
    congr 1
    · rw [Nat.zero_add]
      rw [List.getD_eq_getElem _ _ (by omega), List.getLastD_eq_getLast?, List.getLast?_eq_getElem?, List.getElem?_eq_getElem (by omega)]
      rfl
    · cases Table.keys h <;> rfl
  · intro i hi j hj m n b hc
    obtain ⟨_, _, hm, _⟩ := hspan i hi j hj m n b hc
    rw [hlen] at hi hm
    have hrow : ((Table.grid (Table.keys v) (Table.keys h) (Table.statusRows h v) (Table.statusCols h v)).getD i []).length = (Table.keys v).length - 1 := by
      rw [List.getD_eq_getElem _ _ (by rw [hlen]; exact hi)]
      simp [Table.grid]
    rw [hrow] at hj
    rw [grid_getD _ _ _ _ i j hi hj] at hc
    unfold Table.cellAt at hc
    dsimp only at hc
    split_ifs at hc with hmm
    simp only [Option.some.injEq, Prod.mk.injEq] at hc
    obtain ⟨h4, rfl⟩ := hc
    rw [hh, wr_telescope (fun i => (Table.keys h).getD i 0) _ i m hm, h4]
    have e1 := abs_round1_sub ((Table.keys h).getD (i + m) 0)
    have e2 := abs_round1_sub ((Table.keys h).getD i 0)
    show |_ - (round1 ((Table.keys h).getD (i + m) 0) - round1 ((Table.keys h).getD i 0))| ≤ 1 / 10
    rw [abs_le] at *
    constructor <;> linarith [e1.1, e1.2, e2.1, e2.2]

/-- **C103** (refuted): the cell of `tickBox` is 100pt high, the one row of the table 50pt: half of the contents is cut off. -/
theorem C103_refuted_row_dropped : ∃ h v, Table.groupStrokes 2 6 tickBox = some (h, v) ∧ (Table.tableBlock h v).toOption = some [[some ((2, 1), ⟨0, 0, 100, 100⟩)]] ∧
    rowHeights h v = [50] :=
  ⟨(Table.groupStrokes 2 6 tickBox |>.getD ([], [])).1, (Table.groupStrokes 2 6 tickBox |>.getD ([], [])).2, by decide +kernel, by decide +kernel, by decide +kernel⟩

/-- Two rows, the left column merged. -/
def wrGrid : List Table.St := [hst 0 100 0 1, hst 50 100 40 1, hst 0 100 100 1, vst 0 0 100 1, vst 50 0 100 1, vst 100 0 100 1]

/-- Hypotheses of the partial theorem. -/
example : ∃ h v, Table.groupStrokes 2 6 wrGrid = some (h, v) ∧ 2 ≤ (Table.keys h).length ∧ 2 ≤ (Table.keys v).length ∧ rowHeights h v = [40, 60] ∧
    ∀ i < (Table.keys h).length - 1, (Table.cellAt (Table.keys v) (Table.keys h) (Table.statusRows h v) (Table.statusCols h v) i 1).isSome = true :=
  ⟨(Table.groupStrokes 2 6 wrGrid |>.getD ([], [])).1, (Table.groupStrokes 2 6 wrGrid |>.getD ([], [])).2, by decide +kernel, by decide +kernel, by decide +kernel,
    by decide +kernel, by decide +kernel⟩

end Props
