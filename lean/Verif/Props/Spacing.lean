import Verif.Spec.Spacing
import Verif.Spec.Geom
/-! # C45, C53: vertical spacing -/

namespace Props
open Spacing Spec Geom

/-! ## C45: one paragraph -/

/-- Height of the first line and of the whole block. -/
def firstHeight (h : Bool) (b : VB) : ℚ := hi h b.first.bbox - lo h b.first.bbox
def blockHeight (h : Bool) (b : VB) : ℚ := hi h b.bbox - lo h b.bbox

theorem rows_pos (b : VB) : 0 < b.rows := by
  unfold VB.rows countRows; simp

/-- **C45** (partial). The space before and the rows of a paragraph add up to the distance from the previous block's end to the
end of this block, whatever the overlap – when there are several rows, or the only row is as high as its first line. -/
theorem C45_spacing_adds_up_partial (h : Bool) (b : VB) (before : ℚ) (hr : b.rows = 1 → firstHeight h b = blockHeight h b) :
    (parseLineSpacing h b before).1 + b.rows * (parseLineSpacing h b before).2 = before + blockHeight h b := by
  have hpos : (0 : ℚ) < b.rows := by exact_mod_cast rows_pos b
  unfold parseLineSpacing
  unfold firstHeight blockHeight at *
  dsimp only
  generalize hi h b.first.bbox - lo h b.first.bbox = f at *
  generalize hi h b.bbox - lo h b.bbox = H at *
  by_cases h1 : 1 < b.rows
  · rw [if_pos h1]
    have h2 : (0 : ℚ) < (b.rows : ℚ) - 1 := by
      have : (1 : ℚ) < b.rows := by exact_mod_cast h1
      linarith
    have e : (b.rows : ℚ) * ((H - f) / ((b.rows : ℚ) - 1)) = (H - f) / ((b.rows : ℚ) - 1) + (H - f) := by
      field_simp; ring
    split
    · dsimp only
      rw [mul_add, e]
      field_simp
      ring
    · dsimp only
      rw [e]; ring
  · rw [if_neg h1]
    have h2 : b.rows = 1 := by have := rows_pos b; omega
    rw [h2, hr h2]
    push_cast
    split <;> (dsimp only; ring)

/-- **C45**: the space before a paragraph is never negative; its line spacing is not negative either if its first line lies
inside the block and does not end above the end of the previous block. -/
theorem C45_spacing_nonneg (h : Bool) (b : VB) (before : ℚ) :
    0 ≤ (parseLineSpacing h b before).1 ∧
    (0 ≤ firstHeight h b → firstHeight h b ≤ blockHeight h b → -firstHeight h b ≤ before → 0 ≤ (parseLineSpacing h b before).2) := by
  have hpos : (0 : ℚ) < b.rows := by exact_mod_cast rows_pos b
  unfold parseLineSpacing
  unfold firstHeight blockHeight at *
  dsimp only
  generalize hi h b.first.bbox - lo h b.first.bbox = f at *
  generalize hi h b.bbox - lo h b.bbox = H at *
  constructor
  · generalize (if 1 < b.rows then (H - f) / ((b.rows : ℚ) - 1) else H) = L
    by_cases hn : before + (f - L) < 0
    · rw [if_pos hn]
    · rw [if_neg hn]; exact not_lt.1 hn
  · intro h0 h1 h2
    by_cases hr : 1 < b.rows
    · have hq : (0 : ℚ) < (b.rows : ℚ) - 1 := by
        have : (1 : ℚ) < b.rows := by exact_mod_cast hr
        linarith
      rw [if_pos hr]
      have hl : 0 ≤ (H - f) / ((b.rows : ℚ) - 1) := div_nonneg (by linarith) hq.le
      split
      · dsimp only
        have e : (H - f) / ((b.rows : ℚ) - 1) + (before + (f - (H - f) / ((b.rows : ℚ) - 1))) / b.rows =
            (before + H) / b.rows := by field_simp; ring
        rw [e]
        exact div_nonneg (by linarith) hpos.le
      · exact hl
    · rw [if_neg hr]
      have : b.rows = 1 := by have := rows_pos b; omega
      rw [this]
      push_cast
      split
      · dsimp only; rw [div_one]; linarith
      · dsimp only; linarith

/-- A line of test text. -/
def ln (x0 y0 x1 y1 : ℚ) : El := ⟨⟨x0, y0, x1, y1⟩, .leftRight⟩

/-- Non-vacuity: two rows of 10pt, 2pt apart, 5pt below the previous block; and overlapping it by 4pt. -/
example : parseLineSpacing true ⟨.text, ⟨0, 0, 50, 22⟩, ln 0 0 50 10, [ln 0 12 50 22], 0, true⟩ 5 = (3, 12) ∧
    parseLineSpacing true ⟨.text, ⟨0, 0, 50, 22⟩, ln 0 0 50 10, [ln 0 12 50 22], 0, true⟩ (-4) = (0, 9) := by decide +kernel

/-- **C45 is false** for one row of text with different heights: a 10pt line and a 30pt line side by side take 10pt instead of
30pt, what follows moves up by 20pt. -/
theorem C45_refuted_one_row_mixed_heights :
    ∃ (b : VB), b.rows = 1 ∧ Covers b.bbox b.first.bbox ∧ (∀ l ∈ b.rest, Covers b.bbox l.bbox) ∧ blockHeight true b = 30 ∧
      (parseLineSpacing true b 40).1 + b.rows * (parseLineSpacing true b 40).2 = 50 :=
  ⟨⟨.text, ⟨0, 0, 100, 30⟩, ln 0 10 50 20, [ln 50 0 100 30], 0, true⟩, by decide +kernel, by decide +kernel, by decide +kernel,
    by decide +kernel, by decide +kernel⟩

/-- **C45 is false** for a paragraph that ends above the end of the previous block: its line spacing is negative. -/
theorem C45_refuted_negative_line_spacing :
    ∃ (b : VB) (before : ℚ), Covers b.bbox b.first.bbox ∧ (parseLineSpacing true b before).2 < 0 :=
  ⟨⟨.text, ⟨0, 0, 100, 10⟩, ln 0 0 100 10, [], 0, true⟩, -25, by decide +kernel, by decide +kernel⟩

/-! ## C53: the whole page -/

theorem dw_eq (b : VB) : b.dw = halfBorder b := by
  unfold VB.dw halfBorder
  cases b.kind <;> simp

/-- `parse_spacing` without accumulator: the space after a block is decided by the next one. -/
def para (h : Bool) (page : Rect) (b : VB) (refPos : ℚ) : ℚ :=
  max (lo h b.bbox - halfBorder b - refPos - max (hi h b.bbox - hi h page) 0) 0

def afterFor (h : Bool) (page : Rect) (k : Kind) (refPos : ℚ) : List VB → ℚ
  | [] => 0
  | c :: _ => if c.kind = .table ∧ k ≠ .table then para h page c refPos else 0

def own (h : Bool) (page : Rect) (prev : Option Kind) (refPos : ℚ) (b : VB) : ℚ × ℚ :=
  match b.kind with
  | .text => parseLineSpacing b.horizontal b (lo h b.bbox - halfBorder b - refPos)
  | .image => (para h page b refPos, 0)
  | .table =>
    match prev with
    | none => (max (para h page b refPos) 0, 0)
    | some .table => (max (para h page b refPos) 1, 0)
    | some _ => (0, 0)

def direct (h : Bool) (page : Rect) (prev : Option Kind) (refPos : ℚ) : List VB → List (VB × Sp)
  | [] => []
  | b :: bs =>
    (b, ⟨(own h page prev refPos b).1, afterFor h page b.kind (hi h b.bbox + halfBorder b) bs, (own h page prev refPos b).2⟩) ::
      direct h page (some b.kind) (hi h b.bbox + halfBorder b) bs

def fixAfter (h : Bool) (page : Rect) (acc : List (VB × Sp)) (refPos : ℚ) : List VB → List (VB × Sp)
  | [] => acc
  | c :: _ => match acc.getLast? with
    | none => acc
    | some (r, _) => if c.kind = .table ∧ r.kind ≠ .table then setAfter (para h page c refPos) acc else acc

theorem setAfter_append (a : ℚ) (l : List (VB × Sp)) (b : VB) (s : Sp) :
    setAfter a (l ++ [(b, s)]) = l ++ [(b, { s with after := a })] := by
  induction l with
  | nil => rfl
  | cons x l ih =>
    cases l with
    | nil => simp [setAfter]
    | cons y l => simp only [List.cons_append, setAfter] at *; rw [ih]

theorem fixAfter_append (h : Bool) (page : Rect) (l : List (VB × Sp)) (b : VB) (x y : ℚ) (refPos : ℚ) (bs : List VB) :
    fixAfter h page (l ++ [(b, ⟨x, 0, y⟩)]) refPos bs = l ++ [(b, ⟨x, afterFor h page b.kind refPos bs, y⟩)] := by
  cases bs with
  | nil => rfl
  | cons c cs =>
    simp only [fixAfter, afterFor, List.getLast?_append, List.getLast?_singleton, Option.some_or]
    split
    · rw [setAfter_append]
    · rfl

theorem loop_eq (h : Bool) (page : Rect) (bs : List VB) : ∀ (acc : List (VB × Sp)) (refPos : ℚ),
    loop h page acc refPos bs = fixAfter h page acc refPos bs ++ direct h page (acc.getLast?.map fun x => x.1.kind) refPos bs := by
  induction bs with
  | nil => intro acc refPos; simp [loop, fixAfter, direct]
  | cons b bs ih =>
    intro acc refPos
    have step : ∀ (acc1 : List (VB × Sp)) (x y : ℚ), loop h page (acc1 ++ [(b, ⟨x, 0, y⟩)]) (hi h b.bbox + halfBorder b) bs =
        acc1 ++ (b, ⟨x, afterFor h page b.kind (hi h b.bbox + halfBorder b) bs, y⟩) ::
          direct h page (some b.kind) (hi h b.bbox + halfBorder b) bs := by
      intro acc1 x y
      rw [ih, fixAfter_append, List.getLast?_append]
      simp
    simp only [loop, dw_eq]
    cases hk : b.kind with
    | text =>
      have e : fixAfter h page acc refPos (b :: bs) = acc := by
        unfold fixAfter; dsimp only
        split
        · rfl
        · rw [if_neg (by simp [hk])]
      simp only [step, e, direct, own, hk]
    | image =>
      have e : fixAfter h page acc refPos (b :: bs) = acc := by
        unfold fixAfter; dsimp only
        split
        · rfl
        · rw [if_neg (by simp [hk])]
      simp only [step, e, direct, own, hk, para]
    | table =>
      cases hl : acc.getLast? with
      | none =>
        have e : fixAfter h page acc refPos (b :: bs) = acc := by
          unfold fixAfter; dsimp only; rw [hl]
        simp only [step, e, direct, own, hk, para, Option.map_none]
      | some p =>
        obtain ⟨r, s⟩ := p
        dsimp only
        by_cases hr : r.kind = .table
        · have e : fixAfter h page acc refPos (b :: bs) = acc := by
            unfold fixAfter; dsimp only; rw [hl]; dsimp only; rw [if_neg (by simp [hr])]
          rw [if_pos hr]
          simp only [step, e, direct, own, hk, para, Option.map_some, hr]
        · have e : fixAfter h page acc refPos (b :: bs) = setAfter (para h page b refPos) acc := by
            unfold fixAfter; dsimp only; rw [hl]; dsimp only; rw [if_pos ⟨hk, hr⟩]
          rw [if_neg hr]
          cases hrk : r.kind with
          | table => exact absurd hrk hr
          | text => simp only [step, e, direct, own, hk, para, Option.map_some, hrk]
          | image => simp only [step, e, direct, own, hk, para, Option.map_some, hrk]

/-- Number of tables that come first or directly after another table: the ones with a blank paragraph above. -/
def spaced : Option Kind → List VB → ℕ
  | _, [] => 0
  | prev, b :: bs => (if b.kind = .table ∧ (prev = none ∨ prev = some .table) then 1 else 0) + spaced (some b.kind) bs

theorem spacer_bound (before : ℚ) (h0 : 0 ≤ before) : (Py.trunc (10 * before) : ℚ) / 10 ≤ before ∧
    before - 1 / 10 ≤ (Py.trunc (10 * before) : ℚ) / 10 := by
  rw [Py.trunc_nonneg (by linarith)]
  have h1 := Int.floor_le (10 * before)
  have h2 := Int.lt_floor_add_one (10 * before)
  constructor <;> linarith

theorem ends_direct (h : Bool) (page : Rect) (top : ℚ) (bs : List VB) : ∀ (prev : Option Kind) (refPos pos δ : ℚ), 0 ≤ δ →
    Stacked h page refPos prev bs →
    pos = refPos - top + (match prev with
      | none => 0
      | some k => afterFor h page k refPos bs) - δ →
    ∀ i b, bs[i]? = some b → ∃ e, (ends h pos (decide (prev = some .table)) (direct h page prev refPos bs))[i]? = some e ∧
      e ≤ hi h b.bbox + halfBorder b - top ∧ hi h b.bbox + halfBorder b - top - δ - (spaced prev (bs.take (i + 1)) : ℚ) / 10 ≤ e := by
  induction bs with
  | nil => intro prev refPos pos δ _ _ _ i b hb; simp at hb
  | cons b bs ih =>
    intro prev refPos pos δ hδ hst hpos i c hc
    obtain ⟨hb, hst'⟩ := hst
    -- the end of this block
    obtain ⟨δ', h1, h2, he⟩ : ∃ δ', δ ≤ δ' ∧
        δ' ≤ δ + ((if b.kind = .table ∧ (prev = none ∨ prev = some .table) then 1 else 0 : ℕ) : ℚ) / 10 ∧
        pos + contentHeight h (decide (prev = some .table)) b ⟨(own h page prev refPos b).1,
          afterFor h page b.kind (hi h b.bbox + halfBorder b) bs, (own h page prev refPos b).2⟩ =
        hi h b.bbox + halfBorder b - top - δ' := by
      cases hk : b.kind with
      | text =>
        rw [hk] at hb
        refine ⟨δ, le_refl _, by simp, ?_⟩
        have ha : (match prev with
          | none => 0
          | some k => afterFor h page k refPos (b :: bs)) = 0 := by
          cases prev with
          | none => rfl
          | some k => simp [afterFor, hk]
        have hd : halfBorder b = 0 := by simp [halfBorder, hk]
        have := C45_spacing_adds_up_partial h b (lo h b.bbox - halfBorder b - refPos) (fun hr => hb.2.2 hr)
        unfold blockHeight at this
        simp only [contentHeight, own, hk]
        rw [hb.1, this, hpos, ha, hd]; ring
      | image =>
        rw [hk] at hb
        refine ⟨δ, le_refl _, by simp, ?_⟩
        have ha : (match prev with
          | none => 0
          | some k => afterFor h page k refPos (b :: bs)) = 0 := by
          cases prev with
          | none => rfl
          | some k => simp [afterFor, hk]
        have hd : halfBorder b = 0 := by simp [halfBorder, hk]
        have hp : para h page b refPos = lo h b.bbox - refPos := by
          unfold para
          rw [hd, max_eq_right (show hi h b.bbox - hi h page ≤ 0 by linarith [hb.2]), max_eq_left (by linarith [hb.1])]
          ring
        simp only [contentHeight, own, hk]
        rw [hp, hpos, ha, hd]; ring
      | table =>
        rw [hk] at hb
        have hp : ∀ g : refPos ≤ lo h b.bbox - halfBorder b, para h page b refPos = lo h b.bbox - halfBorder b - refPos := by
          intro g
          unfold para
          rw [max_eq_right (show hi h b.bbox - hi h page ≤ 0 by linarith [hb.1]), max_eq_left (by linarith)]
          ring
        cases prev with
        | none =>
          dsimp only at hb hpos
          simp only [contentHeight, own, hk]
          have hg : refPos ≤ lo h b.bbox - halfBorder b := by rcases hb.2 with g | g <;> linarith
          rw [hp hg]
          have hx : 0 ≤ lo h b.bbox - halfBorder b - refPos := by linarith
          rw [max_eq_left hx]
          rcases hb.2 with g | g
          · refine ⟨δ, le_refl _, by simp, ?_⟩
            have e0 : lo h b.bbox - halfBorder b - refPos = 0 := by linarith
            rw [e0]
            have : spacerHeight (decide (none = some Kind.table)) 0 = 0 := by
              unfold spacerHeight; rw [if_neg]; simp [Docx.minLineSpacing]
            rw [this, hpos]
            have : lo h b.bbox = refPos + halfBorder b := by linarith
            rw [this]; ring
          · obtain ⟨s1, s2⟩ := spacer_bound _ hx
            have e : spacerHeight (decide (none = some Kind.table)) (lo h b.bbox - halfBorder b - refPos) =
                (Py.trunc (10 * (lo h b.bbox - halfBorder b - refPos)) : ℚ) / 10 := by
              unfold spacerHeight; rw [if_pos]; left; unfold Docx.minLineSpacing; linarith
            rw [e]
            generalize (Py.trunc (10 * (lo h b.bbox - halfBorder b - refPos)) : ℚ) / 10 = t at *
            refine ⟨δ + (lo h b.bbox - halfBorder b - refPos - t), by linarith, ?_, ?_⟩
            · simp only [true_or, and_self, if_true, Nat.cast_one]; linarith
            · rw [hpos]; ring
        | some k =>
          cases k with
          | table =>
            dsimp only at hb hpos
            simp only [contentHeight, own, hk]
            have hg : refPos ≤ lo h b.bbox - halfBorder b := by linarith [hb.2]
            rw [hp hg]
            have hx : 0 ≤ lo h b.bbox - halfBorder b - refPos := by linarith
            rw [max_eq_left (show (1 : ℚ) ≤ lo h b.bbox - halfBorder b - refPos by linarith [hb.2])]
            obtain ⟨s1, s2⟩ := spacer_bound _ hx
            have e : spacerHeight (decide True) (lo h b.bbox - halfBorder b - refPos) =
                (Py.trunc (10 * (lo h b.bbox - halfBorder b - refPos)) : ℚ) / 10 := by
              unfold spacerHeight; rw [if_pos]; right; simp
            rw [e]
            generalize (Py.trunc (10 * (lo h b.bbox - halfBorder b - refPos)) : ℚ) / 10 = t at *
            have ha : afterFor h page .table refPos (b :: bs) = 0 := by simp [afterFor]
            refine ⟨δ + (lo h b.bbox - halfBorder b - refPos - t), by linarith, ?_, ?_⟩
            · simp only [or_true, and_self, if_true, Nat.cast_one]; linarith
            · rw [hpos, ha]; ring
          | text =>
            dsimp only at hb hpos
            simp only [contentHeight, own, hk]
            have ha : afterFor h page .text refPos (b :: bs) = lo h b.bbox - halfBorder b - refPos := by
              simp only [afterFor, hk]; rw [if_pos (by simp), hp hb.2]
            have : spacerHeight (decide (some Kind.text = some Kind.table)) 0 = 0 := by
              unfold spacerHeight; rw [if_neg]; simp [Docx.minLineSpacing]
            refine ⟨δ, le_refl _, by simp, ?_⟩
            rw [this, hpos, ha]; ring
          | image =>
            dsimp only at hb hpos
            simp only [contentHeight, own, hk]
            have ha : afterFor h page .image refPos (b :: bs) = lo h b.bbox - halfBorder b - refPos := by
              simp only [afterFor, hk]; rw [if_pos (by simp), hp hb.2]
            have : spacerHeight (decide (some Kind.image = some Kind.table)) 0 = 0 := by
              unfold spacerHeight; rw [if_neg]; simp [Docx.minLineSpacing]
            refine ⟨δ, le_refl _, by simp, ?_⟩
            rw [this, hpos, ha]; ring
    cases i with
    | zero =>
      simp only [List.getElem?_cons_zero, Option.some.injEq] at hc
      subst hc
      refine ⟨_, by simp only [direct, ends, List.getElem?_cons_zero]; rfl, ?_, ?_⟩
      · rw [he]; linarith
      · rw [he]
        simp only [zero_add, List.take_succ_cons, List.take_zero, spaced, Nat.add_zero]
        linarith
    | succ i =>
      simp only [List.getElem?_cons_succ] at hc
      have := ih (some b.kind) (hi h b.bbox + halfBorder b) (hi h b.bbox + halfBorder b - top - δ' + afterFor h page b.kind (hi h b.bbox + halfBorder b) bs)
        δ' (le_trans hδ h1) hst' (by ring) i c hc
      obtain ⟨e, e1, e2, e3⟩ := this
      refine ⟨e, ?_, e2, ?_⟩
      · simp only [direct, ends, List.getElem?_cons_succ]
        rw [he]
        have hdec : decide (some b.kind = some Kind.table) = decide (b.kind = Kind.table) := by simp
        rw [hdec] at e1
        exact e1
      · rw [List.take_succ_cons]
        simp only [spaced]
        push_cast at h2 ⊢
        linarith

/-- **C53** (partial). For every page whose blocks are stacked (see `Stacked`), the end of every block in the docx is where it is in
the PDF, relative to the top of the page's working area; each table written below a blank paragraph can only lose up to 0.1pt. Text
blocks may overlap their predecessors. Not covered (see the refuted theorem and C45): overlapping images and tables, and one-row
paragraphs with lines of different height. Rounding of written lengths to 0.1pt is left out. -/
theorem C53_vertical_positions_partial (h : Bool) (page : Rect) (blocks : List VB) (hs : Stacked h page (lo h page) none blocks)
    (i : ℕ) (b : VB) (hb : blocks[i]? = some b) :
    ∃ e, (ends h 0 false (parseSpacing h page blocks))[i]? = some e ∧
      e ≤ hi h b.bbox + halfBorder b - lo h page ∧
      hi h b.bbox + halfBorder b - lo h page - (spaced none (blocks.take (i + 1)) : ℚ) / 10 ≤ e := by
  unfold parseSpacing
  rw [loop_eq]
  have := ends_direct h page (lo h page) blocks none (lo h page) 0 0 (le_refl _) hs (by ring) i b hb
  have e0 : fixAfter h page [] (lo h page) blocks = [] := by cases blocks <;> rfl
  rw [e0, List.nil_append]
  simpa using this

/-- Non-vacuity: a page with a paragraph, a table, a second table and a picture satisfies the hypotheses. -/
example : Stacked true ⟨0, 50, 500, 700⟩ 50 none
    [⟨.text, ⟨0, 60, 500, 82⟩, ln 0 60 500 70, [ln 0 72 500 82], 0, true⟩, ⟨.table, ⟨0, 90, 500, 200⟩, ln 0 0 0 0, [], 1, true⟩,
     ⟨.table, ⟨0, 220, 500, 300⟩, ln 0 0 0 0, [], 1, true⟩, ⟨.image, ⟨0, 320, 100, 400⟩, ln 0 0 0 0, [], 0, true⟩] := by
  unfold Stacked Stacked Stacked Stacked Stacked
  decide +kernel

/-- **C53 is false** for a table right below the top or overlapping its predecessor: a first table 0.6pt below the top starts at
the top; a table that overlaps the preceding text by 10pt ends 10pt too low. -/
theorem C53_refuted_gaps_and_overlaps :
    (∃ t : VB, t.kind = .table ∧ hi true t.bbox + halfBorder t - 0 = 100 + 6 / 10 ∧
      ends true 0 false (parseSpacing true ⟨0, 0, 500, 700⟩ [t]) = [100]) ∧
    (∃ a t : VB, t.kind = .table ∧ hi true t.bbox + halfBorder t - 0 = 90 ∧
      ends true 0 false (parseSpacing true ⟨0, 0, 500, 700⟩ [a, t]) = [20, 100]) :=
  ⟨⟨⟨.table, ⟨0, 6 / 10, 500, 100 + 6 / 10⟩, ln 0 0 0 0, [], 0, true⟩, rfl, by decide +kernel, by decide +kernel⟩,
    ⟨⟨.text, ⟨0, 0, 500, 20⟩, ln 0 0 500 20, [], 0, true⟩, ⟨.table, ⟨0, 10, 500, 90⟩, ln 0 0 0 0, [], 0, true⟩, rfl, by decide +kernel,
      by decide +kernel⟩⟩

/-- **C53**: every blank paragraph between two adjacent tables is at least 1pt high, so Word (minimum 0.7pt) shows it with the
requested height. -/
theorem C53_adjacent_tables_spaced (h : Bool) (page : Rect) (blocks : List VB) (i : ℕ) (a b : VB × Sp)
    (ha : (parseSpacing h page blocks)[i]? = some a) (hb : (parseSpacing h page blocks)[i + 1]? = some b)
    (hka : a.1.kind = .table) (hkb : b.1.kind = .table) : 1 ≤ spacerHeight true b.2.before := by
  have key : ∀ (bs : List VB) (prev : Option Kind) (ref : ℚ) (i : ℕ) (a b : VB × Sp),
      (direct h page prev ref bs)[i]? = some a → (direct h page prev ref bs)[i + 1]? = some b →
      a.1.kind = .table → b.1.kind = .table → 1 ≤ b.2.before := by
    intro bs
    induction bs with
    | nil => intro prev ref i a b ha; simp [direct] at ha
    | cons c bs ih =>
      intro prev ref i a b ha hb hka hkb
      cases i with
      | zero =>
        simp only [direct, List.getElem?_cons_zero, Option.some.injEq] at ha
        cases bs with
        | nil => simp [direct] at hb
        | cons d bs =>
          simp only [direct, zero_add, List.getElem?_cons_succ, List.getElem?_cons_zero, Option.some.injEq] at hb
          subst ha; subst hb
          dsimp only at *
          rw [hka]
          simp only [own, hkb]
          exact le_max_right _ _
      | succ i =>
        simp only [direct, List.getElem?_cons_succ] at ha hb
        exact ih _ _ i a b ha hb hka hkb
  unfold parseSpacing at ha hb
  have e0 : fixAfter h page [] (lo h page) blocks = [] := by cases blocks <;> rfl
  rw [loop_eq, e0, List.nil_append] at ha hb
  have h1 := key _ _ _ i a b ha hb hka hkb
  unfold spacerHeight
  rw [if_pos (Or.inr rfl), Py.trunc_nonneg (by linarith)]
  have : (10 : ℤ) ≤ ⌊10 * b.2.before⌋ := by rw [Int.le_floor]; push_cast; linarith
  have : (10 : ℚ) ≤ (⌊10 * b.2.before⌋ : ℚ) := by exact_mod_cast this
  linarith

end Props
