import Verif.Columns
import Verif.Spec.Columns
import Verif.Props.Element
import Verif.Props.TightTable
import Verif.Props.Assign
/-! # Theorems about the two-column page layout (C80, C81) -/

namespace Props
open Py Geom Table Columns Spec

theorem round1_gap (a b : ℚ) (h : a + 21 / 10 < b) : 2 < round1 b - round1 a := by
  have ha := abs_round1_sub a
  have hb := abs_round1_sub b
  rw [abs_le] at ha hb
  linarith [ha.2, hb.1]

section
variable {m0 n0 m1 n1 X : ℚ} (h1 : m0 + 21 / 10 < X) (h2 : X + 21 / 10 < m1) (h3 : n0 + 21 / 10 < n1)
include h1 h2 h3

theorem five_groups : groupHV 2 (fiveLines m0 n0 m1 n1 X) =
    ([(round1 n0, [St.line ⟨m0, n0, m1, n0⟩]), (round1 n1, [St.line ⟨m0, n1, m1, n1⟩])],
     [(round1 m0, [St.line ⟨m0, n0, m0, n1⟩]), (round1 m1, [St.line ⟨m1, n0, m1, n1⟩]), (round1 X, [St.line ⟨X, n0, X, n1⟩])]) := by
  have g1 := round1_gap _ _ h1
  have g2 := round1_gap _ _ h2
  have g3 := round1_gap _ _ h3
  have hn : ¬ |n0 - n1| < 1 / 1000 := by rw [not_lt, abs_sub_comm, le_abs]; left; linarith
  have e : ∀ a : ℚ, |a - a| < 1 / 1000 := by intro a; rw [sub_self, abs_zero]; norm_num
  have d1 : ¬ |round1 n1 - round1 n0| ≤ 2 := by rw [not_le, lt_abs]; left; linarith
  have d2 : ¬ |round1 m1 - round1 m0| ≤ 2 := by rw [not_le, lt_abs]; left; linarith
  have d3 : ¬ |round1 X - round1 m0| ≤ 2 := by rw [not_le, lt_abs]; left; linarith
  have d4 : ¬ |round1 X - round1 m1| ≤ 2 := by rw [not_le, lt_abs]; right; linarith
  have k1 : round1 n0 ≠ round1 n1 := by intro h; linarith
  have k2 : round1 m0 ≠ round1 m1 := by intro h; linarith
  have k3 : round1 m0 ≠ round1 X := by intro h; linarith
  have k4 : round1 m1 ≠ round1 X := by intro h; linarith
  have c1 : (fiveLines m0 n0 m1 n1 X).filter St.horizontal = [St.line ⟨m0, n0, m1, n0⟩, St.line ⟨m0, n1, m1, n1⟩] := by
    simp only [fiveLines, List.filter_cons, List.filter_nil, St.horizontal, St.line, e, hn, decide_true, decide_false, if_true,
      Bool.false_eq_true, if_false]
  have c2 : (fiveLines m0 n0 m1 n1 X).filter (fun s => !s.horizontal && s.vertical) =
      [St.line ⟨m0, n0, m0, n1⟩, St.line ⟨m1, n0, m1, n1⟩, St.line ⟨X, n0, X, n1⟩] := by
    simp only [fiveLines, List.filter_cons, List.filter_nil, St.horizontal, St.vertical, St.line, e, hn, decide_true, decide_false, if_true,
      Bool.false_eq_true, if_false, Bool.not_true, Bool.not_false, Bool.false_and, Bool.true_and]
  unfold groupHV
  dsimp only
  rw [c1, c2]
  simp only [groupBy, List.map_cons, List.map_nil, List.foldl_cons, List.foldl_nil, St.line, addStroke, List.find?_nil, dset, List.any_nil,
    List.find?_cons, d1, d2, d3, d4, decide_false, Bool.false_eq_true, if_false, List.nil_append, List.any_cons, k1, k2, k3, k4, Bool.or_false,
    List.cons_append]

theorem five_region : region (fiveLines m0 n0 m1 n1 X) = (⟨m0, n0, m1, n1⟩ : Rect).round := by
  have hn : ¬ |n0 - n1| < 1 / 1000 := by rw [not_lt, abs_sub_comm, le_abs]; left; linarith
  have e : ∀ a : ℚ, |a - a| < 1 / 1000 := by intro a; rw [sub_self, abs_zero]; norm_num
  unfold region
  simp only [fiveLines, List.filter_cons, List.filter_nil, St.horizontal, St.vertical, St.line, e, hn, decide_true, decide_false, if_true,
      Bool.false_eq_true, if_false, Bool.not_true, Bool.not_false, Bool.false_and, Bool.true_and, List.map_cons, List.map_nil, minOf, maxOf,
      List.foldl_cons, List.foldl_nil, min_self, max_self]

theorem five_grouped : groupStrokes 2 6 (fiveLines m0 n0 m1 n1 X) =
    some ([(round1 n0, [St.line ⟨m0, n0, m1, n0⟩]), (round1 n1, [St.line ⟨m0, n1, m1, n1⟩])],
     [(round1 m0, [St.line ⟨m0, n0, m0, n1⟩]), (round1 m1, [St.line ⟨m1, n0, m1, n1⟩]), (round1 X, [St.line ⟨X, n0, X, n1⟩])]) := by
  have g1 := round1_gap _ _ h1
  have g2 := round1_gap _ _ h2
  have g3 := round1_gap _ _ h3
  have k1 : round1 n1 ≠ round1 n0 := by intro h; linarith
  have k2 : round1 m1 ≠ round1 m0 := by intro h; linarith
  have k3 : round1 X ≠ round1 m0 := by intro h; linarith
  have k4 : round1 X ≠ round1 m1 := by intro h; linarith
  have l1 : min (round1 n0) (round1 n1) = round1 n0 := min_eq_left (by linarith)
  have l2 : max (round1 n0) (round1 n1) = round1 n1 := max_eq_right (by linarith)
  have l3 : min (min (round1 m0) (round1 m1)) (round1 X) = round1 m0 := by
    rw [min_eq_left (a := round1 m0) (b := round1 m1) (by linarith), min_eq_left (by linarith)]
  have l4 : max (max (round1 m0) (round1 m1)) (round1 X) = round1 m1 := by
    rw [max_eq_right (a := round1 m0) (b := round1 m1) (by linarith), max_eq_left (by linarith)]
  have z : ∀ a : ℚ, ¬ 6 < |a - a| := by intro a; rw [sub_self, abs_zero]; norm_num
  have z' : ∀ a : ℚ, ¬ 1 < |a - a| := by intro a; rw [sub_self, abs_zero]; norm_num
  have s1 : ∀ s x, sortSide s [x] = [x] := by intro s x; cases s <;> rfl
  unfold groupStrokes
  rw [five_groups h1 h2 h3, five_region h1 h2 h3]
  dsimp only
  rw [if_neg (by simp)]
  congr 1
  simp only [checkOuter_eq, outermost, List.map_cons, List.map_nil, minOf, maxOf, List.foldl_cons, List.foldl_nil, l1, l2, l3, l4, frame, Rect.round,
    k1, k2, k3, k4, k1.symm, k2.symm, k3.symm, k4.symm, if_true, if_false, z, s1, along, St.line, missing, List.append_nil, z']

/-- The five lines make one row of two cells. -/
theorem five_table : parse 2 6 (fiveLines m0 n0 m1 n1 X) =
    .ok [[some ((1, 1), (⟨m0, n0, X, n1⟩ : Rect).round), some ((1, 1), (⟨X, n0, m1, n1⟩ : Rect).round)]] := by
  have g1 := round1_gap _ _ h1
  have g2 := round1_gap _ _ h2
  have g3 := round1_gap _ _ h3
  have k1 : round1 n1 ≠ round1 n0 := by intro h; linarith
  have k2 : round1 m1 ≠ round1 m0 := by intro h; linarith
  have k3 : round1 X ≠ round1 m0 := by intro h; linarith
  have k4 : round1 X ≠ round1 m1 := by intro h; linarith
  unfold parse
  rw [five_grouped h1 h2 h3]
  dsimp only
  have y1 : keys [(round1 n0, [St.line ⟨m0, n0, m1, n0⟩]), (round1 n1, [St.line ⟨m0, n1, m1, n1⟩])] = [round1 n0, round1 n1] := by
    unfold keys
    exact sortBy_of_pairwise _ _ (by simp; linarith)
  have y2 : keys [(round1 m0, [St.line ⟨m0, n0, m0, n1⟩]), (round1 m1, [St.line ⟨m1, n0, m1, n1⟩]), (round1 X, [St.line ⟨X, n0, X, n1⟩])] =
      [round1 m0, round1 X, round1 m1] := by
    have a1 : round1 m1 ≤ round1 X ↔ False := by constructor <;> intro h <;> [linarith; exact h.elim]
    have a2 : round1 m0 ≤ round1 X ↔ True := by constructor <;> intro h <;> [trivial; linarith]
    simp [keys, sortBy, List.insertionSort, List.orderedInsert, a1, a2]
  have an0 := abs_round1_sub n0
  have an1 := abs_round1_sub n1
  have am0 := abs_round1_sub m0
  have am1 := abs_round1_sub m1
  have aX := abs_round1_sub X
  rw [abs_le] at an0 an1 am0 am1 aX
  have b1 : n0 < (round1 n0 + round1 n1) / 2 := by linarith [an0.1, an1.1]
  have b2 : (round1 n0 + round1 n1) / 2 < n1 := by linarith [an0.2, an1.2]
  have b3 : m0 < (round1 m0 + round1 X) / 2 := by linarith [am0.1, aX.1]
  have b4 : (round1 m0 + round1 X) / 2 < m1 := by linarith [am0.2, aX.2]
  have b5 : m0 < (round1 X + round1 m1) / 2 := by linarith [am1.1, aX.1]
  have b6 : (round1 X + round1 m1) / 2 < m1 := by linarith [am1.2, aX.2]
  unfold tableBlock
  rw [y1, y2]
  rw [if_neg (by simp), if_neg (by simp)]
  unfold statusRows statusCols lines
  rw [y1, y2]
  have e : grid [round1 m0, round1 X, round1 m1] [round1 n0, round1 n1] [[true, true]] [[true], [true]] =
      [[some ((1, 1), (⟨m0, n0, X, n1⟩ : Rect).round), some ((1, 1), (⟨X, n0, m1, n1⟩ : Rect).round)]] := by
    simp [grid, cellAt, merged, countMerged, isMerged, Rect.round, List.range_succ]
  simp only [mids, List.map_cons, List.map_nil, List.find?_cons, k1, k2, k3, k4, k1.symm, k2.symm, k3.symm, k4.symm, decide_true, decide_false,
    Option.map_some, Option.getD_some, if_true, St.line, checkMerged, List.dropLast, status, b1, b2, b3, b4, b5, b6, and_self, Bool.false_eq_true,
    if_false]
  rw [e]
  simp [rowBox, Coll.unionBbox, Coll.updateBbox, Rect.union, Rect.isEmpty, Rect.round, Rect.truthy, Rect.zero, k1, k2, k3, k4, k1.symm, k2.symm, k3.symm, k4.symm]

  by_cases q : round1 n0 = 0
  · right; right; right; rw [← q]; exact k1
  · right; left; exact q

end

theorem hull_attained (rs : List Rect) (hne : rs ≠ []) (h : ∀ r ∈ rs, Proper r ∧ Tenths r) :
    IsHull rs (Coll.bbox rs) ∧ Tenths (Coll.bbox rs) ∧ (∃ r ∈ rs, r.y0 = (Coll.bbox rs).y0) ∧ (∃ r ∈ rs, r.y1 = (Coll.bbox rs).y1) ∧
    (∃ r ∈ rs, r.x0 = (Coll.bbox rs).x0) ∧ ∃ r ∈ rs, r.x1 = (Coll.bbox rs).x1 := by
  have hh := C24_collection_bbox_partial rs hne h
  refine ⟨hh, (tenths_iff _).2 (by unfold Coll.bbox; simp [Rect.round]), ?_, ?_, ?_, ?_⟩
  · by_contra hc
    push Not at hc
    have : minOf (rs.map Rect.y0) ∈ rs.map Rect.y0 := minOf_mem _ (by simpa using hne)
    obtain ⟨r, hr, e⟩ := List.mem_map.1 this
    have hle := hh.2 ⟨(Coll.bbox rs).x0, r.y0, (Coll.bbox rs).x1, (Coll.bbox rs).y1⟩ (fun q hq => ⟨(hh.1 q hq).1, by
      dsimp only; rw [e]; exact minOf_le _ _ (List.mem_map.2 ⟨q, hq, rfl⟩), (hh.1 q hq).2.2.1, (hh.1 q hq).2.2.2⟩)
    exact hc r hr (le_antisymm hle.2.1 (hh.1 r hr).2.1)
  · by_contra hc
    push Not at hc
    have : maxOf (rs.map Rect.y1) ∈ rs.map Rect.y1 := maxOf_mem _ (by simpa using hne)
    obtain ⟨r, hr, e⟩ := List.mem_map.1 this
    have hle := hh.2 ⟨(Coll.bbox rs).x0, (Coll.bbox rs).y0, (Coll.bbox rs).x1, r.y1⟩ (fun q hq => ⟨(hh.1 q hq).1, (hh.1 q hq).2.1,
      (hh.1 q hq).2.2.1, by dsimp only; rw [e]; exact le_maxOf _ _ (List.mem_map.2 ⟨q, hq, rfl⟩)⟩)
    exact hc r hr (le_antisymm (hh.1 r hr).2.2.2 hle.2.2.2)
  · by_contra hc
    push Not at hc
    have : minOf (rs.map Rect.x0) ∈ rs.map Rect.x0 := minOf_mem _ (by simpa using hne)
    obtain ⟨r, hr, e⟩ := List.mem_map.1 this
    have hle := hh.2 ⟨r.x0, (Coll.bbox rs).y0, (Coll.bbox rs).x1, (Coll.bbox rs).y1⟩ (fun q hq => ⟨by
      dsimp only; rw [e]; exact minOf_le _ _ (List.mem_map.2 ⟨q, hq, rfl⟩), (hh.1 q hq).2⟩)
    exact hc r hr (le_antisymm hle.1 (hh.1 r hr).1)
  · by_contra hc
    push Not at hc
    have : maxOf (rs.map Rect.x1) ∈ rs.map Rect.x1 := maxOf_mem _ (by simpa using hne)
    obtain ⟨r, hr, e⟩ := List.mem_map.1 this
    have hle := hh.2 ⟨(Coll.bbox rs).x0, (Coll.bbox rs).y0, r.x1, (Coll.bbox rs).y1⟩ (fun q hq => ⟨(hh.1 q hq).1, (hh.1 q hq).2.1,
      by dsimp only; rw [e]; exact le_maxOf _ _ (List.mem_map.2 ⟨q, hq, rfl⟩), (hh.1 q hq).2.2.2⟩)
    exact hc r hr (le_antisymm (hh.1 r hr).2.2.1 hle.2.2.1)

theorem columnEls_eq (page : Rect) (els : List Rect) (h : PageContent page els) (r : Rect) :
    r ∈ columnEls page els ↔ r ∈ els ∧ (LeftOf (centre page) r ∨ RightOf (centre page) r) := by
  unfold columnEls LeftOf RightOf
  simp only [List.mem_filter, Bool.or_eq_true, decide_eq_true_eq]
  constructor
  · rintro ⟨⟨h1, _⟩, h2⟩; exact ⟨h1, h2⟩
  · rintro ⟨h1, h2⟩; exact ⟨⟨h1, truthy_of_proper _ (h r h1).1⟩, h2⟩

theorem free_iff (page : Rect) (els : List Rect) (h : PageContent page els) (hne : ∃ c ∈ els, LeftOf (centre page) c ∨ RightOf (centre page) c) :
    free page els = true ↔ TwoColumns (centre page) els := by
  have hcol := columnEls_eq page els h
  obtain ⟨c0, hc0, hc0'⟩ := hne
  have hne : columnEls page els ≠ [] := List.ne_nil_of_mem ((hcol c0).2 ⟨hc0, hc0'⟩)
  obtain ⟨hh, _, ⟨a, ha, ea⟩, ⟨b, hb, eb⟩, _⟩ := hull_attained _ hne fun r hr => ⟨(h r ((hcol r).1 hr).1).1, (h r ((hcol r).1 hr).1).2.1⟩
  unfold free TwoColumns
  dsimp only
  rw [List.all_eq_true]
  have hs : ∀ e, e ∈ spanEls page els ↔ e ∈ els ∧ Across (centre page) e := by
    intro e
    unfold spanEls Across
    simp only [List.mem_filter, decide_eq_true_eq]
    constructor
    · rintro ⟨⟨h1, _⟩, h2⟩; exact ⟨h1, h2⟩
    · rintro ⟨h1, h2⟩; exact ⟨⟨h1, truthy_of_proper _ (h e h1).1⟩, h2⟩
  constructor
  · intro hf e he hx
    have := hf e ((hs e).2 ⟨he, hx⟩)
    rw [Bool.or_eq_true, decide_eq_true_eq, decide_eq_true_eq] at this
    rcases this with q | q
    · left; intro c hc hcx; exact lt_of_lt_of_le q (hh.1 c ((hcol c).2 ⟨hc, hcx⟩)).2.1
    · right; intro c hc hcx; exact lt_of_le_of_lt (hh.1 c ((hcol c).2 ⟨hc, hcx⟩)).2.2.2 q
  · intro hf e he
    rw [Bool.or_eq_true, decide_eq_true_eq, decide_eq_true_eq]
    rcases hf e ((hs e).1 he).1 ((hs e).1 he).2 with q | q
    · left; rw [← ea]; exact q a ((hcol a).1 ha).1 ((hcol a).1 ha).2
    · right; rw [← eb]; exact q b ((hcol b).1 hb).1 ((hcol b).1 hb).2

/-- **C80** (partial: pages with content on both sides of the centre): a page in two columns becomes a table of one row with two cells
of positive size side by side, meeting at the centre of the page; everything left of the centre lies in the first cell, everything right of it in
the second. -/
theorem C80_two_columns_partial (page : Rect) (els : List Rect) (h : PageContent page els) (hw : page.x0 + 42 / 5 ≤ page.x1)
    (l r : Rect) (hl : l ∈ els) (hl' : LeftOf ((page.x0 + page.x1) / 2) l) (hr : r ∈ els) (hr' : RightOf ((page.x0 + page.x1) / 2) r)
    (ht : TwoColumns ((page.x0 + page.x1) / 2) els) :
    ∃ a b : Rect, pageTable page els = .ok [[some ((1, 1), a), some ((1, 1), b)]] ∧ Proper a ∧ Proper b ∧ Tenths a ∧ Tenths b ∧
      a.x1 = round1 ((page.x0 + page.x1) / 2) ∧ b.x0 = a.x1 ∧ a.y0 = b.y0 ∧ a.y1 = b.y1 ∧
      (∀ e ∈ els, LeftOf ((page.x0 + page.x1) / 2) e → Covers a e) ∧ (∀ e ∈ els, RightOf ((page.x0 + page.x1) / 2) e → Covers b e) ∧
      (∃ e ∈ els, ¬ Across ((page.x0 + page.x1) / 2) e ∧ a.y0 = e.y0 - 5) ∧
      ∃ e ∈ els, ¬ Across ((page.x0 + page.x1) / 2) e ∧ a.y1 = e.y1 + 5 := by
  have hX : (page.x0 + page.x1) / 2 = centre page := rfl
  rw [hX] at ht hl' hr' ⊢
  have hcol := columnEls_eq page els h
  have hne : columnEls page els ≠ [] := List.ne_nil_of_mem ((hcol l).2 ⟨hl, Or.inl hl'⟩)
  obtain ⟨hh, hten, ⟨c, hc, ec⟩, ⟨d, hd, ed⟩, ⟨c', hc', ec'⟩, ⟨d', hd', ed'⟩⟩ :=
    hull_attained _ hne fun r hr => ⟨(h r ((hcol r).1 hr).1).1, (h r ((hcol r).1 hr).1).2.1⟩
  have hfree := (free_iff page els h ⟨l, hl, Or.inl hl'⟩).2 ht
  unfold pageTable strokes
  rw [if_pos hfree]
  dsimp only
  generalize hB : Coll.bbox (columnEls page els) = B at *
  have cl := hh.1 l ((hcol l).2 ⟨hl, Or.inl hl'⟩)
  have cr := hh.1 r ((hcol r).2 ⟨hr, Or.inr hr'⟩)
  have pl := (h l hl).1
  have pr := (h r hr).1
  unfold LeftOf at hl'
  unfold RightOf at hr'
  have hx0 : page.x0 ≤ B.x0 := by rw [← ec']; exact (h c' ((hcol c').1 hc').1).2.2.1
  have hx1 : B.x1 ≤ page.x1 := by rw [← ed']; exact (h d' ((hcol d').1 hd').1).2.2.2
  have h1 : (page.x0 + B.x0) / 2 + 21 / 10 < centre page := by
    have : B.x0 < centre page := lt_of_le_of_lt cl.1 (lt_trans pl.1 hl')
    unfold centre at this ⊢
    linarith
  have h2 : centre page + 21 / 10 < (page.x1 + B.x1) / 2 := by
    have : centre page < B.x1 := lt_of_lt_of_le (lt_trans hr' pr.1) cr.2.2.1
    unfold centre at this ⊢
    linarith
  have h3 : B.y0 - 5 + 21 / 10 < B.y1 + 5 := by linarith [cl.2.1, cl.2.2.2, pl.2]
  have g1 := round1_gap _ _ h1
  have g2 := round1_gap _ _ h2
  have g3 := round1_gap _ _ h3
  have hr' : B.round = B := (tenths_iff B).1 hten
  have nx : ∀ e, LeftOf (centre page) e ∨ RightOf (centre page) e → ¬ Across (centre page) e := by
    rintro e (q | q) ⟨q1, q2⟩
    · exact absurd q2 (not_le.2 q)
    · exact absurd q1 (not_le.2 q)
  have ey0 : round1 (B.y0 - 5) = B.y0 - 5 := by
    obtain ⟨p, q, s, t, rfl⟩ := hten
    have := round1_tenths (q - 50)
    push_cast at this
    dsimp only
    have e : ((q : ℚ) - 50) / 10 = q / 10 - 5 := by ring
    rw [← e, this]
  have ey1 : round1 (B.y1 + 5) = B.y1 + 5 := by
    obtain ⟨p, q, s, t, rfl⟩ := hten
    have := round1_tenths (t + 50)
    push_cast at this
    dsimp only
    have e : ((t : ℚ) + 50) / 10 = t / 10 + 5 := by ring
    rw [← e, this]
  refine ⟨_, _, five_table h1 h2 h3, ⟨by simp only [Rect.round]; linarith, by simp only [Rect.round]; linarith⟩,
    ⟨by simp only [Rect.round]; linarith, by simp only [Rect.round]; linarith⟩,
    (tenths_iff _).2 (by simp [Rect.round]), (tenths_iff _).2 (by simp [Rect.round]), rfl, rfl, rfl, rfl, ?_, ?_, ?_, ?_⟩
  · intro e he hle
    have ce := hh.1 e ((hcol e).2 ⟨he, Or.inl hle⟩)
    have te : e.round = e := (tenths_iff e).1 (h e he).2.1
    rw [← te]
    have ly0 : B.y0 - 5 ≤ e.y0 := by linarith [ce.2.1]
    have ly1 : e.y1 ≤ B.y1 + 5 := by linarith [ce.2.2.2]
    exact ⟨round1_mono (by linarith [ce.1]), round1_mono ly0, round1_mono (le_of_lt hle), round1_mono ly1⟩
  · intro e he hle
    have ce := hh.1 e ((hcol e).2 ⟨he, Or.inr hle⟩)
    have te : e.round = e := (tenths_iff e).1 (h e he).2.1
    rw [← te]
    have ly0 : B.y0 - 5 ≤ e.y0 := by linarith [ce.2.1]
    have ly1 : e.y1 ≤ B.y1 + 5 := by linarith [ce.2.2.2]
    exact ⟨round1_mono (le_of_lt hle), round1_mono ly0, round1_mono (by linarith [ce.2.2.1]), round1_mono ly1⟩
  · exact ⟨c, ((hcol c).1 hc).1, nx c ((hcol c).1 hc).2, by simp only [Rect.round]; rw [ey0, ec]⟩
  · exact ⟨d, ((hcol d).1 hd).1, nx d ((hcol d).1 hd).2, by simp only [Rect.round]; rw [ey1, ed]⟩

/-- **C80**: no table if something across the centre stands beside column content. -/
theorem C80_otherwise (page : Rect) (els : List Rect) (h : PageContent page els)
    (e c : Rect) (he : e ∈ els) (hx : Across ((page.x0 + page.x1) / 2) e) (hc : c ∈ els)
    (hc' : LeftOf ((page.x0 + page.x1) / 2) c ∨ RightOf ((page.x0 + page.x1) / 2) c) (hb : c.y0 ≤ e.y1 ∧ e.y0 ≤ c.y1) :
    pageTable page els = .ok [] := by
  unfold pageTable
  rw [if_neg]
  intro hf
  rcases (free_iff page els h ⟨c, hc, hc'⟩).1 hf e he hx with q | q
  · exact absurd (q c hc hc') (not_lt.2 hb.1)
  · exact absurd (q c hc hc') (not_lt.2 hb.2)

/-- A page with a heading, two columns of two lines each and a note at the foot; the second page has a line across in between. -/
def a4 : Rect := ⟨72, 72, 523, 770⟩
def paper : List Rect :=
  [⟨100, 72, 480, 92⟩, ⟨72, 110, 280, 120⟩, ⟨72, 124, 260, 134⟩, ⟨310, 110, 523, 120⟩, ⟨310, 124, 500, 134⟩, ⟨72, 700, 500, 710⟩]

/-- Non-vacuity. -/
example : (∀ r ∈ paper, Proper r ∧ r.round = r ∧ a4.x0 ≤ r.x0 ∧ r.x1 ≤ a4.x1) ∧ a4.x0 + 42 / 5 ≤ a4.x1 ∧
    TwoColumns ((a4.x0 + a4.x1) / 2) paper ∧ (⟨72, 124, 260, 134⟩ : Rect) ∈ paper ∧
    LeftOf ((a4.x0 + a4.x1) / 2) ⟨72, 124, 260, 134⟩ ∧ RightOf ((a4.x0 + a4.x1) / 2) ⟨310, 124, 500, 134⟩ ∧
    pageTable a4 paper = .ok [[some ((1, 1), ⟨72, 105, 595 / 2, 139⟩), some ((1, 1), ⟨595 / 2, 105, 523, 139⟩)]] := by decide +kernel
example : pageTable a4 (⟨72, 120, 500, 123⟩ :: paper) = .ok [] := by decide +kernel

/-- C80 (refuted): a page with nothing on it gets a table of two cells (one of them merged away) at the top edge of the page, because
the box of no elements is taken as the point (0, 0). -/
theorem C80_refuted_blank_page : pageTable a4 [] = .ok [[some ((1, 1), ⟨36, -5, 523 / 2, 5⟩), none]] := by decide +kernel

/-- C80 (refuted): so does a page with nothing but a title in the middle. -/
theorem C80_refuted_title_page : pageTable a4 [⟨100, 300, 480, 320⟩] = .ok [[some ((1, 1), ⟨36, -5, 523 / 2, 5⟩), none]] := by decide +kernel

/-- C80 (refuted): a page with a single short line is laid out in two columns, the second of them empty. -/
theorem C80_refuted_one_column : pageTable a4 [⟨72, 100, 280, 110⟩] =
    .ok [[some ((1, 1), ⟨72, 95, 595 / 2, 115⟩), some ((1, 1), ⟨595 / 2, 95, 803 / 2, 115⟩)]] := by decide +kernel

/-! ## C81: what goes into the columns -/

open Assign

theorem tableBox_two (a b : Rect) (ha : Proper a) (hb : Proper b) (ta : Tenths a) (tb : Tenths b) :
    tableBox [[some ((1, 1), a), some ((1, 1), b)]] = ⟨min a.x0 b.x0, min a.y0 b.y0, max a.x1 b.x1, max a.y1 b.y1⟩ := by
  have ra := (tenths_iff a).1 ta
  have rb := (tenths_iff b).1 tb
  have hu := union_proper ha hb
  have pu := proper_union ha hb
  have ru := round_union ra rb
  simp only [tableBox, rowBox, List.foldl_cons, List.foldl_nil, Option.map_some, Option.getD_some, Coll.unionBbox, Coll.updateBbox,
    union_zero_left ha, ra, ru, union_zero_left pu]
  exact hu

theorem assign_inside {α : Type} (t b : Rect) (ht : Proper t) (hb : Proper b) (h : Covers t b) (ls : List (Line α)) :
    assignText b ls [t] ls = .ok ([ls], []) := by
  unfold assignText
  rw [if_pos ((contains_iff t b ht hb).2 h)]
  rfl

theorem cell_covering {α : Type} (cell b : Rect) (hc : Proper cell) (ls : List (Line α)) (hn : NestedBlock b ls) (h : Covers cell b) :
    cellIn cell (.text b ls) = ls.flatMap Line.items := by
  have hb := hn.1
  have key : El.contains ⟨cell, .leftRight⟩ ⟨b, .leftRight⟩ (19 / 20) = true := by
    unfold El.contains
    have ap := area_pos b hb
    have e : cell.inter b = b := by
      unfold Rect.inter
      rw [if_neg (by rintro (q | q); exacts [proper_nonempty _ hc q, proper_nonempty _ hb q])]
      simp only [max_eq_right h.1, max_eq_right h.2.1, min_eq_right h.2.2.1, min_eq_right h.2.2.2]
      rw [if_neg]
      rintro (q | q)
      · linarith [hb.1]
      · linarith [hb.2]
    dsimp only
    rw [if_neg (ne_of_gt ap), e, div_self (ne_of_gt ap)]
    have e1 : (roundHE (100 * 1) : ℚ) / 100 = 1 := by
      have := roundHE_intCast 100
      push_cast at this
      rw [mul_one, this]
      norm_num
    rw [e1, if_neg (by norm_num)]
    unfold Rect.width Rect.height
    obtain ⟨h1, h2, h3, h4⟩ := h
    split_ifs
    · exact decide_eq_true (by linarith)
    · exact decide_eq_true (by linarith)
  unfold cellIn
  rw [if_pos (show El.contains ⟨cell, .leftRight⟩ ⟨(Block.text b ls).bbox, .leftRight⟩ (19 / 20) = true from key)]
  rfl

theorem cell_apart {α : Type} (cell b : Rect) (hc : Proper cell) (ls : List (Line α)) (hn : NestedBlock b ls)
    (h : cell.intersects b = false) : cellIn cell (.text b ls) = [] := by
  have hb := hn.1
  have hnc : ¬ El.contains ⟨cell, .leftRight⟩ ⟨b, .leftRight⟩ (19 / 20) = true := by
    unfold El.contains
    have ap := area_pos b hb
    have e : (cell.inter b).area = 0 := by
      unfold Rect.intersects at h
      rw [if_neg (by rintro (q | q); exacts [proper_nonempty _ hc q, proper_nonempty _ hb q])] at h
      have : (cell.inter b).isEmpty := by
        by_contra hne
        rw [if_neg hne] at h
        cases h
      unfold Rect.area Rect.width Rect.height
      rcases this with q | q <;> rw [q] <;> ring
    dsimp only
    rw [if_neg (ne_of_gt ap), e, zero_div, mul_zero]
    have e0 : (roundHE 0 : ℚ) = 0 := by
      have := roundHE_intCast 0
      push_cast at this
      rw [this]; rfl
    rw [e0, if_pos (by norm_num)]
    simp
  rw [C44_cell_content_partial cell b hc ls hn (fun q => absurd q hnc)]
  rw [List.filter_eq_nil_iff.2]
  · rfl
  · intro x hx
    unfold boxedItems at hx
    obtain ⟨l, hl, hx⟩ := List.mem_flatMap.1 hx
    obtain ⟨s, hs, hx⟩ := List.mem_flatMap.1 hx
    have nl := hn.2 l hl
    have ns := nl.1.2 s hs
    obtain ⟨x1, x2, x3, x4⟩ := Span.boxed_covers s ns.1 x hx
    have := mainIn_apart x.1.2 x3 x.1.1 b cell x1 hb hc (covers_trans nl.2 (covers_trans ns.2 x2)) h
    unfold mainly
    rw [this]
    simp

/-- **C81** (partial: blocks within one half of the page): on a page laid out in two columns, a block all of whose lines are left of the centre goes
with all its content into the first cell and nowhere else; likewise on the right, for the second cell. -/
theorem C81_each_side_partial {α : Type} (page : Rect) (els : List Rect) (h : PageContent page els) (hw : page.x0 + 42 / 5 ≤ page.x1)
    (l r : Rect) (hl : l ∈ els) (hl' : LeftOf ((page.x0 + page.x1) / 2) l) (hr : r ∈ els) (hr' : RightOf ((page.x0 + page.x1) / 2) r)
    (ht : TwoColumns ((page.x0 + page.x1) / 2) els)
    (box : Rect) (ls : List (Line α)) (hn : NestedBlock box ls) (hls : ∀ x ∈ ls, x.bbox ∈ els) (hbox : IsHull (ls.map Line.bbox) box) :
    ∃ a b : Rect, pageTable page els = .ok [[some ((1, 1), a), some ((1, 1), b)]] ∧
      ((∀ x ∈ ls, LeftOf ((page.x0 + page.x1) / 2) x.bbox) →
        assignText box ls [tableBox [[some ((1, 1), a), some ((1, 1), b)]]] ls = .ok ([ls], []) ∧
        cellsIn [a, b] (.text box ls) = [ls.flatMap Line.items, []]) ∧
      ((∀ x ∈ ls, RightOf ((page.x0 + page.x1) / 2) x.bbox) →
        assignText box ls [tableBox [[some ((1, 1), a), some ((1, 1), b)]]] ls = .ok ([ls], []) ∧
        cellsIn [a, b] (.text box ls) = [[], ls.flatMap Line.items]) := by
  obtain ⟨a, b, e, pa, pb, ta, tb0, e1, e2, e3, e4, ca, cb, _, _⟩ := C80_two_columns_partial page els h hw l r hl hl' hr hr' ht
  have cab : a.intersects b = false := by
    by_contra hc
    rw [Bool.not_eq_false, intersects_iff a b pa pb, e2] at hc
    have := lt_of_le_of_lt (le_max_right a.x0 a.x1) hc.1
    exact absurd (lt_of_lt_of_le this (min_le_left _ _)) (lt_irrefl _)
  have cba : b.intersects a = false := by
    by_contra hc
    rw [Bool.not_eq_false, intersects_iff b a pb pa, e2] at hc
    have := lt_of_le_of_lt (le_max_left a.x1 a.x0) hc.1
    exact absurd (lt_of_lt_of_le this (min_le_right _ _)) (lt_irrefl _)
  have tb := tableBox_two a b pa pb ta tb0
  have hu := union_covers pa pb
  have tb' : tableBox [[some ((1, 1), a), some ((1, 1), b)]] = a.union b := by rw [tb, union_proper pa pb]
  refine ⟨a, b, e, ?_, ?_⟩
  · intro hx
    have cv : Covers a box := hbox.2 a (by
      intro q hq
      obtain ⟨x, hxm, rfl⟩ := List.mem_map.1 hq
      exact ca _ (hls x hxm) (hx x hxm))
    constructor
    · rw [tb']
      exact assign_inside _ _ (proper_union pa pb) hn.1 (covers_trans hu.1 cv) ls
    · have hb0 : b.intersects box = false := by
        by_contra hc
        rw [Bool.not_eq_false] at hc
        rw [intersects_mono b a box pb pa hn.1 cv hc] at cba
        cases cba
      show [cellIn a _, cellIn b _] = _
      rw [cell_covering a box pa ls hn cv, cell_apart b box pb ls hn hb0]
  · intro hx
    have cv : Covers b box := hbox.2 b (by
      intro q hq
      obtain ⟨x, hxm, rfl⟩ := List.mem_map.1 hq
      exact cb _ (hls x hxm) (hx x hxm))
    constructor
    · rw [tb']
      exact assign_inside _ _ (proper_union pa pb) hn.1 (covers_trans hu.2.1 cv) ls
    · have hb0 : a.intersects box = false := by
        by_contra hc
        rw [Bool.not_eq_false] at hc
        rw [intersects_mono a b box pa pb hn.1 cv hc] at cab
        cases cab
      show [cellIn a _, cellIn b _] = _
      rw [cell_covering b box pb ls hn cv, cell_apart a box pa ls hn hb0]

/-- **C81** (partial: at least 5pt away from the columns): what lies 5pt above or below everything in the columns is not touched by the table. -/
theorem C81_headings_stay_partial {α : Type} (page : Rect) (els : List Rect) (h : PageContent page els) (hw : page.x0 + 42 / 5 ≤ page.x1)
    (l r : Rect) (hl : l ∈ els) (hl' : LeftOf ((page.x0 + page.x1) / 2) l) (hr : r ∈ els) (hr' : RightOf ((page.x0 + page.x1) / 2) r)
    (ht : TwoColumns ((page.x0 + page.x1) / 2) els)
    (box : Rect) (hb : Proper box) (ls : List (Line α))
    (hapart : (∀ c ∈ els, ¬ Across ((page.x0 + page.x1) / 2) c → box.y1 + 5 ≤ c.y0) ∨
      (∀ c ∈ els, ¬ Across ((page.x0 + page.x1) / 2) c → c.y1 + 5 ≤ box.y0)) :
    ∃ rows, pageTable page els = .ok rows ∧ assignText box ls [tableBox rows] ls = .ok ([[]], ls) ∧ assignWhole box [tableBox rows] = none := by
  obtain ⟨a, b, e, pa, pb, ta, tb0, e1, e2, e3, e4, ca, cb, ⟨c, hc, hcx, ec⟩, ⟨d, hd, hdx, ed⟩⟩ :=
    C80_two_columns_partial page els h hw l r hl hl' hr hr' ht
  refine ⟨_, e, ?_⟩
  have tb := tableBox_two a b pa pb ta tb0
  have tb' : tableBox [[some ((1, 1), a), some ((1, 1), b)]] = a.union b := by rw [tb, union_proper pa pb]
  have pt : Proper (tableBox [[some ((1, 1), a), some ((1, 1), b)]]) := by rw [tb']; exact proper_union pa pb
  have key : max (tableBox [[some ((1, 1), a), some ((1, 1), b)]]).y0 box.y0 < min (tableBox [[some ((1, 1), a), some ((1, 1), b)]]).y1 box.y1 → False := by
    rw [tb]
    dsimp only
    rw [← e3, ← e4, min_self, max_self, max_lt_iff, lt_min_iff, lt_min_iff]
    rintro ⟨⟨q1, q2⟩, q3, q4⟩
    rcases hapart with q | q
    · linarith [q c hc hcx]
    · linarith [q d hd hdx]
  generalize tableBox [[some ((1, 1), a), some ((1, 1), b)]] = t at *
  have hi : t.intersects box = false := by
    by_contra hcon
    rw [Bool.not_eq_false, intersects_iff t box pt hb] at hcon
    exact key hcon.2
  have hcn : t.contains box = false := by
    by_contra hcon
    rw [Bool.not_eq_false, contains_iff t box pt hb] at hcon
    exact key (by rw [max_eq_right hcon.2.1, min_eq_right hcon.2.2.2]; exact hb.2)
  constructor
  · simp [assignText, hi, hcn, Except.map]
  · simp [assignWhole, hcn]

/-- Non-vacuity of both: a block of two lines in the first column, and the heading of the page. -/
example : let ls : List (Line ℕ) := [⟨⟨72, 110, 280, 120⟩, [.text ⟨72, 110, 280, 120⟩ [(⟨72, 110, 280, 120⟩, 1)]]⟩,
      ⟨⟨72, 124, 260, 134⟩, [.text ⟨72, 124, 260, 134⟩ [(⟨72, 124, 260, 134⟩, 2)]]⟩]
    (∀ x ∈ ls, x.bbox ∈ paper) ∧ (∀ x ∈ ls, LeftOf ((a4.x0 + a4.x1) / 2) x.bbox) ∧
    cellsIn [⟨72, 105, 595 / 2, 139⟩, ⟨595 / 2, 105, 523, 139⟩] (.text ⟨72, 110, 280, 134⟩ ls) = [[1, 2], []] := by decide +kernel
example : (∀ c ∈ paper, ¬ Across ((a4.x0 + a4.x1) / 2) c → (⟨100, 72, 480, 92⟩ : Rect).y1 + 5 ≤ c.y0) ∧
    (⟨100, 72, 480, 92⟩ : Rect) ∈ paper := by decide +kernel

/-- C81 (refuted): the table reaches 5pt beyond the columns, while a heading need only end above them: a rule across the page 2pt above the columns
is not left between heading and columns but goes into both cells. -/
theorem C81_refuted_rule : ∃ (els : List Rect) (rule a b : Rect), rule ∈ els ∧ TwoColumns ((a4.x0 + a4.x1) / 2) els ∧
    Across ((a4.x0 + a4.x1) / 2) rule ∧ pageTable a4 els = .ok [[some ((1, 1), a), some ((1, 1), b)]] ∧
    assignWhole rule [tableBox [[some ((1, 1), a), some ((1, 1), b)]]] = some 0 ∧ shapeCells [a, b] rule = [a, b] :=
  ⟨⟨80, 107, 520, 108⟩ :: paper, ⟨80, 107, 520, 108⟩, ⟨72, 105, 595 / 2, 139⟩, ⟨595 / 2, 105, 523, 139⟩, by decide +kernel⟩

/-- C81 (refuted): small print (3pt high) across the page, 1pt below the columns, is cut in two at the centre of the page. -/
theorem C81_refuted_small_print : ∃ (els : List Rect) (a b : Rect) (ls : List (Line ℕ)), (⟨80, 135, 520, 138⟩ : Rect) ∈ els ∧
    TwoColumns ((a4.x0 + a4.x1) / 2) els ∧ pageTable a4 els = .ok [[some ((1, 1), a), some ((1, 1), b)]] ∧
    assignText ⟨80, 135, 520, 138⟩ ls [tableBox [[some ((1, 1), a), some ((1, 1), b)]]] ls = .ok ([ls], []) ∧
    ls.flatMap Line.items = [1, 2, 3] ∧ cellsIn [a, b] (.text ⟨80, 135, 520, 138⟩ ls) = [[1, 2], [2, 3]] :=
  ⟨⟨80, 135, 520, 138⟩ :: paper, ⟨72, 105, 595 / 2, 139⟩, ⟨595 / 2, 105, 523, 139⟩,
    [⟨⟨80, 135, 520, 138⟩, [.text ⟨80, 135, 520, 138⟩ [(⟨80, 135, 295, 138⟩, 1), (⟨295, 135, 300, 138⟩, 2), (⟨300, 135, 520, 138⟩, 3)]]⟩],
    by decide +kernel, by decide +kernel, by decide +kernel, by decide +kernel, by decide +kernel, by decide +kernel⟩

end Props
