import Verif.Props.Path
/-! # Drawings that are not made of horizontal and vertical lines (C106) -/

namespace Spec
open Path Geom

/-- An ellipse as PDF producers draw it: four Bézier curves, with the factor `k` (0.5523) for the control points. -/
def ellipse (a b rx ry k : ℚ) : List Item :=
  [.c ⟨a + rx, b⟩ ⟨a + rx, b + k * ry⟩ ⟨a + k * rx, b + ry⟩ ⟨a, b + ry⟩, .c ⟨a, b + ry⟩ ⟨a - k * rx, b + ry⟩ ⟨a - rx, b + k * ry⟩ ⟨a - rx, b⟩,
   .c ⟨a - rx, b⟩ ⟨a - rx, b - k * ry⟩ ⟨a - k * rx, b - ry⟩ ⟨a, b - ry⟩, .c ⟨a, b - ry⟩ ⟨a + k * rx, b - ry⟩ ⟨a + rx, b - k * ry⟩ ⟨a + rx, b⟩]

/-- A triangle. -/
def triangle (p q r : Pt) : List Item := [.l p q, .l q r, .l r p]

/-- The drawing moved. -/
def movePt (u v : ℚ) (p : Pt) : Pt := ⟨p.x + u, p.y + v⟩
def moveItem (u v : ℚ) : Item → Item
  | .l p q => .l (movePt u v p) (movePt u v q)
  | .c p q r s => .c (movePt u v p) (movePt u v q) (movePt u v r) (movePt u v s)
  | .re r => .re ⟨r.x0 + u, r.y0 + v, r.x1 + u, r.y1 + v⟩

end Spec

namespace Props
open Path Geom Py Spec

theorem pc_minL (l : List ℚ) (m : ℚ) (h : m ∈ l) (hl : ∀ x ∈ l, m ≤ x) : minL l = m :=
  le_antisymm (minL_le h) (hl _ (minL_mem (List.ne_nil_of_mem h)))

theorem pc_maxL (l : List ℚ) (m : ℚ) (h : m ∈ l) (hl : ∀ x ∈ l, x ≤ m) : maxL l = m :=
  le_antisymm (hl _ (maxL_mem (List.ne_nil_of_mem h))) (le_maxL h)

theorem pc_shrink (u v : ℚ) : v - u - 1 / 100 ≤ Path.round2 v - Path.round2 u := by
  have h1 := abs_le.1 (round2_le_of_int (x := v))
  have h2 := abs_le.1 (round2_le_of_int (x := u))
  linarith [h1.1, h1.2, h2.1, h2.2]

theorem pc_ellipse_iso (a b rx ry k : ℚ) (hk0 : 0 ≤ k) (hk : k ≤ 5523 / 10000) (hx : 45 ≤ rx) (hy : 45 ≤ ry) : isoSegs (ellipse a b rx ry k) = false := by
  have kx : 0 ≤ k * rx ∧ k * rx ≤ rx := ⟨by positivity, by nlinarith⟩
  have ky : 0 ≤ k * ry ∧ k * ry ≤ ry := ⟨by positivity, by nlinarith⟩
  have hbb : (bboxArea (ellipse a b rx ry k)).1 = ⟨Path.round2 (a - rx), Path.round2 (b - ry), Path.round2 (a + rx), Path.round2 (b + ry)⟩ := by
    simp only [bboxArea, ellipse, Item.points, List.flatMap_cons, List.flatMap_nil, List.cons_append, List.nil_append, List.map_cons, List.map_nil]
    rw [pc_minL _ (a - rx) (by simp) ?_, pc_minL _ (b - ry) (by simp) ?_, pc_maxL _ (a + rx) (by simp) ?_, pc_maxL _ (b + ry) (by simp) ?_]
    all_goals
      simp only [List.mem_cons, List.not_mem_nil, or_false, forall_eq_or_imp, forall_eq]
      refine ⟨?_, ?_, ?_, ?_, ?_, ?_, ?_, ?_, ?_, ?_, ?_, ?_, ?_, ?_, ?_, ?_⟩ <;> linarith [kx.1, kx.2, ky.1, ky.2]
  have hA : (bboxArea (ellipse a b rx ry k)).2 = |rx * ry * (4 - 2 * (1 - k) ^ 2)| := by
    simp only [bboxArea, ellipse, Item.points, List.flatMap_cons, List.flatMap_nil, List.cons_append, List.nil_append, closed, List.head?_cons, List.getLast?_cons_cons,
      List.getLast?_singleton, sub_self, abs_zero, add_zero, shoelace]
    rw [if_pos (by norm_num)]
    congr 1; ring
  unfold isoSegs
  apply decide_eq_false
  rw [hbb, hA]
  unfold Rect.area Rect.width Rect.height
  dsimp only
  have w1 := pc_shrink (a - rx) (a + rx)
  have w2 := pc_shrink (b - ry) (b + ry)
  have W : 2 * rx * (8999 / 9000) ≤ Path.round2 (a + rx) - Path.round2 (a - rx) := by linarith
  have H : 2 * ry * (8999 / 9000) ≤ Path.round2 (b + ry) - Path.round2 (b - ry) := by linarith
  generalize Path.round2 (a + rx) - Path.round2 (a - rx) = W' at *
  generalize Path.round2 (b + ry) - Path.round2 (b - ry) = H' at *
  have P : (2 * rx * (8999 / 9000)) * (2 * ry * (8999 / 9000)) ≤ W' * H' := mul_le_mul W H (by positivity) (by linarith)
  have hp : 0 < rx * ry := by positivity
  have hk2 : (4477 / 10000) ^ 2 ≤ (1 - k) ^ 2 := pow_le_pow_left₀ (by norm_num) (by linarith) 2
  have hk3 : (1 - k) ^ 2 ≤ 1 := by nlinarith
  have hWH : 0 < W' * H' := by nlinarith
  rw [abs_of_nonneg (mul_nonneg hp.le (by linarith))]
  push Not
  refine ⟨hWH.ne', ?_⟩
  have hlt : rx * ry * (4 - 2 * (1 - k) ^ 2) < 9 / 10 * (W' * H') := by nlinarith
  rw [div_lt_iff₀ hWH]
  exact hlt

theorem pc_graphic (ratio : ℚ) (hr : ratio < 1) (p : Raw) (h : p.iso = false) : toShapes ratio [[p]] = ([], true) := by
  have : containsCurve ratio [p] = true := by
    unfold containsCurve
    rw [if_neg (by simp)]
    simp [h, hr]
  unfold toShapes
  simp [this]

/-- **C106** (partial): an ellipse of at least 90pt × 90pt, drawn as usual with four curves, filled or not, is not taken for lines or a filled rectangle: it gives no shapes and is
reported as vector graphic. *Missing*: smaller ones, see `C106_refuted_dot`. -/
theorem C106_ellipse_partial (ratio a b rx ry k : ℚ) (hr : ratio < 1) (hk0 : 0 ≤ k) (hk : k ≤ 5523 / 10000) (hx : 45 ≤ rx) (hy : 45 ≤ ry) (w : ℚ) (col fill : Option ℕ) :
    toShapes ratio [[⟨ellipse a b rx ry k, false, w, col, fill⟩]] = ([], true) := by
  refine pc_graphic ratio hr _ ?_
  have : Raw.subpaths ⟨ellipse a b rx ry k, false, w, col, fill⟩ = [ellipse a b rx ry k] := by
    simp [Raw.subpaths, groupSegments, ellipse, groupLoop, Item.ends, segments]
  unfold Raw.iso
  rw [this]
  simp [pc_ellipse_iso a b rx ry k hk0 hk hx hy]

/-- Non-vacuity: a circle of radius 50pt. -/
example : toShapes (1 / 5) [[⟨ellipse 100 100 50 50 (5523 / 10000), false, 1, none, some 0⟩]] = ([], true) := by decide +kernel

/-- **C106 is false** for small filled circles: a dot of 3pt is taken for a filled square. -/
theorem C106_refuted_dot : toShapes (1 / 5) [[⟨ellipse 10 10 (15049 / 10000) (15049 / 10000) (5523 / 10000), false, 1, none, some 0⟩]] =
    ([.fill ⟨17 / 2, 17 / 2, 23 / 2, 23 / 2⟩ 0], false) := by decide +kernel

/-! ## Triangles -/

theorem pc_cross_le (w h u1 u2 u3 v1 v2 v3 : ℚ) (hu1 : 0 ≤ u1 ∧ u1 ≤ w) (hu2 : 0 ≤ u2 ∧ u2 ≤ w) (hu3 : 0 ≤ u3 ∧ u3 ≤ w) (hv1 : 0 ≤ v1 ∧ v1 ≤ h) (hv2 : 0 ≤ v2 ∧ v2 ≤ h)
    (hv3 : 0 ≤ v3 ∧ v3 ≤ h) : u1 * (v2 - v3) + u2 * (v3 - v1) + u3 * (v1 - v2) ≤ w * h := by
  have hw : 0 ≤ w := hu1.1.trans hu1.2
  have hh : 0 ≤ h := hv1.1.trans hv1.2
  have pos : ∀ u c : ℚ, u ≤ w → 0 ≤ c → u * c ≤ w * c := fun u c h1 h2 => mul_le_mul_of_nonneg_right h1 h2
  have neg : ∀ u c : ℚ, 0 ≤ u → c ≤ 0 → u * c ≤ 0 := fun u c h1 h2 => mul_nonpos_of_nonneg_of_nonpos h1 h2
  have top : ∀ c, c ≤ h → w * c ≤ w * h := fun c hc => mul_le_mul_of_nonneg_left hc hw
  have wh : 0 ≤ w * h := mul_nonneg hw hh
  rcases le_total 0 (v2 - v3) with c1 | c1 <;> rcases le_total 0 (v3 - v1) with c2 | c2 <;> rcases le_total 0 (v1 - v2) with c3 | c3
  · linarith [pos u1 _ hu1.2 c1, pos u2 _ hu2.2 c2, pos u3 _ hu3.2 c3]
  · linarith [pos u1 _ hu1.2 c1, pos u2 _ hu2.2 c2, neg u3 _ hu3.1 c3, top (v2 - v1) (by linarith [hv2.2, hv1.1])]
  · linarith [pos u1 _ hu1.2 c1, neg u2 _ hu2.1 c2, pos u3 _ hu3.2 c3, top (v1 - v3) (by linarith [hv1.2, hv3.1])]
  · linarith [pos u1 _ hu1.2 c1, neg u2 _ hu2.1 c2, neg u3 _ hu3.1 c3, top (v2 - v3) (by linarith [hv2.2, hv3.1])]
  · linarith [neg u1 _ hu1.1 c1, pos u2 _ hu2.2 c2, pos u3 _ hu3.2 c3, top (v3 - v2) (by linarith [hv3.2, hv2.1])]
  · linarith [neg u1 _ hu1.1 c1, pos u2 _ hu2.2 c2, neg u3 _ hu3.1 c3, top (v3 - v1) (by linarith [hv3.2, hv1.1])]
  · linarith [neg u1 _ hu1.1 c1, neg u2 _ hu2.1 c2, pos u3 _ hu3.2 c3, top (v1 - v2) (by linarith [hv1.2, hv2.1])]
  · linarith [neg u1 _ hu1.1 c1, neg u2 _ hu2.1 c2, neg u3 _ hu3.1 c3]

theorem pc_triangle_iso (p q r : Pt) (x0 y0 x1 y1 : ℚ) (hx : IsLeast {p.x, q.x, r.x} x0) (hX : IsGreatest {p.x, q.x, r.x} x1) (hy : IsLeast {p.y, q.y, r.y} y0)
    (hY : IsGreatest {p.y, q.y, r.y} y1) (hw : 1 / 5 ≤ x1 - x0) (hh : 1 / 5 ≤ y1 - y0) : isoSegs (triangle p q r) = false := by
  have mem : ∀ (a b c m : ℚ), m ∈ ({a, b, c} : Set ℚ) ↔ m = a ∨ m = b ∨ m = c := fun a b c m => by simp
  have lo : ∀ (a b c m : ℚ), IsLeast {a, b, c} m → minL [a, b, b, c, c, a] = m := by
    intro a b c m h
    refine pc_minL _ _ ?_ ?_
    · have := (mem a b c m).1 h.1
      simp only [List.mem_cons]; tauto
    · intro x hx
      refine h.2 ((mem a b c x).2 ?_)
      simp only [List.mem_cons, List.not_mem_nil, or_false] at hx; tauto
  have hi : ∀ (a b c m : ℚ), IsGreatest {a, b, c} m → maxL [a, b, b, c, c, a] = m := by
    intro a b c m h
    refine pc_maxL _ _ ?_ ?_
    · have := (mem a b c m).1 h.1
      simp only [List.mem_cons]; tauto
    · intro x hx
      refine h.2 ((mem a b c x).2 ?_)
      simp only [List.mem_cons, List.not_mem_nil, or_false] at hx; tauto
  have hbb : (bboxArea (triangle p q r)).1 = ⟨Path.round2 x0, Path.round2 y0, Path.round2 x1, Path.round2 y1⟩ := by
    simp only [bboxArea, triangle, Item.points, List.flatMap_cons, List.flatMap_nil, List.cons_append, List.nil_append, List.map_cons, List.map_nil]
    rw [lo _ _ _ _ hx, hi _ _ _ _ hX, lo _ _ _ _ hy, hi _ _ _ _ hY]
  have hA : (bboxArea (triangle p q r)).2 = |((p.x - x0) * ((q.y - y0) - (r.y - y0)) + (q.x - x0) * ((r.y - y0) - (p.y - y0)) + (r.x - x0) * ((p.y - y0) - (q.y - y0))) / 2| := by
    simp only [bboxArea, triangle, Item.points, List.flatMap_cons, List.flatMap_nil, List.cons_append, List.nil_append, closed, List.head?_cons, List.getLast?_cons_cons,
      List.getLast?_singleton, sub_self, abs_zero, add_zero, shoelace]
    rw [if_pos (by norm_num)]
    congr 1; ring
  have inx : ∀ v ∈ ({p.x, q.x, r.x} : Set ℚ), 0 ≤ v - x0 ∧ v - x0 ≤ x1 - x0 := fun v hv => ⟨by linarith [hx.2 hv], by linarith [hX.2 hv]⟩
  have iny : ∀ v ∈ ({p.y, q.y, r.y} : Set ℚ), 0 ≤ v - y0 ∧ v - y0 ≤ y1 - y0 := fun v hv => ⟨by linarith [hy.2 hv], by linarith [hY.2 hv]⟩
  have up := pc_cross_le _ _ _ _ _ _ _ _ (inx p.x (by simp)) (inx q.x (by simp)) (inx r.x (by simp)) (iny p.y (by simp)) (iny q.y (by simp)) (iny r.y (by simp))
  have dn := pc_cross_le _ _ _ _ _ _ _ _ (inx p.x (by simp)) (inx r.x (by simp)) (inx q.x (by simp)) (iny p.y (by simp)) (iny r.y (by simp)) (iny q.y (by simp))
  have ab : |((p.x - x0) * ((q.y - y0) - (r.y - y0)) + (q.x - x0) * ((r.y - y0) - (p.y - y0)) + (r.x - x0) * ((p.y - y0) - (q.y - y0))) / 2| ≤ (x1 - x0) * (y1 - y0) / 2 := by
    rw [abs_le]
    constructor <;> linarith
  unfold isoSegs
  apply decide_eq_false
  rw [hbb, hA]
  unfold Rect.area Rect.width Rect.height
  dsimp only
  have W := pc_shrink x0 x1
  have H := pc_shrink y0 y1
  have W2 : (x1 - x0) * (19 / 20) ≤ Path.round2 x1 - Path.round2 x0 := by linarith
  have H2 : (y1 - y0) * (19 / 20) ≤ Path.round2 y1 - Path.round2 y0 := by linarith
  generalize Path.round2 x1 - Path.round2 x0 = W' at *
  generalize Path.round2 y1 - Path.round2 y0 = H' at *
  have P : ((x1 - x0) * (19 / 20)) * ((y1 - y0) * (19 / 20)) ≤ W' * H' := mul_le_mul W2 H2 (by linarith) (by linarith)
  have hp : 0 < (x1 - x0) * (y1 - y0) := mul_pos (by linarith) (by linarith)
  have hWH : 0 < W' * H' := by nlinarith
  push Not
  refine ⟨hWH.ne', ?_⟩
  rw [div_lt_iff₀ hWH]
  refine lt_of_le_of_lt ab ?_
  nlinarith

/-- **C106**: a triangle, drawn with three lines or with two and a closing one, filled or not, that extends at least 0.2pt in both directions is not taken for table lines or a
filled rectangle: it gives no shapes and is reported as vector graphic. -/
theorem C106_triangle (ratio : ℚ) (hr : ratio < 1) (p q r : Pt) (x0 y0 x1 y1 : ℚ) (hx : IsLeast {p.x, q.x, r.x} x0)
    (hX : IsGreatest {p.x, q.x, r.x} x1) (hy : IsLeast {p.y, q.y, r.y} y0) (hY : IsGreatest {p.y, q.y, r.y} y1) (hw : 1 / 5 ≤ x1 - x0) (hh : 1 / 5 ≤ y1 - y0)
    (w : ℚ) (col fill : Option ℕ) :
    toShapes ratio [[⟨triangle p q r, false, w, col, fill⟩]] = ([], true) ∧ toShapes ratio [[⟨(triangle p q r).take 2, true, w, col, fill⟩]] = ([], true) := by
  have iso := pc_triangle_iso p q r x0 y0 x1 y1 hx hX hy hY hw hh
  constructor
  · refine pc_graphic ratio hr _ ?_
    have : Raw.subpaths ⟨triangle p q r, false, w, col, fill⟩ = [triangle p q r] := by
      simp [Raw.subpaths, groupSegments, triangle, groupLoop, Item.ends, segments]
    unfold Raw.iso
    rw [this]
    simp [iso]
  · refine pc_graphic ratio hr _ ?_
    have : Raw.subpaths ⟨(triangle p q r).take 2, true, w, col, fill⟩ = [triangle p q r] := by
      simp [Raw.subpaths, groupSegments, triangle, groupLoop, Item.ends, segments]
    unfold Raw.iso
    rw [this]
    simp [iso]

/-- Non-vacuity: an arrow head of 6pt × 4pt. -/
example : toShapes (1 / 5) [[⟨triangle ⟨10, 10⟩ ⟨16, 12⟩ ⟨10, 14⟩, false, 0, none, some 0⟩]] = ([], true) := by decide +kernel

/-! ## Position -/

theorem pc_points (u v : ℚ) (l : List Item) (h : ∀ i ∈ l, ∀ r, i ≠ .re r) : (l.map (moveItem u v)).flatMap Item.points = (l.flatMap Item.points).map (movePt u v) := by
  induction l with
  | nil => rfl
  | cons i l ih =>
    rw [List.map_cons, List.flatMap_cons, List.flatMap_cons, List.map_append, ih fun j hj => h j (List.mem_cons_of_mem _ hj)]
    cases i with
    | l p q => rfl
    | c p q r s => rfl
    | re r => exact absurd rfl (h _ (by simp) r)

theorem pc_shoelace (u v : ℚ) (p : Pt) (l : List Pt) :
    shoelace ((p :: l).map (movePt u v)) = shoelace (p :: l) + u * (((p :: l).getLast (by simp)).y - p.y) - v * (((p :: l).getLast (by simp)).x - p.x) := by
  induction l generalizing p with
  | nil => simp [shoelace]
  | cons q l ih =>
    have := ih q
    rw [List.map_cons, List.map_cons, shoelace, ← List.map_cons, this, shoelace, show (p :: q :: l).getLast (by simp) = (q :: l).getLast (by simp) from List.getLast_cons (by simp)]
    unfold movePt
    dsimp only
    ring

theorem pc_closed (u v : ℚ) (l : List Pt) : closed (l.map (movePt u v)) = closed l := by
  unfold closed
  rw [List.head?_map, List.getLast?_map]
  cases l.head? <;> cases l.getLast? <;> simp [movePt]

/-- **C106**: the area a path of lines and curves encloses does not depend on its position on the page, if it ends where it starts. -/
theorem C106_position (u v : ℚ) (segs : List Item) (h : ∀ i ∈ segs, ∀ r, i ≠ .re r) (hc : (segs.flatMap Item.points).head? = (segs.flatMap Item.points).getLast?) :
    (bboxArea (segs.map (moveItem u v))).2 = (bboxArea segs).2 := by
  have gen : ∀ l : List Item, (∀ i ∈ l, ∀ r, i ≠ .re r) → (bboxArea l).2 = if closed (l.flatMap Item.points) then |shoelace (l.flatMap Item.points) / 2| else 0 := by
    intro l hl
    unfold bboxArea
    split
    · rename_i r
      exact absurd rfl (hl _ (by simp) r)
    · rfl
  have hm : ∀ i ∈ segs.map (moveItem u v), ∀ r, i ≠ .re r := by
    intro i hi r e
    obtain ⟨j, hj, rfl⟩ := List.mem_map.1 hi
    cases j with
    | l p q => cases e
    | c p q r s => cases e
    | re r => exact absurd rfl (h _ hj r)
  rw [gen _ hm, gen _ h, pc_points u v segs h, pc_closed]
  cases hp : segs.flatMap Item.points with
  | nil => rfl
  | cons p l =>
    rw [hp] at hc
    rw [List.head?_cons, List.getLast?_eq_some_getLast (by simp)] at hc
    have e := Option.some.inj hc
    rw [pc_shoelace, ← e]
    simp

/-- Non-vacuity: the ellipse moved. -/
example : (bboxArea ((ellipse 100 100 50 50 (1 / 2)).map (moveItem 7 (-30)))).2 = (bboxArea (ellipse 100 100 50 50 (1 / 2))).2 ∧
    (bboxArea (ellipse 100 100 50 50 (1 / 2))).2 = 8750 := by decide +kernel

end Props
