import Verif.Props.FullGrid
/-! # Coloured cells of a drawn grid (towards C92) -/

namespace Props
open Py Geom Spec

section FPaint
open Full

variable {α : Type} {X Y : ℕ → ℚ} {r k : ℕ} {W gap : ℚ}

theorem pn_inter_area {b T I : Rect} (hb : Proper b) (hT : Proper T) (hI : Proper I) (h1 : Covers b I) (h2 : Covers T I) : I.area ≤ (b.inter T).area := by
  have hx0 : max b.x0 T.x0 ≤ I.x0 := max_le h1.1 h2.1
  have hy0 : max b.y0 T.y0 ≤ I.y0 := max_le h1.2.1 h2.2.1
  have hx1 : I.x1 ≤ min b.x1 T.x1 := le_min h1.2.2.1 h2.2.2.1
  have hy1 : I.y1 ≤ min b.y1 T.y1 := le_min h1.2.2.2 h2.2.2.2
  have hw := hI.1
  have hh := hI.2
  unfold Rect.inter
  rw [if_neg (by rintro (h | h); exact proper_nonempty _ hb h; exact proper_nonempty _ hT h)]
  dsimp only
  rw [if_neg (by rw [not_or, not_lt, not_lt]; constructor <;> linarith)]
  unfold Rect.area Rect.width Rect.height
  dsimp only
  exact mul_le_mul (by linarith) (by linarith) (by linarith) (by linarith)

theorem pn_apart_area {a e : Rect} (ha : Proper a) (he : Proper e) (h : Apart a e) : (a.inter e).area ≤ 0 := by
  have h3 := ly_area_add he ha he h
  have e1 : a.inter e = e.inter a := by unfold Rect.inter; simp only [or_comm, max_comm, min_comm]
  rw [inter_covered e e he he ⟨le_refl _, le_refl _, le_refl _, le_refl _⟩] at h3
  rw [e1]
  linarith

/-- The share contained. -/
theorem pn_share {F : Rect} {e : El} {t : ℚ} (he : Proper e.bbox) (h : El.contains ⟨F, .leftRight⟩ e t = true) : (t - 1 / 200) * e.bbox.area ≤ (F.inter e.bbox).area := by
  unfold El.contains at h
  dsimp only at h
  have hpos := area_pos e.bbox he
  rw [if_neg (ne_of_gt hpos)] at h
  split_ifs at h with h1
  all_goals
    rw [not_lt, le_div_iff₀ (by norm_num)] at h1
    have h5 := abs_roundHE_sub (100 * ((F.inter e.bbox).area / e.bbox.area))
    rw [abs_le] at h5
    have h6 : t - 1 / 200 ≤ (F.inter e.bbox).area / e.bbox.area := by linarith [h5.2]
    rwa [le_div_iff₀ hpos] at h6

theorem pn_not_apart {F : Rect} {e : El} {t : ℚ} (hF : Proper F) (he : Proper e.bbox) (ht : 1 / 100 ≤ t) (h : El.contains ⟨F, .leftRight⟩ e t = true) : ¬ Apart F e.bbox := by
  intro ha
  have h1 := pn_share he h
  have h2 := pn_apart_area hF he ha
  have := mul_pos (show 0 < t - 1 / 200 by linarith) (area_pos e.bbox he)
  linarith

theorem pn_holds {F : Rect} (hF : Proper F) (e : El) (he : Proper e.bbox) (h : Covers F e.bbox) (t : ℚ) (ht : t ≤ 1) : El.contains ⟨F, .leftRight⟩ e t = true := by
  unfold El.contains
  dsimp only
  have hpos := area_pos e.bbox he
  have e0 : F.inter e.bbox = e.bbox.inter F := by unfold Rect.inter; simp only [or_comm, max_comm, min_comm]
  have e1 : F.inter e.bbox = e.bbox := by rw [e0]; exact inter_covered e.bbox F he hF h
  rw [if_neg (ne_of_gt hpos), e1, div_self (ne_of_gt hpos), show roundHE (100 * (1 : ℚ)) = 100 by decide +kernel, if_neg (by norm_num; linarith)]
  obtain ⟨c0, c1, c2, c3⟩ := h
  unfold Rect.width Rect.height
  split_ifs
  · rw [decide_eq_true_eq]; linarith
  · rw [decide_eq_true_eq]; linarith

/-! ## The area looked at for the colour of a cell -/

/-- The cell between its borders; the left one may be missing. -/
def paintTarget (X Y : ℕ → ℚ) (W wl : ℚ) (i j : ℕ) : Rect := ⟨X j + wl / 2, Y i + W / 2, X (j + 1) - W / 2, Y (i + 1) - W / 2⟩

theorem pn_target_round (hg : Grid X Y r k W gap) (wl : ℚ) (hwl : wl = W ∨ wl = 0) (i j : ℕ) (hi : i < r) (hj : j < k) : (paintTarget X Y W wl i j).round = paintTarget X Y W wl i j := by
  have tl : ∃ m : ℤ, wl / 2 = m / 10 := by
    rcases hwl with rfl | rfl
    · exact hg.tenW
    · exact ⟨0, by norm_num⟩
  unfold paintTarget Rect.round
  dsimp only
  rw [rg_ten (rg_add (hg.tenX j (by omega)) tl), rg_ten (rg_add (hg.tenY i (by omega)) hg.tenW), sub_eq_add_neg, rg_ten (rg_add (hg.tenX (j + 1) (by omega)) (rg_neg hg.tenW)),
    sub_eq_add_neg, rg_ten (rg_add (hg.tenY (i + 1) (by omega)) (rg_neg hg.tenW))]

theorem pn_pick (hg : Grid X Y r k W gap) (ci : CellInfo) (i j : ℕ) (hi : i < r) (hj : j < k) (hb : ci.box = gridCell X Y i j) (h1 : ci.top = W) (h2 : ci.right = W) (h3 : ci.bottom = W)
    (h4 : ci.left = W ∨ ci.left = 0) (fills : List (Rect × ℕ)) :
    pickFill ci.box ci.top ci.right ci.bottom ci.left fills = fills.find? fun f => El.contains ⟨f.1, .leftRight⟩ ⟨paintTarget X Y W ci.left i j, .leftRight⟩ (9 / 10) := by
  unfold pickFill
  congr 1
  funext f
  unfold Table.shading
  dsimp only
  rw [hb, h1, h2, h3]
  have e : (⟨(gridCell X Y i j).x0 + ci.left / 2, (gridCell X Y i j).y0 + W / 2, (gridCell X Y i j).x1 - W / 2, (gridCell X Y i j).y1 - W / 2⟩ : Rect).round = paintTarget X Y W ci.left i j :=
    pn_target_round hg ci.left h4 i j hi hj
  rw [e]
  cases h : El.contains ⟨f.1, .leftRight⟩ ⟨paintTarget X Y W ci.left i j, .leftRight⟩ (9 / 10) <;> simp [h]

variable {lines : List Rect} {shapes : List Sh} {b : Rect} {c : ℕ}

/-- The target and the area between the borders. -/
theorem pn_target (hW : 0 < W) (hP : CellPaint X Y r k W lines shapes b c) (wl : ℚ) (hwl : wl = W ∨ wl = 0) (i j : ℕ) (hi : i < r) (hj : j < k) :
    Proper (innerCell X Y W i j) ∧ Proper (paintTarget X Y W wl i j) ∧ Covers (paintTarget X Y W wl i j) (innerCell X Y W i j) ∧ Covers (gridCell X Y i j) (paintTarget X Y W wl i j) ∧
      (9 / 10 + 1 / 200) * (paintTarget X Y W wl i j).area ≤ (innerCell X Y W i j).area ∧ (paintTarget X Y W wl i j).width ≤ (innerCell X Y W i j).width + 1 ∧
      (paintTarget X Y W wl i j).height = (innerCell X Y W i j).height := by
  have hx := hP.sizeX j hj
  have hy := hP.sizeY i hi
  have ht := hP.thin
  unfold innerCell paintTarget gridCell Proper Covers Rect.area Rect.width Rect.height
  dsimp only
  rcases hwl with rfl | rfl
  all_goals
    refine ⟨⟨by linarith, by linarith⟩, ⟨by linarith, by linarith⟩, ⟨by linarith, by linarith, by linarith, by linarith⟩, ⟨by linarith, by linarith, by linarith, by linarith⟩, ?_, by linarith, by linarith⟩
    rw [← mul_assoc]
    exact mul_le_mul_of_nonneg_right (by linarith) (by linarith)

/-- An area behind the cell is taken for its colour. -/
theorem pn_contains (hW : 0 < W) (hP : CellPaint X Y r k W lines shapes b c) (hb : Proper b) (wl : ℚ) (hwl : wl = W ∨ wl = 0) (i j : ℕ) (hi : i < r) (hj : j < k)
    (hc : Covers b (innerCell X Y W i j)) : El.contains ⟨b, .leftRight⟩ ⟨paintTarget X Y W wl i j, .leftRight⟩ (9 / 10) = true := by
  obtain ⟨p1, p2, p3, p4, p5, p6, p7⟩ := pn_target hW hP wl hwl i j hi hj
  have h1 := pn_inter_area hb p2 p1 hc p3
  have hpos := area_pos _ p2
  unfold El.contains
  dsimp only
  rw [if_neg (ne_of_gt hpos), if_neg]
  · unfold Covers at hc
    unfold Rect.width at p6 ⊢; unfold Rect.height at p7 ⊢
    split_ifs
    · rw [decide_eq_true_eq]; linarith
    · rw [decide_eq_true_eq]; linarith
  · rw [not_lt, le_div_iff₀ (by norm_num)]
    have h5 := abs_roundHE_sub (100 * ((b.inter (paintTarget X Y W wl i j)).area / (paintTarget X Y W wl i j).area))
    rw [abs_le] at h5
    have h6 : 9 / 10 + 1 / 200 ≤ (b.inter (paintTarget X Y W wl i j)).area / (paintTarget X Y W wl i j).area := by
      rw [le_div_iff₀ hpos]; linarith
    linarith [h5.1]

/-- Which colour a cell gets: that of the area behind it. -/
theorem pn_found (hg : Grid X Y r k W gap) (hP : CellPaint X Y r k W lines shapes b c) (hreal : ∀ s ∈ shapes, RealBox s.bbox) (hm : Sh.fill b c ∈ shapes) (ci : CellInfo) (i j : ℕ) (hi : i < r) (hj : j < k)
    (hb : ci.box = gridCell X Y i j) (h1 : ci.top = W) (h2 : ci.right = W) (h3 : ci.bottom = W) (h4 : ci.left = W ∨ ci.left = 0) (hc : Covers b (innerCell X Y W i j))
    (fills : List (Rect × ℕ)) (hf : ∀ f ∈ fills, Sh.fill f.1 f.2 ∈ shapes ∧ Covers (gridFrame X Y r k W) f.1) (hmf : (b, c) ∈ fills) :
    pickFill ci.box ci.top ci.right ci.bottom ci.left fills = some (b, c) := by
  have hbr : Proper b := (hreal _ hm).1
  rw [pn_pick hg ci i j hi hj hb h1 h2 h3 h4]
  have hcon := pn_contains hg.width hP hbr ci.left h4 i j hi hj hc
  cases hfd : fills.find? fun f => El.contains ⟨f.1, .leftRight⟩ ⟨paintTarget X Y W ci.left i j, .leftRight⟩ (9 / 10) with
  | none =>
    have := List.find?_eq_none.1 hfd (b, c) hmf
    exact absurd hcon this
  | some f =>
    have hfm := List.mem_of_find?_eq_some hfd
    have hft := List.find?_some hfd
    by_cases e : (f.1, f.2) = (b, c)
    · rw [← e]
    · exfalso
      have hap := hP.alone f.1 f.2 (hf f hfm).1 e (hf f hfm).2
      have hfr : Proper f.1 := (hreal _ (hf f hfm).1).1
      obtain ⟨p1, p2, p3, p4, p5, p6, p7⟩ := pn_target hg.width hP ci.left h4 i j hi hj
      have s1 := pn_share (e := ⟨paintTarget X Y W ci.left i j, .leftRight⟩) p2 hcon
      have s2 := pn_share (e := ⟨paintTarget X Y W ci.left i j, .leftRight⟩) p2 hft
      have s3 := ly_area_add p2 hbr hfr hap
      have hpos := area_pos _ p2
      have e1 : ∀ a b : Rect, a.inter b = b.inter a := by intro a b; unfold Rect.inter; simp only [or_comm, max_comm, min_comm]
      rw [e1] at s1 s2
      dsimp only at s1 s2
      linarith

/-- A coloured area is taken for the colour of a cell only if it is behind the cell. -/
theorem pn_sound (hg : Grid X Y r k W gap) (hP : CellPaint X Y r k W lines shapes b c) (hb' : Proper b) (ci : CellInfo) (i j : ℕ) (hi : i < r) (hj : j < k)
    (hb : ci.box = gridCell X Y i j) (h1 : ci.top = W) (h2 : ci.right = W) (h3 : ci.bottom = W) (h4 : ci.left = W ∨ ci.left = 0)
    (fills : List (Rect × ℕ)) (h : pickFill ci.box ci.top ci.right ci.bottom ci.left fills = some (b, c)) : Covers b (innerCell X Y W i j) := by
  rw [pn_pick hg ci i j hi hj hb h1 h2 h3 h4] at h
  have hcon := List.find?_some h
  obtain ⟨p1, p2, p3, p4, p5, p6, p7⟩ := pn_target hg.width hP ci.left h4 i j hi hj
  refine (hP.cells i hi j hj).resolve_right fun ha => pn_not_apart hb' (e := ⟨paintTarget X Y W ci.left i j, .leftRight⟩) p2 (by norm_num) hcon ?_
  obtain ⟨c0, c1, c2, c3⟩ := p4
  rcases ha with ha | ha
  · exact Or.inl ((min_le_min_left _ c2).trans (ha.trans (max_le_max_left _ c0)))
  · exact Or.inr ((min_le_min_left _ c3).trans (ha.trans (max_le_max_left _ c1)))

/-- The grid with a larger distance. -/
theorem pn_grid (hg : Grid X Y r k W gap) (hP : CellPaint X Y r k W lines shapes b c) : Grid X Y r k W (max gap 5) :=
  ⟨hg.rows, hg.cols, fun j hj => by rw [← max_add_add_left]; exact max_lt (hg.gapX j hj) (hP.sizeX j hj).1, fun i hi => by rw [← max_add_add_left]; exact max_lt (hg.gapY i hi) (hP.sizeY i hi).1,
    hg.tenX, hg.tenY, hg.width, hg.tenW⟩

/-- The cells of the table found, and the area behind each. -/
theorem pn_lattice (c : Full.Cfg) (hi : ∀ l, (c.base.lay.iter l).Perm l) (hd : 0 ≤ c.conn) (hc : 0 ≤ c.base.clear) (hw : 0 ≤ c.base.maxW) (hg : Grid X Y r k W gap)
    (hgd : W + 2 * c.conn ≤ gap) (hgw : c.base.maxW + 1 / 20 ≤ gap) (hgc : c.base.clear ≤ gap) (sub : Sub) (others : List Table.St)
    (hp : sub.strokes.Perm (gridStrokes X Y r k W ++ others)) (ho : OtherLines c.conn X Y r k W others) (ty : Types) (f : Found) (ty' : Types)
    (h : latticeStage c ty sub = .ok ([f], ty')) (hcells : f.cells.map CellInfo.box = gridCells X Y r k)
    (hreal : ∀ s ∈ shapes, RealBox s.bbox) (hsf : ∀ g ∈ sub.fills, Sh.fill g.1 g.2 ∈ shapes) {b : Rect} {col : ℕ} (hP : CellPaint X Y r k W lines shapes b col) (hm : (b, col) ∈ sub.fills) :
    Sh.fill b col ∈ ty'.done ∧ ∀ ci ∈ f.cells, ∀ i < r, ∀ j < k, ci.box = gridCell X Y i j → Covers b (innerCell X Y W i j) → ci.bg = some col := by
  have hg5 := pn_grid hg hP
  have key := fb_lattice c hi hd hc hw hg5 (hgd.trans (le_max_left _ _)) (hgw.trans (le_max_left _ _)) (hgc.trans (le_max_left _ _)) (le_max_right _ _) sub others hp ho ty f ty' h hcells
  have hframe : Proper (gridFrame X Y r k W) := by
    have hbp := (hreal _ (hsf _ hm)).1
    obtain ⟨c0, c1, c2, c3⟩ := hP.within
    exact ⟨lt_of_le_of_lt c0 (lt_of_lt_of_le hbp.1 c2), lt_of_le_of_lt c1 (lt_of_lt_of_le hbp.2 c3)⟩
  have hfs : ∀ g ∈ sub.fills.filter (fun f => (gridFrame X Y r k W).contains f.1), Sh.fill g.1 g.2 ∈ shapes ∧ Covers (gridFrame X Y r k W) g.1 := by
    intro g hgm
    obtain ⟨g1, g2⟩ := List.mem_filter.1 hgm
    exact ⟨hsf g g1, (contains_iff _ _ hframe (hreal _ (hsf g g1)).1).1 g2⟩
  have hmf : (b, col) ∈ sub.fills.filter fun f => (gridFrame X Y r k W).contains f.1 :=
    List.mem_filter.2 ⟨hm, (contains_iff _ _ hframe (hreal _ (hsf _ hm)).1).2 hP.within⟩
  have hcell : ∀ i < r, ∀ j < k, ∀ i' < r, ∀ j' < k, gridCell X Y i j = gridCell X Y i' j' → i = i' ∧ j = j' := by
    intro i hi j hj i' hi' j' hj' e
    have e1 : X j = X j' := congrArg Rect.x0 e
    have e2 : Y i = Y i' := congrArg Rect.y0 e
    have hW := hg.width
    have h0 : 0 ≤ max gap 5 := le_trans (by norm_num) (le_max_right _ _)
    constructor
    · rcases lt_trichotomy i i' with q | q | q
      · have := rg_gapY hg5 h0 i i' q (by omega); linarith
      · exact q
      · have := rg_gapY hg5 h0 i' i q (by omega); linarith
    · rcases lt_trichotomy j j' with q | q | q
      · have := rg_gap hg5 h0 j j' q (by omega); linarith
      · exact q
      · have := rg_gap hg5 h0 j' j q (by omega); linarith
  have pick : ∀ ci ∈ f.cells, ∀ i < r, ∀ j < k, ci.box = gridCell X Y i j → Covers b (innerCell X Y W i j) →
      pickFill ci.box ci.top ci.right ci.bottom ci.left (sub.fills.filter fun f => (gridFrame X Y r k W).contains f.1) = some (b, col) := by
    intro ci hci i hi j hj hb hcv
    obtain ⟨⟨i', hi', j', hj', q1, q2, q3, q4, _, q6⟩, _, _⟩ := key ci hci
    obtain ⟨rfl, rfl⟩ := hcell i hi j hj i' hi' j' hj' (hb.symm.trans q1)
    exact pn_found hg hP hreal (hsf _ hm) ci i j hi hj hb q2 q3 q4 q6 hcv _ hfs hmf
  refine ⟨?_, ?_⟩
  · obtain ⟨i, hi', j, hj, hcv⟩ := hP.some_
    have hmem : gridCell X Y i j ∈ f.cells.map CellInfo.box := by
      rw [hcells]
      exact List.mem_flatMap.2 ⟨i, List.mem_range.2 hi', List.mem_map.2 ⟨j, List.mem_range.2 hj, rfl⟩⟩
    obtain ⟨ci, hci, hb⟩ := List.mem_map.1 hmem
    exact (key ci hci).2.2 _ (pick ci hci i hi' j hj hb hcv)
  · intro ci hci i hi' j hj hb hcv
    rw [(key ci hci).2.1, pick ci hci i hi' j hj hb hcv]
    rfl

end FPaint

end Props
