import Verif.Page
import Verif.Props.Element
/-! # C34: page margins -/

namespace Props
open Page Py Geom Spec

theorem min_round_range {x : ℚ} (h : 0 ≤ x) : 0 ≤ min 72 (round1 x) ∧ min 72 (round1 x) ≤ 72 :=
  ⟨le_min (by norm_num) (round1_nonneg h), min_le_left _ _⟩

/-- **C34**: for any content, any page size and any non-negative factors, all margins are between 0 and 72pt. -/
theorem C34_margin_range (w h : ℚ) (blocks shapes : List Rect) (ft fb : ℚ) (hft : 0 ≤ ft) (hfb : 0 ≤ fb) :
    let m := calMargin w h blocks shapes ft fb
    (0 ≤ m.left ∧ m.left ≤ 72) ∧ (0 ≤ m.right ∧ m.right ≤ 72) ∧ (0 ≤ m.top ∧ m.top ≤ 72) ∧ (0 ≤ m.bottom ∧ m.bottom ≤ 72) := by
  dsimp only
  unfold calMargin
  split
  · norm_num
  · dsimp only
    exact ⟨min_round_range (le_max_right _ _), min_round_range (le_max_right _ _),
      min_round_range (mul_nonneg (le_max_right _ _) hft), min_round_range (mul_nonneg (le_max_right _ _) hfb)⟩

theorem tenths_round {r : Rect} (h : Tenths r) : r.round = r := by
  obtain ⟨a, b, c, d, rfl⟩ := h
  simp [Rect.round, round1_tenths]

/-- The hull of boxes with coordinates in tenths has coordinates in tenths: rounding does not change the union. -/
theorem union_round {a b : Rect} (ha : a.round = a) (hb : b.round = b) : (a.union b).round = a.union b := by
  unfold Rect.union
  split
  · exact ha
  · split
    · exact hb
    · have e1 : ∀ x y : ℚ, round1 x = x → round1 y = y → round1 (min x y) = min x y := by
        intro x y hx hy; rcases min_cases x y with ⟨h, _⟩ | ⟨h, _⟩ <;> rw [h] <;> assumption
      have e2 : ∀ x y : ℚ, round1 x = x → round1 y = y → round1 (max x y) = max x y := by
        intro x y hx hy; rcases max_cases x y with ⟨h, _⟩ | ⟨h, _⟩ <;> rw [h] <;> assumption
      have a1 := congrArg Rect.x0 ha; have a2 := congrArg Rect.y0 ha
      have a3 := congrArg Rect.x1 ha; have a4 := congrArg Rect.y1 ha
      have b1 := congrArg Rect.x0 hb; have b2 := congrArg Rect.y0 hb
      have b3 := congrArg Rect.x1 hb; have b4 := congrArg Rect.y1 hb
      simp only [Rect.round] at *
      rw [e1 _ _ a1 b1, e1 _ _ a2 b2, e2 _ _ a3 b3, e2 _ _ a4 b4]

theorem bbox_round (rs : List Rect) : (Coll.bbox rs).round = Coll.bbox rs := by
  unfold Coll.bbox Rect.round
  simp

/-- The box of all blocks and shapes is covered by the page when they all are, covers each of them, and is rounded. -/
theorem content_box (w h : ℚ) (blocks shapes : List Rect) (hne : ¬ (blocks = [] ∧ shapes = []))
    (hp : ∀ r ∈ blocks ++ shapes, Proper r ∧ Tenths r ∧ Covers (pageBox w h) r) :
    let u := (Coll.bbox blocks).union (Coll.bbox shapes)
    Covers (pageBox w h) u ∧ (∀ r ∈ blocks ++ shapes, Covers u r) ∧ u.round = u := by
  have hb : ∀ r ∈ blocks, Proper r ∧ Tenths r := fun r hr => ⟨(hp r (by simp [hr])).1, (hp r (by simp [hr])).2.1⟩
  have hs : ∀ r ∈ shapes, Proper r ∧ Tenths r := fun r hr => ⟨(hp r (by simp [hr])).1, (hp r (by simp [hr])).2.1⟩
  have key : ∀ rs : List Rect, rs ≠ [] → (∀ r ∈ rs, Proper r ∧ Tenths r) → (∀ r ∈ rs, Covers (pageBox w h) r) →
      Covers (pageBox w h) (Coll.bbox rs) ∧ (∀ r ∈ rs, Covers (Coll.bbox rs) r) ∧ ¬ (Coll.bbox rs).isEmpty := by
    intro rs hne h1 h2
    have hh := C24_collection_bbox_partial rs hne h1
    refine ⟨hh.2 _ h2, hh.1, ?_⟩
    obtain ⟨r, l, rfl⟩ := List.exists_cons_of_ne_nil hne
    have c := hh.1 r (by simp)
    have p := (h1 r (by simp)).1
    unfold Covers at c; unfold Proper at p
    unfold Rect.isEmpty
    rintro (e | e)
    · linarith [c.1, c.2.2.1, p.1]
    · linarith [c.2.1, c.2.2.2, p.2]
  refine ⟨?_, ?_, union_round (bbox_round _) (bbox_round _)⟩
  all_goals
    by_cases hb0 : blocks = []
    · have hs0 : shapes ≠ [] := fun e => hne ⟨hb0, e⟩
      obtain ⟨k1, k2, k3⟩ := key shapes hs0 hs (fun r hr => (hp r (by simp [hr])).2.2)
      have : (Coll.bbox blocks).union (Coll.bbox shapes) = Coll.bbox shapes := by
        subst hb0
        unfold Rect.union
        rw [if_neg k3, if_pos]
        simp [Coll.bbox, Rect.zero, Rect.isEmpty, Rect.round]
      rw [this]
      first
        | exact k1
        | (subst hb0; simpa using k2)
    · obtain ⟨k1, k2, k3⟩ := key blocks hb0 hb (fun r hr => (hp r (by simp [hr])).2.2)
      by_cases hs0 : shapes = []
      · have : (Coll.bbox blocks).union (Coll.bbox shapes) = Coll.bbox blocks := by
          subst hs0
          unfold Rect.union
          rw [if_pos]
          simp [Coll.bbox, Rect.zero, Rect.isEmpty, Rect.round]
        rw [this]
        first
          | exact k1
          | (subst hs0; simpa using k2)
      · obtain ⟨l1, l2, l3⟩ := key shapes hs0 hs (fun r hr => (hp r (by simp [hr])).2.2)
        have e : (Coll.bbox blocks).union (Coll.bbox shapes) = ⟨min (Coll.bbox blocks).x0 (Coll.bbox shapes).x0,
            min (Coll.bbox blocks).y0 (Coll.bbox shapes).y0, max (Coll.bbox blocks).x1 (Coll.bbox shapes).x1,
            max (Coll.bbox blocks).y1 (Coll.bbox shapes).y1⟩ := by
          unfold Rect.union; rw [if_neg l3, if_neg k3]
        first
          | (rw [e]
             exact ⟨le_min k1.1 l1.1, le_min k1.2.1 l1.2.1, max_le k1.2.2.1 l1.2.2.1, max_le k1.2.2.2 l1.2.2.2⟩)
          | (intro r hr
             rcases List.mem_append.1 hr with hr | hr
             · obtain ⟨c1, c2, c3, c4⟩ := k2 r hr
               obtain ⟨d1, d2, d3, d4⟩ := Rect.union_covers_left _ (Coll.bbox shapes) k3
               exact ⟨le_trans d1 c1, le_trans d2 c2, le_trans c3 d3, le_trans c4 d4⟩
             · obtain ⟨c1, c2, c3, c4⟩ := l2 r hr
               obtain ⟨d1, d2, d3, d4⟩ := Rect.union_covers_right (Coll.bbox blocks) _ l3
               exact ⟨le_trans d1 c1, le_trans d2 c2, le_trans c3 d3, le_trans c4 d4⟩)

theorem round1_half (x : ℚ) (h0 : 0 ≤ x) : round1 x ≤ 2 * x := by
  by_cases h : x ≤ 1 / 20
  · have : round1 x ≤ round1 (1 / 20) := round1_mono h
    have e : round1 (1 / 20) = 0 := by decide +kernel
    rw [e] at this
    linarith
  · have := abs_round1_sub x
    rw [abs_le] at this
    linarith [this.2]

/-- **C34** (partial): if all blocks and shapes have an area and lie on the page (boxes are stored in tenths), the working area
contains them: with a bottom factor up to 1/2 (default) exactly, otherwise up to 0.05pt at the bottom. In particular the working
area is never empty or inverted. -/
theorem C34_working_area_contains_content_partial (w h : ℚ) (blocks shapes : List Rect) (ft fb : ℚ) (hft : 0 ≤ ft) (hft1 : ft ≤ 1)
    (hfb : 0 ≤ fb) (hfb1 : fb ≤ 1)
    (hp : ∀ r ∈ blocks ++ shapes, Proper r ∧ Tenths r ∧ Covers (pageBox w h) r) :
    let b := workingBbox w h (calMargin w h blocks shapes ft fb)
    ∀ r ∈ blocks ++ shapes, b.x0 ≤ r.x0 ∧ b.y0 ≤ r.y0 ∧ r.x1 ≤ b.x1 ∧ r.y1 ≤ b.y1 + 1 / 20 ∧ (fb ≤ 1 / 2 → r.y1 ≤ b.y1) := by
  intro b r hr
  have hne : ¬ (blocks = [] ∧ shapes = []) := by
    rintro ⟨rfl, rfl⟩; simp at hr
  obtain ⟨h1, h2, h3⟩ := content_box w h blocks shapes hne hp
  have hcr := h2 r hr
  simp only [b]
  unfold workingBbox calMargin
  rw [if_neg hne]
  dsimp only
  generalize (Coll.bbox blocks).union (Coll.bbox shapes) = u at *
  obtain ⟨p1, p2, p3, p4⟩ := h1
  obtain ⟨c1, c2, c3, c4⟩ := hcr
  have u0 := congrArg Rect.x0 h3; have v0 := congrArg Rect.y0 h3
  simp only [Rect.round, pageBox] at *
  rw [sub_zero, sub_zero, max_eq_left p1, max_eq_left p2, max_eq_left (sub_nonneg.2 p4), u0]
  have l1 : min 72 u.x0 ≤ u.x0 := min_le_right _ _
  have t1 : min 72 (round1 (u.y0 * ft)) ≤ u.y0 := by
    refine le_trans (min_le_right _ _) ?_
    have : u.y0 * ft ≤ u.y0 := by nlinarith
    have := round1_mono this
    rwa [v0] at this
  have r1 : min 72 (round1 (max (w - u.x1 - 1) 0)) ≤ w - u.x1 := by
    refine le_trans (min_le_right _ _) ?_
    by_cases hc : 0 ≤ w - u.x1 - 1
    · rw [max_eq_left hc]
      have := abs_round1_sub (w - u.x1 - 1)
      rw [abs_le] at this
      linarith [this.2]
    · rw [max_eq_right (by linarith), round1_zero]; linarith
  have hb0 : 0 ≤ h - u.y1 := sub_nonneg.2 p4
  have b1 : min 72 (round1 ((h - u.y1) * fb)) ≤ (h - u.y1) + 1 / 20 := by
    refine le_trans (min_le_right _ _) ?_
    have := abs_round1_sub ((h - u.y1) * fb)
    rw [abs_le] at this
    nlinarith [this.2]
  have b2 : fb ≤ 1 / 2 → min 72 (round1 ((h - u.y1) * fb)) ≤ h - u.y1 := by
    intro hf
    refine le_trans (min_le_right _ _) (le_trans (round1_half _ (mul_nonneg hb0 hfb)) ?_)
    nlinarith
  refine ⟨by linarith, by linarith, by linarith, by linarith, fun hf => by have := b2 hf; linarith⟩

/-- **C34**: a page without content gets normal margins. -/
theorem C34_empty_page (w h ft fb : ℚ) : calMargin w h [] [] ft fb = ⟨72, 72, 72, 72⟩ := by
  unfold calMargin; simp

/-- Non-vacuity: a block on an A4 page. -/
example : (∀ r ∈ [(⟨90, 100, 500, 700⟩ : Rect)] ++ [], Proper r ∧ Tenths r ∧ Covers (pageBox (5953 / 10) (84189 / 100)) r) ∧
    calMargin (5953 / 10) (84189 / 100) [⟨90, 100, 500, 700⟩] [] (1 / 2) (1 / 2) = ⟨72, 72, 50, 709 / 10⟩ := by
  refine ⟨?_, by decide +kernel⟩
  intro r hr
  simp only [List.append_nil, List.mem_singleton] at hr
  subst hr
  exact ⟨by decide +kernel, ⟨900, 1000, 5000, 7000, by norm_num⟩, by decide +kernel⟩

/-- **C34 is false** for boxes without area (a hairline drawn as a zero-width fill): they are ignored, so the working area of a page
with a text block and a vertical hairline left of it does not contain the hairline. -/
theorem C34_refuted_hairline :
    ∃ (block hair : Rect), Covers (pageBox 600 800) hair ∧ hair.truthy = true ∧ hair.Valid ∧
      ¬ Covers (workingBbox 600 800 (calMargin 600 800 [block] [hair] (1 / 2) (1 / 2))) hair :=
  ⟨⟨60, 100, 500, 700⟩, ⟨40, 100, 40, 700⟩, by decide +kernel, by decide +kernel, by decide +kernel, by decide +kernel⟩

/-- **C34 is false** exactly for bottom factors above 1/2: with factor 1 the last 0.03pt are outside. -/
theorem C34_refuted_bottom_rounding :
    ∃ (h : ℚ) (block : Rect), Covers (pageBox 600 h) block ∧ Proper block ∧
      ¬ Covers (workingBbox 600 h (calMargin 600 h [block] [] 1 1)) block :=
  ⟨700 + 77 / 100, ⟨60, 100, 500, 700⟩, by decide +kernel, by decide +kernel, by decide +kernel⟩

end Props
