import Verif.Spec.Path
import Mathlib.Data.List.Perm.Basic
/-! # C35, C36, C55, C57: from drawings to strokes and fills -/

namespace Props
open Path Py Geom Spec

/-! ## C35 -/

theorem ends_iff {it : Item} {s e : Pt} : it.ends = some (s, e) ↔ Goes it s e := by
  constructor
  · intro h
    cases it <;> simp only [Item.ends, Option.some.injEq, Prod.mk.injEq, reduceCtorEq] at h
    · obtain ⟨rfl, rfl⟩ := h; exact .line _ _
    · obtain ⟨rfl, rfl⟩ := h; exact .curve _ _ _ _
  · rintro (_ | _) <;> rfl

theorem groupLoop_spec (items : List Item) : ∀ (segs : List Item) (cur : Option Pt), segs.IsChain Follows →
    (∀ a ∈ segs.getLast?, ∃ s e, a.ends = some (s, e) ∧ cur = some e) → Decomposition (segs ++ items) (groupLoop segs cur items) := by
  have headOf : ∀ (x : Item) (items : List Item) (gs : List (List Item)), Decomposition (x :: items) gs →
      ∀ g ∈ gs.head?, ∀ b ∈ g.head?, b = x := by
    intro x items gs h g hg b hb
    cases gs with
    | nil => simp at hg
    | cons g' gs =>
      simp only [List.head?_cons, Option.mem_def, Option.some.injEq] at hg
      subst hg
      cases g' with
      | nil => simp at hb
      | cons y g' =>
        simp only [List.head?_cons, Option.mem_def, Option.some.injEq] at hb
        have := h.all
        simp only [List.flatten_cons, List.cons_append, List.cons.injEq] at this
        exact hb ▸ this.1
  induction items with
  | nil =>
    intro segs cur hc _
    unfold groupLoop
    by_cases h : segs = []
    · subst h
      exact ⟨by simp, by simp, by simp, by simp⟩
    · rw [if_pos h]
      exact ⟨by simp, by simpa using h, by simpa using hc, by simp⟩
  | cons it items ih =>
    intro segs cur hc hcur
    unfold groupLoop
    cases he : it.ends with
    | some se =>
      obtain ⟨s, e⟩ := se
      dsimp only
      by_cases hcon : segs = [] ∨ some s = cur
      · rw [if_pos hcon]
        have : segs ++ it :: items = (segs ++ [it]) ++ items := by simp
        rw [this]
        refine ih _ _ ?_ ?_
        · rw [List.isChain_append]
          refine ⟨hc, by simp, ?_⟩
          intro a ha b hb
          simp only [List.head?_cons, Option.mem_def, Option.some.injEq] at hb
          subst hb
          obtain ⟨s', e', h1, h2⟩ := hcur a ha
          rcases hcon with h | h
          · subst h; simp at ha
          · rw [h2, Option.some.injEq] at h
            subst h
            exact ⟨s', s, e, ends_iff.1 h1, ends_iff.1 he⟩
        · intro a ha
          simp only [List.getLast?_append, List.getLast?_singleton, Option.some_or, Option.mem_def, Option.some.injEq] at ha
          subst ha
          exact ⟨s, e, he, rfl⟩
      · rw [if_neg hcon]
        rw [not_or] at hcon
        have hD := ih [it] (some e) (by simp) (by
          intro a ha
          simp only [List.getLast?_singleton, Option.mem_def, Option.some.injEq] at ha
          subst ha
          exact ⟨s, e, he, rfl⟩)
        refine ⟨by simp [hD.all], ?_, ?_, ?_⟩
        · intro g hg; rcases List.mem_cons.1 hg with rfl | hg
          · exact hcon.1
          · exact hD.nonempty g hg
        · intro g hg; rcases List.mem_cons.1 hg with rfl | hg
          · exact hc
          · exact hD.connected g hg
        · rw [List.isChain_cons]
          refine ⟨?_, hD.maximal⟩
          intro g hg a ha b hb
          have := headOf it items _ (by simpa using hD) g hg b hb
          subst this
          rintro ⟨s', m, e', h1, h2⟩
          rw [← ends_iff] at h1 h2
          obtain ⟨s'', e'', h3, h4⟩ := hcur a ha
          rw [h1] at h3
          rw [he] at h2
          simp only [Option.some.injEq, Prod.mk.injEq] at h3 h2
          exact hcon.2 (by rw [h4, h2.1, ← h3.2])
    | none =>
      dsimp only
      have hD := ih [] cur (by simp) (by simp)
      have nf1 : ∀ a, ¬ Follows a it := by rintro a ⟨_, _, _, _, h⟩; rw [← ends_iff, he] at h; simp at h
      have nf2 : ∀ a, ¬ Follows it a := by rintro a ⟨_, _, _, h, _⟩; rw [← ends_iff, he] at h; simp at h
      have hD2 : Decomposition (it :: items) ([it] :: groupLoop [] cur items) := by
        refine ⟨by simpa using hD.all, ?_, ?_, ?_⟩
        · intro g hg; rcases List.mem_cons.1 hg with rfl | hg
          · simp
          · exact hD.nonempty g hg
        · intro g hg; rcases List.mem_cons.1 hg with rfl | hg
          · simp
          · exact hD.connected g hg
        · rw [List.isChain_cons]
          refine ⟨?_, hD.maximal⟩
          intro g _ a ha b _
          simp only [List.getLast?_singleton, Option.mem_def, Option.some.injEq] at ha
          exact ha ▸ nf2 b
      by_cases h : segs = []
      · subst h; simpa using hD2
      · rw [if_pos h]
        refine ⟨by simp [hD2.all, hD.all], ?_, ?_, ?_⟩
        · intro g hg; rcases List.mem_cons.1 hg with rfl | hg
          · exact h
          · exact hD2.nonempty g hg
        · intro g hg; rcases List.mem_cons.1 hg with rfl | hg
          · exact hc
          · exact hD2.connected g hg
        · rw [List.singleton_append, List.isChain_cons]
          refine ⟨?_, hD2.maximal⟩
          intro g hg a _ b hb
          simp only [List.head?_cons, Option.mem_def, Option.some.injEq] at hg
          subst hg
          simp only [List.head?_cons, Option.mem_def, Option.some.injEq] at hb
          exact hb ▸ nf1 a

/-- **C35**: the groups of every drawing are its decomposition into connected sub-paths. -/
theorem C35_group_segments (items : List Item) : Decomposition items (groupSegments items) := by
  exact groupLoop_spec items [] none (by simp) (by simp)

/-- **C35**: there is only one decomposition, so the specification determines the result. -/
theorem C35_unique (items : List Item) (gs hs : List (List Item)) (hg : Decomposition items gs) (hh : Decomposition items hs) :
    gs = hs := by
  induction gs generalizing items hs with
  | nil =>
    have h1 := hg.all
    have h2 := hh.all
    cases hs with
    | nil => rfl
    | cons h hs =>
      have := hh.nonempty h (by simp)
      rw [← h1] at h2
      simp at h2
      exact absurd h2.1 this
  | cons g gs ih =>
    cases hs with
    | nil =>
      have h1 := hg.all
      rw [← hh.all] at h1
      simp at h1
      exact absurd h1.1 (hg.nonempty g (by simp))
    | cons h hs =>
      have e : g ++ gs.flatten = h ++ hs.flatten := by
        have := hg.all.trans hh.all.symm; simpa using this
      -- the shorter group cannot be a proper prefix of the longer one
      have key : ∀ (g h : List Item) (gs hs : List (List Item)) (t : List Item), g ≠ [] → h.IsChain Follows →
          (g :: gs).IsChain (fun g g' => ∀ a ∈ g.getLast?, ∀ b ∈ g'.head?, ¬ Follows a b) → (∀ x ∈ gs, x ≠ []) →
          h = g ++ t → gs.flatten = t ++ hs.flatten → t = [] := by
        intro g h gs hs t hne hc hm hgs hht hfl
        cases t with
        | nil => rfl
        | cons b t =>
          exfalso
          cases gs with
          | nil => simp at hfl
          | cons g2 gs2 =>
            cases g2 with
            | nil => exact hgs [] (by simp) rfl
            | cons b' g2 =>
              simp only [List.flatten_cons, List.cons_append, List.cons.injEq] at hfl
              rw [List.isChain_cons] at hm
              rw [hht, List.isChain_append] at hc
              obtain ⟨a, ha⟩ : ∃ a, a ∈ g.getLast? := ⟨g.getLast hne, List.getLast?_eq_getLast_of_ne_nil hne⟩
              exact hm.1 (b' :: g2) (by simp) a ha b' (by simp) (hfl.1 ▸ hc.2.2 a ha b (by simp))
      rcases List.append_eq_append_iff.1 e with ⟨t, h1, h2⟩ | ⟨t, h1, h2⟩
      · have ht := key g h gs hs t (hg.nonempty g (by simp)) (hh.connected h (by simp)) hg.maximal
          (fun x hx => hg.nonempty x (by simp [hx])) h1 h2
        subst ht
        have hgh : h = g := by simpa using h1
        subst hgh
        congr 1
        refine ih gs.flatten hs ⟨rfl, fun x hx => hg.nonempty x (by simp [hx]), fun x hx => hg.connected x (by simp [hx]), ?_⟩
          ⟨by simpa using h2.symm, fun x hx => hh.nonempty x (by simp [hx]), fun x hx => hh.connected x (by simp [hx]), ?_⟩
        · exact (List.isChain_cons.1 hg.maximal).2
        · exact (List.isChain_cons.1 hh.maximal).2
      · have ht := key h g hs gs t (hh.nonempty h (by simp)) (hg.connected g (by simp)) hh.maximal
          (fun x hx => hh.nonempty x (by simp [hx])) h1 h2
        subst ht
        have hgh : g = h := by simpa using h1
        subst hgh
        congr 1
        refine ih gs.flatten hs ⟨rfl, fun x hx => hg.nonempty x (by simp [hx]), fun x hx => hg.connected x (by simp [hx]), ?_⟩
          ⟨by simpa using h2, fun x hx => hh.nonempty x (by simp [hx]), fun x hx => hh.connected x (by simp [hx]), ?_⟩
        · exact (List.isChain_cons.1 hg.maximal).2
        · exact (List.isChain_cons.1 hh.maximal).2

/-- Non-vacuity: two connected lines, a rectangle, two unconnected lines. -/
example : groupSegments [.l ⟨0, 0⟩ ⟨1, 0⟩, .l ⟨1, 0⟩ ⟨1, 1⟩, .re ⟨0, 0, 5, 5⟩, .l ⟨2, 2⟩ ⟨3, 2⟩, .l ⟨5, 5⟩ ⟨6, 5⟩] =
    [[.l ⟨0, 0⟩ ⟨1, 0⟩, .l ⟨1, 0⟩ ⟨1, 1⟩], [.re ⟨0, 0, 5, 5⟩], [.l ⟨2, 2⟩ ⟨3, 2⟩], [.l ⟨5, 5⟩ ⟨6, 5⟩]] := by decide +kernel

/-! ## C36 -/

/-- **C36**: a stroked rectangle gives four strokes, each horizontal or vertical with its ends in order, all with the same width
(twice the width of the path) and colour, whose centre lines together are exactly the outline of the rectangle. -/
theorem C36_rect_outline (r : Rect) (hr : r.Valid) (w : ℚ) (c : ℕ) :
    let ss := ((Item.re r).toStrokes w c).map Stroke.ofRaw
    ss.length = 4 ∧
    (∀ s ∈ ss, s.start.x ≤ s.stop.x ∧ s.start.y ≤ s.stop.y ∧ (s.start.x = s.stop.x ∨ s.start.y = s.stop.y) ∧
      (s.horizontal = true ∨ s.vertical = true) ∧ s.width = 2 * w ∧ s.color = c) ∧
    ∀ p, OnOutline r p ↔ ∃ s ∈ ss, OnSegment s.start s.stop p := by
  obtain ⟨hx, hy⟩ := hr
  have e : ((Item.re r).toStrokes w c).map Stroke.ofRaw =
      [⟨⟨r.x0, r.y0⟩, ⟨r.x1, r.y0⟩, w * 2, c⟩, ⟨⟨r.x1, r.y0⟩, ⟨r.x1, r.y1⟩, w * 2, c⟩,
       ⟨⟨r.x0, r.y1⟩, ⟨r.x1, r.y1⟩, w * 2, c⟩, ⟨⟨r.x0, r.y0⟩, ⟨r.x0, r.y1⟩, w * 2, c⟩] := by
    simp only [Item.toStrokes, List.map_cons, List.map_nil, Stroke.ofRaw, lt_irrefl, or_false, false_or, not_lt.2 hx, not_lt.2 hy,
      if_false]
    have e1 : (if r.x0 < r.x1 then (⟨⟨r.x0, r.y1⟩, ⟨r.x1, r.y1⟩, w * 2, c⟩ : Stroke)
        else ⟨⟨r.x1, r.y1⟩, ⟨r.x0, r.y1⟩, w * 2, c⟩) = ⟨⟨r.x0, r.y1⟩, ⟨r.x1, r.y1⟩, w * 2, c⟩ := by
      split
      · rfl
      · have : r.x0 = r.x1 := le_antisymm hx (by linarith)
        rw [this]
    have e2 : (if r.y0 < r.y1 then (⟨⟨r.x0, r.y0⟩, ⟨r.x0, r.y1⟩, w * 2, c⟩ : Stroke)
        else ⟨⟨r.x0, r.y1⟩, ⟨r.x0, r.y0⟩, w * 2, c⟩) = ⟨⟨r.x0, r.y0⟩, ⟨r.x0, r.y1⟩, w * 2, c⟩ := by
      split
      · rfl
      · have : r.y0 = r.y1 := le_antisymm hy (by linarith)
        rw [this]
    rw [e1, e2]
  dsimp only
  rw [e]
  refine ⟨rfl, ?_, ?_⟩
  · intro s hs
    simp only [List.mem_cons, List.not_mem_nil, or_false] at hs
    rcases hs with rfl | rfl | rfl | rfl <;>
      simp [Stroke.horizontal, Stroke.vertical, hx, hy, mul_comm]
  · intro p
    simp only [List.mem_cons, List.not_mem_nil, or_false, exists_eq_or_imp, exists_eq_left, OnOutline, OnSegment]
    constructor
    · rintro ⟨⟨h1, h2, h3, h4⟩, h | h | h | h⟩
      · right; right; right; exact ⟨by linarith, by linarith, h3, h4⟩
      · right; left; exact ⟨by linarith, by linarith, h3, h4⟩
      · left; exact ⟨h1, h2, by linarith, by linarith⟩
      · right; right; left; exact ⟨h1, h2, by linarith, by linarith⟩
    · rintro (⟨h1, h2, h3, h4⟩ | ⟨h1, h2, h3, h4⟩ | ⟨h1, h2, h3, h4⟩ | ⟨h1, h2, h3, h4⟩)
      · exact ⟨⟨h1, h2, h3, by linarith⟩, Or.inr (Or.inr (Or.inl (by linarith)))⟩
      · exact ⟨⟨by linarith, h2, h3, h4⟩, Or.inr (Or.inl (by linarith))⟩
      · exact ⟨⟨h1, h2, by linarith, h4⟩, Or.inr (Or.inr (Or.inr (by linarith)))⟩
      · exact ⟨⟨h1, by linarith, h3, h4⟩, Or.inl (by linarith)⟩

/-- **C36**: a path that is one stroked rectangle is recognised as such: it is iso-oriented and its strokes are those. -/
theorem C36_rect_path (r : Rect) (w : ℚ) (c : ℕ) (close : Bool) :
    let p : Raw := ⟨[.re r], close, w, some c, none⟩
    p.iso = true ∧ p.toShapes = ((Item.re r).toStrokes w c).map .stroke := by
  have h : ∀ close w c, Raw.subpaths ⟨[.re r], close, w, some c, none⟩ = [[.re r]] := by
    intro close w c
    simp [Raw.subpaths, groupSegments, groupLoop, Item.ends, segments]
  dsimp only
  constructor
  · unfold Raw.iso
    rw [h]
    simp only [List.all_cons, List.all_nil, Bool.and_true, isoSegs, bboxArea]
    apply decide_eq_true
    by_cases ha : r.area = 0
    · exact Or.inl ha
    · right; rw [div_self ha]; norm_num
  · unfold Raw.toShapes
    rw [h]
    simp

/-- Non-vacuity. -/
example : (⟨0, 0, 10, 5⟩ : Rect).Valid ∧ (((Item.re ⟨0, 0, 10, 5⟩).toStrokes (1 / 2) 7).map Stroke.ofRaw).map Stroke.bbox =
    [⟨-1/2, -1/2, 21/2, 1/2⟩, ⟨19/2, -1/2, 21/2, 11/2⟩, ⟨-1/2, 9/2, 21/2, 11/2⟩, ⟨-1/2, -1/2, 1/2, 11/2⟩] := by decide +kernel

/-- **C36**: the outline is twice as wide as when the same rectangle is drawn with four lines. -/
theorem C36_width_is_doubled :
    ∃ r : Rect, ∃ s ∈ (Item.re r).toStrokes 1 0, s.width = 2 ∧
      ∃ s' ∈ (Item.l ⟨r.x0, r.y0⟩ ⟨r.x1, r.y0⟩).toStrokes 1 0, s'.start = s.start ∧ s'.stop = s.stop ∧ s'.width = 1 :=
  ⟨⟨0, 0, 10, 5⟩, ⟨⟨0, 0⟩, ⟨10, 0⟩, 2, 0⟩, by decide +kernel, rfl, ⟨⟨0, 0⟩, ⟨10, 0⟩, 1, 0⟩, by decide +kernel, by decide +kernel⟩

/-! ## C55: lines drawn on the page -/

theorem round2_le_of_int {x : ℚ} : |Path.round2 x - x| ≤ 1 / 200 := by
  have h := abs_roundHE_sub (100 * x)
  unfold Path.round2
  rw [abs_le] at *
  constructor <;> linarith [h.1, h.2]

theorem mem_groups_of_mem (items : List Item) (x : Item) (h : x ∈ items) : ∃ g ∈ groupSegments items, x ∈ g := by
  have := (C35_group_segments items).all
  rw [← this] at h
  exact List.mem_flatten.1 h

/-- **C55** (partial): in a group of connected paths without too many curves, every line of an iso-oriented stroked path – and every
edge of a rectangle in it – becomes a stroke between the same points, with the path's colour. -/
theorem C55_lines_kept_partial (ratio : ℚ) (groups : List (List Raw)) (g : List Raw) (hg : g ∈ groups)
    (hc : containsCurve ratio g = false) (p : Raw) (hp : p ∈ g) (hiso : p.iso = true) (c : ℕ) (hcol : p.color = some c)
    (it : Item) (hit : it ∈ p.items) : ∀ s ∈ it.toStrokes p.width c, RawShape.stroke s ∈ (toShapes ratio groups).1 := by
  intro s hs
  unfold toShapes
  dsimp only
  rw [List.mem_flatMap]
  refine ⟨g, hg, ?_⟩
  rw [hc]
  simp only [Bool.false_eq_true, if_false, List.mem_flatMap, List.mem_filter]
  refine ⟨p, ⟨hp, hiso⟩, ?_⟩
  unfold Raw.toShapes
  rw [hcol, List.mem_append]
  left
  dsimp only
  simp only [List.mem_map, List.mem_flatMap]
  obtain ⟨gr, hgr, hin⟩ := mem_groups_of_mem p.items it hit
  refine ⟨s, ⟨segments gr p.close, ?_, it, ?_, hs⟩, rfl⟩
  · unfold Raw.subpaths; exact List.mem_map.2 ⟨gr, hgr, rfl⟩
  · unfold segments; exact List.mem_append_left _ hin

/-- **C55**: conversely, a stroke comes from a line or rectangle of an iso-oriented stroked path, or closes a sub-path of a closed
path. -/
theorem C55_strokes_come_from_lines (ratio : ℚ) (groups : List (List Raw)) (s : RawStroke)
    (h : RawShape.stroke s ∈ (toShapes ratio groups).1) :
    ∃ g ∈ groups, ∃ p ∈ g, p.iso = true ∧ p.color = some s.color ∧
      ((∃ it ∈ p.items, s ∈ it.toStrokes p.width s.color) ∨
       (p.close = true ∧ s.width = p.width ∧ ∃ sub ∈ groupSegments p.items, ∃ a ∈ sub.head?, ∃ b ∈ sub.getLast?,
          ∃ x y, Goes a s.stop x ∧ Goes b y s.start)) := by
  unfold toShapes at h
  dsimp only at h
  rw [List.mem_flatMap] at h
  obtain ⟨g, hg, h⟩ := h
  split at h
  · simp at h
  simp only [List.mem_flatMap, List.mem_filter] at h
  obtain ⟨p, ⟨hp, hiso⟩, h⟩ := h
  unfold Raw.toShapes at h
  rw [List.mem_append] at h
  rcases h with h | h
  · cases hc : p.color with
    | none => rw [hc] at h; simp at h
    | some c =>
      rw [hc] at h
      dsimp only at h
      simp only [List.mem_map, List.mem_flatMap, RawShape.stroke.injEq, exists_eq_right] at h
      obtain ⟨sub, hsub, it, hit, hs⟩ := h
      have hcol : s.color = c := by
        cases it <;> simp [Item.toStrokes] at hs
        · rw [hs]
        · rcases hs with rfl | rfl | rfl | rfl <;> rfl
      refine ⟨g, hg, p, hp, hiso, by rw [hc, hcol], ?_⟩
      unfold Raw.subpaths at hsub
      obtain ⟨gr, hgr, rfl⟩ := List.mem_map.1 hsub
      unfold segments at hit
      rcases List.mem_append.1 hit with hit | hit
      · left
        refine ⟨it, ?_, by rw [hcol]; exact hs⟩
        rw [← (C35_group_segments p.items).all]
        exact List.mem_flatten.2 ⟨gr, hgr, hit⟩
      · right
        split at hit
        · rename_i hcl
          split at hit
          · rename_i e s' e' s'' h1 h2
            simp only [List.mem_singleton] at hit
            subst hit
            simp only [Item.toStrokes, List.mem_singleton] at hs
            subst hs
            rw [Option.bind_eq_some_iff] at h1 h2
            obtain ⟨b, hb, hb'⟩ := h1
            obtain ⟨a, ha, ha'⟩ := h2
            exact ⟨hcl.1, rfl, gr, hgr, a, ha, b, hb, _, _, ends_iff.1 ha', ends_iff.1 hb'⟩
          · simp at hit
        · simp at hit
  · cases hc : p.fill with
    | none => rw [hc] at h; simp at h
    | some c => rw [hc] at h; simp at h

/-- **C55**: a closed path is closed: in a group without too many curves, each sub-path of two or more lines and curves of an
iso-oriented closed stroked path gets a stroke from its end to its start, with the path's width and colour. -/
theorem C55_closing_line (ratio : ℚ) (groups : List (List Raw)) (g : List Raw) (hg : g ∈ groups)
    (hc : containsCurve ratio g = false) (p : Raw) (hp : p ∈ g) (hiso : p.iso = true) (c : ℕ) (hcol : p.color = some c)
    (hcl : p.close = true) (sub : List Item) (hsub : sub ∈ groupSegments p.items) (h2 : 2 ≤ sub.length) :
    ∃ a ∈ sub.head?, ∃ b ∈ sub.getLast?, ∃ s x y e, Goes a s x ∧ Goes b y e ∧
      RawShape.stroke ⟨e, s, p.width, c⟩ ∈ (toShapes ratio groups).1 := by
  have hch := (C35_group_segments p.items).connected sub hsub
  obtain ⟨a, t, rfl⟩ : ∃ a t, sub = a :: t := by cases sub with
    | nil => simp at h2
    | cons a t => exact ⟨a, t, rfl⟩
  have hst : ∃ s x, Goes a s x := by
    cases t with
    | nil => simp at h2
    | cons b t =>
      rw [List.isChain_cons_cons] at hch
      obtain ⟨s, m, _, h, _⟩ := hch.1
      exact ⟨s, m, h⟩
  have hen : ∃ b, (a :: t).getLast? = some b ∧ ∃ y e, Goes b y e := by
    rcases List.eq_nil_or_concat (a :: t) with h | ⟨l, b, h⟩
    · cases h
    · rw [List.concat_eq_append] at h
      refine ⟨b, by rw [h]; simp, ?_⟩
      rcases List.eq_nil_or_concat l with hl | ⟨l', b', hl⟩
      · rw [hl] at h; rw [h] at h2; simp at h2
      · rw [h, hl, List.concat_eq_append, List.append_assoc] at hch
        obtain ⟨_, hch, _⟩ := List.isChain_append.1 hch
        simp only [List.cons_append, List.nil_append, List.isChain_cons_cons] at hch
        obtain ⟨_, m, e, _, h⟩ := hch.1
        exact ⟨m, e, h⟩
  obtain ⟨s, x, hs⟩ := hst
  obtain ⟨b, hb, y, e, he⟩ := hen
  refine ⟨a, rfl, b, hb, s, x, y, e, hs, he, ?_⟩
  have hseg : Item.l e s ∈ segments (a :: t) p.close := by
    unfold segments
    rw [if_pos ⟨hcl, h2⟩, hb]
    simp only [List.head?_cons, Option.bind_some, ends_iff.2 hs, ends_iff.2 he]
    simp
  unfold toShapes
  dsimp only
  rw [List.mem_flatMap]
  refine ⟨g, hg, ?_⟩
  rw [hc]
  simp only [Bool.false_eq_true, if_false, List.mem_flatMap, List.mem_filter]
  refine ⟨p, ⟨hp, hiso⟩, ?_⟩
  unfold Raw.toShapes
  rw [hcol]
  apply List.mem_append_left
  simp only [List.mem_map, List.mem_flatMap, RawShape.stroke.injEq, exists_eq_right]
  exact ⟨_, List.mem_map.2 ⟨_, hsub, rfl⟩, _, hseg, by simp [Item.toStrokes]⟩

/-- A closed path of three lines: the fourth side is added. -/
example :
    let p : Raw := ⟨[.l ⟨0, 0⟩ ⟨10, 0⟩, .l ⟨10, 0⟩ ⟨10, 10⟩, .l ⟨10, 10⟩ ⟨0, 10⟩], true, 1, some 7, none⟩
    containsCurve (1 / 5) [p] = false ∧ p.iso = true ∧ p.items ∈ groupSegments p.items ∧
      RawShape.stroke ⟨⟨0, 10⟩, ⟨0, 0⟩, 1, 7⟩ ∈ (toShapes (1 / 5) [[p]]).1 := by decide +kernel

/-- **C55**: a horizontal or vertical line on its own is always kept; a slanted one (more than 0.01pt in both directions) never. -/
theorem C55_single_line (a b : Pt) :
    (a.x = b.x ∨ a.y = b.y → isoSegs [.l a b] = true) ∧
    (1 / 100 < |a.x - b.x| → 1 / 100 < |a.y - b.y| → isoSegs [.l a b] = false) := by
  have hb : (bboxArea [.l a b]).1 = ⟨Path.round2 (min a.x b.x), Path.round2 (min a.y b.y), Path.round2 (max a.x b.x),
      Path.round2 (max a.y b.y)⟩ := by
    simp [bboxArea, Item.points, minL, maxL]
  constructor
  · intro h
    unfold isoSegs
    apply decide_eq_true
    left
    rw [hb]
    unfold Rect.area Rect.width Rect.height
    rcases h with h | h <;> simp [h]
  · intro hx hy
    have hcl : closed [a, b] = false := by
      unfold closed
      simp only [List.head?_cons, List.getLast?_cons_cons, List.getLast?_singleton, decide_eq_false_iff_not]
      intro h
      linarith
    have hA : (bboxArea [.l a b]).2 = 0 := by
      simp [bboxArea, Item.points, hcl]
    have hne : ∀ u v : ℚ, 1 / 100 < |u - v| → Path.round2 (max u v) - Path.round2 (min u v) ≠ 0 := by
      intro u v h
      have h1 := abs_le.1 (round2_le_of_int (x := max u v))
      have h2 := abs_le.1 (round2_le_of_int (x := min u v))
      have h3 : max u v - min u v = |u - v| := by
        rcases le_total u v with h | h
        · rw [max_eq_right h, min_eq_left h, abs_sub_comm, abs_of_nonneg (by linarith)]
        · rw [max_eq_left h, min_eq_right h, abs_of_nonneg (by linarith)]
      intro h0
      linarith [h1.1, h2.2]
    unfold isoSegs
    apply decide_eq_false
    rw [hb, hA]
    unfold Rect.area Rect.width Rect.height
    rintro (h | h)
    · rcases mul_eq_zero.1 h with h | h
      · exact hne _ _ hx h
      · exact hne _ _ hy h
    · rw [zero_div] at h; norm_num at h

/-- The four sides of an axis-parallel rectangle with corners `(a, b)` and `(c, d)`, drawn from corner `(a, b)`, first along x or
first along y. All orientations and starting corners are of this form. -/
def rectLines (a b c d : ℚ) (xFirst : Bool) : List Item :=
  let p : Pt := if xFirst then ⟨c, b⟩ else ⟨a, d⟩
  let q : Pt := if xFirst then ⟨a, d⟩ else ⟨c, b⟩
  [.l ⟨a, b⟩ p, .l p ⟨c, d⟩, .l ⟨c, d⟩ q, .l q ⟨a, b⟩]

theorem rect_ratio (W H w h : ℚ) (hw : 1 / 5 ≤ w) (hh : 1 / 5 ≤ h) (h1 : |W - w| ≤ 1 / 100) (h2 : |H - h| ≤ 1 / 100) :
    9 / 10 ≤ w * h / (W * H) := by
  rw [abs_le] at h1 h2
  have hW : 0 < W := by linarith [h1.1]
  have hH : 0 < H := by linarith [h2.1]
  rw [le_div_iff₀ (mul_pos hW hH)]
  have k1 : W ≤ 21 / 20 * w := by linarith [h1.2]
  have k2 : H ≤ 21 / 20 * h := by linarith [h2.2]
  have : W * H ≤ (21 / 20 * w) * (21 / 20 * h) := mul_le_mul k1 k2 hH.le (by linarith)
  nlinarith [mul_pos (show 0 < w by linarith) (show 0 < h by linarith)]

/-- **C55** (partial): a rectangle drawn with lines in any direction – four lines, or three and a closing one – is iso-oriented, if
both sides are at least 0.2pt long. -/
theorem C55_rectangle_of_lines_partial (a b c d : ℚ) (xFirst : Bool) (hx : 1 / 5 ≤ |a - c|) (hy : 1 / 5 ≤ |b - d|) (w : ℚ)
    (col fill : Option ℕ) :
    Raw.iso ⟨rectLines a b c d xFirst, false, w, col, fill⟩ = true ∧
    Raw.iso ⟨(rectLines a b c d xFirst).take 3, true, w, col, fill⟩ = true := by
  have hlen : ∀ u v : ℚ, abs (Path.round2 (max u v) - Path.round2 (min u v) - abs (u - v)) ≤ 1 / 100 := by
    intro u v
    have h1 := abs_le.1 (round2_le_of_int (x := max u v))
    have h2 := abs_le.1 (round2_le_of_int (x := min u v))
    have h3 : max u v - min u v = |u - v| := by
      rcases le_total u v with h | h
      · rw [max_eq_right h, min_eq_left h, abs_sub_comm, abs_of_nonneg (by linarith)]
      · rw [max_eq_left h, min_eq_right h, abs_of_nonneg (by linarith)]
    rw [abs_le]
    constructor <;> linarith [h1.1, h1.2, h2.1, h2.2]
  have iso : isoSegs (rectLines a b c d xFirst) = true := by
    have e1 : min (min (min (min (min (min (min a c) c) c) c) a) a) a = min a c := by
      rcases le_total a c with h | h <;> simp [h]
    have e2 : max (max (max (max (max (max (max a c) c) c) c) a) a) a = max a c := by
      rcases le_total a c with h | h <;> simp [h]
    have f1 : min (min (min (min (min (min (min a a) a) c) c) c) c) a = min a c := by
      rcases le_total a c with h | h <;> simp [h]
    have f2 : max (max (max (max (max (max (max a a) a) c) c) c) c) a = max a c := by
      rcases le_total a c with h | h <;> simp [h]
    have e3 : min (min (min (min (min (min (min b b) b) d) d) d) d) b = min b d := by
      rcases le_total b d with h | h <;> simp [h]
    have e4 : max (max (max (max (max (max (max b b) b) d) d) d) d) b = max b d := by
      rcases le_total b d with h | h <;> simp [h]
    have f3 : min (min (min (min (min (min (min b d) d) d) d) b) b) b = min b d := by
      rcases le_total b d with h | h <;> simp [h]
    have f4 : max (max (max (max (max (max (max b d) d) d) d) b) b) b = max b d := by
      rcases le_total b d with h | h <;> simp [h]
    have hbb : (bboxArea (rectLines a b c d xFirst)).1 = ⟨Path.round2 (min a c), Path.round2 (min b d), Path.round2 (max a c),
        Path.round2 (max b d)⟩ := by
      cases xFirst
      · simp only [bboxArea, rectLines, Item.points, minL, maxL, List.flatMap_cons, List.flatMap_nil, List.cons_append,
          List.nil_append, List.map_cons, List.map_nil, List.foldl_cons, List.foldl_nil, Bool.false_eq_true, if_false, f1, f2, f3, f4]
      · simp only [bboxArea, rectLines, Item.points, minL, maxL, List.flatMap_cons, List.flatMap_nil, List.cons_append,
          List.nil_append, List.map_cons, List.map_nil, List.foldl_cons, List.foldl_nil, if_true, e1, e2, e3, e4]
    have hA : (bboxArea (rectLines a b c d xFirst)).2 = |a - c| * |b - d| := by
      rw [← abs_mul]
      cases xFirst
      · simp only [bboxArea, rectLines, Item.points, List.flatMap_cons, List.flatMap_nil, List.cons_append,
          List.nil_append, Bool.false_eq_true, if_false, closed, List.head?_cons, List.getLast?_cons_cons, List.getLast?_singleton,
          sub_self, abs_zero, add_zero, shoelace]
        rw [if_pos (by norm_num), ← abs_neg]
        congr 1; ring
      · simp only [bboxArea, rectLines, Item.points, List.flatMap_cons, List.flatMap_nil, List.cons_append,
          List.nil_append, if_true, closed, List.head?_cons, List.getLast?_cons_cons, List.getLast?_singleton,
          sub_self, abs_zero, add_zero, shoelace]
        rw [if_pos (by norm_num)]
        congr 1; ring
    unfold isoSegs
    apply decide_eq_true
    right
    rw [hbb, hA]
    exact rect_ratio _ _ _ _ hx hy (hlen a c) (hlen b d)
  constructor
  · have : Raw.subpaths ⟨rectLines a b c d xFirst, false, w, col, fill⟩ = [rectLines a b c d xFirst] := by
      cases xFirst <;> simp [Raw.subpaths, groupSegments, rectLines, groupLoop, Item.ends, segments]
    unfold Raw.iso
    rw [this]
    simp [iso]
  · have : Raw.subpaths ⟨(rectLines a b c d xFirst).take 3, true, w, col, fill⟩ = [rectLines a b c d xFirst] := by
      cases xFirst <;> simp [Raw.subpaths, groupSegments, rectLines, groupLoop, Item.ends, segments]
    unfold Raw.iso
    rw [this]
    simp [iso]

/-- Non-vacuity: a 100 x 50 rectangle drawn upwards from its lower right corner gives four strokes. -/
example : (toShapes (1 / 5) [[⟨rectLines 100 50 0 0 false, false, 1, some 0, none⟩]]).1.length = 4 := by decide +kernel

/-- **C55 is false** for connected lines that are not closed: a corner made of a horizontal and a vertical line, drawn as one path,
is treated as a curve and lost, while the same lines drawn as two paths are kept. -/
theorem C55_refuted_open_corner :
    ∃ a b c : Pt, a.y = b.y ∧ b.x = c.x ∧
      (toShapes (1 / 5) [[⟨[.l a b, .l b c], false, 1, some 0, none⟩]]) = ([], true) ∧
      (toShapes (1 / 5) [[⟨[.l a b], false, 1, some 0, none⟩, ⟨[.l b c], false, 1, some 0, none⟩]]) =
        ([.stroke ⟨a, b, 1, 0⟩, .stroke ⟨b, c, 1, 0⟩], false) :=
  ⟨⟨0, 0⟩, ⟨100, 0⟩, ⟨100, 50⟩, rfl, rfl, by decide +kernel, by decide +kernel⟩

/-- **C55 is false** for very thin rectangles drawn with lines: 0.062pt is rounded to 0.07pt and the rectangle fills less than 90% of
its rounded box. -/
theorem C55_refuted_hairline_polygon :
    Raw.iso ⟨rectLines (10 + 4 / 1000) 20 (10 + 66 / 1000) 120 true, false, 0, none, some 0⟩ = false := by decide +kernel

/-- **C55**: without curves nothing is lost: all shapes of all paths are there, and no vector graphics are reported. -/
theorem C55_no_curves (ratio : ℚ) (hr : 0 ≤ ratio) (groups : List (List Raw)) (h : ∀ g ∈ groups, ∀ p ∈ g, p.iso = true) :
    toShapes ratio groups = (groups.flatten.flatMap Raw.toShapes, false) := by
  have hc : ∀ g ∈ groups, containsCurve ratio g = false := by
    intro g hg
    unfold containsCurve
    split
    · rfl
    · apply decide_eq_false
      have : (g.filter fun p => !p.iso) = [] := by
        rw [List.filter_eq_nil_iff]; intro p hp; simp [h g hg p hp]
      rw [this]
      simpa using hr
  unfold toShapes
  congr 1
  · induction groups with
    | nil => rfl
    | cons g gs ih =>
      simp only [List.flatMap_cons, List.flatten_cons, List.flatMap_append]
      rw [hc g (by simp), ih (fun g' hg' => h g' (by simp [hg'])) (fun g' hg' => hc g' (by simp [hg']))]
      congr 1
      rw [if_neg (by simp), List.filter_eq_self.2 (h g (by simp))]
  · rw [List.any_eq_false]
    intro g hg
    simp [hc g hg]

/-- **C55**: vector graphics are reported only if some path really is not iso-oriented. -/
theorem C55_svg_sound (ratio : ℚ) (hr : 0 ≤ ratio) (groups : List (List Raw)) (h : (toShapes ratio groups).2 = true) :
    ∃ g ∈ groups, ∃ p ∈ g, p.iso = false := by
  by_contra hcon
  push Not at hcon
  rw [C55_no_curves ratio hr groups (fun g hg p hp => by simpa using hcon g hg p hp)] at h
  simp at h

/-! ## C57: fills -/

theorem minL_le {l : List ℚ} {x : ℚ} (h : x ∈ l) : minL l ≤ x := by
  have key : ∀ (l : List ℚ) (a : ℚ), l.foldl min a ≤ a ∧ ∀ y ∈ l, l.foldl min a ≤ y := by
    intro l
    induction l with
    | nil => intro a; simp
    | cons b l ih =>
      intro a
      obtain ⟨h1, h2⟩ := ih (min a b)
      refine ⟨le_trans h1 (min_le_left _ _), ?_⟩
      intro y hy
      rcases List.mem_cons.1 hy with rfl | hy
      · exact le_trans h1 (min_le_right _ _)
      · exact h2 y hy
  cases l with
  | nil => simp at h
  | cons a l =>
    rcases List.mem_cons.1 h with rfl | h
    · exact (key l _).1
    · exact (key l _).2 x h

theorem le_maxL {l : List ℚ} {x : ℚ} (h : x ∈ l) : x ≤ maxL l := by
  have key : ∀ (l : List ℚ) (a : ℚ), a ≤ l.foldl max a ∧ ∀ y ∈ l, y ≤ l.foldl max a := by
    intro l
    induction l with
    | nil => intro a; simp
    | cons b l ih =>
      intro a
      obtain ⟨h1, h2⟩ := ih (max a b)
      refine ⟨le_trans (le_max_left _ _) h1, ?_⟩
      intro y hy
      rcases List.mem_cons.1 hy with rfl | hy
      · exact le_trans (le_max_right _ _) h1
      · exact h2 y hy
  cases l with
  | nil => simp at h
  | cons a l =>
    rcases List.mem_cons.1 h with rfl | h
    · exact (key l _).1
    · exact (key l _).2 x h

theorem minL_mem {l : List ℚ} (h : l ≠ []) : minL l ∈ l := by
  have key : ∀ (l : List ℚ) (a : ℚ), l.foldl min a ∈ a :: l := by
    intro l
    induction l with
    | nil => intro a; simp
    | cons b l ih =>
      intro a
      have := ih (min a b)
      rw [List.foldl_cons]
      rcases List.mem_cons.1 this with h | h
      · rw [h]; rcases min_choice a b with e | e <;> simp [e]
      · simp [h]
  cases l with
  | nil => exact absurd rfl h
  | cons a l => exact key l a

theorem maxL_mem {l : List ℚ} (h : l ≠ []) : maxL l ∈ l := by
  have key : ∀ (l : List ℚ) (a : ℚ), l.foldl max a ∈ a :: l := by
    intro l
    induction l with
    | nil => intro a; simp
    | cons b l ih =>
      intro a
      have := ih (max a b)
      rw [List.foldl_cons]
      rcases List.mem_cons.1 this with h | h
      · rw [h]; rcases max_choice a b with e | e <;> simp [e]
      · simp [h]
  cases l with
  | nil => exact absurd rfl h
  | cons a l => exact key l a

/-- **C57**: a filled path gives one fill per sub-path, whose box is the bounding box of its points up to 0.005pt: it contains each
point, and each side is reached by a point; for a rectangle it is the rectangle itself. -/
theorem C57_fill_boxes (p : Raw) (c : ℕ) (hc : p.fill = some c) (hcol : p.color = none) :
    p.toShapes = p.subpaths.map (fun s => RawShape.fill (bboxArea s).1 c) ∧
    ∀ s ∈ p.subpaths, (∃ r, s = [.re r] ∧ (bboxArea s).1 = r) ∨
      (let b := (bboxArea s).1
       let near := fun u v : ℚ => |u - v| ≤ 1 / 200
       s.flatMap Item.points ≠ [] ∧
       (∀ q ∈ s.flatMap Item.points, b.x0 - 1 / 200 ≤ q.x ∧ q.x ≤ b.x1 + 1 / 200 ∧ b.y0 - 1 / 200 ≤ q.y ∧ q.y ≤ b.y1 + 1 / 200) ∧
       (∃ q ∈ s.flatMap Item.points, near q.x b.x0) ∧ (∃ q ∈ s.flatMap Item.points, near q.x b.x1) ∧
       (∃ q ∈ s.flatMap Item.points, near q.y b.y0) ∧ (∃ q ∈ s.flatMap Item.points, near q.y b.y1)) := by
  refine ⟨by unfold Raw.toShapes; rw [hc, hcol]; simp, ?_⟩
  intro s hs
  unfold Raw.subpaths at hs
  obtain ⟨g, hg, rfl⟩ := List.mem_map.1 hs
  have hD := C35_group_segments p.items
  have hne := hD.nonempty g hg
  have hch := hD.connected g hg
  by_cases hre : ∃ r, g = [.re r]
  · obtain ⟨r, rfl⟩ := hre
    left
    exact ⟨r, by simp [segments], by simp [segments, bboxArea]⟩
  · right
    have hshape : ∀ r, segments g p.close ≠ [.re r] := by
      intro r h
      obtain ⟨a, g', rfl⟩ := List.exists_cons_of_ne_nil hne
      unfold segments at h
      simp only [List.cons_append, List.cons.injEq, List.append_eq_nil_iff] at h
      exact hre ⟨r, by rw [h.1, h.2.1]⟩
    have hpts : (segments g p.close).flatMap Item.points ≠ [] := by
      obtain ⟨a, g', rfl⟩ := List.exists_cons_of_ne_nil hne
      have ha : a.points ≠ [] := by
        cases a with
        | l => simp [Item.points]
        | c => simp [Item.points]
        | re r =>
          exfalso
          cases g' with
          | nil => exact hre ⟨r, rfl⟩
          | cons b g'' =>
            rw [List.isChain_cons_cons] at hch
            obtain ⟨_, _, _, h, _⟩ := hch.1
            cases h
      unfold segments
      simp only [List.cons_append, List.flatMap_cons, ne_eq, List.append_eq_nil_iff, not_and]
      intro h; exact absurd h ha
    have hb : (bboxArea (segments g p.close)).1 =
        ⟨Path.round2 (minL (((segments g p.close).flatMap Item.points).map Pt.x)),
         Path.round2 (minL (((segments g p.close).flatMap Item.points).map Pt.y)),
         Path.round2 (maxL (((segments g p.close).flatMap Item.points).map Pt.x)),
         Path.round2 (maxL (((segments g p.close).flatMap Item.points).map Pt.y))⟩ := by
      unfold bboxArea
      split
      · rename_i r h; exact absurd h (hshape r)
      · rfl
    dsimp only
    rw [hb]
    dsimp only
    generalize (segments g p.close).flatMap Item.points = pts at *
    have hx : pts.map Pt.x ≠ [] := by simpa using hpts
    have hy : pts.map Pt.y ≠ [] := by simpa using hpts
    have r1 := abs_le.1 (round2_le_of_int (x := minL (pts.map Pt.x)))
    have r2 := abs_le.1 (round2_le_of_int (x := maxL (pts.map Pt.x)))
    have r3 := abs_le.1 (round2_le_of_int (x := minL (pts.map Pt.y)))
    have r4 := abs_le.1 (round2_le_of_int (x := maxL (pts.map Pt.y)))
    refine ⟨hpts, ?_, ?_, ?_, ?_, ?_⟩
    · intro q hq
      have m1 := minL_le (List.mem_map_of_mem (f := Pt.x) hq)
      have m2 := le_maxL (List.mem_map_of_mem (f := Pt.x) hq)
      have m3 := minL_le (List.mem_map_of_mem (f := Pt.y) hq)
      have m4 := le_maxL (List.mem_map_of_mem (f := Pt.y) hq)
      refine ⟨by linarith [r1.2], by linarith [r2.1], by linarith [r3.2], by linarith [r4.1]⟩
    · obtain ⟨q, hq, e⟩ := List.mem_map.1 (minL_mem hx)
      exact ⟨q, hq, by rw [e, abs_sub_comm]; exact abs_le.2 r1⟩
    · obtain ⟨q, hq, e⟩ := List.mem_map.1 (maxL_mem hx)
      exact ⟨q, hq, by rw [e, abs_sub_comm]; exact abs_le.2 r2⟩
    · obtain ⟨q, hq, e⟩ := List.mem_map.1 (minL_mem hy)
      exact ⟨q, hq, by rw [e, abs_sub_comm]; exact abs_le.2 r3⟩
    · obtain ⟨q, hq, e⟩ := List.mem_map.1 (maxL_mem hy)
      exact ⟨q, hq, by rw [e, abs_sub_comm]; exact abs_le.2 r4⟩

/-- Non-vacuity: a filled triangle and a filled rectangle in one path. -/
example : Raw.toShapes ⟨[.l ⟨0, 0⟩ ⟨10, 0⟩, .l ⟨10, 0⟩ ⟨5, 8⟩, .re ⟨20, 0, 30, 5⟩], true, 1, none, some 3⟩ =
    [.fill ⟨0, 0, 10, 8⟩ 3, .fill ⟨20, 0, 30, 5⟩ 3] := by decide +kernel

end Props
