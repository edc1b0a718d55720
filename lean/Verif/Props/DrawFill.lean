import Verif.Spec.DrawFill
import Verif.Props.Draw
import Verif.Props.DrawTable
/-! # C112: lines and filled rectangles drawn on a page -/

namespace Props
open Geom Py Spec Path

theorem df_ink (s : Full.Sh) : inkOf s = Draw.color s := by cases s <;> rfl

theorem df_shapes {p : Path.Raw} (h : BoxDrawing p) : p.toShapes.map Draw.ofRaw = drawnShapes p := by
  have h1 := dr_shapes h.lines
  have h2 : p.toShapes = ({ p with fill := none } : Path.Raw).toShapes ++ (match p.fill with | some c => p.subpaths.map fun s => .fill (bboxArea s).1 c | none => []) := by
    unfold Path.Raw.toShapes
    simp only [List.append_nil]
    rfl
  rw [h2, List.map_append, h1]
  unfold drawnShapes
  have h3 : drawnStrokes { p with fill := none } = drawnStrokes p := rfl
  rw [h3]
  congr 1
  cases hf : p.fill with
  | none => rfl
  | some c =>
    dsimp only
    have hs : p.subpaths = p.items.map fun it => [it] := dr_subpaths (p := { p with fill := none }) h.lines
    rw [hs]
    have hr := h.filled (by simp [hf])
    clear h2 h1 h3 hs h hf
    generalize p.items = its at hr
    induction its with
    | nil => rfl
    | cons it its ih =>
      obtain ⟨r, rfl⟩ := hr it (by simp)
      rw [List.flatMap_cons, ← ih fun x hx => hr x (by simp [hx])]
      rfl

theorem df_to_shapes (ratio : ℚ) (hr : 0 ≤ ratio) (ps : List Path.Raw) (h : ∀ p ∈ ps, BoxDrawing p) :
    ∃ rs, Draw.toShapes ratio ps = .ok (rs, false) ∧ (rs.map Draw.ofRaw).Perm (ps.flatMap drawnShapes) := by
  obtain ⟨gs, h1, h2, _⟩ := C22_never_raises (1 / 10) (1 / 10) (ps.map Draw.pathBox)
  rw [List.length_map] at h2
  have hp := dr_perm_groups ps gs h2
  have hiso : ∀ g ∈ gs.map (fun g => g.filterMap fun i => ps[i]?), ∀ p ∈ g, p.iso = true := by
    intro g hg p hpg
    exact dr_iso (p := { p with fill := none }) (h p (hp.subset (List.mem_flatten.2 ⟨g, hg, hpg⟩))).lines
  have e : Draw.toShapes ratio ps = .ok ((gs.map fun g => g.filterMap fun i => ps[i]?).flatten.flatMap Path.Raw.toShapes, false) := by
    unfold Draw.toShapes
    rw [h1]
    dsimp only
    rw [C55_no_curves ratio hr _ hiso]
  refine ⟨_, e, ?_⟩
  · rw [List.map_flatMap]
    have : ∀ x ∈ (gs.map fun g => g.filterMap fun i => ps[i]?).flatten, x.toShapes.map Draw.ofRaw = drawnShapes x :=
      fun x hx => df_shapes (h x (hp.subset hx))
    rw [List.flatMap_congr this]
    exact hp.flatMap_right _

theorem df_valid {p : Path.Raw} (h : BoxDrawing p) : ∀ s ∈ drawnShapes p, s.bbox.Valid ∧ Draw.isLink s = false ∧ ∀ b c, s = .fill b c → b.round = b := by
  intro s hs
  unfold drawnShapes at hs
  rcases List.mem_append.1 hs with hs | hs
  · obtain ⟨u, hu, rfl⟩ := List.mem_map.1 hs
    exact ⟨dr_drawn_valid h.lines u hu, rfl, by simp⟩
  · cases hf : p.fill with
    | none => rw [hf] at hs; simp at hs
    | some c =>
      rw [hf] at hs
      obtain ⟨it, hit, hs⟩ := List.mem_flatMap.1 hs
      rcases h.lines.lines it hit with ⟨a, b, rfl, _⟩ | ⟨r, rfl, hv⟩
      · simp [itemFills] at hs
      · obtain rfl : s = _ := by simpa [itemFills] using hs
        refine ⟨⟨round1_mono hv.1, round1_mono hv.2⟩, rfl, ?_⟩
        intro b c' e
        cases e
        exact round_round r

/-- A fill of the width of a border becomes the line through its middle; other shapes stay. -/
theorem df_convert (m : ℚ) (s : Full.Sh) (hp : Proper s.bbox) (hr : ∀ b c, s = .fill b c → b.round = b) : Draw.convert m s = asLine m s := by
  cases s with
  | stroke s => rfl
  | link b => rfl
  | fill b c =>
    have hb := hr b c rfl
    have hpb : Proper b := hp
    have ha : b.area ≠ 0 := (mul_pos (sub_pos.2 hpb.1) (sub_pos.2 hpb.2)).ne'
    have hd : (b.x1 - b.x0 < b.y1 - b.y0 ∨ b.y1 - b.y0 ≤ b.x1 - b.x0) := lt_or_ge _ _
    have hu : Draw.update b (.stroke ⟨0, 0, 0, 0, Rect.zero, min b.width b.height, c⟩) = .stroke (midLine b c) := by
      simp only [Draw.update]
      rw [if_neg ha]
      unfold midLine
      by_cases h : b.y1 - b.y0 ≤ b.x1 - b.x0
      · have h' : b.height ≤ b.width := h
        rw [if_pos h, if_pos h', hb, min_eq_right h']; rfl
      · have h' : ¬ b.height ≤ b.width := h
        rw [if_neg h, if_neg h', hb, min_eq_left (not_le.1 h').le]; rfl
    have hm : (midLine b c).bbox = b := by unfold midLine; split <;> rfl
    have ht : (Full.Sh.stroke (midLine b c)).bbox.truthy = true := by
      show (midLine b c).bbox.truthy = true
      rw [hm]; exact truthy_of_proper _ hpb
    simp only [Draw.convert, asLine, hu, ht, if_true]
    by_cases h : m < b.x1 - b.x0 ∧ m < b.y1 - b.y0
    · have h' : m < min b.width b.height := lt_min h.1 h.2
      rw [if_pos h, if_pos h']
    · have h' : ¬ m < min b.width b.height := fun hc => h (lt_min_iff.1 hc)
      rw [if_neg h, if_neg h']

theorem df_asLine_bbox (m : ℚ) (s : Full.Sh) : (asLine m s).bbox = s.bbox := by
  cases s with
  | stroke s => rfl
  | link b => rfl
  | fill b c =>
    simp only [asLine]
    split
    · rfl
    · show (midLine b c).bbox = b
      unfold midLine
      split <;> rfl

theorem df_clean_alone (page : Rect) (hpage : Proper page) (maxBorder t m : ℚ) (l : List Full.Sh) (hv : ∀ s ∈ l, s.bbox.Valid) (hf : ∀ s ∈ l, ∀ b c, s = .fill b c → b.round = b)
    (h : (l.filter (Draw.eligible page m)).Pairwise (Alone t)) : (Draw.cleanUp page maxBorder t m l).Perm ((l.filter (Draw.eligible page m)).map (asLine maxBorder)) := by
  have hp : ((sortBy (fun s : Full.Sh => Coll.key s.bbox.y0 s.bbox.x0 s.bbox.x1) l).filter (Draw.eligible page m)).Perm (l.filter (Draw.eligible page m)) :=
    (sortBy_perm _ l).filter _
  have hpw := (hp.pairwise_iff (fun {a b} h => dr_alone_symm h)).2 h
  have e := dr_fold_alone t _ [] (by simp) hpw
  unfold Draw.cleanUp
  dsimp only
  rw [e, List.nil_append]
  have hpr : ∀ s ∈ (sortBy (fun s : Full.Sh => Coll.key s.bbox.y0 s.bbox.x0 s.bbox.x1) l).filter (Draw.eligible page m), s ∈ l ∧ Proper s.bbox := by
    intro s hs
    have hs' := (mem_sortBy _ _ _).1 (List.mem_of_mem_filter hs)
    exact ⟨hs', ((dr_visible page m s hpage (hv s hs')).1 (List.mem_filter.1 hs).2).1⟩
  have hc : ((sortBy (fun s : Full.Sh => Coll.key s.bbox.y0 s.bbox.x0 s.bbox.x1) l).filter (Draw.eligible page m)).map (Draw.convert maxBorder) =
      ((sortBy (fun s : Full.Sh => Coll.key s.bbox.y0 s.bbox.x0 s.bbox.x1) l).filter (Draw.eligible page m)).map (asLine maxBorder) := by
    apply List.map_congr_left
    intro s hs
    obtain ⟨h1, h2⟩ := hpr s hs
    exact df_convert maxBorder s h2 (hf s h1)
  rw [hc, List.filter_eq_self.2]
  · exact hp.map _
  · intro s hs
    obtain ⟨u, hu, rfl⟩ := List.mem_map.1 hs
    rw [df_asLine_bbox]
    exact truthy_of_proper _ (hpr u hu).2

theorem df_kept {page : Rect} (hpage : Proper page) {p : Path.Raw} (h : BoxDrawing p) (ho : PointOn page p) : (Draw.pathBox p).intersects page = true :=
  dr_kept (p := { p with fill := none }) hpage h.lines ho

variable {π : Type}

/-- **C112**: lines and filled rectangles drawn on a page are kept one by one, thin filled rectangles as lines. Drawings of lines and (filled) rectangles that have a point on the page (or
nothing visible there): if no two visible lines and areas of the same colour share the merging share of the smaller one, then the shapes of the page are exactly the visible lines, areas
and links; an area not wider than a border is the line through its middle. -/
theorem C112_shapes_kept (c : Draw.Cfg) (p : Draw.Page π) (hr : 0 ≤ c.ratio) (ht : 1 / 1000000 < c.threshold) (hpage : Proper p.box)
    (hd : ∀ d ∈ p.drawings, BoxDrawing d ∧ (PointOn p.box d ∨ ∀ s ∈ drawnShapes d, ¬ Visible p.box c.minDim s.bbox)) (hl : ∀ l ∈ p.links, l.Valid)
    (hsep : ((p.drawings.flatMap drawnShapes).filter fun s => Visible p.box c.minDim s.bbox).Pairwise (Separate c.threshold)) :
    ∃ s, Draw.shapes c p = .ok (s, false) ∧
      s.Perm (((p.drawings.flatMap drawnShapes).filter fun s => Visible p.box c.minDim s.bbox).map (asLine c.whole.full.base.maxW) ++
        ((p.links.map Rect.round).filter fun b => Visible p.box c.minDim b).map Full.Sh.link) := by
  have hst : ∀ d ∈ Draw.restore p.box p.drawings, BoxDrawing d := fun d h => (hd d (List.mem_of_mem_filter h)).1
  obtain ⟨rs, h1, h2⟩ := df_to_shapes c.ratio hr _ hst
  unfold Draw.shapes
  rw [h1]
  refine ⟨_, rfl, ?_⟩
  dsimp only
  set vis : Full.Sh → Bool := fun s => decide (Visible p.box c.minDim s.bbox) with hvis
  set l := ((rs.map Draw.ofRaw) ++ p.links.map fun l => Full.Sh.link l.round).filter fun s => s.bbox.truthy with hldef
  have hvalid : ∀ s ∈ l, s.bbox.Valid ∧ ∀ b c, s = .fill b c → b.round = b := by
    intro s hs
    rcases List.mem_append.1 (List.mem_of_mem_filter hs) with hs | hs
    · obtain ⟨d, hdm, hu⟩ := List.mem_flatMap.1 (h2.subset hs)
      have := df_valid (hst d hdm) s hu
      exact ⟨this.1, this.2.2⟩
    · obtain ⟨b, hb, rfl⟩ := List.mem_map.1 hs
      exact ⟨⟨round1_mono (hl b hb).1, round1_mono (hl b hb).2⟩, by simp⟩
  have hel : l.filter (Draw.eligible p.box c.minDim) = l.filter vis := by
    apply List.filter_congr
    intro s hs
    rw [Bool.eq_iff_iff, dr_visible _ _ _ hpage (hvalid s hs).1, hvis, decide_eq_true_eq]
  have htr : ∀ xs : List Full.Sh, (xs.filter fun s => s.bbox.truthy).filter vis = xs.filter vis := by
    intro xs
    rw [List.filter_filter]
    apply List.filter_congr
    intro s _
    by_cases hv : Visible p.box c.minDim s.bbox
    · have : s.bbox.truthy = true := truthy_of_proper _ hv.1
      simp [this]
    · simp [hvis, hv]
  have hdr : ∀ ds : List Path.Raw, (∀ d ∈ ds, BoxDrawing d ∧ (PointOn p.box d ∨ ∀ s ∈ drawnShapes d, ¬ Visible p.box c.minDim s.bbox)) →
      ((Draw.restore p.box ds).flatMap drawnShapes).filter vis = (ds.flatMap drawnShapes).filter vis := by
    intro ds
    induction ds with
    | nil => intro _; rfl
    | cons d ds ih =>
      intro h
      have hi := ih fun x hx => h x (by simp [hx])
      unfold Draw.restore at hi ⊢
      rw [List.filter_cons]
      split
      · rw [List.flatMap_cons, List.flatMap_cons, List.filter_append, List.filter_append, hi]
      · rename_i hn
        rw [hi, List.flatMap_cons, List.filter_append]
        rcases (h d (by simp)).2 with hk | hk
        · exact absurd (df_kept hpage (h d (by simp)).1 hk) hn
        · have e0 : (drawnShapes d).filter vis = [] := List.filter_eq_nil_iff.2 fun s hs => by simpa [hvis] using hk s hs
          rw [e0, List.nil_append]
  have hfl : (p.links.map fun l => Full.Sh.link l.round).filter vis = ((p.links.map Rect.round).filter fun b => Visible p.box c.minDim b).map Full.Sh.link := by
    have : (p.links.map fun l => Full.Sh.link l.round) = (p.links.map Rect.round).map Full.Sh.link := by rw [List.map_map]; rfl
    rw [this, List.filter_map]
    rfl
  have hperm : (l.filter vis).Perm ((p.drawings.flatMap drawnShapes).filter vis ++ ((p.links.map Rect.round).filter fun b => Visible p.box c.minDim b).map Full.Sh.link) := by
    rw [hldef, htr, List.filter_append, hfl]
    refine List.Perm.append_right _ ?_
    refine (h2.filter _).trans ?_
    rw [hdr _ hd]
  have hpw : (l.filter vis).Pairwise (Alone c.threshold) := by
    refine (hperm.pairwise_iff (fun {a b} h => dr_alone_symm h)).2 ?_
    rw [List.pairwise_append]
    refine ⟨?_, ?_, ?_⟩
    · refine List.Pairwise.imp_of_mem ?_ hsep
      intro a b ha hb hab
      have hav := (of_decide_eq_true (List.mem_filter.1 ha).2 : Visible p.box c.minDim a.bbox)
      have hbv := (of_decide_eq_true (List.mem_filter.1 hb).2 : Visible p.box c.minDim b.bbox)
      rcases hab with h | h
      · rw [df_ink, df_ink] at h
        exact .inl h
      · exact .inr (.inr (.inr (dr_distinct _ ht _ _ hav.1 hbv.1 h)))
    · rw [List.pairwise_map]
      exact List.pairwise_of_forall fun _ _ => .inr (.inl rfl)
    · intro a _ b hb
      obtain ⟨x, _, rfl⟩ := List.mem_map.1 hb
      exact .inr (.inr (.inl rfl))
  refine (df_clean_alone p.box hpage _ c.threshold c.minDim l (fun s hs => (hvalid s hs).1) (fun s hs => (hvalid s hs).2) (by rw [hel]; exact hpw)).trans ?_
  rw [hel]
  refine (hperm.map _).trans ?_
  rw [List.map_append, List.map_map]
  exact List.Perm.refl _

/-! ## Merged lines -/

/-- A shape with a box in the grid of 0.1pt and of positive size; a stroke is drawn, or runs through the middle of its box. -/
def KeptShape (l : List Full.Sh) (s : Full.Sh) : Prop :=
  Proper s.bbox ∧ s.bbox.round = s.bbox ∧ (∃ o ∈ l, inkOf o = inkOf s) ∧
    ∀ u, s = .stroke u → .stroke u ∈ l ∨ (Centred u ∧ ∃ o, .stroke o ∈ l ∧ o.width = u.width)

theorem df_round_union {a b : Rect} (ha : a.round = a) (hb : b.round = b) : (a.union b).round = a.union b := by
  unfold Rect.union
  split
  · exact ha
  · split
    · exact hb
    · have e : ∀ x y : ℚ, round1 x = x → round1 y = y → round1 (min x y) = min x y ∧ round1 (max x y) = max x y := by
        intro x y hx hy
        rcases le_total x y with h | h
        · rw [min_eq_left h, max_eq_right h]; exact ⟨hx, hy⟩
        · rw [min_eq_right h, max_eq_left h]; exact ⟨hy, hx⟩
      obtain ⟨a0, a1, a2, a3⟩ := a
      obtain ⟨b0, b1, b2, b3⟩ := b
      simp only [Rect.round, Rect.mk.injEq] at ha hb ⊢
      exact ⟨(e _ _ ha.1 hb.1).1, (e _ _ ha.2.1 hb.2.1).1, (e _ _ ha.2.2.1 hb.2.2.1).2, (e _ _ ha.2.2.2 hb.2.2.2).2⟩

theorem df_proper_union {a b : Rect} (ha : Proper a) (hb : Proper b) : Proper (a.union b) := by
  unfold Rect.union
  rw [if_neg (proper_nonempty b hb), if_neg (proper_nonempty a ha)]
  exact ⟨lt_of_le_of_lt (min_le_left _ _) (lt_of_lt_of_le ha.1 (le_max_left _ _)), lt_of_le_of_lt (min_le_left _ _) (lt_of_lt_of_le ha.2 (le_max_left _ _))⟩

theorem df_update {l : List Full.Sh} {r : Full.Sh} (h : KeptShape l r) {b : Rect} (hb : Proper b) (hbr : b.round = b) : KeptShape l (Draw.update b r) := by
  obtain ⟨-, -, h3, h4⟩ := h
  have ha : b.area ≠ 0 := (mul_pos (sub_pos.2 hb.1) (sub_pos.2 hb.2)).ne'
  cases r with
  | fill b' c => exact ⟨by rw [Draw.update]; show Proper b.round; rw [hbr]; exact hb, by show b.round.round = b.round; rw [hbr, hbr], h3, by simp [Draw.update]⟩
  | link b' => exact ⟨by rw [Draw.update]; show Proper b.round; rw [hbr]; exact hb, by show b.round.round = b.round; rw [hbr, hbr], h3, by simp [Draw.update]⟩
  | stroke u =>
    have hw : ∃ o, .stroke o ∈ l ∧ o.width = u.width := by
      rcases h4 u rfl with h | ⟨_, h⟩
      · exact ⟨u, h, rfl⟩
      · exact h
    simp only [Draw.update]
    rw [if_neg ha, hbr]
    by_cases h : b.height ≤ b.width
    · rw [if_pos h]
      refine ⟨hb, hbr, h3, ?_⟩
      intro v e
      cases e
      refine .inr ⟨?_, hw⟩
      unfold Centred
      dsimp only
      rw [if_pos (show b.y1 - b.y0 ≤ b.x1 - b.x0 from h)]
      exact ⟨rfl, rfl, rfl, rfl⟩
    · rw [if_neg h]
      refine ⟨hb, hbr, h3, ?_⟩
      intro v e
      cases e
      refine .inr ⟨?_, hw⟩
      unfold Centred
      dsimp only
      rw [if_neg (show ¬ b.y1 - b.y0 ≤ b.x1 - b.x0 from h)]
      exact ⟨rfl, rfl, rfl, rfl⟩

theorem df_place {l : List Full.Sh} {t : ℚ} {s : Full.Sh} (hs : KeptShape l s) (us : List Full.Sh) (h : ∀ u ∈ us, KeptShape l u) : ∀ u ∈ Draw.place t s us, KeptShape l u := by
  induction us with
  | nil =>
    intro u hu
    rw [Draw.place, List.mem_singleton] at hu
    rw [hu]; exact hs
  | cons r rs ih =>
    have hi := ih fun u hu => h u (by simp [hu])
    have hr := h r (by simp)
    have hc : ∀ u ∈ r :: Draw.place t s rs, KeptShape l u := by
      intro u hu
      rcases List.mem_cons.1 hu with rfl | hu
      · exact hr
      · exact hi u hu
    rw [Draw.place]
    split
    · exact hc
    · split
      · exact hc
      · cases hm : El.mainBbox s.bbox r.bbox t with
        | none => exact hc
        | some b =>
          dsimp only
          split
          · have hb : b = s.bbox.union r.bbox := by
              unfold El.mainBbox at hm
              dsimp only at hm
              split at hm
              · cases hm
              · split at hm <;> split at hm <;> first | exact (Option.some.inj hm).symm | cases hm
            intro u hu
            rcases List.mem_cons.1 hu with rfl | hu
            · rw [hb]
              exact df_update hr (df_proper_union hs.1 hr.1) (df_round_union hs.2.1 hr.2.1)
            · exact h u (by simp [hu])
          · exact hc

/-- **C112** (lines of a page): every line that is left after the clean-up of the shapes was drawn as it is; or it was merged, and runs through the middle of its box from end to end with
the width of a drawn line; or it was a thin area, and is the line through its middle. Its colour is one of the drawn colours. -/
theorem C112_centre_lines (page : Rect) (hpage : Proper page) (maxBorder t m : ℚ) (l : List Full.Sh) (hv : ∀ s ∈ l, s.bbox.Valid ∧ s.bbox.round = s.bbox) (s : Table.St)
    (hs : .stroke s ∈ Draw.cleanUp page maxBorder t m l) :
    (∃ o ∈ l, inkOf o = s.color) ∧ (.stroke s ∈ l ∨ Centred s ∧ (∃ o, .stroke o ∈ l ∧ o.width = s.width) ∨ s = midLine s.bbox s.color ∧ s.width ≤ maxBorder) := by
  unfold Draw.cleanUp at hs
  dsimp only at hs
  obtain ⟨u, hu, e⟩ := List.mem_map.1 (List.mem_of_mem_filter hs)
  have hk : ∀ (xs us : List Full.Sh), (∀ s ∈ xs, KeptShape l s) → (∀ u ∈ us, KeptShape l u) → ∀ u ∈ xs.foldl (fun us s => Draw.place t s us) us, KeptShape l u := by
    intro xs
    induction xs with
    | nil => intro us _ h; exact h
    | cons x xs ih =>
      intro us h1 h2
      rw [List.foldl_cons]
      exact ih _ (fun s hs => h1 s (by simp [hs])) (df_place (h1 x (by simp)) us h2)
  have hku := hk _ [] (by
    intro s hs
    have hm := (mem_sortBy _ _ _).1 (List.mem_of_mem_filter hs)
    have hp := ((dr_visible page m s hpage (hv s hm).1).1 (List.mem_filter.1 hs).2).1
    exact ⟨hp, (hv s hm).2, ⟨s, hm, rfl⟩, fun u e => .inl (e ▸ hm)⟩) (by simp) u hu
  obtain ⟨h1, h2, h3, h4⟩ := hku
  rw [df_convert maxBorder u h1 (by rintro b c rfl; exact h2)] at e
  cases u with
  | stroke u =>
    cases e
    refine ⟨h3, ?_⟩
    rcases h4 s rfl with h | h
    · exact .inl h
    · exact .inr (.inl h)
  | link b => cases e
  | fill b c =>
    simp only [asLine] at e
    split at e
    · cases e
    · rename_i hn
      have e' : midLine b c = s := by simpa using e
      have hbb : s.bbox = b ∧ s.color = c ∧ s.width = min (b.x1 - b.x0) (b.y1 - b.y0) := by
        rw [← e']
        unfold midLine
        split
        · rename_i h; exact ⟨rfl, rfl, (min_eq_right h).symm⟩
        · rename_i h; exact ⟨rfl, rfl, (min_eq_left (not_le.1 h).le).symm⟩
      refine ⟨by rw [hbb.2.1]; exact h3, .inr (.inr ⟨by rw [hbb.1, hbb.2.1, e'], ?_⟩)⟩
      rw [hbb.2.2]
      by_contra hc
      rw [not_le, lt_min_iff] at hc
      exact hn hc

/-! ## An example -/

/-- A shaded area, a rule and a vertical bar drawn as thin filled rectangles, a frame around the shaded area in another colour, a line. -/
def dfPage : Draw.Page ℕ := ⟨⟨0, 0, 400, 600⟩, ⟨0, 0, 400, 600⟩, 3, [],
  [⟨[.re ⟨100, 100, 300, 200⟩, .re ⟨50, 250, 350, 251⟩], false, 1, none, some 5⟩, ⟨[.re ⟨20, 50, 22, 550⟩], false, 1, none, some 5⟩,
   ⟨[.re ⟨100, 100, 300, 200⟩], false, 1 / 2, some 0, none⟩, ⟨[.l ⟨300, 300⟩ ⟨100, 300⟩], false, 1, some 0, none⟩], [⟨20, 20, 60, 30⟩], [], fun _ _ _ _ _ => 0, fun _ _ _ _ => [], ppFmt⟩

theorem df_ex_boxed : ∀ d ∈ dfPage.drawings, BoxDrawing d ∧ PointOn ⟨0, 0, 400, 600⟩ d := by
  intro d hd
  simp only [dfPage, List.mem_cons, List.not_mem_nil, or_false] at hd
  rcases hd with rfl | rfl | rfl | rfl
  · refine ⟨⟨⟨rfl, by norm_num, ?_, ?_⟩, ?_⟩, ⟨_, by simp; exact .inl rfl, ⟨100, 100⟩, by simp [corners], by norm_num, by norm_num, by norm_num, by norm_num⟩⟩
    · intro it hit
      simp only [List.mem_cons, List.not_mem_nil, or_false] at hit
      rcases hit with rfl | rfl <;> exact .inr ⟨_, rfl, by constructor <;> norm_num⟩
    · simp [NotJoined]
    · intro _ it hit
      simp only [List.mem_cons, List.not_mem_nil, or_false] at hit
      rcases hit with rfl | rfl <;> exact ⟨_, rfl⟩
  · refine ⟨⟨⟨rfl, by norm_num, ?_, List.isChain_singleton _⟩, ?_⟩, ⟨_, by simp; exact rfl, ⟨20, 50⟩, by simp [corners], by norm_num, by norm_num, by norm_num, by norm_num⟩⟩
    · intro it hit
      rw [List.mem_singleton] at hit
      exact .inr ⟨_, hit, by constructor <;> norm_num⟩
    · intro _ it hit
      rw [List.mem_singleton] at hit
      exact ⟨_, hit⟩
  · refine ⟨⟨⟨rfl, by norm_num, ?_, List.isChain_singleton _⟩, by simp⟩, ⟨_, by simp; exact rfl, ⟨100, 100⟩, by simp [corners], by norm_num, by norm_num, by norm_num, by norm_num⟩⟩
    intro it hit
    rw [List.mem_singleton] at hit
    exact .inr ⟨_, hit, by constructor <;> norm_num⟩
  · refine ⟨⟨⟨rfl, by norm_num, ?_, List.isChain_singleton _⟩, by simp⟩, ⟨_, by simp; exact rfl, ⟨100, 300⟩, by simp [corners], by norm_num, by norm_num, by norm_num, by norm_num⟩⟩
    intro it hit
    rw [List.mem_singleton] at hit
    exact .inl ⟨_, _, hit, .inr rfl⟩

/-- The hypotheses of C112 are met: the area, the rule and the bar as lines through their middle, the frame, the line and the link. -/
example : ∃ s, Draw.shapes dwCfg dfPage = .ok (s, false) ∧ s.Perm ([.fill ⟨100, 100, 300, 200⟩ 5, .stroke ⟨50, 501 / 2, 350, 501 / 2, ⟨50, 250, 350, 251⟩, 1, 5⟩,
    .stroke ⟨21, 50, 21, 550, ⟨20, 50, 22, 550⟩, 2, 5⟩] ++ ([lineStroke 1 0 ⟨100, 100⟩ ⟨300, 100⟩, lineStroke 1 0 ⟨300, 100⟩ ⟨300, 200⟩, lineStroke 1 0 ⟨100, 200⟩ ⟨300, 200⟩,
    lineStroke 1 0 ⟨100, 100⟩ ⟨100, 200⟩, lineStroke 1 0 ⟨100, 300⟩ ⟨300, 300⟩].map Full.Sh.stroke ++ [.link ⟨20, 20, 60, 30⟩])) := by
  obtain ⟨s, h1, h2⟩ := C112_shapes_kept dwCfg dfPage (by decide +kernel) (by decide +kernel) (by constructor <;> norm_num [dfPage])
    (fun d h => ⟨(df_ex_boxed d h).1, .inl (df_ex_boxed d h).2⟩) (by
      intro l hl
      obtain rfl : l = _ := by simpa [dfPage] using hl
      constructor <;> norm_num) (by unfold Separate; decide +kernel)
  refine ⟨s, h1, h2.trans (List.Perm.of_eq ?_)⟩
  decide +kernel

/-- The hypotheses of C112 (lines of a page) are met: of two lines that overlap one line is left, through the middle of both. -/
example : (Draw.cleanUp ⟨0, 0, 400, 600⟩ 6 (1 / 2) 2 [.stroke (lineStroke 1 0 ⟨100, 100⟩ ⟨300, 100⟩), .stroke (lineStroke (1 / 2) 0 ⟨150, 100⟩ ⟨350, 100⟩)]) =
      [.stroke ⟨199 / 2, 100, 1751 / 5, 100, ⟨199 / 2, 199 / 2, 1751 / 5, 201 / 2⟩, 1, 0⟩] ∧
    ∀ s ∈ [Full.Sh.stroke (lineStroke 1 0 ⟨100, 100⟩ ⟨300, 100⟩), .stroke (lineStroke (1 / 2) 0 ⟨150, 100⟩ ⟨350, 100⟩)], s.bbox.Valid ∧ s.bbox.round = s.bbox := by
  unfold Rect.Valid
  constructor <;> decide +kernel

end Props
