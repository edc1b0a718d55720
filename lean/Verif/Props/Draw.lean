import Verif.Spec.Draw
import Verif.Props.Path
import Verif.Props.Shapes
import Verif.Props.Sweep
import Verif.Props.Assign
import Verif.Props.Element
import Verif.Props.FullTable
import Verif.Props.FullPage
import Verif.Props.Pipe
/-! # C109: separate lines drawn on a page are kept one by one -/

namespace Props
open Geom Py Spec Path

/-! ## The clean-up sees what `Shapes.cleanUp` sees -/

theorem dr_color (s : Full.Sh) : s.shp.color = Draw.color s := by cases s <;> rfl
theorem dr_bbox (s : Full.Sh) : s.shp.bbox = s.bbox := by cases s <;> rfl
theorem dr_link (s : Full.Sh) : s.shp.kind = .link ↔ Draw.isLink s = true := by cases s <;> simp [Full.Sh.shp, Draw.isLink]

theorem dr_update (r : Rect) (s : Full.Sh) : (Draw.update r s).shp = s.shp.update r := by
  cases s with
  | stroke s =>
    simp only [Draw.update, Full.Sh.shp, Shapes.Shp.update]
    by_cases h : r.area = 0
    · simp [h]
    · by_cases h2 : r.height ≤ r.width <;> simp [h, h2]
  | fill b c => simp [Draw.update, Full.Sh.shp, Shapes.Shp.update]
  | link b => simp [Draw.update, Full.Sh.shp, Shapes.Shp.update]

theorem dr_place (t : ℚ) (s : Full.Sh) (us : List Full.Sh) : (Draw.place t s us).map Full.Sh.shp = Shapes.place t s.shp (us.map Full.Sh.shp) := by
  induction us with
  | nil => rfl
  | cons r rs ih =>
    rw [List.map_cons, Draw.place, Shapes.place, dr_color, dr_color, dr_bbox, dr_bbox]
    by_cases h1 : Draw.color r ≠ Draw.color s
    · rw [if_pos h1, if_pos h1, List.map_cons, ih]
    · rw [if_neg h1, if_neg h1]
      by_cases h2 : Draw.isLink s = true ∨ Draw.isLink r = true
      · rw [if_pos h2, if_pos (by rwa [dr_link, dr_link]), List.map_cons, ih]
      · rw [if_neg h2, if_neg (by rwa [dr_link, dr_link])]
        cases El.mainBbox s.bbox r.bbox t with
        | none => dsimp only; rw [List.map_cons, ih]
        | some b =>
          dsimp only
          split
          · rw [List.map_cons, dr_update]
          · rw [List.map_cons, ih]

theorem dr_convert (m : ℚ) (s : Full.Sh) : (Draw.convert m s).shp = Shapes.convert m s.shp := by
  cases s with
  | stroke s => rfl
  | link b => rfl
  | fill b c =>
    have e : (Full.Sh.fill b c).shp = ⟨.fill, c, b, 0, 0⟩ := rfl
    rw [e]
    by_cases h : m < min b.width b.height
    · have e1 : Draw.convert m (.fill b c) = .fill b c := by simp [Draw.convert, h]
      have e2 : Shapes.convert m ⟨.fill, c, b, 0, 0⟩ = ⟨.fill, c, b, 0, 0⟩ := by simp [Shapes.convert, Shapes.Shp.toStroke, h]
      rw [e1, e2, e]
    · have e1 : Draw.convert m (.fill b c) = if (Draw.update b (.stroke ⟨0, 0, 0, 0, Rect.zero, min b.width b.height, c⟩)).bbox.truthy
          then Draw.update b (.stroke ⟨0, 0, 0, 0, Rect.zero, min b.width b.height, c⟩) else .fill b c := by
        simp only [Draw.convert]; rw [if_neg h]
      have e2 : Shapes.convert m ⟨.fill, c, b, 0, 0⟩ = if ((⟨.stroke, c, Rect.zero, min b.width b.height, 0⟩ : Shapes.Shp).update b).bbox.truthy
          then (⟨.stroke, c, Rect.zero, min b.width b.height, 0⟩ : Shapes.Shp).update b else ⟨.fill, c, b, 0, 0⟩ := by
        simp [Shapes.convert, Shapes.Shp.toStroke, h]
      have e3 := dr_update b (.stroke ⟨0, 0, 0, 0, Rect.zero, min b.width b.height, c⟩)
      have e4 : (Full.Sh.stroke ⟨0, 0, 0, 0, Rect.zero, min b.width b.height, c⟩).shp = ⟨.stroke, c, Rect.zero, min b.width b.height, 0⟩ := rfl
      rw [e4] at e3
      rw [e1, e2, ← e3, dr_bbox]
      split
      · rfl
      · rfl

theorem dr_sort (l : List Full.Sh) : (sortBy (fun s : Full.Sh => Coll.key s.bbox.y0 s.bbox.x0 s.bbox.x1) l).map Full.Sh.shp =
    sortBy (fun s : Shapes.Shp => Coll.key s.bbox.y0 s.bbox.x0 s.bbox.x1) (l.map Full.Sh.shp) := by
  unfold sortBy
  refine List.map_insertionSort _ _ _ _ ?_
  intro a _ b _
  dsimp only
  rw [dr_bbox, dr_bbox]

theorem dr_eligible (page : Rect) (m : ℚ) (s : Full.Sh) : Shapes.eligible page m s.shp = Draw.eligible page m s := by
  unfold Shapes.eligible Draw.eligible
  rw [dr_bbox]

/-- The clean-up on strokes with centre lines is the clean-up of `Shapes.lean`, whose properties (C37) it has. -/
theorem dr_clean_refines (page : Rect) (maxBorder t m : ℚ) (l : List Full.Sh) :
    (Draw.cleanUp page maxBorder t m l).map Full.Sh.shp = Shapes.cleanUp page maxBorder t m (l.map Full.Sh.shp) := by
  have hf : ∀ (xs us : List Full.Sh), (xs.foldl (fun us s => Draw.place t s us) us).map Full.Sh.shp = (xs.map Full.Sh.shp).foldl (fun us s => Shapes.place t s us) (us.map Full.Sh.shp) := by
    intro xs
    induction xs with
    | nil => intro us; rfl
    | cons x xs ih =>
      intro us
      rw [List.foldl_cons, ih, dr_place]
      rfl
  have hfil : ∀ (p : Full.Sh → Bool) (q : Shapes.Shp → Bool), (∀ s, q s.shp = p s) → ∀ xs : List Full.Sh, (xs.filter p).map Full.Sh.shp = (xs.map Full.Sh.shp).filter q := by
    intro p q h xs
    rw [List.filter_map]
    congr 1
    apply List.filter_congr
    intro x _
    exact (h x).symm
  unfold Draw.cleanUp Shapes.cleanUp
  dsimp only
  rw [hfil _ (fun s => s.bbox.truthy) (fun s => by rw [dr_bbox])]
  congr 1
  rw [List.map_map, ← dr_sort, ← hfil _ _ (dr_eligible page m)]
  have := hf ((sortBy (fun s : Full.Sh => Coll.key s.bbox.y0 s.bbox.x0 s.bbox.x1) l).filter (Draw.eligible page m)) []
  rw [List.map_nil] at this
  rw [← this, List.map_map]
  apply List.map_congr_left
  intro s _
  exact dr_convert maxBorder s

/-! ## Nothing to merge -/

/-- The two shapes are not merged. -/
def Alone (t : ℚ) (a b : Full.Sh) : Prop := Draw.color a ≠ Draw.color b ∨ Draw.isLink a = true ∨ Draw.isLink b = true ∨ El.mainBbox a.bbox b.bbox t = none

theorem dr_main_comm (a b : Rect) (t : ℚ) : El.mainBbox a b t = none ↔ El.mainBbox b a t = none := by
  unfold El.mainBbox
  rw [fy_inter_comm a b, min_comm a.area]
  dsimp only
  split
  · simp
  · split <;> simp

theorem dr_alone_symm {t : ℚ} {a b : Full.Sh} (h : Alone t a b) : Alone t b a := by
  rcases h with h | h | h | h
  · exact .inl (Ne.symm h)
  · exact .inr (.inr (.inl h))
  · exact .inr (.inl h)
  · exact .inr (.inr (.inr ((dr_main_comm _ _ _).1 h)))

theorem dr_place_alone (t : ℚ) (s : Full.Sh) (us : List Full.Sh) (h : ∀ u ∈ us, Alone t s u) : Draw.place t s us = us ++ [s] := by
  induction us with
  | nil => rfl
  | cons r rs ih =>
    have hi := ih fun u hu => h u (by simp [hu])
    rw [Draw.place, hi]
    rcases h r (by simp) with h | h | h | h
    · rw [if_pos (Ne.symm h)]; rfl
    · split
      · rfl
      · rw [if_pos (.inl h)]; rfl
    · split
      · rfl
      · rw [if_pos (.inr h)]; rfl
    · split
      · rfl
      · split
        · rfl
        · rw [h]; rfl

theorem dr_fold_alone (t : ℚ) (l : List Full.Sh) : ∀ us, (∀ u ∈ us, ∀ s ∈ l, Alone t s u) → l.Pairwise (Alone t) → l.foldl (fun us s => Draw.place t s us) us = us ++ l := by
  induction l with
  | nil => intro us _ _; simp
  | cons s l ih =>
    intro us h1 h2
    rw [List.pairwise_cons] at h2
    rw [List.foldl_cons, dr_place_alone t s us fun u hu => h1 u hu s (by simp), ih _ ?_ h2.2]
    · simp
    · intro u hu x hx
      rw [List.mem_append] at hu
      rcases hu with hu | hu
      · exact h1 u hu x (by simp [hx])
      · obtain rfl : u = s := by simpa using hu
        exact dr_alone_symm (h2.1 x hx)

/-- Without fills, and nothing to merge, the clean-up keeps exactly the eligible shapes. -/
theorem dr_clean_alone (page : Rect) (maxBorder t m : ℚ) (l : List Full.Sh) (hf : ∀ s ∈ l, ∀ b c, s ≠ .fill b c) (ht : ∀ s ∈ l, s.bbox.truthy = true)
    (h : (l.filter (Draw.eligible page m)).Pairwise (Alone t)) : (Draw.cleanUp page maxBorder t m l).Perm (l.filter (Draw.eligible page m)) := by
  have hp : ((sortBy (fun s : Full.Sh => Coll.key s.bbox.y0 s.bbox.x0 s.bbox.x1) l).filter (Draw.eligible page m)).Perm (l.filter (Draw.eligible page m)) :=
    (sortBy_perm _ l).filter _
  have hpw := (hp.pairwise_iff (fun {a b} h => dr_alone_symm h)).2 h
  have e := dr_fold_alone t _ [] (by simp) hpw
  unfold Draw.cleanUp
  dsimp only
  rw [e, List.nil_append]
  have hc : ((sortBy (fun s : Full.Sh => Coll.key s.bbox.y0 s.bbox.x0 s.bbox.x1) l).filter (Draw.eligible page m)).map (Draw.convert maxBorder) =
      (sortBy (fun s : Full.Sh => Coll.key s.bbox.y0 s.bbox.x0 s.bbox.x1) l).filter (Draw.eligible page m) := by
    conv_rhs => rw [← List.map_id ((sortBy (fun s : Full.Sh => Coll.key s.bbox.y0 s.bbox.x0 s.bbox.x1) l).filter (Draw.eligible page m))]
    apply List.map_congr_left
    intro s hs
    have hs' := (mem_sortBy _ _ _).1 (List.mem_of_mem_filter hs)
    cases s with
    | stroke s => rfl
    | link b => rfl
    | fill b c => exact absurd rfl (hf _ hs' b c)
  rw [hc, List.filter_eq_self.2]
  · exact hp
  · intro s hs
    exact ht s ((mem_sortBy _ _ _).1 (List.mem_of_mem_filter hs))

theorem dr_visible (page : Rect) (m : ℚ) (s : Full.Sh) (hpage : Proper page) (hv : s.bbox.Valid) : Draw.eligible page m s = true ↔ Visible page m s.bbox := by
  unfold Draw.eligible Visible
  rw [Bool.and_eq_true, Bool.or_eq_true, decide_eq_true_eq, decide_eq_true_eq]
  by_cases hp : Proper s.bbox
  · rw [intersects_iff _ _ hp hpage]
    simp only [Rect.width, Rect.height, hp, true_and, max_lt_iff, lt_min_iff]
    have h1 := hp.1; have h2 := hp.2; have h3 := hpage.1; have h4 := hpage.2
    tauto
  · have : s.bbox.isEmpty := by
      unfold Proper at hp
      unfold Rect.isEmpty
      by_contra hc
      rw [not_or] at hc
      exact hp ⟨lt_of_le_of_ne hv.1 hc.1, lt_of_le_of_ne hv.2 hc.2⟩
    have h2 : s.bbox.intersects page = false := by
      unfold Rect.intersects
      rw [if_pos (.inl this)]
    simp [h2, hp]

/-- Two proper boxes with little in common are not merged. -/
theorem dr_distinct (t : ℚ) (ht : 1 / 1000000 < t) (a b : Rect) (ha : Proper a) (hb : Proper b) (h : commonArea a b < t * min a.area b.area) : El.mainBbox a b t = none := by
  have ha0 : 0 < a.area := mul_pos (sub_pos.2 ha.1) (sub_pos.2 ha.2)
  have hb0 : 0 < b.area := mul_pos (sub_pos.2 hb.1) (sub_pos.2 hb.2)
  have hm : 0 < min a.area b.area := lt_min ha0 hb0
  have hae : ¬ a.isEmpty := by unfold Rect.isEmpty; have := ha.1; have := ha.2; rintro (h | h) <;> linarith
  have hbe : ¬ b.isEmpty := by unfold Rect.isEmpty; have := hb.1; have := hb.2; rintro (h | h) <;> linarith
  unfold El.mainBbox
  dsimp only
  split
  · rfl
  · rw [if_neg]
    rw [not_le]
    split
    · rw [div_lt_iff₀ hm]
      refine lt_of_le_of_lt ?_ h
      unfold Rect.inter
      rw [if_neg (not_or.2 ⟨hae, hbe⟩)]
      dsimp only
      split
      · simp only [Rect.area, Rect.width, Rect.height, Rect.zero, sub_self, mul_zero]
        exact mul_nonneg (le_max_left _ _) (le_max_left _ _)
      · rename_i hn
        rw [not_or, not_lt, not_lt] at hn
        unfold commonArea
        rw [max_eq_right (sub_nonneg.2 hn.1), max_eq_right (sub_nonneg.2 hn.2)]
        exact le_refl _
    · exact ht

/-! ## Drawings of lines -/

theorem dr_loop (items : List Item) : ∀ cur, (∀ it ∈ items, (∃ a b, it = .l a b) ∨ ∃ r, it = .re r) → items.IsChain NotJoined →
    groupLoop [] cur items = items.map (fun it => [it]) ∧
    ∀ a b, (∀ it, items.head? = some it → NotJoined (.l a b) it) → groupLoop [.l a b] (some b) items = [.l a b] :: items.map fun it => [it] := by
  induction items with
  | nil => intro cur _ _; exact ⟨by simp [groupLoop], fun a b _ => by simp [groupLoop]⟩
  | cons it items ih =>
    intro cur h hc
    have ht := ih cur (fun x hx => h x (by simp [hx])) hc.tail
    rcases h it (by simp) with ⟨c, d, rfl⟩ | ⟨r, rfl⟩
    · have hnext : ∀ x, items.head? = some x → NotJoined (.l c d) x := by
        intro x hx
        cases items with
        | nil => simp at hx
        | cons y ys =>
          obtain rfl : y = x := by simpa using hx
          exact (List.isChain_cons_cons.1 hc).1
      have hr := (ih cur (fun x hx => h x (by simp [hx])) hc.tail).2 c d hnext
      constructor
      · simp only [groupLoop, Item.ends, true_or, if_true, List.nil_append, List.map_cons]
        exact hr
      · intro a b hab
        have hne : ¬ ([Item.l a b] = [] ∨ some c = some b) := by
          rintro (h | h)
          · simp at h
          · exact hab _ rfl a b c d rfl rfl (Option.some.inj h).symm
        simp only [groupLoop, Item.ends]
        rw [if_neg hne, List.map_cons, hr]
    · constructor
      · simp only [groupLoop, Item.ends, ne_eq, not_true_eq_false, if_false, List.nil_append, List.map_cons]
        rw [ht.1]
      · intro a b _
        simp only [groupLoop, Item.ends]
        have : (if ([Item.l a b] : List Item) ≠ [] then [[Item.l a b]] else []) = [[Item.l a b]] := by simp
        rw [this, ((ih (some b) (fun x hx => h x (by simp [hx])) hc.tail)).1]
        rfl

theorem dr_subpaths {p : Path.Raw} (h : Straight p) : p.subpaths = p.items.map fun it => [it] := by
  have h1 : ∀ it ∈ p.items, (∃ a b, it = .l a b) ∨ ∃ r, it = .re r := by
    intro it hit
    rcases h.lines it hit with ⟨a, b, rfl, _⟩ | ⟨r, rfl, _⟩
    · exact .inl ⟨a, b, rfl⟩
    · exact .inr ⟨r, rfl⟩
  unfold Path.Raw.subpaths groupSegments
  rw [(dr_loop p.items none h1 h.apart).1, List.map_map]
  apply List.map_congr_left
  intro it _
  simp [segments]

theorem dr_iso {p : Path.Raw} (h : Straight p) : p.iso = true := by
  unfold Path.Raw.iso
  rw [dr_subpaths h, List.all_eq_true]
  intro s hs
  obtain ⟨it, hit, rfl⟩ := List.mem_map.1 hs
  rcases h.lines it hit with ⟨a, b, rfl, hab⟩ | ⟨r, rfl, _⟩
  · exact (C55_single_line a b).1 hab
  · unfold isoSegs
    simp only [bboxArea]
    apply decide_eq_true
    by_cases h0 : r.area = 0
    · exact .inl h0
    · right
      rw [div_self h0]
      norm_num

theorem dr_of_raw (w : ℚ) (c : ℕ) (a b : Pt) (h : a.x = b.x ∨ a.y = b.y) : Draw.ofRaw (.stroke ⟨a, b, w, c⟩) = .stroke (lineStroke w c a b) := by
  unfold Draw.ofRaw lineStroke Stroke.ofRaw Stroke.bbox
  dsimp only
  by_cases hs : b.x < a.x ∨ b.y < a.y
  · rw [if_pos hs]
    dsimp only
    have h1 : b.x ≤ a.x := by rcases hs with h1 | h1 <;> rcases h with h2 | h2 <;> linarith
    have h2 : b.y ≤ a.y := by rcases hs with h1 | h1 <;> rcases h with h2 | h2 <;> linarith
    rw [min_eq_right h1, min_eq_right h2, max_eq_left h1, max_eq_left h2]
  · rw [if_neg hs]
    dsimp only
    rw [not_or, not_lt, not_lt] at hs
    rw [min_eq_left hs.1, min_eq_left hs.2, max_eq_right hs.1, max_eq_right hs.2]

theorem dr_line_comm (w : ℚ) (c : ℕ) (a b : Pt) : lineStroke w c a b = lineStroke w c b a := by
  unfold lineStroke
  rw [min_comm a.x, min_comm a.y, max_comm a.x, max_comm a.y]

theorem dr_item (w : ℚ) (c : ℕ) (it : Item) (h : (∃ a b, it = .l a b ∧ (a.x = b.x ∨ a.y = b.y)) ∨ ∃ r, it = .re r ∧ r.Valid) :
    ((it.toStrokes w c).map RawShape.stroke).map Draw.ofRaw = (itemStrokes w c it).map Full.Sh.stroke := by
  rcases h with ⟨a, b, rfl, hab⟩ | ⟨r, rfl, hr⟩
  · simp only [Item.toStrokes, itemStrokes, List.map_cons, List.map_nil]
    rw [dr_of_raw w c a b hab]
  · simp only [Item.toStrokes, itemStrokes, List.map_cons, List.map_nil]
    rw [dr_of_raw (w * 2) c ⟨r.x0, r.y0⟩ ⟨r.x1, r.y0⟩ (.inr rfl), dr_of_raw (w * 2) c ⟨r.x1, r.y0⟩ ⟨r.x1, r.y1⟩ (.inl rfl),
      dr_of_raw (w * 2) c ⟨r.x1, r.y1⟩ ⟨r.x0, r.y1⟩ (.inr rfl), dr_of_raw (w * 2) c ⟨r.x0, r.y1⟩ ⟨r.x0, r.y0⟩ (.inl rfl), mul_comm w 2,
      dr_line_comm _ _ ⟨r.x1, r.y1⟩ ⟨r.x0, r.y1⟩, dr_line_comm _ _ ⟨r.x0, r.y1⟩ ⟨r.x0, r.y0⟩]

/-- The shapes of a drawing of lines. -/
theorem dr_shapes {p : Path.Raw} (h : Straight p) : p.toShapes.map Draw.ofRaw = (drawnStrokes p).map Full.Sh.stroke := by
  unfold Path.Raw.toShapes drawnStrokes
  rw [h.hollow]
  cases p.color with
  | none => rfl
  | some c =>
    dsimp only
    rw [dr_subpaths h, List.append_nil, List.flatMap_map]
    simp only [List.flatMap_cons, List.flatMap_nil, List.append_nil]
    rw [List.map_flatMap, List.map_flatMap, List.map_flatMap]
    apply List.flatMap_congr
    intro it hit
    exact dr_item p.width c it (h.lines it hit)

/-! ## The drawing is on the page -/

theorem dr_union (rs : List Rect) : ∀ z : Rect, (z.isEmpty ∨ Proper z) → (∀ r ∈ rs, Proper r) →
    (∀ r ∈ rs, Covers (rs.foldl Rect.union z) r) ∧ (Proper z → Covers (rs.foldl Rect.union z) z) ∧ (rs ≠ [] ∨ Proper z → Proper (rs.foldl Rect.union z)) := by
  induction rs with
  | nil =>
    intro z _ _
    refine ⟨by simp, fun _ => ⟨le_refl _, le_refl _, le_refl _, le_refl _⟩, fun h => ?_⟩
    rcases h with h | h
    · exact absurd rfl h
    · exact h
  | cons r rs ih =>
    intro z hz hr
    have hrp := hr r (by simp)
    have hre : ¬ r.isEmpty := proper_nonempty r hrp
    have hu : Proper (z.union r) ∧ Covers (z.union r) r ∧ (Proper z → Covers (z.union r) z) := by
      unfold Rect.union
      rw [if_neg hre]
      rcases hz with hz | hz
      · rw [if_pos hz]
        exact ⟨hrp, ⟨le_refl _, le_refl _, le_refl _, le_refl _⟩, fun h => absurd hz (proper_nonempty z h)⟩
      · rw [if_neg (proper_nonempty z hz)]
        refine ⟨⟨?_, ?_⟩, ⟨min_le_right _ _, min_le_right _ _, le_max_right _ _, le_max_right _ _⟩, fun _ => ⟨min_le_left _ _, min_le_left _ _, le_max_left _ _, le_max_left _ _⟩⟩
        · exact lt_of_le_of_lt (min_le_left _ _) (lt_of_lt_of_le hz.1 (le_max_left _ _))
        · exact lt_of_le_of_lt (min_le_left _ _) (lt_of_lt_of_le hz.2 (le_max_left _ _))
    obtain ⟨h1, h2, h3⟩ := ih (z.union r) (.inr hu.1) fun x hx => hr x (by simp [hx])
    have hc := h2 hu.1
    have tr : ∀ a b c : Rect, Covers a b → Covers b c → Covers a c := fun a b c h k => ⟨h.1.trans k.1, h.2.1.trans k.2.1, k.2.2.1.trans h.2.2.1, k.2.2.2.trans h.2.2.2⟩
    rw [List.foldl_cons]
    refine ⟨?_, fun hz => tr _ _ _ hc (hu.2.2 hz), fun _ => h3 (.inr hu.1)⟩
    intro x hx
    rcases List.mem_cons.1 hx with rfl | hx
    · exact tr _ _ _ hc hu.2.1
    · exact h1 x hx

/-- The box of a part of a drawing. -/
def partBox (w : ℚ) (it : Item) : Rect := if (bboxArea [it]).1.area = 0 then (bboxArea [it]).1.expand w w else (bboxArea [it]).1

theorem dr_part (w : ℚ) (hw : 0 < w) (it : Item) (h : (∃ a b, it = .l a b ∧ (a.x = b.x ∨ a.y = b.y)) ∨ ∃ r, it = .re r ∧ r.Valid) :
    Proper (partBox w it) ∧ ∀ q ∈ corners it, (partBox w it).x0 < q.x + 1 / 100 ∧ q.x - 1 / 100 < (partBox w it).x1 ∧ (partBox w it).y0 < q.y + 1 / 100 ∧ q.y - 1 / 100 < (partBox w it).y1 := by
  rcases h with ⟨a, b, rfl, hab⟩ | ⟨r, rfl, hr⟩
  · have hb : (bboxArea [.l a b]).1 = ⟨Path.round2 (min a.x b.x), Path.round2 (min a.y b.y), Path.round2 (max a.x b.x), Path.round2 (max a.y b.y)⟩ := by
      simp [bboxArea, Item.points, minL, maxL]
    have h0 : (bboxArea [.l a b]).1.area = 0 := by
      rw [hb]
      simp only [Rect.area, Rect.width, Rect.height]
      rcases hab with h | h <;> simp [h]
    unfold partBox
    rw [if_pos h0, hb]
    have rm : ∀ u : ℚ, u - 1 / 200 ≤ Path.round2 u ∧ Path.round2 u ≤ u + 1 / 200 := by
      intro u
      have := abs_le.1 (round2_le_of_int (x := u))
      constructor <;> linarith [this.1, this.2]
    have hmx : Path.round2 (min a.x b.x) ≤ Path.round2 (max a.x b.x) := by
      have : (roundHE (100 * min a.x b.x)) ≤ roundHE (100 * max a.x b.x) := roundHE_mono (by have := min_le_max (a := a.x) (b := b.x); linarith)
      unfold Path.round2
      have : ((roundHE (100 * min a.x b.x) : ℤ) : ℚ) ≤ (roundHE (100 * max a.x b.x) : ℤ) := by exact_mod_cast this
      linarith
    have hmy : Path.round2 (min a.y b.y) ≤ Path.round2 (max a.y b.y) := by
      have : (roundHE (100 * min a.y b.y)) ≤ roundHE (100 * max a.y b.y) := roundHE_mono (by have := min_le_max (a := a.y) (b := b.y); linarith)
      unfold Path.round2
      have : ((roundHE (100 * min a.y b.y) : ℤ) : ℚ) ≤ (roundHE (100 * max a.y b.y) : ℤ) := by exact_mod_cast this
      linarith
    simp only [Rect.expand, Proper]
    refine ⟨⟨by linarith, by linarith⟩, ?_⟩
    intro q hq
    have h1 : min a.x b.x ≤ q.x ∧ q.x ≤ max a.x b.x ∧ min a.y b.y ≤ q.y ∧ q.y ≤ max a.y b.y := by
      simp only [corners, List.mem_cons, List.not_mem_nil, or_false] at hq
      rcases hq with rfl | rfl
      · exact ⟨min_le_left _ _, le_max_left _ _, min_le_left _ _, le_max_left _ _⟩
      · exact ⟨min_le_right _ _, le_max_right _ _, min_le_right _ _, le_max_right _ _⟩
    refine ⟨?_, ?_, ?_, ?_⟩ <;> linarith [(rm (min a.x b.x)).2, (rm (max a.x b.x)).1, (rm (min a.y b.y)).2, (rm (max a.y b.y)).1, h1.1, h1.2.1, h1.2.2.1, h1.2.2.2]
  · have hb : (bboxArea [.re r]).1 = r := rfl
    have hq : ∀ q ∈ corners (.re r), r.x0 ≤ q.x ∧ q.x ≤ r.x1 ∧ r.y0 ≤ q.y ∧ q.y ≤ r.y1 := by
      intro q hq
      simp only [corners, List.mem_cons, List.not_mem_nil, or_false] at hq
      have := hr.1; have := hr.2
      rcases hq with rfl | rfl | rfl | rfl <;> refine ⟨?_, ?_, ?_, ?_⟩ <;> dsimp only <;> linarith
    unfold partBox
    rw [hb]
    by_cases h0 : r.area = 0
    · rw [if_pos h0]
      simp only [Rect.expand, Proper]
      refine ⟨⟨by linarith [hr.1], by linarith [hr.2]⟩, ?_⟩
      intro q h
      obtain ⟨h1, h2, h3, h4⟩ := hq q h
      refine ⟨?_, ?_, ?_, ?_⟩ <;> linarith
    · rw [if_neg h0]
      refine ⟨⟨lt_of_le_of_ne hr.1 ?_, lt_of_le_of_ne hr.2 ?_⟩, ?_⟩
      · intro h; exact h0 (by simp [Rect.area, Rect.width, h])
      · intro h; exact h0 (by simp [Rect.area, Rect.height, h])
      · intro q h
        obtain ⟨h1, h2, h3, h4⟩ := hq q h
        refine ⟨?_, ?_, ?_, ?_⟩ <;> linarith

theorem dr_kept {page : Rect} (hpage : Proper page) {p : Path.Raw} (h : Straight p) (ho : PointOn page p) : (Draw.pathBox p).intersects page = true := by
  have e : Draw.pathBox p = (p.items.map (partBox p.width)).foldl Rect.union Rect.zero := by
    unfold Draw.pathBox
    rw [dr_subpaths h, List.foldl_map, List.foldl_map]
    rfl
  obtain ⟨it, hit, q, hq, h1, h2, h3, h4⟩ := ho
  have hp : ∀ r ∈ p.items.map (partBox p.width), Proper r := by
    intro r hr
    obtain ⟨i, hi, rfl⟩ := List.mem_map.1 hr
    exact (dr_part p.width h.width i (h.lines i hi)).1
  obtain ⟨u1, _, u3⟩ := dr_union (p.items.map (partBox p.width)) Rect.zero (.inl (.inl rfl)) hp
  have hne : p.items.map (partBox p.width) ≠ [] := by
    intro h0
    rw [List.map_eq_nil_iff] at h0
    rw [h0] at hit
    simp at hit
  have hpr := u3 (.inl hne)
  have hc := u1 _ (List.mem_map_of_mem hit)
  obtain ⟨k1, k2, k3, k4⟩ := (dr_part p.width h.width it (h.lines it hit)).2 q hq
  rw [e, intersects_iff _ _ hpr hpage]
  simp only [max_lt_iff, lt_min_iff]
  obtain ⟨c1, c2, c3, c4⟩ := hc
  exact ⟨⟨⟨hpr.1, by linarith⟩, ⟨by linarith, hpage.1⟩⟩, ⟨⟨hpr.2, by linarith⟩, ⟨by linarith, hpage.2⟩⟩⟩

/-! ## The shapes of a page of lines -/

theorem dr_stroke_valid (w : ℚ) (hw : 0 ≤ w) (c : ℕ) (a b : Pt) : (lineStroke w c a b).bbox.Valid := by
  unfold lineStroke
  dsimp only
  have h1 := min_le_max (a := a.x) (b := b.x)
  have h2 := min_le_max (a := a.y) (b := b.y)
  exact ⟨round1_mono (by dsimp only; linarith), round1_mono (by dsimp only; linarith)⟩

theorem dr_drawn_valid {p : Path.Raw} (h : Straight p) : ∀ s ∈ drawnStrokes p, s.bbox.Valid := by
  intro s hs
  have hw := h.width.le
  unfold drawnStrokes at hs
  cases hc : p.color with
  | none => rw [hc] at hs; simp at hs
  | some c =>
    rw [hc] at hs
    obtain ⟨it, hit, hs⟩ := List.mem_flatMap.1 hs
    cases it with
    | l a b =>
      obtain rfl : s = _ := by simpa [itemStrokes] using hs
      exact dr_stroke_valid _ hw _ _ _
    | re r =>
      simp only [itemStrokes, List.mem_cons, List.not_mem_nil, or_false] at hs
      rcases hs with rfl | rfl | rfl | rfl <;> exact dr_stroke_valid _ (by linarith) _ _ _
    | c a b c d => simp [itemStrokes] at hs

theorem dr_perm_groups {α : Type} (l : List α) (gs : List (List ℕ)) (h : gs.flatten.Perm (List.range l.length)) :
    (gs.map fun g => g.filterMap fun i => l[i]?).flatten.Perm l := by
  have e : (gs.map fun g => g.filterMap fun i => l[i]?).flatten = gs.flatten.filterMap fun i => l[i]? := by
    induction gs with
    | nil => rfl
    | cons g gs ih =>
      have : ∀ a b : List ℕ, (a ++ b).filterMap (fun i => l[i]?) = a.filterMap (fun i => l[i]?) ++ b.filterMap fun i => l[i]? := fun a b => List.filterMap_append
      rw [List.map_cons, List.flatten_cons, List.flatten_cons, this]
      congr 1
      clear ih h
      induction gs with
      | nil => rfl
      | cons g gs ih => rw [List.map_cons, List.flatten_cons, List.flatten_cons, this, ih]
  rw [e]
  refine (h.filterMap _).trans ?_
  apply List.Perm.of_eq
  apply List.ext_getElem?
  intro k
  have : (List.range l.length).filterMap (fun i => l[i]?) = l := by
    have h2 : ∀ m : ℕ, m ≤ l.length → (List.range m).filterMap (fun i => l[i]?) = l.take m := by
      intro m
      induction m with
      | zero => intro _; rfl
      | succ m ih =>
        intro hm
        rw [List.range_succ, List.filterMap_append, ih (by omega), List.take_add_one]
        rw [List.filterMap_cons, List.filterMap_nil]
        cases l[m]? <;> rfl
    rw [h2 _ le_rfl, List.take_length]
  rw [this]

/-- Drawings of lines give their lines, whatever their order and grouping. -/
theorem dr_to_shapes (ratio : ℚ) (hr : 0 ≤ ratio) (ps : List Path.Raw) (h : ∀ p ∈ ps, Straight p) :
    ∃ rs, Draw.toShapes ratio ps = .ok (rs, false) ∧ (rs.map Draw.ofRaw).Perm ((ps.flatMap drawnStrokes).map Full.Sh.stroke) := by
  obtain ⟨gs, h1, h2, _⟩ := C22_never_raises (1 / 10) (1 / 10) (ps.map Draw.pathBox)
  rw [List.length_map] at h2
  have hp := dr_perm_groups ps gs h2
  have hiso : ∀ g ∈ gs.map (fun g => g.filterMap fun i => ps[i]?), ∀ p ∈ g, p.iso = true := by
    intro g hg p hpg
    exact dr_iso (h p (hp.subset (List.mem_flatten.2 ⟨g, hg, hpg⟩)))
  have e : Draw.toShapes ratio ps = .ok ((gs.map fun g => g.filterMap fun i => ps[i]?).flatten.flatMap Path.Raw.toShapes, false) := by
    unfold Draw.toShapes
    rw [h1]
    dsimp only
    rw [C55_no_curves ratio hr _ hiso]
  refine ⟨_, e, ?_⟩
  · rw [List.map_flatMap, List.map_flatMap]
    have : ∀ x ∈ (gs.map fun g => g.filterMap fun i => ps[i]?).flatten, x.toShapes.map Draw.ofRaw = (drawnStrokes x).map Full.Sh.stroke :=
      fun x hx => dr_shapes (h x (hp.subset hx))
    rw [List.flatMap_congr this]
    exact hp.flatMap_right _

variable {π : Type}

/-- **C109**: separate horizontal and vertical lines and rectangles drawn on a page are kept one by one. Drawings of lines and unfilled rectangles that have a point on the page (or
nothing visible there): if no two visible lines of the same colour share the merging share of the smaller one, then the shapes of the page are exactly the visible lines, each with its
own ends, box, width and colour, and the visible links; there are no vector graphics. -/
theorem C109_lines_kept (c : Draw.Cfg) (p : Draw.Page π) (hr : 0 ≤ c.ratio) (ht : 1 / 1000000 < c.threshold) (hpage : Proper p.box)
    (hd : ∀ d ∈ p.drawings, Straight d ∧ (PointOn p.box d ∨ ∀ s ∈ drawnStrokes d, ¬ Visible p.box c.minDim s.bbox)) (hl : ∀ l ∈ p.links, l.Valid)
    (hsep : ((p.drawings.flatMap drawnStrokes).filter fun s => Visible p.box c.minDim s.bbox).Pairwise (Distinct c.threshold)) :
    ∃ s, Draw.shapes c p = .ok (s, false) ∧
      s.Perm (((p.drawings.flatMap drawnStrokes).filter fun s => Visible p.box c.minDim s.bbox).map Full.Sh.stroke ++
        ((p.links.map Rect.round).filter fun b => Visible p.box c.minDim b).map Full.Sh.link) := by
  have hst : ∀ d ∈ Draw.restore p.box p.drawings, Straight d := fun d h => (hd d (List.mem_of_mem_filter h)).1
  obtain ⟨rs, h1, h2⟩ := dr_to_shapes c.ratio hr _ hst
  unfold Draw.shapes
  rw [h1]
  refine ⟨_, rfl, ?_⟩
  dsimp only
  set vis : Full.Sh → Bool := fun s => decide (Visible p.box c.minDim s.bbox) with hvis
  set l := ((rs.map Draw.ofRaw) ++ p.links.map fun l => Full.Sh.link l.round).filter fun s => s.bbox.truthy with hldef
  have hvalid : ∀ s ∈ l, s.bbox.Valid := by
    intro s hs
    rcases List.mem_append.1 (List.mem_of_mem_filter hs) with hs | hs
    · obtain ⟨u, hu, rfl⟩ := List.mem_map.1 (h2.subset hs)
      obtain ⟨d, hdm, hu⟩ := List.mem_flatMap.1 hu
      exact dr_drawn_valid (hst d hdm) u hu
    · obtain ⟨b, hb, rfl⟩ := List.mem_map.1 hs
      exact ⟨round1_mono (hl b hb).1, round1_mono (hl b hb).2⟩
  have hel : l.filter (Draw.eligible p.box c.minDim) = l.filter vis := by
    apply List.filter_congr
    intro s hs
    rw [Bool.eq_iff_iff, dr_visible _ _ _ hpage (hvalid s hs), hvis, decide_eq_true_eq]
  have htr : ∀ xs : List Full.Sh, (xs.filter fun s => s.bbox.truthy).filter vis = xs.filter vis := by
    intro xs
    rw [List.filter_filter]
    apply List.filter_congr
    intro s _
    by_cases hv : Visible p.box c.minDim s.bbox
    · have : s.bbox.truthy = true := truthy_of_proper _ hv.1
      simp [this]
    · simp [hvis, hv]
  -- the drawings that are dropped show nothing
  have hdr : ∀ ds : List Path.Raw, (∀ d ∈ ds, Straight d ∧ (PointOn p.box d ∨ ∀ s ∈ drawnStrokes d, ¬ Visible p.box c.minDim s.bbox)) →
      ((Draw.restore p.box ds).flatMap drawnStrokes).filter (fun s => Visible p.box c.minDim s.bbox) = (ds.flatMap drawnStrokes).filter fun s => Visible p.box c.minDim s.bbox := by
    intro ds
    induction ds with
    | nil => intro _; rfl
    | cons d ds ih =>
      intro h
      have hi := ih fun x hx => h x (by simp [hx])
      unfold Draw.restore at hi ⊢
      rw [List.filter_cons]
      split
      · rw [List.flatMap_cons, List.flatMap_cons, List.filter_append, List.filter_append, hi]
      · rename_i hn
        rw [hi, List.flatMap_cons, List.filter_append]
        rcases (h d (by simp)).2 with hk | hk
        · exact absurd (dr_kept hpage (h d (by simp)).1 hk) hn
        · have e0 : (drawnStrokes d).filter (fun s => Visible p.box c.minDim s.bbox) = [] := List.filter_eq_nil_iff.2 fun s hs => by simpa using hk s hs
          rw [e0, List.nil_append]
  have hfm : ∀ (xs : List Table.St), (xs.map Full.Sh.stroke).filter vis = (xs.filter fun s => Visible p.box c.minDim s.bbox).map Full.Sh.stroke := by
    intro xs
    rw [List.filter_map]
    rfl
  have hfl : (p.links.map fun l => Full.Sh.link l.round).filter vis = ((p.links.map Rect.round).filter fun b => Visible p.box c.minDim b).map Full.Sh.link := by
    have : (p.links.map fun l => Full.Sh.link l.round) = (p.links.map Rect.round).map Full.Sh.link := by rw [List.map_map]; rfl
    rw [this, List.filter_map]
    rfl
  have hperm : (l.filter vis).Perm (((p.drawings.flatMap drawnStrokes).filter fun s => Visible p.box c.minDim s.bbox).map Full.Sh.stroke ++
      ((p.links.map Rect.round).filter fun b => Visible p.box c.minDim b).map Full.Sh.link) := by
    rw [hldef, htr, List.filter_append, hfl]
    refine List.Perm.append_right _ ?_
    refine (h2.filter _).trans ?_
    rw [hfm, hdr _ hd]
  have hpw : (l.filter vis).Pairwise (Alone c.threshold) := by
    refine (hperm.pairwise_iff (fun {a b} h => dr_alone_symm h)).2 ?_
    rw [List.pairwise_append]
    refine ⟨?_, ?_, ?_⟩
    · rw [List.pairwise_map]
      refine List.Pairwise.imp_of_mem ?_ hsep
      intro a b ha hb hab
      have hav := (of_decide_eq_true (List.mem_filter.1 ha).2 : Visible p.box c.minDim a.bbox)
      have hbv := (of_decide_eq_true (List.mem_filter.1 hb).2 : Visible p.box c.minDim b.bbox)
      rcases hab with h | h
      · exact .inl h
      · exact .inr (.inr (.inr (dr_distinct _ ht _ _ hav.1 hbv.1 h)))
    · rw [List.pairwise_map]
      exact List.pairwise_of_forall fun _ _ => .inr (.inl rfl)
    · intro a _ b hb
      obtain ⟨x, _, rfl⟩ := List.mem_map.1 hb
      exact .inr (.inr (.inl rfl))
  refine (dr_clean_alone p.box _ c.threshold c.minDim l ?_ ?_ ?_).trans ?_
  · intro s hs b k h
    subst h
    rcases List.mem_append.1 (List.mem_of_mem_filter hs) with hs | hs
    · obtain ⟨u, _, hu⟩ := List.mem_map.1 (h2.subset hs)
      cases hu
    · obtain ⟨b, _, hu⟩ := List.mem_map.1 hs
      cases hu
  · intro s hs
    exact (List.mem_filter.1 hs).2
  · rw [hel]; exact hpw
  · rw [hel]; exact hperm

/-- **C109** refuted (hairlines): a line of width 0 (the thinnest line of the PDF format, drawn one device pixel wide) is dropped, and so is a visible line of width 0.05, as its box to
0.1pt has no area; a line of width 0.2 is kept. -/
theorem C109_refuted_hairline :
    let c : Draw.Cfg := ⟨⟨fun c => c == ' ', 1, 9 / 10, 2, fpCfg⟩, 1 / 5, 1 / 2, 1⟩
    let page (w : ℚ) : Draw.Page Unit := ⟨⟨0, 0, 200, 200⟩, ⟨0, 0, 200, 200⟩, (), [], [⟨[.l ⟨20, 50⟩ ⟨180, 50⟩], false, w, some 0, none⟩], [], [], fun _ _ _ _ _ => 0, fun _ _ _ _ => [], ppFmt⟩
    (Draw.shapes c (page 0)).toOption = some ([], false) ∧ (Draw.shapes c (page (1 / 20))).toOption = some ([], false) ∧
      ((Draw.shapes c (page (1 / 5))).toOption.map fun r => r.1.length) = some 1 := by
  refine ⟨?_, ?_, ?_⟩ <;> decide +kernel

end Props
