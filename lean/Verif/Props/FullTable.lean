import Verif.Props.FullPaint
import Verif.Props.Columns
/-! # C92: a drawn table in a page of text -/

namespace Props
open Py Geom Spec

section FTable
open Full

variable {α : Type}

/-! ## Strokes and text -/

theorem fy_inter_comm (a b : Rect) : a.inter b = b.inter a := by
  unfold Rect.inter
  simp only [or_comm, max_comm, min_comm]

/-- A stroke half of which is outside a line is not part of the line. -/
theorem fy_half (l s H : Rect) (hl : Proper l) (hs : Proper s) (hH : Proper H) (hc : Covers s H) (h2 : 2 * H.area = s.area) (ha : Apart l H) : Shapes.containsBox l s 1 = false := by
  unfold Shapes.containsBox El.contains
  dsimp only
  have hpos := area_pos s hs
  rw [if_neg (ne_of_gt hpos)]
  have h3 := ly_area_add hs hl hH ha
  rw [fy_inter_comm s H, inter_covered H s hH hs hc, fy_inter_comm s l] at h3
  have h4 : (l.inter s).area / s.area ≤ 1 / 2 := by
    rw [div_le_iff₀ hpos]
    linarith
  have h5 := abs_roundHE_sub (100 * ((l.inter s).area / s.area))
  rw [abs_le] at h5
  rw [if_pos]
  rw [div_lt_iff₀ (by norm_num)]
  linarith [h5.2]

theorem fy_determined (s : Shapes.Shp) (tbs : List Shapes.TB) (h : Shapes.determined s tbs = true) : ∃ b ∈ tbs, Shapes.check s b = true := by
  induction tbs with
  | nil => cases h
  | cons b bs ih =>
    unfold Shapes.determined at h
    split_ifs at h with h1 h2 h3
    · obtain ⟨x, hx, hc⟩ := ih h; exact ⟨x, by simp [hx], hc⟩
    · exact ⟨b, by simp, h2⟩
    · obtain ⟨x, hx, hc⟩ := ih h; exact ⟨x, by simp [hx], hc⟩

theorem fy_strokes (tbs : List Shapes.TB) (shapes : List Sh) :
    shapes.filterMap (borderOf tbs) = (strokesOnly shapes).filter fun s => !Shapes.determined (Sh.stroke s).shp tbs := by
  induction shapes with
  | nil => rfl
  | cons s l ih =>
    cases s with
    | stroke s =>
      unfold strokesOnly at ih ⊢
      rw [List.filterMap_cons, List.filterMap_cons]
      dsimp only [borderOf]
      by_cases h : Shapes.determined (Sh.stroke s).shp tbs = true
      · rw [if_pos h, List.filter_cons_of_neg (by simp [h])]
        exact ih
      · rw [if_neg h, List.filter_cons_of_pos (by simpa using h)]
        dsimp only
        rw [ih]
    | fill b c => exact ih
    | link b => exact ih

theorem fy_only_filter (p : Sh → Bool) (shapes : List Sh) : strokesOnly (shapes.filter p) = (strokesOnly shapes).filter fun s => p (.stroke s) := by
  induction shapes with
  | nil => rfl
  | cons s l ih =>
    cases s with
    | stroke s =>
      by_cases h : p (.stroke s) = true
      · rw [List.filter_cons_of_pos h]
        show s :: strokesOnly (l.filter p) = List.filter _ (s :: strokesOnly l)
        rw [List.filter_cons_of_pos (by exact h), ih]
      · rw [List.filter_cons_of_neg h]
        show strokesOnly (l.filter p) = List.filter _ (s :: strokesOnly l)
        rw [List.filter_cons_of_neg (by exact h), ih]
    | fill b c =>
      by_cases h : p (.fill b c) = true
      · rw [List.filter_cons_of_pos h]; exact ih
      · rw [List.filter_cons_of_neg h]; exact ih
    | link b =>
      by_cases h : p (.link b) = true
      · rw [List.filter_cons_of_pos h]; exact ih
      · rw [List.filter_cons_of_neg h]; exact ih

theorem fy_only_mem (shapes : List Sh) (s : Table.St) : s ∈ strokesOnly shapes ↔ Sh.stroke s ∈ shapes := by
  unfold strokesOnly
  rw [List.mem_filterMap]
  constructor
  · rintro ⟨a, ha, e⟩
    cases a with
    | stroke s' => obtain rfl := Option.some.inj e; exact ha
    | fill b c => cases e
    | link b => cases e
  · intro h
    exact ⟨_, h, rfl⟩

theorem fy_no_fills (tbs : List Shapes.TB) (shapes : List Sh) (h : ∀ b c, Sh.fill b c ∈ shapes → c = white) : ∀ f ∈ shapes.filterMap (shadingOf tbs), f.2 = white := by
  intro f hf
  obtain ⟨s, hs, he⟩ := List.mem_filterMap.1 hf
  cases s with
  | stroke s => cases he
  | fill b c =>
    unfold shadingOf at he
    dsimp only at he
    split_ifs at he
    obtain rfl := Option.some.inj he
    exact h b c hs
  | link b => cases he

variable {X Y : ℕ → ℚ} {r k : ℕ} {W gap d : ℚ}

theorem fy_others_sub {others others' : List Table.St} (h : others'.Sublist others) (ho : OtherLines d X Y r k W others) : OtherLines d X Y r k W others' :=
  ⟨fun o hm => ho.proper o (h.subset hm), fun o hm => ho.away o (h.subset hm), ho.apart.sublist h, fun o hm => ho.place o (h.subset hm), fun o hm => ho.ends o (h.subset hm)⟩

/-- No line of the text is over more than half of a line of the grid. -/
theorem fy_grid_free (hg : Grid X Y r k W gap) (h0 : 0 ≤ gap) (bs : List (Full.Blk α)) (ht : TextAround X Y r k W bs) (s : Table.St) (hs : s ∈ gridStrokes X Y r k W)
    (tbs : List Shapes.TB) (htb : ∀ t ∈ tbs, ∃ b ∈ bs, t.lines = b.lines.map fun l => l.bbox) : Shapes.determined (Sh.stroke s).shp tbs = false := by
  by_contra hcon
  rw [Bool.not_eq_false] at hcon
  obtain ⟨t, htm, hck⟩ := fy_determined _ _ hcon
  obtain ⟨b, hb, hbl⟩ := htb t htm
  have hck : (Shapes.containsBox t.bbox s.bbox 1 && t.lines.any fun l => Shapes.containsBox l s.bbox 1) = true := hck
  rw [Bool.and_eq_true_iff] at hck
  obtain ⟨q, hq, hq1⟩ := List.any_eq_true.1 hck.2
  rw [hbl] at hq
  obtain ⟨l, hl, rfl⟩ := List.mem_map.1 hq
  have hpt := ht.text b hb
  obtain ⟨hlo, hcov⟩ := hpt.boxes.2 l hl
  have hlp : Proper l.bbox := hlo.1.1
  have hW := hg.width
  have hr := hg.rows
  have hk := hg.cols
  -- where the line is
  have hplace : l.bbox.y1 ≤ Y 0 - W / 2 ∨ Y r + W / 2 ≤ l.bbox.y0 ∨ ∃ i < r, ∃ j < k, Covers (gridCell X Y i j) l.bbox := by
    rcases ht.place b hb with h | h | h
    · left; linarith [hcov.2.2.2]
    · right; left; linarith [hcov.2.1]
    · right; right; exact ht.inCell b hb h l hl
  have hx := rg_gap hg h0 0 k (by omega) (le_refl _)
  have hy := rg_gapY hg h0 0 r (by omega) (le_refl _)
  rcases (rg_mem s).1 hs with ⟨i', hi', rfl⟩ | ⟨j', hj', rfl⟩
  · rw [rg_row hg i' hi'] at hq1
    have hprop := (rg_row_proper hg h0 i' hi').1
    have hcase : Y i' ≤ l.bbox.y0 ∨ l.bbox.y1 ≤ Y i' := by
      rcases hplace with h | h | ⟨i, hi, j, hj, h⟩
      · right; linarith [rg_leY hg h0 0 i' (by omega) hi']
      · left; linarith [rg_leY hg h0 i' r hi' (le_refl _)]
      · rcases Nat.lt_or_ge i i' with hlt | hge
        · right
          have := rg_leY hg h0 (i + 1) i' (by omega) hi'
          have := h.2.2.2
          unfold gridCell at this
          dsimp only at this
          linarith
        · left
          have := rg_leY hg h0 i' i hge (by omega)
          have := h.2.1
          unfold gridCell at this
          dsimp only at this
          linarith
    rcases hcase with h | h
    · have := fy_half l.bbox (rowBox X Y k W i') ⟨X 0 - W / 2, Y i' - W / 2, X k + W / 2, Y i'⟩ hlp hprop ⟨by dsimp only; linarith, by dsimp only; linarith⟩
        ⟨le_refl _, le_refl _, le_refl _, by dsimp only [rowBox]; linarith⟩ (by unfold rowBox Rect.area Rect.width Rect.height; ring)
        (Or.inr (le_trans (min_le_right _ _) (le_trans h (le_max_left _ _))))
      rw [this] at hq1; cases hq1
    · have := fy_half l.bbox (rowBox X Y k W i') ⟨X 0 - W / 2, Y i', X k + W / 2, Y i' + W / 2⟩ hlp hprop ⟨by dsimp only; linarith, by dsimp only; linarith⟩
        ⟨le_refl _, by dsimp only [rowBox]; linarith, le_refl _, le_refl _⟩ (by unfold rowBox Rect.area Rect.width Rect.height; ring)
        (Or.inr (le_trans (min_le_left _ _) (le_trans h (le_max_right _ _))))
      rw [this] at hq1; cases hq1
  · rw [rg_col hg j' hj'] at hq1
    have hprop := (rg_col_proper hg h0 j' hj').1
    have hcase : (X j' ≤ l.bbox.x0 ∨ l.bbox.y1 ≤ Y 0 - W / 2 ∨ Y r + W / 2 ≤ l.bbox.y0) ∨ l.bbox.x1 ≤ X j' := by
      rcases hplace with h | h | ⟨i, hi, j, hj, h⟩
      · exact Or.inl (Or.inr (Or.inl h))
      · exact Or.inl (Or.inr (Or.inr h))
      · rcases Nat.lt_or_ge j j' with hlt | hge
        · right
          have := rg_leX hg h0 (j + 1) j' (by omega) hj'
          have := h.2.2.1
          unfold gridCell at this
          dsimp only at this
          linarith
        · left; left
          have := rg_leX hg h0 j' j hge (by omega)
          have := h.1
          unfold gridCell at this
          dsimp only at this
          linarith
    rcases hcase with h | h
    · have := fy_half l.bbox (colBox X Y r W j') ⟨X j' - W / 2, Y 0 - W / 2, X j', Y r + W / 2⟩ hlp hprop ⟨by dsimp only; linarith, by dsimp only; linarith⟩
        ⟨le_refl _, le_refl _, by dsimp only [colBox]; linarith, le_refl _⟩ (by unfold colBox Rect.area Rect.width Rect.height; ring)
        (by
          rcases h with h | h | h
          · exact Or.inl (le_trans (min_le_right _ _) (le_trans h (le_max_left _ _)))
          · exact Or.inr (le_trans (min_le_left _ _) (le_trans h (le_max_right _ _)))
          · exact Or.inr (le_trans (min_le_right _ _) (le_trans h (le_max_left _ _))))
      rw [this] at hq1; cases hq1
    · have := fy_half l.bbox (colBox X Y r W j') ⟨X j', Y 0 - W / 2, X j' + W / 2, Y r + W / 2⟩ hlp hprop ⟨by dsimp only; linarith, by dsimp only; linarith⟩
        ⟨by dsimp only [colBox]; linarith, le_refl _, le_refl _, le_refl _⟩ (by unfold colBox Rect.area Rect.width Rect.height; ring)
        (Or.inl (le_trans (min_le_left _ _) (le_trans h (le_max_right _ _))))
      rw [this] at hq1; cases hq1

/-- The grid lines stay potential borders. -/
theorem fy_page_strokes (hg : Grid X Y r k W gap) (h0 : 0 ≤ gap) (bs bs' : List (Full.Blk α)) (hb : ∀ b ∈ bs', b ∈ bs) (ht : TextAround X Y r k W bs) (others : List Table.St) (shapes : List Sh)
    (hs : DrawnAround d X Y r k W (lineRects bs) others shapes) :
    ∃ others', others'.Sublist others ∧ (mkSub bs' shapes).strokes.Perm (gridStrokes X Y r k W ++ others') := by
  refine ⟨others.filter fun s => !Shapes.determined (Sh.stroke s).shp (textBlocks bs'), List.filter_sublist, ?_⟩
  unfold mkSub
  dsimp only
  rw [fy_strokes]
  refine (hs.strokes.filter _).trans ?_
  rw [List.filter_append]
  refine List.Perm.append_right _ ?_
  rw [List.filter_eq_self.2]
  intro s hsm
  rw [fy_grid_free hg h0 bs ht s hsm]
  · rfl
  · intro t htm
    unfold textBlocks at htm
    obtain ⟨b, hbm, rfl⟩ := List.mem_map.1 htm
    exact ⟨b, hb b (List.mem_filter.1 hbm).1, rfl⟩

/-! ## One table -/

theorem fy_mk_self (b : Full.Blk α) (hb : LineText b) : Full.mkText 0 b.lines = b := by
  obtain ⟨m1, m2⟩ := ft_mk 0 b.lines (fun l hl => (hb.boxes.2 l hl).1.1) hb.source
  have e := ft_hull_unique (m2 hb.nonempty).2 hb.hull
  cases b with
  | table _ _ _ => cases hb.text
  | text r ls =>
    unfold Full.mkText at m1 e ⊢
    dsimp only [Blk.lines, Blk.bbox] at m1 e ⊢
    rw [m1, e]

theorem fy_block (t : Rect) (ht : Proper t) (b : Full.Blk α) (hb : LineText b) (h : Covers t b.bbox ∨ t.intersects b.bbox = false) :
    assignBlock [t] b = .ok (if Covers t b.bbox then ([[b]], [Full.mkText 0 []]) else ([[]], [b])) := by
  have hbp : Proper b.bbox := hb.boxes.1.1
  have hne := hb.nonempty
  have hself := fy_mk_self b hb
  cases b with
  | table _ _ _ => cases hb.text
  | text r ls =>
    dsimp only [Blk.bbox, Blk.lines] at h hbp hne hself
    have hiff := contains_iff t r ht hbp
    unfold assignBlock
    dsimp only
    unfold Assign.assignText
    by_cases hc : Covers t r
    · rw [if_pos (hiff.2 hc), if_pos (show Covers t (Full.Blk.text r ls).bbox from hc)]
      dsimp only
      simp [hne, hiff.2 hc]
    · rw [if_neg (fun q => hc (hiff.1 q)), if_neg (show ¬ Covers t (Full.Blk.text r ls).bbox from hc), if_pos (by simp [h.resolve_left hc])]
      unfold Assign.assignText
      simp only [Except.map, List.zipWith_cons_cons, List.zipWith_nil_left, List.isEmpty_nil, if_true]
      rw [hself]

theorem fy_assign (nid : ℕ → ℕ → ℕ → ℕ) (ty : Types) (f : Found) (hf : RealBox f.box) (sub : Sub) (bs : List (Full.Blk α)) (hb : ∀ b ∈ bs, LineText b)
    (h : ∀ b ∈ bs, Covers f.box b.bbox ∨ f.box.intersects b.bbox = false) :
    assignTables nid ty [f] sub bs = .ok
      (sortBlocks ((bs.filter fun b => !decide (Covers f.box b.bbox)) ++
        [fillTable (nid 0) f (sub.shapes.filter fun s => decide (tableOf ty [f.box] s = some 0)) (bs.filter fun b => decide (Covers f.box b.bbox))]),
        (⟨leftShapes ty [f.box] sub.shapes, sub.strokes, sub.fills⟩ : Sub)) := by
  have hm : bs.mapM (assignBlock [f.box]) = .ok (bs.map fun b => if Covers f.box b.bbox then ([[b]], [Full.mkText 0 []]) else ([[]], [b])) :=
    ly_mapM_eq _ _ bs fun b hbm => fy_block f.box hf.1 b (hb b hbm) (h b hbm)
  unfold assignTables
  rw [if_neg (by simp)]
  rw [show [f].map Found.box = [f.box] from rfl, hm]
  dsimp only
  have e1 : real ((bs.map fun b => if Covers f.box b.bbox then ([[b]], [Full.mkText 0 []]) else (([[]], [b]) : List (List (Full.Blk α)) × List (Full.Blk α))).flatMap Prod.snd) =
      bs.filter fun b => !decide (Covers f.box b.bbox) := by
    clear hm h
    induction bs with
    | nil => rfl
    | cons b bs ih =>
      have ih := ih fun x hx => hb x (by simp [hx])
      rw [List.map_cons, List.flatMap_cons]
      unfold real at ih ⊢
      rw [List.filter_append, ih]
      by_cases hc : Covers f.box b.bbox
      · rw [if_pos hc, List.filter_cons_of_neg (a := b) (by simp [hc])]
        rfl
      · rw [if_neg hc, List.filter_cons_of_pos (a := b) (p := fun b : Full.Blk α => !decide (Covers f.box b.bbox)) (by simp [hc]),
          List.filter_cons_of_pos (a := b) (by exact ly_real_truthy (hb b (by simp)).boxes.1)]
        rfl
  have e2 : ((bs.map fun b => if Covers f.box b.bbox then ([[b]], [Full.mkText 0 []]) else (([[]], [b]) : List (List (Full.Blk α)) × List (Full.Blk α))).flatMap fun r => r.1.getD 0 []) =
      bs.filter fun b => decide (Covers f.box b.bbox) := by
    clear hm h e1
    induction bs with
    | nil => rfl
    | cons b bs ih =>
      have ih := ih fun x hx => hb x (by simp [hx])
      rw [List.map_cons, List.flatMap_cons, ih]
      by_cases hc : Covers f.box b.bbox
      · rw [if_pos hc, List.filter_cons_of_pos (by simpa using hc)]; rfl
      · rw [if_neg hc, List.filter_cons_of_neg (by simpa using hc)]; rfl
  have e3 : ∀ A : List (Full.Blk α), ∀ T : Full.Blk α, T.bbox.truthy = true → real (A ++ [T]) = real A ++ [T] := by
    intro A T hT
    unfold real
    rw [List.filter_append, List.filter_cons_of_pos (by exact hT)]
    rfl
  simp only [List.zipIdx_cons, List.zipIdx_nil, List.map_cons, List.map_nil, Nat.zero_add]
  rw [e2, e3 _ _ (by exact ly_real_truthy hf), e1]

theorem fy_tables_one (sub : ℕ → ℕ → Types → Cell → List (Full.Blk α) → Except Err (List (Full.Blk α) × Types)) (A B : List (Full.Blk α)) (b : Rect) (g : List (List Bool)) (cs : List (Cell × List (Full.Blk α)))
    (hA : ∀ x ∈ A, x.isText = true) (hB : ∀ x ∈ B, x.isText = true) (P : List (Cell × List (Full.Blk α)) → Prop)
    (hc : ∀ i ty, ∃ cs' ty', parseCells (sub i) 0 ty cs = .ok (cs', ty') ∧ P cs') (i : ℕ) (ty : Types) :
    ∃ cs' ty', parseTables sub i ty (A ++ .table b g cs :: B) = .ok (A ++ .table b g cs' :: B, ty') ∧ P cs' := by
  induction A generalizing i with
  | nil =>
    obtain ⟨cs', ty', h1, h2⟩ := hc i ty
    refine ⟨cs', ty', ?_, h2⟩
    rw [List.nil_append]
    unfold parseTables
    rw [h1]
    dsimp only
    rw [fc_tables_text _ _ _ _ hB]
    rfl
  | cons a A ih =>
    cases a with
    | table q _ l => cases hA _ (List.mem_cons_self)
    | text q l =>
      obtain ⟨cs', ty', h1, h2⟩ := ih (fun x hx => hA x (by simp [hx])) (i + 1)
      refine ⟨cs', ty', ?_, h2⟩
      rw [List.cons_append]
      unfold parseTables
      rw [h1]
      rfl

/-! ## Shapes in the cells -/

theorem fy_fill_mem (tbs : List Shapes.TB) (shapes : List Sh) (f : Rect × ℕ) (hf : f ∈ shapes.filterMap (shadingOf tbs)) : Sh.fill f.1 f.2 ∈ shapes ∧ Shapes.determined (Sh.fill f.1 f.2).shp tbs = true := by
  obtain ⟨s, hs, he⟩ := List.mem_filterMap.1 hf
  cases s with
  | stroke s => cases he
  | fill b c =>
    unfold shadingOf at he
    dsimp only at he
    split_ifs at he with h
    obtain rfl := Option.some.inj he
    exact ⟨hs, h⟩
  | link b => cases he

theorem fy_mem_fill (tbs : List Shapes.TB) (shapes : List Sh) (b : Rect) (c : ℕ) (hm : Sh.fill b c ∈ shapes) (hd : Shapes.determined (Sh.fill b c).shp tbs = true) : (b, c) ∈ shapes.filterMap (shadingOf tbs) := by
  refine List.mem_filterMap.2 ⟨_, hm, ?_⟩
  unfold shadingOf
  dsimp only
  rw [if_pos hd]

/-- An area behind a line is a background. -/
theorem fy_background (F : Rect) (hF : Proper F) (c : ℕ) (bs : List (Full.Blk α)) (hs : ∀ b ∈ bs, LineText b) (h : ∃ b ∈ bs, ∃ l ∈ b.lines, Covers F l.bbox) :
    Shapes.determined (Sh.fill F c).shp (textBlocks (sortBlocks bs)) = true := by
  have hdir : Coll.textDirection (bs.map Blk.el) = .leftRight := by
    apply pl_dir_ltr
    intro e he
    obtain ⟨b, hb, rfl⟩ := List.mem_map.1 he
    exact ft_dir_lines b fun _ => hs b hb
  have hy : (sortBlocks bs).Pairwise fun a b => a.bbox.y0 ≤ b.bbox.y0 := by
    unfold sortBlocks
    rw [if_pos hdir]
    refine (sortBy_pairwise (fun l : Full.Blk α => Coll.key l.bbox.y0 l.bbox.x0 l.bbox.x1) _).imp ?_
    intro a b hab
    unfold Coll.key at hab
    rw [Prod.Lex.le_iff] at hab
    rcases hab with h | h
    · exact le_of_lt h
    · exact le_of_eq h.1
  have hs' : ∀ b ∈ sortBlocks bs, LineText b := fun b hb => hs b ((ft_sort_perm bs).subset hb)
  have h' : ∃ b ∈ sortBlocks bs, ∃ l ∈ b.lines, Covers F l.bbox := by
    obtain ⟨b, hb, q⟩ := h
    exact ⟨b, (ft_sort_perm bs).symm.subset hb, q⟩
  have e : textBlocks (sortBlocks bs) = (sortBlocks bs).map fun b => ⟨b.bbox, b.lines.map fun l => l.bbox⟩ := by
    unfold textBlocks
    rw [List.filter_eq_self.2 fun b hb => (hs' b hb).text]
  rw [e]
  clear e h hs hdir
  generalize sortBlocks bs = S at hy hs' h'
  induction S with
  | nil => obtain ⟨b, hb, _⟩ := h'; cases hb
  | cons b bs ih =>
    obtain ⟨h1, h2⟩ := List.pairwise_cons.1 hy
    have ih := ih h2 (fun x hx => hs' x (by simp [hx]))
    obtain ⟨x, hx, l, hl, hc⟩ := h'
    have hxb := (hs' x hx).boxes
    obtain ⟨hlr, hlc⟩ := hxb.2 l hl
    dsimp only at hlr hlc
    rw [List.map_cons]
    unfold Shapes.determined
    rcases List.mem_cons.1 hx with rfl | hx'
    · rw [if_neg]
      · rw [if_pos]
        unfold Shapes.check
        dsimp only [Sh.shp]
        rw [Bool.or_eq_true, List.any_eq_true]
        exact Or.inr ⟨_, List.mem_map_of_mem hl, pn_holds hF ⟨l.bbox, .leftRight⟩ hlr.1.1 hc (3 / 4) (by norm_num)⟩
      · dsimp only [Sh.shp]
        have q1 := hc.2.1
        have q2 := hlr.1.1.2
        have q3 := hlc.2.2.2
        exact not_lt.2 (by linarith)
    · have ih := ih ⟨x, hx', l, hl, hc⟩
      split_ifs with k1 k2 k3
      · exact ih
      · rfl
      · exfalso
        dsimp only [Sh.shp] at k3
        have q1 := h1 x hx'
        have q2 := hc.2.2.2
        have q3 := hlr.1.1.2
        have q5 := hlc.2.1
        linarith
      · exact ih

/-- An area behind cells that is the background of a text in a cell is the background of a line of the page. -/
theorem fy_cell_background {lines : List Rect} {shapes : List Sh} {b : Rect} {c : ℕ} (hP : CellPaint X Y r k W lines shapes b c) (hb : Proper b) (i j : ℕ) (hi : i < r) (hj : j < k) (L : List (Full.Blk α))
    (hL : ∀ B ∈ L, PlainText B) (hl : ∀ B ∈ L, ∀ l ∈ B.lines, l.bbox ∈ lines ∧ Covers (gridCell X Y i j) l.bbox) (h : Shapes.determined (Sh.fill b c).shp (textBlocks L) = true) :
    ∃ B ∈ L, ∃ l ∈ B.lines, Covers b l.bbox := by
  obtain ⟨t, ht, hc⟩ := fy_determined _ _ h
  unfold textBlocks at ht
  obtain ⟨B, hB, rfl⟩ := List.mem_map.1 ht
  have hB := (List.mem_filter.1 hB).1
  have hT := hL B hB
  have hap : ∀ R : Rect, Covers (gridCell X Y i j) R → ¬ Apart b R → Covers b (innerCell X Y W i j) := by
    intro R hR hn
    refine (hP.cells i hi j hj).resolve_right fun ha => hn ?_
    obtain ⟨c0, c1, c2, c3⟩ := hR
    rcases ha with ha | ha
    · exact Or.inl ((min_le_min_left _ c2).trans (ha.trans (max_le_max_left _ c0)))
    · exact Or.inr ((min_le_min_left _ c3).trans (ha.trans (max_le_max_left _ c1)))
  unfold Shapes.check at hc
  dsimp only [Sh.shp] at hc
  rw [Bool.or_eq_true, List.any_eq_true] at hc
  have hcov : Covers b (innerCell X Y W i j) := by
    rcases hc with hc | ⟨q, hq, hc⟩
    · refine hap B.bbox (hT.hull.2 _ ?_) (pn_not_apart hb (e := ⟨B.bbox, .leftRight⟩) hT.boxes.1.1 (by norm_num) hc)
      intro q hq
      obtain ⟨l, hlm, rfl⟩ := List.mem_map.1 hq
      exact (hl B hB l hlm).2
    · obtain ⟨l, hlm, rfl⟩ := List.mem_map.1 hq
      exact hap l.bbox (hl B hB l hlm).2 (pn_not_apart hb (e := ⟨l.bbox, .leftRight⟩) (hT.boxes.2 l hlm).1.1.1 (by norm_num) hc)
  obtain ⟨l, hlm⟩ := List.exists_mem_of_ne_nil _ hT.nonempty
  exact ⟨B, hB, l, hlm, hP.text i hi j hj hcov l.bbox (hl B hB l hlm).1 (hl B hB l hlm).2⟩

theorem fy_cellSub (shapes : List Sh) (cell : Rect) (bs : List (Full.Blk α)) (hf : ∀ b c, Sh.fill b c ∈ shapes → Shapes.determined (Sh.fill b c).shp (textBlocks bs) = true → c = white) :
    (∀ f ∈ (cellSub shapes cell bs).fills, f.2 = white) ∧ (cellSub shapes cell bs).strokes.Sublist (strokesOnly shapes) := by
  unfold cellSub
  split_ifs with h
  · exact ⟨fun f hf => (by cases hf), List.nil_sublist _⟩
  · unfold mkSub
    dsimp only
    refine ⟨fun f hm => ?_, ?_⟩
    · obtain ⟨q1, q2⟩ := fy_fill_mem _ _ f hm
      exact hf f.1 f.2 (List.mem_filter.1 q1).1 q2
    rw [fy_strokes, fy_only_filter]
    exact List.filter_sublist.trans List.filter_sublist

/-- The strokes given to the table are no lines of the grid. -/
theorem fy_given (hg : Grid X Y r k W gap) (h0 : 0 ≤ gap) (hd : 0 ≤ d) (lines : List Rect) (others : List Table.St) (shapes : List Sh) (hs : DrawnAround d X Y r k W lines others shapes) (ty : Types) :
    (∀ s ∈ strokesOnly (shapes.filter fun s => decide (tableOf ty [gridBox X Y r k] s = some 0)), Proper s.bbox ∧ Tenths s.bbox) ∧
      (strokesOnly (shapes.filter fun s => decide (tableOf ty [gridBox X Y r k] s = some 0))).Pairwise fun a b => ¬ Near d d a.bbox b.bbox := by
  have hW := hg.width
  have hbox := (fx_box_real hg h0).1
  rw [fy_only_filter]
  have hp := hs.strokes.filter fun s => decide (tableOf ty [gridBox X Y r k] (.stroke s) = some 0)
  have hnone : ((gridStrokes X Y r k W).filter fun s => decide (tableOf ty [gridBox X Y r k] (.stroke s) = some 0)) = [] := by
    rw [List.filter_eq_nil_iff]
    intro s hsm hcon
    have hcon : tableOf ty [gridBox X Y r k] (.stroke s) = some 0 := by simpa using hcon
    unfold tableOf at hcon
    split_ifs at hcon
    have hcon' : (gridBox X Y r k).contains s.bbox = true := by
      rw [List.findIdx?_eq_some_iff_getElem] at hcon
      obtain ⟨_, h, _⟩ := hcon
      exact h
    rcases (rg_mem s).1 hsm with ⟨i, hi, rfl⟩ | ⟨j, hj, rfl⟩
    · rw [rg_row hg i hi] at hcon'
      have := ((contains_iff _ _ hbox (rg_row_proper hg h0 i hi).1).1 hcon').1
      dsimp only [gridBox, rowBox] at this
      linarith
    · rw [rg_col hg j hj] at hcon'
      have := ((contains_iff _ _ hbox (rg_col_proper hg h0 j hj).1).1 hcon').2.1
      dsimp only [gridBox, colBox] at this
      linarith
  rw [List.filter_append, hnone, List.nil_append] at hp
  constructor
  · intro s hsm
    exact hs.others.proper s (List.mem_filter.1 (hp.subset hsm)).1
  · exact hp.symm.pairwise (hs.others.apart.sublist List.filter_sublist) (fun h h' => h (rg_near_symm h'))

/-! ## The page -/

theorem fy_page_none (hg : Grid X Y r k W gap) (h0 : 0 ≤ gap) (page : Rect) (others : List Table.St) (shapes : List Sh) (bs : List (Full.Blk α)) (sub : Sub) (hsub : sub.shapes = shapes)
    (ht : TextAround X Y r k W bs) (hs : DrawnAround d X Y r k W (lineRects bs) others shapes) (hp : OnPage page X k W shapes bs) (bs' : List (Full.Blk α)) (hb : ∀ b ∈ bs', b ∈ bs) :
    pageStage page sub bs' = .ok [] := by
  have hW := hg.width
  have hk := hg.cols
  unfold pageStage
  have hx := rg_gap hg h0 0 k (by omega) (le_refl _)
  have hy := rg_leY hg h0 0 r (by omega) (le_refl _)
  have m1 : Seg.stroke X Y ⟨true, W, 0, 0, k⟩ ∈ gridStrokes X Y r k W := (rg_mem _).2 (Or.inl ⟨0, by omega, rfl⟩)
  have m2 : Seg.stroke X Y ⟨false, W, 0, 0, r⟩ ∈ gridStrokes X Y r k W := (rg_mem _).2 (Or.inr ⟨0, by omega, rfl⟩)
  have mem : ∀ s ∈ gridStrokes X Y r k W, s.bbox ∈ (((bs'.flatMap Blk.lines).map fun l => l.bbox) ++ sub.shapes.map Sh.bbox) := by
    intro s hsm
    refine List.mem_append_right _ (List.mem_map.2 ⟨.stroke s, ?_, rfl⟩)
    rw [hsub, ← fy_only_mem]
    exact hs.strokes.symm.subset (List.mem_append_left _ hsm)
  rw [C80_otherwise page _ ?_ _ _ (mem _ m1) ?_ (mem _ m2) (Or.inl ?_) ?_]
  · rfl
  · intro q hq
    rcases List.mem_append.1 hq with hq | hq
    · obtain ⟨l, hl, rfl⟩ := List.mem_map.1 hq
      obtain ⟨b, hbm, hl⟩ := List.mem_flatMap.1 hl
      have hreal := ((ht.text b (hb b hbm)).boxes.2 l hl).1.1
      exact ⟨hreal.1, hreal.2, hp.lines b (hb b hbm) l hl⟩
    · obtain ⟨s, hsm, rfl⟩ := List.mem_map.1 hq
      rw [hsub] at hsm
      exact ⟨(hs.real s hsm).1, (hs.real s hsm).2, hp.shapes s hsm⟩
  · rw [rg_row hg 0 (by omega)]
    have := hp.left
    exact ⟨by dsimp only [rowBox]; linarith, hp.right⟩
  · rw [rg_col hg 0 (by omega)]
    exact hp.left
  · rw [rg_row hg 0 (by omega), rg_col hg 0 (by omega)]
    dsimp only [rowBox, colBox]
    constructor <;> linarith

/-- Cells of a grid share no interior point. -/
theorem fy_cells_apart (hg : Grid X Y r k W gap) (h0 : 0 ≤ gap) (i j i' j' : ℕ) (hi : i < r) (hj : j < k) (hi' : i' < r) (hj' : j' < k) (h : ¬ (i = i' ∧ j = j')) :
    Apart (gridCell X Y i j) (gridCell X Y i' j') := by
  unfold Apart gridCell
  dsimp only
  rcases lt_trichotomy i i' with h1 | h1 | h1
  · exact Or.inr (le_trans (min_le_left _ _) (le_trans (rg_leY hg h0 (i + 1) i' (by omega) (by omega)) (le_max_right _ _)))
  · rcases lt_trichotomy j j' with h2 | h2 | h2
    · exact Or.inl (le_trans (min_le_left _ _) (le_trans (rg_leX hg h0 (j + 1) j' (by omega) (by omega)) (le_max_right _ _)))
    · exact absurd ⟨h1, h2⟩ h
    · exact Or.inl (le_trans (min_le_right _ _) (le_trans (rg_leX hg h0 (j' + 1) j (by omega) (by omega)) (le_max_left _ _)))
  · exact Or.inr (le_trans (min_le_right _ _) (le_trans (rg_leY hg h0 (i' + 1) i (by omega) (by omega)) (le_max_left _ _)))

/-- C92 with the blocks around the table and the origin of the cells. -/
theorem fy_grid_core (c : Full.Cfg) (hi : ∀ l, (c.base.lay.iter l).Perm l) (htol : 0 < c.base.lay.tol) (hd : 0 ≤ c.conn) (hc : 0 ≤ c.base.clear) (hw : 1 / 20 ≤ c.base.maxW)
    (fmt : Format α) (nid : Lay.Ids) (depth : ℕ) (page : Rect) (hg : Grid X Y r k W gap)
    (hgd : W + 2 * c.conn ≤ gap) (hgw : c.base.maxW + 1 / 20 ≤ gap) (hgc : c.base.clear ≤ gap) (hgW : W + 3 / 10 ≤ gap)
    (others : List Table.St) (shapes : List Sh) (bs : List (Full.Blk α)) (hs : DrawnAround c.conn X Y r k W (lineRects bs) others shapes) (ht : TextAround X Y r k W bs)
    (hp : OnPage page X k W shapes bs) :
    ∃ above cells below ty, Full.parsePage c fmt nid (depth + 2) page shapes bs = .ok (above ++ .table (gridBox X Y r k) (fullGrid r k) cells :: below, ty) ∧
      ((∀ b ∈ above ++ below, PlainText b ∧ b.lines.Pairwise fun l m => Above l.bbox m.bbox) ∧ ∀ x ∈ cells, ∀ b ∈ x.2, PlainText b ∧ b.lines.Pairwise fun l m => Above l.bbox m.bbox) ∧
      ShowsDown above ((bs.flatMap Blk.lines).filter fun l => l.bbox.y1 < Y 0) ∧
      ShowsDown below ((bs.flatMap Blk.lines).filter fun l => Y r < l.bbox.y0) ∧
      ((cells.map fun x => x.1.info.box) = gridCells X Y r k ∧
      ∀ x ∈ cells, ShowsDown x.2 ((bs.flatMap Blk.lines).filter fun l => Covers x.1.info.box l.bbox)) ∧
      ∃ f ty0 ty1 sub others', latticeStage c ty0 sub = .ok ([f], ty1) ∧ sub.strokes.Perm (gridStrokes X Y r k W ++ others') ∧ OtherLines c.conn X Y r k W others' ∧
        sub = mkSub (sortBlocks bs) shapes ∧ (f.cells.map CellInfo.box) = gridCells X Y r k ∧ (cells.map fun x => x.1.info) = f.cells := by
  have hW := hg.width
  have h0 : 0 ≤ gap := by linarith
  have hr := hg.rows
  have hk := hg.cols
  have hbox := fx_box_real hg h0
  have hyy : Y 0 < Y r := by linarith [rg_gapY hg h0 0 r (by omega) (le_refl _)]
  set S := sortBlocks bs with hS
  have hSp : S.Perm bs := ft_sort_perm bs
  have hSb : ∀ b ∈ S, b ∈ bs := fun b hb => hSp.subset hb
  have hSt : ∀ b ∈ S, LineText b := fun b hb => ht.text b (hSb b hb)
  obtain ⟨others', hsub, hperm⟩ := fy_page_strokes hg h0 bs S hSb ht others shapes hs
  have hne : (mkSub S shapes).shapes ≠ [] := by
    have : Seg.stroke X Y ⟨true, W, 0, 0, k⟩ ∈ gridStrokes X Y r k W := (rg_mem _).2 (Or.inl ⟨0, by omega, rfl⟩)
    have := (fy_only_mem _ _).1 (hs.strokes.symm.subset (List.mem_append_left _ this))
    exact List.ne_nil_of_mem this
  have st0 := fy_page_none hg h0 page others shapes bs (mkSub S shapes) rfl ht hs hp S hSb
  obtain ⟨f, ty1, hl, hfb, hfc, hfr⟩ := fx_grid c hi hd hc hw hg hgd hgw hgc hgW (mkSub S shapes) others' hperm (fy_others_sub hsub hs.others) hne ⟨[], []⟩
  have hdone : ∀ b col, (b, col) ∈ (mkSub S shapes).fills → col = white ∨ Sh.fill b col ∈ ty1.done := by
    intro b col hm
    refine (hs.fills b col (fy_fill_mem _ _ _ hm).1).imp_right fun hP => ?_
    exact (pn_lattice c hi hd hc (by linarith) hg hgd hgw hgc (mkSub S shapes) others' hperm (fy_others_sub hsub hs.others) _ f ty1 hl hfc hs.real (fun g hgm => (fy_fill_mem _ _ g hgm).1) hP hm).1
  have hplace : ∀ b ∈ S, Covers f.box b.bbox ∨ f.box.intersects b.bbox = false := by
    intro b hb
    rw [hfb]
    rcases ht.place b (hSb b hb) with h | h | h
    · right
      refine rp_beside hbox.1 (hSt b hb).boxes.1.1 (Or.inr (Or.inr (Or.inr ?_)))
      dsimp only [gridBox]; linarith
    · right
      refine rp_beside hbox.1 (hSt b hb).boxes.1.1 (Or.inr (Or.inr (Or.inl ?_)))
      dsimp only [gridBox]; linarith
    · exact Or.inl h
  have hassign := fy_assign (nid [] 1) ty1 f (by rw [hfb]; exact hbox) (mkSub S shapes) S hSt hplace
  rw [hfb] at hassign
  set given := (mkSub S shapes).shapes.filter fun s => decide (tableOf ty1 [gridBox X Y r k] s = some 0) with hgiven
  set inside := S.filter fun b => decide (Covers (gridBox X Y r k) b.bbox) with hinside
  set outside := S.filter fun b => !decide (Covers (gridBox X Y r k) b.bbox) with houtside
  set T := fillTable (nid [] 1 0) f given inside with hT
  have hTbox : T.bbox = gridBox X Y r k := hfb
  have houtN : ∀ b ∈ outside, ¬ Covers (gridBox X Y r k) b.bbox := fun b hb => by simpa using (List.mem_filter.1 hb).2
  have houtP : ∀ b ∈ outside, b ∈ bs ∧ (b.bbox.y1 < Y 0 - W / 2 ∨ Y r + W / 2 < b.bbox.y0) := by
    intro b hb
    obtain ⟨h1, h2⟩ := List.mem_filter.1 hb
    refine ⟨hSb b h1, ?_⟩
    rcases ht.place b (hSb b h1) with h | h | h
    · exact Or.inl h
    · exact Or.inr h
    · simp [h] at h2
  -- the blocks of the page with the table
  have hstack : Stack (outside ++ [T]) := by
    refine ⟨?_, ?_, ?_, ?_⟩
    · intro b hb htx
      rcases List.mem_append.1 hb with hb | hb
      · exact ht.plain b (houtP b hb).1 (houtN b hb)
      · rw [List.mem_singleton] at hb
        subst hb
        cases htx
    · intro b hb
      rcases List.mem_append.1 hb with hb | hb
      · exact (ht.text b (houtP b hb).1).boxes.1
      · rw [List.mem_singleton] at hb
        subst hb
        rw [hTbox]
        exact hbox
    · rw [List.pairwise_append]
      refine ⟨?_, List.pairwise_singleton _ _, ?_⟩
      · have := hSp.symm.pairwise ht.clear (fun {a b} h h1 h2 => (h h2 h1).symm)
        rw [houtside]
        refine (this.sublist List.filter_sublist).imp_of_mem ?_
        intro a b ha hb h
        refine h ?_ ?_
        · simpa using (List.mem_filter.1 ha).2
        · simpa using (List.mem_filter.1 hb).2
      · intro a ha b hb
        rw [List.mem_singleton] at hb
        subst hb
        rw [hTbox]
        rcases (houtP a ha).2 with h | h
        · left; dsimp only [gridBox]; linarith
        · right; dsimp only [gridBox]; linarith
    · rw [List.pairwise_append]
      refine ⟨?_, List.pairwise_singleton _ _, ?_⟩
      · exact (hSp.symm.pairwise ht.sources (fun h => ft_other_symm h)).sublist List.filter_sublist
      · intro a _ b hb l _ m hm
        rw [List.mem_singleton] at hb
        subst hb
        cases hm
  set B := sortBlocks (outside ++ [T]) with hB
  have hBst : Stack B := ft_stack_perm (ft_sort_perm _).symm hstack
  have hstream : streamStage c ty1 page (⟨leftShapes ty1 [gridBox X Y r k] (mkSub S shapes).shapes, (mkSub S shapes).strokes, (mkSub S shapes).fills⟩ : Sub) B = .ok ([], ty1) :=
    ft_stream c hi htol ty1 page (⟨leftShapes ty1 [gridBox X Y r k] (mkSub S shapes).shapes, (mkSub S shapes).strokes, (mkSub S shapes).fills⟩ : Sub) (fun f hf => hdone f.1 f.2 hf) B hBst
  have hstages : stages c nid [] page [0, 1, 2] ⟨S, mkSub S shapes, ⟨[], []⟩⟩ =
      .ok ⟨B, (⟨leftShapes ty1 [gridBox X Y r k] (mkSub S shapes).shapes, (mkSub S shapes).strokes, (mkSub S shapes).fills⟩ : Sub), ty1⟩ := by
    unfold stages
    have e0 : stage c 0 (⟨[], []⟩ : Types) page (mkSub S shapes) S = .ok ([], ⟨[], []⟩) := by
      show (pageStage page (mkSub S shapes) S).map (fun t => (t, (⟨[], []⟩ : Types))) = _
      rw [st0]; rfl
    dsimp only
    rw [e0]
    dsimp only
    rw [fc_nothing]
    dsimp only
    unfold stages
    have e1 : stage c 1 (⟨[], []⟩ : Types) page (mkSub S shapes) S = .ok ([f], ty1) := hl
    dsimp only
    rw [e1]
    dsimp only
    rw [hassign]
    dsimp only
    unfold stages
    have e2 : stage c 2 ty1 page (⟨leftShapes ty1 [gridBox X Y r k] (mkSub S shapes).shapes, (mkSub S shapes).strokes, (mkSub S shapes).fills⟩ : Sub) B = .ok ([], ty1) := hstream
    dsimp only
    rw [e2]
    dsimp only
    rw [fc_nothing]
    rfl
  -- splitting back
  obtain ⟨R, s1, s2, s3, s4, s5⟩ := ft_split c.base.lay hi htol B hBst
  have hnt : (R.filter fun b => !b.isText).Perm [T] := by
    refine s4.trans (((ft_sort_perm (outside ++ [T])).filter _).trans ?_)
    rw [List.filter_append]
    have : (outside.filter fun b : Full.Blk α => !b.isText) = [] := by
      rw [List.filter_eq_nil_iff]
      intro b hb
      simp [(ht.text b (houtP b hb).1).text]
    rw [this, List.nil_append]
    rfl
  have hTR : T ∈ R := (List.mem_filter.1 (hnt.symm.subset (by simp))).1
  obtain ⟨A, D, hAD⟩ := List.append_of_mem hTR
  have hlen := hnt.length_eq
  rw [hAD, List.filter_append, List.filter_cons_of_pos (by rfl), List.length_append, List.length_cons, List.length_singleton] at hlen
  have hA : ∀ b ∈ A, b.isText = true := by
    intro b hb
    by_contra hcon
    have : 0 < (A.filter fun b : Full.Blk α => !b.isText).length := List.length_pos_of_mem (List.mem_filter.2 ⟨hb, by simpa using hcon⟩)
    omega
  have hDt : ∀ b ∈ D, b.isText = true := by
    intro b hb
    by_contra hcon
    have : 0 < (D.filter fun b : Full.Blk α => !b.isText).length := List.length_pos_of_mem (List.mem_filter.2 ⟨hb, by simpa using hcon⟩)
    omega
  have hDsub : D.Sublist R := by rw [hAD]; exact (List.sublist_cons_self _ _).trans (List.sublist_append_right _ _)
  have hAst : ∀ b ∈ A, b.isText = true → PlainText b ∧ b.lines.Pairwise fun l m => Above l.bbox m.bbox := fun b hb => s2 b (by rw [hAD]; simp [hb])
  have hDst : ∀ b ∈ D, b.isText = true → PlainText b ∧ b.lines.Pairwise fun l m => Above l.bbox m.bbox := fun b hb => s2 b (hDsub.subset hb)
  have hord := s3
  rw [hAD, List.pairwise_append, List.pairwise_cons] at hord
  obtain ⟨o1, ⟨o2, o3⟩, o4⟩ := hord
  have hAT : ∀ b ∈ A, b.bbox.y1 < Y 0 := fun b hb => by have := (o4 b hb T (by simp)).2 (Or.inr rfl); rw [hTbox] at this; exact this
  have hDT : ∀ b ∈ D, Y r < b.bbox.y0 := fun b hb => by have := (o2 b hb).2 (Or.inl rfl); rw [hTbox] at this; exact this
  have hlines : (A.flatMap Blk.lines ++ D.flatMap Blk.lines).Perm (outside.flatMap Blk.lines) := by
    have h1 := s5
    rw [hAD, List.flatMap_append, List.flatMap_cons] at h1
    have h2 : (B.flatMap Blk.lines).Perm ((outside ++ [T]).flatMap Blk.lines) := (ft_sort_perm _).flatMap_right _
    rw [List.flatMap_append, List.flatMap_cons] at h2
    have e : T.lines = [] := rfl
    rw [e] at h1 h2
    simpa using h1.trans h2
  have hsplit : (bs.flatMap Blk.lines).Perm (outside.flatMap Blk.lines ++ inside.flatMap Blk.lines) := by
    refine (hSp.symm.flatMap_right _).trans ?_
    have := (List.filter_append_perm (fun b : Full.Blk α => decide (Covers (gridBox X Y r k) b.bbox)) S).flatMap_right Blk.lines
    rw [List.flatMap_append] at this
    exact this.symm.trans List.perm_append_comm
  have hinP : ∀ b ∈ inside, b ∈ bs ∧ Covers (gridBox X Y r k) b.bbox := fun b hb => ⟨hSb b (List.mem_filter.1 hb).1, by simpa using (List.mem_filter.1 hb).2⟩
  have hinL : ∀ l ∈ inside.flatMap Blk.lines, Y 0 ≤ l.bbox.y0 ∧ l.bbox.y1 ≤ Y r ∧ l.bbox.y0 < l.bbox.y1 := by
    intro l hl
    obtain ⟨b, hb, hl⟩ := List.mem_flatMap.1 hl
    obtain ⟨hbm, hbc⟩ := hinP b hb
    obtain ⟨q1, q2⟩ := (ht.text b hbm).boxes.2 l hl
    have := covers_trans hbc q2
    exact ⟨this.2.1, this.2.2.2, q1.1.1.2⟩
  have hAL : ∀ l ∈ A.flatMap Blk.lines, l.bbox.y1 < Y 0 ∧ l.bbox.y0 < l.bbox.y1 := by
    intro l hl
    obtain ⟨b, hb, hl⟩ := List.mem_flatMap.1 hl
    obtain ⟨q1, q2⟩ := (hAst b hb (hA b hb)).1.boxes.2 l hl
    exact ⟨lt_of_le_of_lt q2.2.2.2 (hAT b hb), q1.1.1.2⟩
  have hDL : ∀ l ∈ D.flatMap Blk.lines, Y r < l.bbox.y0 ∧ l.bbox.y0 < l.bbox.y1 := by
    intro l hl
    obtain ⟨b, hb, hl⟩ := List.mem_flatMap.1 hl
    obtain ⟨q1, q2⟩ := (hDst b hb (hDt b hb)).1.boxes.2 l hl
    exact ⟨lt_of_lt_of_le (hDT b hb) q2.2.1, q1.1.1.2⟩
  have hall := (hlines.append_right (inside.flatMap Blk.lines)).trans hsplit.symm
  -- the cells
  have hgiv := fy_given hg h0 hd _ others shapes hs ty1
  rw [show (mkSub S shapes).shapes = shapes from rfl] at hgiven
  rw [← hgiven] at hgiv
  have hcells : ∀ x ∈ f.cells, ∃ i < r, ∃ j < k, x.box = gridCell X Y i j := by
    intro x hx
    have : x.box ∈ gridCells X Y r k := by rw [← hfc]; exact List.mem_map_of_mem hx
    obtain ⟨i, hi', hc'⟩ := List.mem_flatMap.1 this
    obtain ⟨j, hj, e⟩ := List.mem_map.1 hc'
    exact ⟨i, List.mem_range.1 hi', j, List.mem_range.1 hj, e.symm⟩
  have hlayout : ∀ x ∈ f.cells, ∀ n, ∃ L, L = arrange (!given.isEmpty) (cellLayout n x.box inside) ∧ Stack L ∧ (∀ b ∈ L, b.isText = true) ∧
      (L.flatMap Blk.lines).Perm ((bs.flatMap Blk.lines).filter fun l => decide (Covers x.box l.bbox)) := by
    intro x hx n
    obtain ⟨i, hi', j, hj, e⟩ := hcells x hx
    have hcp := fx_cell_real hg h0 i j hi' hj
    have hpart : ∀ b ∈ inside, ∀ id, (assignCell id x.box b = [] ∧ inCellLines x.box b.lines = []) ∨ ∃ B, assignCell id x.box b = [B] ∧ PartOf x.box b B := by
      intro b hb id
      obtain ⟨hbm, hbc⟩ := hinP b hb
      rw [e]
      refine fc_part _ hcp.1 id b (ht.text b hbm) (ht.cellColumn b hbm hbc i hi' j hj) (ht.whole b hbm i hi' j hj) ?_
      intro l hl
      obtain ⟨i', hi'', j', hj', hcov⟩ := ht.inCell b hbm hbc l hl
      by_cases h : i = i' ∧ j = j'
      · left; rw [h.1, h.2]; exact hcov
      · right
        have hap := (ly_apart_intersects hcp.1 (fx_cell_real hg h0 i' j' hi'' hj').1).1 (fy_cells_apart hg h0 i j i' j' hi' hj hi'' hj' h)
        by_contra hcon
        rw [Bool.not_eq_false] at hcon
        rw [intersects_mono _ _ _ hcp.1 (fx_cell_real hg h0 i' j' hi'' hj').1 ((ht.text b hbm).boxes.2 l hl).1.1.1 hcov hcon] at hap
        cases hap
    obtain ⟨L, l1, l2, l3, l4⟩ := fc_layout x.box n inside hpart
    have hst : Stack (L.map Prod.snd) := by
      refine fc_stack x.box L inside l2 l3 ?_ ?_
      · exact (hSp.symm.pairwise ht.sources (fun h => ft_other_symm h)).sublist List.filter_sublist
      · have := hSp.symm.pairwise (ht.order.imp fun {a b} h => h i hi' j hj) (fun {a b} h => by
          rcases h with h | h
          · right; exact fun l hl m hm c1 c2 => h m hm l hl c2 c1
          · left; exact fun l hl m hm c1 c2 => h m hm l hl c2 c1)
        rw [e]
        exact this.sublist List.filter_sublist
    have hperm' : (arrange (!given.isEmpty) (cellLayout n x.box inside)).Perm (cellLayout n x.box inside) := by
      unfold arrange
      split_ifs
      · exact ft_sort_perm _
      · exact List.Perm.refl _
    refine ⟨_, rfl, ?_, ?_, ?_⟩
    · refine ft_stack_perm hperm'.symm ?_
      rw [l1]; exact hst
    · intro b hb
      have := hperm'.subset hb
      rw [l1] at this
      obtain ⟨p, hp', rfl⟩ := List.mem_map.1 this
      exact (l3 p hp').text.text
    · refine (hperm'.flatMap_right _).trans ?_
      rw [l4]
      unfold inCellLines
      refine List.Perm.trans ?_ (hsplit.filter _).symm
      rw [List.filter_append]
      have : ((outside.flatMap Blk.lines).filter fun l => decide (Covers x.box l.bbox)) = [] := by
        rw [List.filter_eq_nil_iff]
        intro l hl hcon
        have hcon : Covers x.box l.bbox := by simpa using hcon
        obtain ⟨b, hb, hl⟩ := List.mem_flatMap.1 hl
        obtain ⟨hbm, hbo⟩ := houtP b hb
        obtain ⟨q1, q2⟩ := (ht.text b hbm).boxes.2 l hl
        rw [e] at hcon
        have e1 := hcon.2.1
        have e2 := hcon.2.2.2
        dsimp only [gridCell] at e1 e2
        have := rg_leY hg h0 0 i (by omega) (by omega)
        have := rg_leY hg h0 (i + 1) r (by omega) (le_refl _)
        have := q1.1.1.2
        rcases hbo with h | h
        · linarith [q2.2.2.2]
        · linarith [q2.2.1]
      rw [this, List.nil_append]
  obtain ⟨cs', ty', p1, p2⟩ := fy_tables_one
    (fun i j ty cell sub => parse c fmt nid (depth + 1) ([] ++ [i, j]) cell.info.working [1, 2] ⟨sub, cell.sub, ty⟩) A D T.bbox (fullGrid r k)
    (f.cells.zipIdx.map fun x => ((⟨x.1, cellSub given x.1.box (arrange (!given.isEmpty) (cellLayout (nid [] 1 0 x.2) x.1.box inside))⟩ : Cell),
      arrange (!given.isEmpty) (cellLayout (nid [] 1 0 x.2) x.1.box inside))) hA hDt
    (fun cs' => (cs'.map fun x => x.1.info) = f.cells ∧ ∀ x ∈ cs', ShowsDown x.2 ((bs.flatMap Blk.lines).filter fun l => Covers x.1.info.box l.bbox) ∧ ∀ b ∈ x.2, PlainText b ∧ b.lines.Pairwise fun l m => Above l.bbox m.bbox)
    (by
      intro i ty
      obtain ⟨cs', ty', q1, q2, q3⟩ := fc_cells (fun j ty cell sub => parse c fmt nid (depth + 1) ([] ++ [i, j]) cell.info.working [1, 2] ⟨sub, cell.sub, ty⟩)
        (fun cell L => ShowsDown L ((bs.flatMap Blk.lines).filter fun l => Covers cell.info.box l.bbox) ∧ ∀ b ∈ L, PlainText b ∧ b.lines.Pairwise fun l m => Above l.bbox m.bbox)
        (f.cells.zipIdx.map fun x => ((⟨x.1, cellSub given x.1.box (arrange (!given.isEmpty) (cellLayout (nid [] 1 0 x.2) x.1.box inside))⟩ : Cell),
          arrange (!given.isEmpty) (cellLayout (nid [] 1 0 x.2) x.1.box inside))) (by
          intro x hx j ty
          obtain ⟨y, hy, rfl⟩ := List.mem_map.1 hx
          have hym : y.1 ∈ f.cells := by
            have := List.mem_map_of_mem (f := Prod.fst) hy
            rwa [List.zipIdx_map_fst] at this
          obtain ⟨L, e, g1, g2, g3⟩ := hlayout y.1 hym (nid [] 1 0 y.2)
          dsimp only
          rw [← e]
          obtain ⟨z1, z2⟩ := fy_cellSub given y.1.box L (by
            intro b col hm hdet
            rw [hgiven] at hm
            obtain ⟨hm1, hm2⟩ := List.mem_filter.1 hm
            by_contra hnw
            have hP := (hs.fills b col hm1).resolve_left hnw
            obtain ⟨i', hi', j', hj', ey⟩ := hcells y.1 hym
            have hmemL : ∀ B ∈ L, ∀ l ∈ B.lines, l ∈ bs.flatMap Blk.lines ∧ Covers (gridCell X Y i' j') l.bbox := by
              intro B hB l hlm
              have := g3.subset (List.mem_flatMap.2 ⟨B, hB, hlm⟩)
              obtain ⟨u1, u2⟩ := List.mem_filter.1 this
              rw [ey] at u2
              exact ⟨u1, by simpa using u2⟩
            obtain ⟨B, hB, l, hlm, hcv⟩ := fy_cell_background hP (hs.real _ hm1).1 i' j' hi' hj' L (fun B hB => g1.text B hB (g2 B hB))
              (fun B hB l hlm => ⟨List.mem_map_of_mem (hmemL B hB l hlm).1, (hmemL B hB l hlm).2⟩) hdet
            obtain ⟨B', hB', hl'⟩ := List.mem_flatMap.1 (hmemL B hB l hlm).1
            have hpd := fy_background b (hs.real _ hm1).1 col bs ht.text ⟨B', hB', l, hl', hcv⟩
            rcases hdone b col (fy_mem_fill _ _ _ _ hm1 hpd) with e | e
            · exact hnw e
            · unfold tableOf at hm2
              rw [if_pos e] at hm2
              simp at hm2)
          obtain ⟨R', ty', w1, w2, w3⟩ := fc_column_text c hi htol hd hc hw fmt nid depth ([] ++ [i, j]) y.1.working L (cellSub given y.1.box L) ty g1 g2 z1
            (fun s hsm => hgiv.1 s (z2.subset hsm)) (hgiv.2.sublist z2)
          exact ⟨R', ty', w1, ⟨w2.1, w2.2.1.trans g3, w2.2.2⟩, w3⟩) 0 ty
      refine ⟨cs', ty', q1, ?_, q3⟩
      have : (cs'.map fun x => x.1.info) = (cs'.map Prod.fst).map fun x => x.info := by rw [List.map_map]; rfl
      rw [this, q2, List.map_map, List.map_map]
      conv_rhs => rw [← List.zipIdx_map_fst 0 f.cells]
      rfl) 0 ⟨ty1.done, ty1.styled ++ fmt [] ⟨S, mkSub S shapes, ⟨[], []⟩⟩ ⟨B, (⟨leftShapes ty1 [gridBox X Y r k] (mkSub S shapes).shapes, (mkSub S shapes).strokes, (mkSub S shapes).fills⟩ : Sub), ty1⟩ R⟩
  refine ⟨A, cs', D, ty', ?_, ⟨fun b hb => (List.mem_append.1 hb).elim (fun hb => hAst b hb (hA b hb)) fun hb => hDst b hb (hDt b hb), fun x hx => (p2.2 x hx).2⟩, ?_, ?_,
    ⟨by rw [← hfc, ← p2.1, List.map_map]; rfl, fun x hx => (p2.2 x hx).1⟩, f, _, ty1, _, others', hl, hperm, fy_others_sub hsub hs.others, rfl, hfc, p2.1⟩
  · unfold Full.parsePage
    rw [← hS]
    unfold parse
    rw [hstages]
    dsimp only
    rw [s1]
    dsimp only
    rw [hAD] at p1 ⊢
    rw [hTbox] at p1
    have eT : T = Blk.table (gridBox X Y r k) (fullGrid r k) (f.cells.zipIdx.map fun x => ((⟨x.1, cellSub given x.1.box (arrange (!given.isEmpty) (cellLayout (nid [] 1 0 x.2) x.1.box inside))⟩ : Cell),
      arrange (!given.isEmpty) (cellLayout (nid [] 1 0 x.2) x.1.box inside))) := by
      rw [← hfb, ← hfr]; rfl
    rw [← eT] at p1
    exact p1
  · refine ft_shows A _ hAst hA (o1.imp And.left) ?_
    refine List.Perm.trans ?_ (hall.filter _)
    rw [List.filter_append, List.filter_append]
    have e1 : ((A.flatMap Blk.lines).filter fun l => decide (l.bbox.y1 < Y 0)) = A.flatMap Blk.lines := List.filter_eq_self.2 fun l hl => by simpa using (hAL l hl).1
    have e2 : ((D.flatMap Blk.lines).filter fun l => decide (l.bbox.y1 < Y 0)) = [] := List.filter_eq_nil_iff.2 fun l hl => by
      have := hDL l hl
      simp only [decide_eq_true_eq, not_lt]
      linarith [this.1, this.2]
    have e3 : ((inside.flatMap Blk.lines).filter fun l => decide (l.bbox.y1 < Y 0)) = [] := List.filter_eq_nil_iff.2 fun l hl => by
      have := hinL l hl
      simp only [decide_eq_true_eq, not_lt]
      linarith [this.1, this.2.2]
    rw [e1, e2, e3]
    simp
  · refine ft_shows D _ hDst hDt (o3.imp And.left) ?_
    refine List.Perm.trans ?_ (hall.filter _)
    rw [List.filter_append, List.filter_append]
    have e1 : ((D.flatMap Blk.lines).filter fun l => decide (Y r < l.bbox.y0)) = D.flatMap Blk.lines := List.filter_eq_self.2 fun l hl => by simpa using (hDL l hl).1
    have e2 : ((A.flatMap Blk.lines).filter fun l => decide (Y r < l.bbox.y0)) = [] := List.filter_eq_nil_iff.2 fun l hl => by
      have := hAL l hl
      simp only [decide_eq_true_eq, not_lt]
      linarith [this.1, this.2]
    have e3 : ((inside.flatMap Blk.lines).filter fun l => decide (Y r < l.bbox.y0)) = [] := List.filter_eq_nil_iff.2 fun l hl => by
      have := hinL l hl
      simp only [decide_eq_true_eq, not_lt]
      linarith [this.2.1, this.2.2]
    rw [e1, e2, e3]
    simp

/-- C92 with the origin of the cells. -/
theorem fy_grid_all (c : Full.Cfg) (hi : ∀ l, (c.base.lay.iter l).Perm l) (htol : 0 < c.base.lay.tol) (hd : 0 ≤ c.conn) (hc : 0 ≤ c.base.clear) (hw : 1 / 20 ≤ c.base.maxW)
    (fmt : Format α) (nid : Lay.Ids) (depth : ℕ) (page : Rect) (hg : Grid X Y r k W gap)
    (hgd : W + 2 * c.conn ≤ gap) (hgw : c.base.maxW + 1 / 20 ≤ gap) (hgc : c.base.clear ≤ gap) (hgW : W + 3 / 10 ≤ gap)
    (others : List Table.St) (shapes : List Sh) (bs : List (Full.Blk α)) (hs : DrawnAround c.conn X Y r k W (lineRects bs) others shapes) (ht : TextAround X Y r k W bs)
    (hp : OnPage page X k W shapes bs) :
    ∃ above cells below ty, Full.parsePage c fmt nid (depth + 2) page shapes bs = .ok (above ++ .table (gridBox X Y r k) (fullGrid r k) cells :: below, ty) ∧
      ShowsDown above ((bs.flatMap Blk.lines).filter fun l => l.bbox.y1 < Y 0) ∧
      ShowsDown below ((bs.flatMap Blk.lines).filter fun l => Y r < l.bbox.y0) ∧
      ((cells.map fun x => x.1.info.box) = gridCells X Y r k ∧
      ∀ x ∈ cells, ShowsDown x.2 ((bs.flatMap Blk.lines).filter fun l => Covers x.1.info.box l.bbox)) ∧
      ∃ f ty0 ty1 sub others', latticeStage c ty0 sub = .ok ([f], ty1) ∧ sub.strokes.Perm (gridStrokes X Y r k W ++ others') ∧ OtherLines c.conn X Y r k W others' ∧
        sub = mkSub (sortBlocks bs) shapes ∧ (f.cells.map CellInfo.box) = gridCells X Y r k ∧ (cells.map fun x => x.1.info) = f.cells := by
  obtain ⟨A, cs, D, ty, h1, _, h⟩ := fy_grid_core c hi htol hd hc hw fmt nid depth page hg hgd hgw hgc hgW others shapes bs hs ht hp
  exact ⟨A, cs, D, ty, h1, h⟩

/-- **C92** (partial: one full grid, a page without other tables; filled areas are white or behind cells). A grid of lines drawn on a page of text (with other lines away from it and from each other): the
table appears once, at its place between the text above and the text below it; it has exactly the squares of the grid as cells, and each cell shows exactly the lines of text within it. -/
theorem C92_grid_partial (c : Full.Cfg) (hi : ∀ l, (c.base.lay.iter l).Perm l) (htol : 0 < c.base.lay.tol) (hd : 0 ≤ c.conn) (hc : 0 ≤ c.base.clear) (hw : 1 / 20 ≤ c.base.maxW)
    (fmt : Format α) (nid : Lay.Ids) (depth : ℕ) (page : Rect) (hg : Grid X Y r k W gap)
    (hgd : W + 2 * c.conn ≤ gap) (hgw : c.base.maxW + 1 / 20 ≤ gap) (hgc : c.base.clear ≤ gap) (hgW : W + 3 / 10 ≤ gap)
    (others : List Table.St) (shapes : List Sh) (bs : List (Full.Blk α)) (hs : DrawnAround c.conn X Y r k W (lineRects bs) others shapes) (ht : TextAround X Y r k W bs)
    (hp : OnPage page X k W shapes bs) :
    ∃ above cells below ty, Full.parsePage c fmt nid (depth + 2) page shapes bs = .ok (above ++ .table (gridBox X Y r k) (fullGrid r k) cells :: below, ty) ∧
      ShowsDown above ((bs.flatMap Blk.lines).filter fun l => l.bbox.y1 < Y 0) ∧
      ShowsDown below ((bs.flatMap Blk.lines).filter fun l => Y r < l.bbox.y0) ∧
      (cells.map fun x => x.1.info.box) = gridCells X Y r k ∧
      ∀ x ∈ cells, ShowsDown x.2 ((bs.flatMap Blk.lines).filter fun l => Covers x.1.info.box l.bbox) := by
  obtain ⟨A, cs, D, ty, h1, h2, h3, h4, _⟩ := fy_grid_all c hi htol hd hc hw fmt nid depth page hg hgd hgw hgc hgW others shapes bs hs ht hp
  exact ⟨A, cs, D, ty, h1, h2, h3, h4⟩

end FTable

end Props
