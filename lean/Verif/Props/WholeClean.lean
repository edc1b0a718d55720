import Verif.Spec.Whole
import Verif.Props.PipePlain
import Verif.Props.FullColumn
/-! # Clean-up of a page with a grid (towards C108) -/

namespace Props
open Geom Py Pipe Spec Assign

section WStrip

theorem wc_refl (a : Rect) : Covers a a := ⟨le_refl _, le_refl _, le_refl _, le_refl _⟩

theorem wc_trans {a b c : Rect} (h : Covers a b) (h' : Covers b c) : Covers a c :=
  ⟨h.1.trans h'.1, h.2.1.trans h'.2.1, h'.2.2.1.trans h.2.2.1, h'.2.2.2.trans h.2.2.2⟩

theorem wc_union {a b : Rect} (ha : RealBox a) (hb : RealBox b) : RealBox (a.union b) := by
  have h1 := (ly_union_real ha hb).1
  have hu : a.union b = ⟨min a.x0 b.x0, min a.y0 b.y0, max a.x1 b.x1, max a.y1 b.y1⟩ := by
    unfold Rect.union
    rw [if_neg (proper_nonempty b hb.1), if_neg (proper_nonempty a ha.1)]
  have ht : Tenths (a.union b) := by
    rw [hu]
    obtain ⟨a1, a2, a3, a4, rfl⟩ := ha.2
    obtain ⟨b1, b2, b3, b4, rfl⟩ := hb.2
    refine ⟨min a1 b1, min a2 b2, max a3 b3, max a4 b4, ?_⟩
    have e1 : ∀ x y : ℤ, min ((x : ℚ) / 10) ((y : ℚ) / 10) = ((min x y : ℤ) : ℚ) / 10 := by
      intro x y
      rw [Int.cast_min, ← min_div_div_right (by norm_num : (0 : ℚ) ≤ 10)]
    have e2 : ∀ x y : ℤ, max ((x : ℚ) / 10) ((y : ℚ) / 10) = ((max x y : ℤ) : ℚ) / 10 := by
      intro x y
      rw [Int.cast_max, ← max_div_div_right (by norm_num : (0 : ℚ) ≤ 10)]
    simp only [e1, e2]
  refine ⟨?_, ht⟩
  have := h1.1
  unfold Coll.unionBbox Coll.updateBbox at this
  rwa [st_round_tenths ht] at this

/-- The box of boxes in a box is in the box. -/
theorem wc_bbox_in {B : Rect} (rs : List Rect) (h : ∀ r ∈ rs, RealBox r ∧ Covers B r) (hne : rs ≠ []) : Covers B (Coll.bbox rs) := by
  have key : ∀ (rs : List Rect) (a : Rect), (∀ r ∈ rs, RealBox r) → (a = Rect.zero ∨ RealBox a) →
      (rs.foldl Rect.union a).round = rs.foldl (fun b r => Coll.unionBbox b r) a := by
    intro rs
    induction rs with
    | nil =>
      intro a _ ha
      rcases ha with rfl | ha
      · decide +kernel
      · exact st_round_tenths ha.2
    | cons r rs ih =>
      intro a hr ha
      have hr0 := hr r (by simp)
      have hstep : RealBox (a.union r) := by
        rcases ha with rfl | ha
        · rw [union_zero_left hr0.1]; exact hr0
        · exact wc_union ha hr0
      have hu : Coll.unionBbox a r = a.union r := by
        unfold Coll.unionBbox Coll.updateBbox
        exact st_round_tenths hstep.2
      rw [List.foldl_cons, List.foldl_cons, hu]
      exact ih _ (fun x hx => hr x (by simp [hx])) (Or.inr hstep)
  unfold Coll.bbox
  rw [key rs Rect.zero (fun r hr => (h r hr).1) (Or.inl rfl)]
  have := (ft_fold_hull (fun r : Rect => r) rs (fun r hr => (h r hr).1) hne).2
  exact this.2 B fun r hr => by rw [List.map_id'] at hr; exact (h r hr).2

theorem wc_lstrip (ws : Char → Bool) (hws : ws ' ' = true) (s : Sp) (h : SpanOK s) : Covers s.bbox (lstripSpan ws s).1.bbox := by
  cases s with
  | image b t => exact wc_refl _
  | text b cs =>
    simp only [lstripSpan]
    split_ifs with h2
    · obtain ⟨l, r, e1, _, e3, e4⟩ := pp_drop_blanks (fun c : Rect × Tok => c.2.blank ws) cs (pp_two_blanks ws hws cs h2)
      dsimp only
      rw [e4]
      refine wc_bbox_in _ ?_ (by simpa using e3)
      intro x hx
      obtain ⟨y, hy, rfl⟩ := List.mem_map.1 hx
      exact h.2 y (by rw [e1]; simp [hy])
    · exact wc_refl _

theorem wc_rstrip (ws : Char → Bool) (s : Sp) (h : SpanOK s) (hne : SpanOK (rstripSpan ws s).1) : Covers s.bbox (rstripSpan ws s).1.bbox := by
  cases s with
  | image b t => exact wc_refl _
  | text b cs =>
    simp only [rstripSpan] at hne ⊢
    split_ifs at hne ⊢ with h2
    · dsimp only at hne ⊢
      set t := cs.take (cs.length - (cs.length - (cs.reverse.dropWhile fun c => c.2.blank ws).length - 1)) with ht
      refine wc_bbox_in _ ?_ ?_
      · intro x hx
        obtain ⟨y, hy, rfl⟩ := List.mem_map.1 hx
        exact h.2 y (List.mem_of_mem_take hy)
      · intro e
        have hz : (Span.text (Coll.bbox (t.map Prod.fst)) t : Sp).bbox = Rect.zero := by
          show Coll.bbox (t.map Prod.fst) = Rect.zero
          rw [e]; decide +kernel
        exact st_proper_ne (ly_span_real hne).1 hz
    · exact wc_refl _

/-- Stripping makes the box of a line smaller. -/
theorem wc_strip_line (ws : Char → Bool) (hws : ws ' ' = true) (l : Lay.Ln Tok) (h : LineOK l) : Covers l.bbox (stripLine ws l).1.bbox := by
  have hrespan : ∀ (a b : List (Rect × Sp)) (s : Rect × Sp) (s' : Sp), l.spans = a ++ s :: b → Covers s.2.bbox s'.bbox → SpanOK s' →
      Covers l.bbox (respan l (a ++ (s'.bbox, s') :: b)).bbox := by
    intro a b s s' hl hs hs'
    refine wc_bbox_in _ ?_ (by simp)
    intro x hx
    obtain ⟨y, hy, rfl⟩ := List.mem_map.1 hx
    have hold : ∀ y ∈ l.spans, RealBox y.1 ∧ Covers l.bbox y.1 := by
      intro y hy
      have := h.2 y hy
      refine ⟨?_, this.2.2⟩
      rw [this.1]; exact ly_span_real this.2.1
    rcases List.mem_append.1 hy with hy | hy
    · exact hold y (by rw [hl]; simp [hy])
    · rcases List.mem_cons.1 hy with rfl | hy
      · have h1 := h.2 s (by rw [hl]; simp)
        refine ⟨ly_span_real hs', wc_trans h1.2.2 ?_⟩
        rw [h1.1]; exact hs
      · exact hold y (by rw [hl]; simp [hy])
  unfold stripLine
  split
  · exact wc_refl _
  · rename_i s ss hsp
    split_ifs with h1
    · have hs := (h.2 s (by rw [hsp]; simp)).2.1
      exact hrespan [] ss s _ (by simpa using hsp) (wc_lstrip ws hws s.2 hs) ((pp_lstrip ws hws s.2).ok hs)
    · dsimp only
      split_ifs with h2
      · have hs := (h.2 ((s :: ss).getLast (by simp)) (by rw [hsp]; exact List.getLast_mem _)).2.1
        have hs' := (pp_rstrip ws hws _).ok hs
        exact hrespan (s :: ss).dropLast [] _ _ (by rw [hsp, List.dropLast_append_getLast]) (wc_rstrip ws _ hs hs') hs'
      · exact wc_refl _

theorem wc_strip_lines (ws : Char → Bool) (b : Raw) : (stripBlock ws b).lines = b.lines.map fun l => (stripLine ws l).1 := by
  unfold stripBlock
  dsimp only
  split_ifs <;> simp

theorem wc_strip_block (ws : Char → Bool) (hws : ws ' ' = true) (b : Raw) (h : RawOK b) : Covers b.bbox (stripBlock ws b).bbox := by
  by_cases hst : (b.lines.map (stripLine ws)).any Prod.snd = true
  · have hbox : (stripBlock ws b).bbox = Coll.bbox ((b.lines.map fun l => (stripLine ws l).1).map Lns.Ln.bbox) := by
      unfold stripBlock
      dsimp only
      rw [if_pos hst]
      simp [List.map_map, Function.comp_def]
    rw [hbox]
    refine wc_bbox_in _ ?_ ?_
    · intro r hr
      obtain ⟨x, hx, rfl⟩ := List.mem_map.1 hr
      obtain ⟨l, hl, rfl⟩ := List.mem_map.1 hx
      exact ⟨((pp_stripLine ws hws l).ok (h.boxes.2 l hl).1).1, wc_trans (h.boxes.2 l hl).2 (wc_strip_line ws hws l (h.boxes.2 l hl).1)⟩
    · intro e
      simp only [List.map_eq_nil_iff] at e
      rw [e] at hst; simp at hst
  · have : (stripBlock ws b).bbox = b.bbox := by
      unfold stripBlock
      dsimp only
      rw [if_neg hst]
    rw [this]; exact wc_refl _

end WStrip

section WJoin

theorem wc_spaced_symm {mg : ℚ} {a b : Rect} (h : Spaced mg a b) : Spaced mg b a := by
  unfold Spaced at *
  tauto

theorem wc_spaced_in {mg : ℚ} {a b a' b' : Rect} (ha : Covers a a') (hb : Covers b b') (h : Spaced mg a b) : Spaced mg a' b' := by
  unfold Spaced Above at *
  obtain ⟨a1, a2, a3, a4⟩ := ha
  obtain ⟨b1, b2, b3, b4⟩ := hb
  rcases h with h | h | h | h
  · exact Or.inl (by linarith)
  · exact Or.inr (Or.inl (by linarith))
  · exact Or.inr (Or.inr (Or.inl (by linarith)))
  · exact Or.inr (Or.inr (Or.inr (by linarith)))

theorem wc_no_overlap {ov mg : ℚ} (hov : 0 < ov) (hmg : 0 ≤ mg) {a b : Rect} (ha : Proper a) (hb : Proper b) (h : Spaced mg a b) : ¬ OverlapBy ov a b := by
  have side : ∀ {a b : Rect}, Proper a → Proper b → a.x1 + mg < b.x0 → ¬ OverlapBy ov a b ∧ ¬ OverlapBy ov b a := by
    intro a b ha hb h
    refine ⟨?_, ?_⟩
    · rintro ⟨h1, _⟩
      have := le_trans (le_max_right a.x0 b.x0) (le_trans h1 (min_le_left a.x1 b.x1))
      linarith
    · rintro ⟨h1, _⟩
      have := le_trans (le_max_left b.x0 a.x0) (le_trans h1 (min_le_right b.x1 a.x1))
      linarith
  rcases h with h | h | h | h
  · exact pl_no_overlap hov ha hb (Or.inl h)
  · exact pl_no_overlap hov ha hb (Or.inr h)
  · exact (side ha hb h).1
  · exact (side hb ha h).2

/-- Spaced lines are not joined. -/
theorem wc_join_sort {σ : Type} (ov mg : ℚ) (hov : 1 / 1000000 < ov) (hmg : 0 ≤ mg) (ls : List (Lns.Ln σ)) (hg : ∀ l ∈ ls, LineGood l) (hd : ∀ l ∈ ls, l.dir = .leftRight)
    (hs : ls.Pairwise fun a b => Spaced mg a.bbox b.bbox) : Lns.join ov mg ls = Lns.sort ls := by
  have hov' : 0 < ov := lt_trans (by norm_num) hov
  have hgs : ∀ l ∈ Lns.sort ls, LineGood l := fun l hl => hg l ((C67_permutation ls).subset hl)
  have hds : ∀ l ∈ Lns.sort ls, l.dir = .leftRight := fun l hl => hd l ((C67_permutation ls).subset hl)
  have hss : (Lns.sort ls).Pairwise fun a b => Spaced mg a.bbox b.bbox := (C67_permutation ls).symm.pairwise hs (fun h => wc_spaced_symm h)
  have hno : (Lns.sort ls).Pairwise fun a b => ¬ OverlapBy ov a.bbox b.bbox ∧ ¬ OverlapBy ov b.bbox a.bbox := hss.imp_of_mem fun {a b} ha hb h =>
    ⟨wc_no_overlap hov' hmg (hgs a ha).1 (hgs b hb).1 h, wc_no_overlap hov' hmg (hgs b hb).1 (hgs a ha).1 (wc_spaced_symm h)⟩
  obtain ⟨parts, h1, h2, h4, h3⟩ := ln_joinSorted ov mg (Lns.sort ls) hgs
  replace h4 := h4 (by
    intro l ls' he
    rw [he] at hgs hno
    exact ln_clean hov ls' l hgs hno)
  rw [ln_kept_all hov _ hgs hno] at h1
  unfold Lns.join
  rw [h3, ← h1]
  have hone : ∀ q ∈ parts, ∃ l, q = [l] := by
    intro q hq
    obtain ⟨hne, hrow⟩ := h2 q hq
    have hch := h4 q hq
    have hqs : q.Pairwise fun a b => Spaced mg a.bbox b.bbox := List.Pairwise.sublist (by rw [← h1]; exact List.sublist_flatten_of_mem hq) hss
    have hm : ∀ x ∈ q, x ∈ Lns.sort ls := fun x hx => by rw [← h1]; exact List.mem_flatten.2 ⟨q, hq, hx⟩
    match q, hne, hrow, hqs, hm, hch with
    | [], hne, _, _, _, _ => exact absurd rfl hne
    | [l], _, _, _, _, _ => exact ⟨l, rfl⟩
    | a :: b :: t, _, hrow, hqs, hm, hch =>
      exfalso
      have hn : Next mg a b := (List.isChain_cons_cons.1 hch).1
      unfold Next at hn
      rw [abs_le] at hn
      have pa := (hgs a (hm a (by simp))).1
      have pb := (hgs b (hm b (by simp))).1
      have hr := List.rel_of_pairwise_cons hrow (by simp : b ∈ b :: t)
      have hx1 := pa.1
      have hx2 := pb.1
      rcases List.rel_of_pairwise_cons hqs (by simp : b ∈ b :: t) with h | h | h | h
      · exact pl_not_row pa pb (hds a (hm a (by simp))) (Or.inl h) hr
      · exact pl_not_row pa pb (hds a (hm a (by simp))) (Or.inr h) hr
      · linarith [hn.2]
      · linarith [hn.1]
  clear h1 h2 h3 h4
  induction parts with
  | nil => rfl
  | cons q qs ih =>
    obtain ⟨l, rfl⟩ := hone q (by simp)
    rw [List.filterMap_cons, List.flatten_cons, ih (fun q hq => hone q (by simp [hq]))]
    simp [lnMerge, ln_add_nil]

/-- A joined block: the lines of its group, its box the smallest around them. -/
theorem wc_joined (ov mg : ℚ) (hov : 1 / 1000000 < ov) (hmg : 0 ≤ mg) (g : List Raw) (hb : ∀ b ∈ g, RawOK b) (hne : g.flatMap Lns.Blk.lines ≠ [])
    (hd : ∀ b ∈ g, ∀ l ∈ b.lines, l.dir = .leftRight) (hs : (g.flatMap Lns.Blk.lines).Pairwise fun a b => Spaced mg a.bbox b.bbox) :
    (Lns.joinedBlock ov mg g).lines = Lns.sort (g.flatMap Lns.Blk.lines) ∧ IsHull ((g.flatMap Lns.Blk.lines).map Lns.Ln.bbox) (Lns.joinedBlock ov mg g).bbox := by
  have hlg : ∀ b ∈ g, ∀ l ∈ b.lines, LineGood l := fun b hbg l hl => pp_line_good ((hb b hbg).boxes.2 l hl).1
  have hlr : ∀ l ∈ g.flatMap Lns.Blk.lines, RealBox l.bbox := by
    intro l hl
    obtain ⟨b, hbg, hl⟩ := List.mem_flatMap.1 hl
    exact ((hb b hbg).boxes.2 l hl).1.1
  have hj : Lns.join ov mg (g.flatMap Lns.Blk.lines) = Lns.sort (g.flatMap Lns.Blk.lines) := by
    refine wc_join_sort ov mg hov hmg _ ?_ ?_ hs
    · intro l hl
      obtain ⟨b, hb, hl⟩ := List.mem_flatMap.1 hl
      exact hlg b hb l hl
    · intro l hl
      obtain ⟨b, hb, hl⟩ := List.mem_flatMap.1 hl
      exact hd b hb l hl
  unfold Lns.joinedBlock
  rw [ln_gather g hlg]
  dsimp only
  refine ⟨hj, ?_⟩
  rw [hj, List.foldl_map, ← List.foldl_append]
  have hm : ∀ l ∈ g.flatMap Lns.Blk.lines ++ Lns.sort (g.flatMap Lns.Blk.lines), l ∈ g.flatMap Lns.Blk.lines := by
    intro l hl
    rcases List.mem_append.1 hl with hl | hl
    · exact hl
    · exact (C67_permutation _).subset hl
  have hh := (ft_fold_hull (fun l : Lay.Ln Tok => l.bbox) (g.flatMap Lns.Blk.lines ++ Lns.sort (g.flatMap Lns.Blk.lines)) (fun l hl => hlr l (hm l hl)) (by simp [hne])).2
  refine ⟨?_, ?_⟩
  · intro x hx
    refine hh.1 x ?_
    rw [List.map_append]
    exact List.mem_append_left _ hx
  · intro h' hx
    refine hh.2 h' ?_
    intro x hxm
    obtain ⟨l, hl, rfl⟩ := List.mem_map.1 hxm
    exact hx _ (List.mem_map_of_mem (hm l hl))

/-- Blocks side by side joined. -/
theorem wc_groups (iter : List ℕ → List ℕ) (hi : ∀ l, (iter l).Perm l) (ov mg : ℚ) (hov : 1 / 1000000 < ov) (hmg : 0 ≤ mg) (bs js : List Raw) (hb : ∀ b ∈ bs, RawOK b)
    (hne : ∀ b ∈ bs, b.lines ≠ []) (hd : ∀ b ∈ bs, ∀ l ∈ b.lines, l.dir = .leftRight) (hs : (bs.flatMap Lns.Blk.lines).Pairwise fun a b => Spaced mg a.bbox b.bbox)
    (hj : Lns.joinHorizontally iter ov mg bs = .ok js) :
    ∃ gs : List (List Raw), gs.flatten.Perm bs ∧ (∀ g ∈ gs, g ≠ []) ∧
      (gs.Pairwise fun g h => (∀ a ∈ g, ∀ b ∈ h, a.bbox.y1 < b.bbox.y0) ∨ ∀ a ∈ g, ∀ b ∈ h, b.bbox.y1 < a.bbox.y0) ∧
      (∀ g ∈ gs, ∀ a ∈ g, ∀ b ∈ g, Relation.ReflTransGen (fun x y : Raw => x ∈ g ∧ y ∈ g ∧ (x.bbox.y0 ≤ y.bbox.y1 ∧ y.bbox.y0 ≤ x.bbox.y1)) a b) ∧
      js = gs.map (Lns.joinedBlock ov mg) ∧
      ∀ g ∈ gs, (Lns.joinedBlock ov mg g).lines = Lns.sort (g.flatMap Lns.Blk.lines) ∧ IsHull ((g.flatMap Lns.Blk.lines).map Lns.Ln.bbox) (Lns.joinedBlock ov mg g).bbox := by
  have hgood : ∀ b ∈ bs, BlockGood b := fun b h => pp_block_good (hb b h)
  obtain ⟨gs, h1, h2, h3, h4⟩ := ln_group_blocks iter hi bs hgood
  obtain ⟨gs', k1, k2, k3, k4⟩ := C21_groups iter hi
    (fun a b : Raw => El.horizontallyAlign ⟨a.bbox, .leftRight⟩ ⟨b.bbox, .leftRight⟩ 0 false)
    (fun a b => C25_horizontal_symm_partial _ _ 0 false (by simp)) bs
  rw [h1] at k1
  obtain rfl := Except.ok.inj k1
  have hgg : ∀ g ∈ gs, ∀ b ∈ g, b ∈ bs := fun g hg b hbg => h2.subset (List.mem_flatten.2 ⟨g, hg, hbg⟩)
  have hgs : ((gs.flatten).flatMap Lns.Blk.lines).Pairwise fun a b => Spaced mg a.bbox b.bbox :=
    (h2.flatMap_right _).symm.pairwise hs (fun h => wc_spaced_symm h)
  have hgp : ∀ g ∈ gs, (g.flatMap Lns.Blk.lines).Pairwise fun a b => Spaced mg a.bbox b.bbox := by
    intro g hg
    refine List.Pairwise.sublist ?_ hgs
    obtain ⟨u, v, rfl⟩ := List.append_of_mem hg
    simp only [List.flatten_append, List.flatten_cons, List.flatMap_append]
    exact List.Sublist.trans (List.sublist_append_left _ _) (List.sublist_append_right _ _)
  have hgne : ∀ g ∈ gs, g.flatMap Lns.Blk.lines ≠ [] := by
    intro g hg e
    obtain ⟨b, hbg⟩ := List.exists_mem_of_ne_nil _ (h3 g hg)
    exact hne b (hgg g hg b hbg) (List.flatMap_eq_nil_iff.1 e b hbg)
  refine ⟨gs, h2, h3, h4, ?_, ?_, fun g hg => wc_joined ov mg hov hmg g (fun b hbg => hb b (hgg g hg b hbg)) (hgne g hg)
    (fun b hbg => hd b (hgg g hg b hbg)) (hgp g hg)⟩
  · intro g hg a ha b hb'
    refine Relation.ReflTransGen.mono ?_ _ _ ((k4 g hg).2 a ha b hb')
    rintro x y ⟨hx, hy, hxy⟩
    exact ⟨hx, hy, (ln_aligned (hgood x (hgg g hg x hx)) (hgood y (hgg g hg y hy))).1 hxy⟩
  · unfold Lns.joinHorizontally at hj
    rw [h1] at hj
    rw [← Except.ok.inj hj]
    have hfil : ∀ g ∈ gs, (g.filter fun b => b.bbox.truthy) = g := fun g hg => ln_filter_truthy g fun b hbg => hgood b (hgg g hg b hbg)
    have hmap : (gs.map fun g => Lns.joinedBlock ov mg (g.filter fun b => b.bbox.truthy)) = gs.map (Lns.joinedBlock ov mg) :=
      List.map_congr_left fun g hg => by rw [hfil g hg]
    rw [hmap, List.filter_eq_self]
    intro j hj
    obtain ⟨g, hg, rfl⟩ := List.mem_map.1 hj
    obtain ⟨l, hl⟩ := List.exists_mem_of_ne_nil _ (hgne g hg)
    exact truthy_of_proper _ (ln_joined_proper ov mg g (fun b hb => hgood b (hgg g hg b hb)) l hl)

end WJoin

end Props
