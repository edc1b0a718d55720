import Verif.Props.LayoutExact
import Mathlib.Data.List.Perm.Basic
/-! # Nested layouts: every character and image exactly once (C84) -/

namespace Props
open Py Geom Spec Assign Lay

/-! ## Areas -/

theorem ly_apart_intersects {a b : Rect} (ha : Proper a) (hb : Proper b) : Apart a b ↔ a.intersects b = false := by
  rw [← Bool.not_eq_true, intersects_iff a b ha hb, not_and_or, not_lt, not_lt]
  rfl

theorem ly_inter_area_le {e a : Rect} (he : Proper e) (ha : Proper a) :
    ∃ w h, (e.inter a).area = w * h ∧ 0 ≤ w ∧ 0 ≤ h ∧ w ≤ e.width ∧ h ≤ e.height ∧
      (w = 0 ∨ w = min e.x1 a.x1 - max e.x0 a.x0) ∧ (h = 0 ∨ h = min e.y1 a.y1 - max e.y0 a.y0) := by
  have hne : ¬ (e.isEmpty ∨ a.isEmpty) := by
    rintro (h | h)
    · exact proper_nonempty e he h
    · exact proper_nonempty a ha h
  unfold Rect.inter
  rw [if_neg hne]
  dsimp only
  split_ifs with h
  · exact ⟨0, 0, by simp [Rect.area, Rect.width, Rect.height, Rect.zero], le_refl _, le_refl _,
      by unfold Rect.width; linarith [he.1], by unfold Rect.height; linarith [he.2], Or.inl rfl, Or.inl rfl⟩
  · rw [not_or, not_lt, not_lt] at h
    refine ⟨_, _, rfl, ?_, ?_, ?_, ?_, Or.inr rfl, Or.inr rfl⟩
    · unfold Rect.width; dsimp only; linarith [h.1]
    · unfold Rect.height; dsimp only; linarith [h.2]
    · unfold Rect.width; dsimp only; linarith [min_le_left e.x1 a.x1, le_max_left e.x0 a.x0]
    · unfold Rect.height; dsimp only; linarith [min_le_left e.y1 a.y1, le_max_left e.y0 a.y0]

theorem ly_parts_le {e0 e1 a0 a1 b0 b1 wa wb : ℚ} (ha : a0 < a1) (hb : b0 < b1) (h : min a1 b1 ≤ max a0 b0)
    (hwa : wa = 0 ∨ wa = min e1 a1 - max e0 a0) (hwb : wb = 0 ∨ wb = min e1 b1 - max e0 b0) (la : wa ≤ e1 - e0) (lb : wb ≤ e1 - e0) :
    wa + wb ≤ e1 - e0 := by
  rcases hwa with rfl | rfl
  · linarith
  rcases hwb with rfl | rfl
  · linarith
  have h' : a1 ≤ b0 ∨ b1 ≤ a0 := by
    rcases min_le_iff.1 h with h | h <;> rcases le_max_iff.1 h with h | h
    · exact absurd ha (not_lt.2 h)
    · exact Or.inl h
    · exact Or.inr h
    · exact absurd hb (not_lt.2 h)
  rcases h' with h' | h'
  · have := min_le_right e1 a1
    have := le_max_left e0 a0
    have := min_le_left e1 b1
    have := le_max_right e0 b0
    linarith
  · have := min_le_left e1 a1
    have := le_max_right e0 a0
    have := min_le_right e1 b1
    have := le_max_left e0 b0
    linarith

/-- Parts of a box in two boxes apart: not more than the whole. -/
theorem ly_area_add {e a b : Rect} (he : Proper e) (ha : Proper a) (hb : Proper b) (h : Apart a b) :
    (e.inter a).area + (e.inter b).area ≤ e.area := by
  obtain ⟨wa, ha', ea, wa0, ha0, wal, hal, wae, hae⟩ := ly_inter_area_le he ha
  obtain ⟨wb, hb', eb, wb0, hb0, wbl, hbl, wbe, hbe⟩ := ly_inter_area_le he hb
  rw [ea, eb]
  unfold Rect.area
  rcases h with h | h
  · have := ly_parts_le ha.1 hb.1 h wae wbe wal wbl
    have hw : wa + wb ≤ e.width := this
    have hh : 0 ≤ e.height := by unfold Rect.height; linarith [he.2]
    calc wa * ha' + wb * hb' ≤ wa * e.height + wb * e.height := add_le_add (mul_le_mul_of_nonneg_left hal wa0) (mul_le_mul_of_nonneg_left hbl wb0)
      _ = (wa + wb) * e.height := by ring
      _ ≤ e.width * e.height := mul_le_mul_of_nonneg_right hw hh
  · have := ly_parts_le ha.2 hb.2 h hae hbe hal hbl
    have hw : ha' + hb' ≤ e.height := this
    have hh : 0 ≤ e.width := by unfold Rect.width; linarith [he.1]
    calc wa * ha' + wb * hb' ≤ e.width * ha' + e.width * hb' := add_le_add (mul_le_mul_of_nonneg_right wal ha0) (mul_le_mul_of_nonneg_right wbl hb0)
      _ = e.width * (ha' + hb') := by ring
      _ ≤ e.width * e.height := mul_le_mul_of_nonneg_left hw hh

theorem ly_share_half {t e : Rect} (h : 9 / 10 ≤ share t e) : 1 / 2 < (e.inter t).area / e.area := by
  unfold share at h
  have := abs_roundHE_sub (100 * ((e.inter t).area / e.area))
  rw [abs_le] at this
  have h2 : (90 : ℚ) ≤ roundHE (100 * ((e.inter t).area / e.area)) := by
    rw [le_div_iff₀ (by norm_num)] at h
    linarith
  linarith [this.2]

/-- A box has 90% of its area in at most one of two boxes apart. -/
theorem ly_share_one {t u e : Rect} (he : Proper e) (ht : Proper t) (hu : Proper u) (h : Apart t u) (h1 : 9 / 10 ≤ share t e) : ¬ 9 / 10 ≤ share u e := by
  intro h2
  have a1 := ly_share_half h1
  have a2 := ly_share_half h2
  have hpos := area_pos e he
  rw [lt_div_iff₀ hpos] at a1 a2
  have := ly_area_add he ht hu h
  linarith

/-- A box apart from `t` has no part in it. -/
theorem ly_share_apart {t r e : Rect} (he : Proper e) (ht : Proper t) (hr : Proper r) (hcov : Covers r e) (h : t.intersects r = false) : ¬ 9 / 10 ≤ share t e := by
  intro h1
  have a1 := ly_share_half h1
  have hpos := area_pos e he
  rw [lt_div_iff₀ hpos] at a1
  have := ly_area_add he ht hr ((ly_apart_intersects ht hr).2 h)
  rw [inter_covered e r he hr hcov] at this
  linarith

/-! ## Which lines go to which table -/

section Text
variable {α : Type}

/-- The loop over the tables when these are apart: each table gets its lines, the others stay. -/
theorem ly_assignText (r : Rect) (hr : Proper r) (all : List (Ln α)) (ts : List Rect) (hp : ∀ t ∈ ts, Proper t) (hd : ts.Pairwise Apart)
    (lines : List (Ln α)) (hl : ∀ l ∈ lines, Proper l.bbox ∧ Covers r l.bbox) (hall : (∃ t ∈ ts, Covers t r) → lines = all) :
    assignText r all ts lines = .ok (ts.map fun t => if Covers t r then all else lines.filter fun l => decide (9 / 10 ≤ share t l.bbox),
      if ∃ t ∈ ts, Covers t r then [] else lines.filter fun l => ∀ t ∈ ts, ¬ 9 / 10 ≤ share t l.bbox) := by
  induction ts generalizing lines with
  | nil => simp [assignText]
  | cons t ts ih =>
    rw [List.pairwise_cons] at hd
    have htp := hp t (by simp)
    have hcons : ∀ q : Rect → Prop, (∃ u ∈ t :: ts, q u) ↔ q t ∨ ∃ u ∈ ts, q u := by intro q; simp
    unfold assignText
    by_cases h1 : t.contains r = true
    · rw [if_pos h1]
      have hc : Covers t r := (contains_iff t r htp hr).1 h1
      have hno : ∀ u ∈ ts, ¬ Covers u r ∧ u.intersects r = false := by
        intro u hu
        have hup := hp u (by simp [hu])
        have hi : u.intersects r = false := by
          by_contra hcon
          rw [Bool.not_eq_false] at hcon
          have := intersects_mono u t r hup htp hr hc hcon
          have hap := (ly_apart_intersects htp hup).1 (hd.1 u hu)
          rw [intersects_iff u t hup htp, max_comm, min_comm, max_comm u.y0, min_comm u.y1, ← intersects_iff t u htp hup] at this
          rw [this] at hap; cases hap
        refine ⟨fun hcu => ?_, hi⟩
        have : u.intersects r = true := by
          rw [intersects_iff u r hup hr, max_eq_right hcu.1, max_eq_right hcu.2.1, min_eq_right hcu.2.2.1, min_eq_right hcu.2.2.2]
          exact hr
        rw [this] at hi; cases hi
      rw [List.map_cons, if_pos hc, if_pos ((hcons _).2 (Or.inl hc))]
      congr 3
      refine List.map_congr_left fun u hu => ?_
      rw [if_neg (hno u hu).1]
      symm
      rw [List.filter_eq_nil_iff]
      intro l hl'
      rw [decide_eq_true_eq]
      exact ly_share_apart (hl l hl').1 (hp u (by simp [hu])) hr (hl l hl').2 (hno u hu).2
    · rw [if_neg h1]
      have hc : ¬ Covers t r := fun h => h1 ((contains_iff t r htp hr).2 h)
      have hall' : (∃ u ∈ ts, Covers u r) → lines = all := fun h => hall ((hcons _).2 (Or.inr h))
      rw [List.map_cons, if_neg hc]
      have hiff : (∃ u ∈ t :: ts, Covers u r) ↔ ∃ u ∈ ts, Covers u r := by
        rw [hcons]; exact or_iff_right hc
      simp only [hiff]
      by_cases h2 : t.intersects r = true
      · rw [if_neg (by simp [h2])]
        have hnone : ¬ ∃ u ∈ ts, Covers u r := by
          rintro ⟨u, hu, hcu⟩
          have hup := hp u (by simp [hu])
          have := intersects_mono t u r htp hup hr hcu h2
          rw [(ly_apart_intersects htp hup).1 (hd.1 u hu)] at this
          cases this
        obtain ⟨q, hq⟩ := splitLines_ok (β := Ln α) t (9 / 10) lines fun e he => ne_of_gt (area_pos _ (hl e he).1)
        obtain ⟨hq1, hq2⟩ := splitLines_eq t (9 / 10) lines q hq
        obtain ⟨inT, out⟩ := q
        rw [hq]
        dsimp only at hq1 hq2 ⊢
        have e1 : inT = lines.filter fun l => decide (9 / 10 ≤ share t l.bbox) := hq1
        have e2 : out = lines.filter fun l => !decide (9 / 10 ≤ share t l.bbox) := hq2
        have hsame : ∀ u ∈ ts, (out.filter fun l => decide (9 / 10 ≤ share u l.bbox)) = lines.filter fun l => decide (9 / 10 ≤ share u l.bbox) := by
          intro u hu
          rw [e2, List.filter_filter]
          refine List.filter_congr fun l hl' => ?_
          rw [Bool.eq_iff_iff]
          simp only [Bool.and_eq_true, decide_eq_true_eq, Bool.not_eq_true', decide_eq_false_iff_not, and_iff_left_iff_imp]
          intro hs ht
          exact ly_share_one (hl l hl').1 htp (hp u (by simp [hu])) (hd.1 u hu) ht hs
        have hout : (out.filter fun l => decide (∀ u ∈ ts, ¬ 9 / 10 ≤ share u l.bbox)) = lines.filter fun l => decide (∀ u ∈ t :: ts, ¬ 9 / 10 ≤ share u l.bbox) := by
          rw [e2, List.filter_filter]
          refine List.filter_congr fun l hl' => ?_
          rw [Bool.eq_iff_iff]
          simp only [Bool.and_eq_true, decide_eq_true_eq, Bool.not_eq_true', decide_eq_false_iff_not, List.forall_mem_cons]
          exact and_comm
        rw [if_neg hnone]
        have hmap : ∀ g : Rect → List (Ln α), (∀ u ∈ ts, g u = lines.filter fun l => decide (9 / 10 ≤ share u l.bbox)) →
            ts.map g = ts.map fun u => if Covers u r then all else lines.filter fun l => decide (9 / 10 ≤ share u l.bbox) := by
          intro g hg
          refine List.map_congr_left fun u hu => ?_
          rw [hg u hu, if_neg fun h => hnone ⟨u, hu, h⟩]
        split_ifs with h3
        · rw [List.isEmpty_iff] at h3
          rw [h3] at hsame hout
          rw [← hout, ← e1, ← hmap (fun _ => []) fun u hu => by rw [← hsame u hu]; rfl]
          rfl
        · rw [ih (fun u hu => hp u (by simp [hu])) hd.2 out (fun l hl' => hl l (by rw [e2] at hl'; exact List.mem_of_mem_filter hl'))
            fun h => absurd h hnone]
          simp only [Except.map]
          rw [if_neg hnone, hout, ← e1]
          congr 3
          rw [← hmap (fun u => if Covers u r then all else out.filter fun l => decide (9 / 10 ≤ share u l.bbox))]
          intro u hu
          rw [if_neg fun h => hnone ⟨u, hu, h⟩, hsame u hu]
      · rw [if_pos (by simpa using h2)]
        have hshare : ∀ l ∈ lines, ¬ 9 / 10 ≤ share t l.bbox := fun l hl' =>
          ly_share_apart (hl l hl').1 htp hr (hl l hl').2 (by simpa using h2)
        have hnil : (lines.filter fun l => decide (9 / 10 ≤ share t l.bbox)) = [] := by
          rw [List.filter_eq_nil_iff]
          intro l hl'
          simpa using hshare l hl'
        have hf : (lines.filter fun l => decide (∀ u ∈ t :: ts, ¬ 9 / 10 ≤ share u l.bbox)) = lines.filter fun l => decide (∀ u ∈ ts, ¬ 9 / 10 ≤ share u l.bbox) := by
          refine List.filter_congr fun l hl' => ?_
          rw [Bool.eq_iff_iff]
          simp only [decide_eq_true_eq, List.forall_mem_cons]
          exact and_iff_right (hshare l hl')
        rw [ih (fun u hu => hp u (by simp [hu])) hd.2 lines hl hall', hnil, hf]
        rfl

end Text

/-! ## Content -/

section Content
variable {α : Type}

/-- Characters and images of a block. -/
def bItems (b : Blk α) : List α := b.texts.flatMap fun t => t.2.flatMap lineItems

theorem ly_items (bs : List (Blk α)) : items bs = bs.flatMap bItems := by
  unfold items allLines bItems
  rw [ly_texts_flatMap, List.flatMap_assoc, List.flatMap_assoc]

theorem ly_items_append (a b : List (Blk α)) : items (a ++ b) = items a ++ items b := by rw [ly_items, ly_items, ly_items, List.flatMap_append]

theorem ly_items_perm {a b : List (Blk α)} (h : a.Perm b) : (items a).Perm (items b) := by
  rw [ly_items, ly_items]; exact h.flatMap_right _

theorem ly_bItems_text (r : Rect) (ls : List (Ln α)) : bItems (.text r ls) = ls.flatMap lineItems := by simp [bItems, Blk.texts]

theorem ly_bItems_table (r : Rect) (cs : List (Rect × List (Blk α))) : bItems (.table r cs) = cs.flatMap fun c => items c.2 := by
  unfold bItems items allLines
  rw [Blk.texts, ly_cells_flatMap, List.flatMap_assoc]
  refine List.flatMap_congr fun c _ => ?_
  rw [List.flatMap_assoc]

theorem ly_items_real (bs : List (Blk α)) (h : ∀ b ∈ bs, b.bbox.truthy = false → bItems b = []) : items (real bs) = items bs := by
  induction bs with
  | nil => rfl
  | cons b bs ih =>
    have ih := ih fun x hx => h x (by simp [hx])
    rw [ly_items] at ih ⊢
    rw [ly_items] at ih ⊢
    unfold real at ih ⊢
    cases hb : b.bbox.truthy with
    | true => rw [List.filter_cons_of_pos (by exact hb), List.flatMap_cons, List.flatMap_cons, ih]
    | false => rw [List.filter_cons_of_neg (by simp [hb]), List.flatMap_cons, h b (by simp) hb, ih]; rfl

/-- Lines with real boxes, or without content. -/
def LinesFine (ls : List (Ln α)) : Prop := ∀ l ∈ ls, RealBox l.bbox ∨ l.bbox = Rect.zero ∧ lineItems l = []

theorem ly_mk_items (id : ℕ) (ls : List (Ln α)) (h : LinesFine ls) : bItems (mkText id ls) = ls.flatMap lineItems := by
  have e : bItems (mkText id ls) = ((ls.filter fun l => l.bbox.truthy).map fun l => { l with pid := l.pid.or (some id) }).flatMap lineItems :=
    ly_bItems_text _ _
  rw [e, List.flatMap_map]
  induction ls with
  | nil => rfl
  | cons l ls ih =>
    have ih := ih (fun x hx => h x (by simp [hx])) (ly_bItems_text _ _)
    rcases h l (by simp) with hl | hl
    · rw [List.filter_cons_of_pos (by exact ly_real_truthy hl), List.flatMap_cons, List.flatMap_cons, ih]; rfl
    · rw [List.filter_cons_of_neg (by rw [hl.1]; decide), List.flatMap_cons, hl.2, ih]; rfl

theorem ly_mk_empty (id : ℕ) (ls : List (Ln α)) (h : LinesFine ls) (ht : (mkText id ls).bbox.truthy = false) : bItems (mkText id ls) = [] := by
  rw [ly_mk_items id ls h, List.flatMap_eq_nil_iff]
  intro l hl
  rcases h l hl with hr | hr
  · exfalso
    have hreal : ∀ l ∈ (mkText id ls).lines, RealBox l.bbox := by
      intro x hx
      obtain ⟨x0, hx0, h1, _, _, h4⟩ := ly_mk_lines id ls x hx
      rcases h x0 hx0 with hh | hh
      · rw [h1]; exact hh
      · rw [hh.1] at h4; cases h4
    have hmem : ({ l with pid := l.pid.or (some id) } : Ln α) ∈ (mkText id ls).lines :=
      List.mem_map.2 ⟨l, List.mem_filter.2 ⟨hl, ly_real_truthy hr⟩, rfl⟩
    obtain ⟨_, _, h3⟩ := ly_hull (fun l : Ln α => l.bbox) (mkText id ls).lines hreal Rect.zero (Or.inl rfl)
    have := ly_real_truthy (h3 _ hmem).2
    rw [show (mkText id ls).bbox = (mkText id ls).lines.foldl (fun b l => Coll.unionBbox b l.bbox) Rect.zero from rfl, this] at ht
    cases ht
  · exact hr.2

/-! ## Cells -/

/-- The line as `Assign` sees it. -/
def toLine (l : Ln α) : Line α := ⟨l.bbox, l.spans.map Prod.snd⟩

theorem ly_toLine_items (l : Ln α) : (toLine l).items = lineItems l := by
  unfold Line.items toLine lineItems
  rw [List.flatMap_map]

theorem ly_cutSpan_eq (cell : Rect) (s : Span α) : (cutSpan cell s).items = spanIn cell s := by
  cases s with
  | text b cs =>
    simp only [cutSpan, spanIn]
    split_ifs <;> rfl
  | image b a =>
    simp only [cutSpan, spanIn]
    split_ifs <;> rfl

theorem ly_cutLine_eq (cell : Rect) (l : Ln α) (h : LineOK l) : lineItems (cutLine cell l) = lineIn cell (toLine l) := by
  unfold cutLine lineIn
  rw [show (toLine l).bbox = l.bbox from rfl, ly_toLine_items]
  split_ifs with hc
  · rfl
  · unfold lineItems
    rw [ly_add_spans_eq]
    dsimp only
    rw [List.nil_append]
    unfold toLine
    dsimp only
    rw [List.flatMap_map]
    have key : ∀ ss : List (Rect × Span α), (∀ s ∈ ss, SpanOK s.2) →
        ((ss.map fun s => ((cutSpan cell s.2).bbox, cutSpan cell s.2)).filter fun s => s.1.truthy).flatMap (fun s => s.2.items) =
          ss.flatMap fun s => spanIn cell s.2 := by
      intro ss hss
      induction ss with
      | nil => rfl
      | cons s ss ih =>
        have ih := ih fun x hx => hss x (by simp [hx])
        rw [List.map_cons, List.flatMap_cons, ← ly_cutSpan_eq]
        rcases ly_cutSpan_ok cell s.2 (hss s (by simp)) with hz | hz
        · rw [List.filter_cons_of_neg (by dsimp only; rw [hz.1]; decide), ih, hz.2]; rfl
        · rw [List.filter_cons_of_pos (by exact ly_real_truthy (ly_span_real hz)), List.flatMap_cons, ih]
    exact key l.spans fun s hs => (h.2 s hs).2.1

theorem ly_cut_fine (cell : Rect) (ls : List (Ln α)) (h : ∀ l ∈ ls, LineOK l) : LinesFine (ls.map (cutLine cell)) := by
  intro x hx
  obtain ⟨l, hl, rfl⟩ := List.mem_map.1 hx
  by_cases ht : (cutLine cell l).bbox.truthy = true
  · exact Or.inl (ly_cutLine_ok cell l (h l hl) ht).1
  · right
    have hz : (cutLine cell l).bbox = Rect.zero := by
      unfold Rect.truthy at ht
      simpa using ht
    refine ⟨hz, ?_⟩
    unfold cutLine at hz ⊢
    split_ifs at hz ⊢ with hc
    · exfalso
      have := ly_real_truthy (h l hl).1
      rw [hz] at this; cases this
    · unfold lineItems
      rw [ly_add_spans_eq]
      rw [ly_add_box_eq] at hz
      dsimp only at hz ⊢
      rw [List.nil_append]
      set ss := (l.spans.map fun s => ((cutSpan cell s.2).bbox, cutSpan cell s.2)).filter fun s => s.1.truthy with hss
      have hreal : ∀ s ∈ ss, RealBox s.1 := by
        intro s hs
        obtain ⟨hs, ht⟩ := List.mem_filter.1 hs
        obtain ⟨s0, hs0, rfl⟩ := List.mem_map.1 hs
        rcases ly_cutSpan_ok cell s0.2 ((h l hl).2 s0 hs0).2.1 with hz | hz
        · dsimp only at ht; rw [hz.1] at ht; cases ht
        · exact ly_span_real hz
      obtain ⟨_, _, h3⟩ := ly_hull (fun x : Rect × Span α => x.1) ss hreal Rect.zero (Or.inl rfl)
      cases hs : ss with
      | nil => rfl
      | cons s l' =>
        exfalso
        have := ly_real_truthy (h3 s (by rw [hs]; simp)).2
        rw [hz] at this; cases this

/-- What a cell gets of a text block. -/
theorem ly_assignCell_text (id : ℕ) (cell r : Rect) (ls : List (Ln α)) (h : TextOK (r, ls)) :
    items (assignCell id cell (.text r ls)) = cellIn cell (.text r (ls.map toLine)) := by
  have hitems : (ls.map toLine).flatMap Line.items = ls.flatMap lineItems := by
    rw [List.flatMap_map]
    exact List.flatMap_congr fun l _ => ly_toLine_items l
  unfold assignCell cellIn
  rw [show (Blk.text r ls).bbox = r from rfl, show (Block.text r (ls.map toLine)).bbox = r from rfl]
  split_ifs with h1 h2
  · rw [show real [Blk.text r ls] = [Blk.text r ls] from List.filter_cons_of_pos (ly_real_truthy h.1), ly_items]
    simp only [List.flatMap_cons, List.flatMap_nil, List.append_nil, ly_bItems_text, Block.items, hitems]
  · rfl
  · dsimp only
    have hf := ly_cut_fine cell ls fun l hl => (h.2 l hl).1
    rw [ly_items_real _ (by intro b hb; rw [List.mem_singleton] at hb; subst hb; exact ly_mk_empty id _ hf), ly_items]
    simp only [List.flatMap_cons, List.flatMap_nil, List.append_nil]
    rw [ly_mk_items id _ hf, List.flatMap_map, List.flatMap_map]
    exact List.flatMap_congr fun l hl => ly_cutLine_eq cell l (h.2 l hl).1

theorem ly_nested (r : Rect) (ls : List (Ln α)) (h : TextOK (r, ls)) : NestedBlock r (ls.map toLine) := by
  refine ⟨h.1.1, ?_⟩
  intro x hx
  obtain ⟨l, hl, rfl⟩ := List.mem_map.1 hx
  obtain ⟨hok, hcov⟩ := h.2 l hl
  refine ⟨⟨hok.1.1, ?_⟩, hcov⟩
  intro s hs
  obtain ⟨s0, hs0, rfl⟩ := List.mem_map.1 hs
  obtain ⟨h1, h2, h3⟩ := hok.2 s0 hs0
  refine ⟨?_, by rw [← h1]; exact h3⟩
  cases hs2 : s0.2 with
  | text b cs => rw [hs2] at h2; exact ⟨h2.1.1, fun c hc => ⟨(h2.2 c hc).1.1, (h2.2 c hc).2⟩⟩
  | image b a => rw [hs2] at h2; exact h2.1

theorem ly_boxes (ls : List (Ln α)) (x : (Rect × ℚ) × α) (hx : x ∈ boxedItems (ls.map toLine)) : ∃ l ∈ ls, x.1.1 ∈ itemBoxes l := by
  unfold boxedItems at hx
  rw [List.flatMap_map] at hx
  obtain ⟨l, hl, hx⟩ := List.mem_flatMap.1 hx
  refine ⟨l, hl, ?_⟩
  unfold toLine at hx
  dsimp only at hx
  rw [List.flatMap_map] at hx
  obtain ⟨s, hs, hx⟩ := List.mem_flatMap.1 hx
  unfold itemBoxes
  refine List.mem_flatMap.2 ⟨s, hs, ?_⟩
  cases hs2 : s.2 with
  | text b cs =>
    rw [hs2] at hx
    obtain ⟨c, hc, rfl⟩ := List.mem_map.1 hx
    exact List.mem_map.2 ⟨c, hc, rfl⟩
  | image b a =>
    rw [hs2] at hx
    simp only [Span.boxed, List.mem_singleton] at hx
    subst hx
    simp

/-- A text block goes into the cells of a table exactly once. -/
theorem ly_cells_text (ids : Rect → ℕ) (cells : List Rect) (hp : ∀ c ∈ cells, Proper c) (hd : cells.Pairwise Apart) (r : Rect) (ls : List (Ln α)) (h : TextOK (r, ls))
    (hc : ∀ c ∈ cells, Mostly c r → Covers c r) (hin : ∀ l ∈ ls, ∀ x ∈ itemBoxes l, ∃ c ∈ cells, Covers c x) :
    (cells.flatMap fun c => items (assignCell (ids c) c (.text r ls))).Perm (bItems (.text r ls)) := by
  have := C44_exactly_once_partial cells hp ((List.Pairwise.and_mem.1 hd).imp fun {a b} hab => (ly_apart_intersects (hp a hab.1) (hp b hab.2.1)).1 hab.2.2) r (ls.map toLine)
    (ly_nested r ls h) hc (by
      intro x hx
      obtain ⟨l, hl, hx⟩ := ly_boxes ls x hx
      exact hin l hl _ hx)
  have e1 : (cellsIn cells (.text r (ls.map toLine))).flatten = cells.flatMap fun c => items (assignCell (ids c) c (.text r ls)) := by
    unfold cellsIn
    rw [← List.flatMap_def]
    exact List.flatMap_congr fun c _ => (ly_assignCell_text (ids c) c r ls h).symm
  have e2 : Block.items (.text r (ls.map toLine)) = bItems (.text r ls) := by
    rw [ly_bItems_text]
    show (ls.map toLine).flatMap Line.items = _
    rw [List.flatMap_map]
    exact List.flatMap_congr fun l _ => ly_toLine_items l
  rw [e1, e2] at this
  exact this

theorem ly_assignCell_table (id : ℕ) (c r : Rect) (hr : Proper r) (cs : List (Rect × List (Blk α))) :
    (Mostly c r → assignCell id c (.table r cs) = [.table r cs]) ∧ (¬ Mostly c r → assignCell id c (.table r cs) = []) := by
  unfold assignCell Mostly
  rw [show (Blk.table r cs).bbox = r from rfl]
  constructor
  · intro h
    rw [if_pos h]
    exact List.filter_cons_of_pos (proper_truthy hr)
  · intro h
    rw [if_neg h]
    split_ifs <;> rfl

/-- A nested table goes into the cells of a table exactly once. -/
theorem ly_cells_table (ids : Rect → ℕ) (cells : List Rect) (r : Rect) (hr : Proper r) (cs : List (Rect × List (Blk α)))
    (h : ∃ l₁ c l₂, cells = l₁ ++ c :: l₂ ∧ Mostly c r ∧ ∀ c' ∈ l₁ ++ l₂, ¬ Mostly c' r) :
    (cells.flatMap fun c => items (assignCell (ids c) c (.table r cs))).Perm (bItems (.table r cs)) := by
  obtain ⟨l₁, c, l₂, rfl, hc, hn⟩ := h
  have nil : ∀ l' : List Rect, (∀ c' ∈ l', ¬ Mostly c' r) → (l'.flatMap fun c => items (assignCell (ids c) c (.table r cs))) = [] := by
    intro l' hl'
    rw [List.flatMap_eq_nil_iff]
    intro c' hc'
    rw [(ly_assignCell_table (ids c') c' r hr cs).2 (hl' c' hc')]
    rfl
  rw [List.flatMap_append, List.flatMap_cons, nil l₁ fun c' h => hn c' (List.mem_append_left _ h), nil l₂ fun c' h => hn c' (List.mem_append_right _ h),
    (ly_assignCell_table (ids c) c r hr cs).1 hc, List.append_nil, List.nil_append, ly_items]
  simp

/-! ## Tables -/

theorem ly_zipIdx_flatMap {β γ : Type} (l : List β) (g : β × ℕ → List γ) (f : β → List γ) (h : ∀ x ∈ l, ∀ i, g (x, i) = f x) : l.zipIdx.flatMap g = l.flatMap f := by
  have : l.zipIdx.flatMap g = l.zipIdx.flatMap fun x => f x.1 := by
    refine List.flatMap_congr fun x hx => ?_
    obtain ⟨a, i⟩ := x
    exact h a ((List.mem_zipIdx' hx).2 ▸ List.getElem_mem _) i
  rw [this, ← List.flatMap_map (f := Prod.fst) (g := f), List.zipIdx_map_fst]

theorem ly_swap {β γ δ : Type} (a : List β) (b : List γ) (f : β → γ → List δ) :
    (a.flatMap fun x => b.flatMap (f x)).Perm (b.flatMap fun y => a.flatMap fun x => f x y) := by
  induction a with
  | nil => simp
  | cons x a ih =>
    simp only [List.flatMap_cons]
    exact (List.Perm.append_left _ ih).trans (List.flatMap_append_perm b _ _)

/-- A text block with real boxes, or a table with a box, or nothing. -/
def BlkFine : Blk α → Prop
  | .text r ls => TextOK (r, ls)
  | .table r _ => Proper r

theorem ly_assignCell_id (id : ℕ) (c : Rect) (b : Blk α) (h : BlkFine b) : items (assignCell id c b) = items (assignCell 0 c b) := by
  cases b with
  | text r ls => rw [ly_assignCell_text id c r ls h, ly_assignCell_text 0 c r ls h]
  | table r cs => rfl

theorem ly_cellLayout_items (nid : ℕ → ℕ) (c : Rect) (bs : List (Blk α)) (h : ∀ b ∈ bs, BlkFine b) :
    items (cellLayout nid c bs) = bs.flatMap fun b => items (assignCell 0 c b) := by
  have : items (cellLayout nid c bs) = bs.zipIdx.flatMap fun b => items (assignCell (nid b.2) c b.1) := by
    unfold cellLayout
    rw [ly_items, List.flatMap_assoc]
    exact List.flatMap_congr fun b _ => (ly_items _).symm
  rw [this]
  exact ly_zipIdx_flatMap _ _ _ fun b hb i => ly_assignCell_id _ c b (h b hb)

/-- Filling a table: every block given to it exactly once. -/
theorem ly_fill_items (nid : ℕ → ℕ → ℕ) (t : Tab) (bs : List (Blk α)) (h : ∀ b ∈ bs, BlkFine b)
    (hb : ∀ b ∈ bs, (t.cells.flatMap fun c => items (assignCell 0 c b)).Perm (bItems b)) : (bItems (fillTable nid t bs)).Perm (items bs) := by
  have harr : (bItems (fillTable nid t bs)).Perm ((t.cells.zipIdx.flatMap fun c => items (cellLayout (nid c.2) c.1 bs))) := by
    unfold fillTable
    rw [ly_bItems_table, List.flatMap_map]
    exact List.Perm.flatMap_left _ fun c _ => ly_items_perm (ly_arrange_perm _ _)
  refine harr.trans ?_
  rw [ly_zipIdx_flatMap t.cells _ (fun c => bs.flatMap fun b => items (assignCell 0 c b))]
  · refine (ly_swap _ _ _).trans ?_
    rw [ly_items]
    exact List.Perm.flatMap_left _ hb
  · intro c _ i
    exact ly_cellLayout_items _ c bs h

/-! ## Distribution to tables -/

/-- The blocks given to a table with box `t`. -/
def given (t : Rect) : Blk α → List (Blk α)
  | .table r cs => if Covers t r then [.table r cs] else []
  | .text r ls => if (linesIn t r ls).isEmpty then [] else if Covers t r then [.text r ls] else [mkText 0 (linesIn t r ls)]

/-- The block staying. -/
def staying (ts : List Rect) : Blk α → List (Blk α)
  | .table r cs => if ∃ t ∈ ts, Covers t r then [] else [.table r cs]
  | .text r ls => [mkText 0 (if ∃ t ∈ ts, Covers t r then [] else ls.filter fun l => ∀ t ∈ ts, ¬ 9 / 10 ≤ share t l.bbox)]

theorem ly_assignBlock (ts : List Rect) (hp : ∀ t ∈ ts, Proper t) (hd : ts.Pairwise Apart) (b : Blk α) (h : BlkFine b) :
    assignBlock ts b = .ok (ts.map fun t => given t b, staying ts b) := by
  cases b with
  | text r ls =>
    unfold assignBlock
    dsimp only
    rw [ly_assignText r h.1.1 ls ts hp hd ls (fun l hl => ⟨(h.2 l hl).1.1.1, (h.2 l hl).2⟩) fun _ => rfl]
    dsimp only
    congr 2
    rw [List.zipWith_map_right]
    have : ∀ us : List Rect, (∀ u ∈ us, Proper u) → List.zipWith (fun t b => (fun t l => if l.isEmpty = true then [] else if t.contains r = true then [Blk.text r ls]
        else [mkText 0 l]) t ((fun t => if Covers t r then ls else ls.filter fun l => decide (9 / 10 ≤ share t l.bbox)) b)) us us = us.map fun t => given t (.text r ls) := by
      intro us hus
      induction us with
      | nil => rfl
      | cons u us ih =>
        rw [List.zipWith_cons_cons, List.map_cons, ih fun x hx => hus x (by simp [hx])]
        congr 1
        unfold given linesIn
        by_cases hc : Covers u r
        · have := (contains_iff u r (hus u (by simp)) h.1.1).2 hc
          simp only [if_pos hc, if_pos this]
        · have : ¬ u.contains r = true := fun hh => hc ((contains_iff u r (hus u (by simp)) h.1.1).1 hh)
          simp only [if_neg hc, if_neg this]
    exact this ts hp
  | table r cs =>
    unfold assignBlock
    dsimp only
    have hr : Proper r := h
    cases hw : assignWhole r ts with
    | none =>
      dsimp only
      have hno : ∀ t ∈ ts, ¬ Covers t r := by
        intro t ht hc
        unfold assignWhole at hw
        rw [List.findIdx?_eq_none_iff] at hw
        have := hw t ht
        rw [(contains_iff t r (hp t ht) hr).2 hc] at this
        cases this
      unfold staying
      dsimp only
      rw [if_neg (by rintro ⟨t, ht, hc⟩; exact hno t ht hc)]
      congr 2
      refine List.map_congr_left fun t ht => ?_
      unfold given
      dsimp only
      rw [if_neg (hno t ht)]
    | some i =>
      dsimp only
      unfold assignWhole at hw
      rw [List.findIdx?_eq_some_iff_getElem] at hw
      obtain ⟨hi, hci, _⟩ := hw
      have hcov := (contains_iff _ r (hp _ (List.getElem_mem hi)) hr).1 hci
      unfold staying
      dsimp only
      rw [if_pos ⟨_, List.getElem_mem hi, hcov⟩]
      congr 2
      refine List.ext_getElem (by simp) ?_
      intro j hj1 hj2
      rw [List.getElem_mapIdx, List.getElem_map]
      unfold given
      dsimp only
      by_cases hij : i = j
      · subst hij
        rw [if_pos rfl, if_pos hcov]
      · rw [if_neg hij, if_neg]
        intro hcj
        have hj : j < ts.length := by simpa using hj1
        have hap : Apart ts[i] ts[j] ∨ Apart ts[j] ts[i] := by
          rcases lt_or_gt_of_ne hij with hlt | hlt
          · exact Or.inl (List.pairwise_iff_getElem.1 hd i j hi hj hlt)
          · exact Or.inr (List.pairwise_iff_getElem.1 hd j i hj hi hlt)
        have inner : ∀ a b : Rect, Covers a r → Covers b r → ¬ Apart a b := by
          intro a b ha hb hab
          rcases hab with hab | hab
          · have := le_min (le_trans (le_refl _) ha.2.2.1) hb.2.2.1
            have := max_le ha.1 hb.1
            linarith [hr.1]
          · have := le_min (le_trans (le_refl _) ha.2.2.2) hb.2.2.2
            have := max_le ha.2.1 hb.2.1
            linarith [hr.2]
        rcases hap with hap | hap
        · exact inner _ _ hcov hcj hap
        · exact inner _ _ hcj hcov hap

theorem ly_lines_fine {r : Rect} {ls : List (Ln α)} (h : TextOK (r, ls)) (ls' : List (Ln α)) (hs : ∀ l ∈ ls', l ∈ ls) : LinesFine ls' :=
  fun l hl => Or.inl (h.2 l (hs l hl)).1.1

theorem ly_linesIn_sub (t r : Rect) (ls : List (Ln α)) : ∀ l ∈ linesIn t r ls, l ∈ ls := by
  unfold linesIn
  split_ifs
  · exact fun l h => h
  · exact fun l h => List.mem_of_mem_filter h

theorem ly_given_items (t : Rect) (r : Rect) (ls : List (Ln α)) (h : TextOK (r, ls)) : items (given t (.text r ls)) = (linesIn t r ls).flatMap lineItems := by
  unfold given
  dsimp only
  split_ifs with h1 h2
  · rw [List.isEmpty_iff] at h1; rw [h1]; rfl
  · rw [ly_items]
    unfold linesIn
    rw [if_pos h2]
    simp [ly_bItems_text]
  · rw [ly_items]
    simp only [List.flatMap_cons, List.flatMap_nil, List.append_nil]
    exact ly_mk_items 0 _ (ly_lines_fine h _ (ly_linesIn_sub t r ls))

/-- Each block is distributed completely: to tables or staying. -/
theorem ly_block_items (ts : List Rect) (hp : ∀ t ∈ ts, Proper t) (hd : ts.Pairwise Apart) (b : Blk α) (h : BlkFine b) :
    ((ts.flatMap fun t => items (given t b)) ++ items (staying ts b)).Perm (bItems b) := by
  cases b with
  | text r ls =>
    have hint : ts.Pairwise fun t u => t.intersects u = false :=
      (List.Pairwise.and_mem.1 hd).imp fun {a b} hab => (ly_apart_intersects (hp a hab.1) (hp b hab.2.1)).1 hab.2.2
    have ha := ly_assignText r h.1.1 ls ts hp hd ls (fun l hl => ⟨(h.2 l hl).1.1.1, (h.2 l hl).2⟩) fun _ => rfl
    have := (C43_disjoint_partial ts hp hint r h.1.1 ls _ ha).2
    dsimp only at this
    have e1 : (ts.flatMap fun t => items (given t (.text r ls))) = (ts.map fun t => linesIn t r ls).flatten.flatMap lineItems := by
      rw [← List.flatMap_def, List.flatMap_assoc]
      exact List.flatMap_congr fun t _ => ly_given_items t r ls h
    have e2 : items (staying ts (.text r ls)) = (if ∃ t ∈ ts, Covers t r then [] else ls.filter fun l => decide (∀ t ∈ ts, ¬ 9 / 10 ≤ share t l.bbox)).flatMap lineItems := by
      unfold staying
      rw [ly_items]
      simp only [List.flatMap_cons, List.flatMap_nil, List.append_nil]
      refine ly_mk_items 0 _ (ly_lines_fine h _ ?_)
      split_ifs
      · simp
      · exact fun l h => List.mem_of_mem_filter h
    rw [e1, e2, ← List.flatMap_append, ly_bItems_text]
    exact this.flatMap_right _
  | table r cs =>
    have hr : Proper r := h
    have ha := ly_assignBlock ts hp hd (.table r cs) h
    have one : items [Blk.table r cs] = bItems (.table r cs) := by rw [ly_items]; simp
    unfold assignBlock at ha
    dsimp only at ha
    cases hw : assignWhole r ts with
    | none =>
      rw [hw] at ha
      simp only [Except.ok.injEq, Prod.mk.injEq] at ha
      have e : (ts.flatMap fun t => items (given t (.table r cs))) = [] := by
        rw [List.flatMap_eq_nil_iff]
        intro t ht
        have : given t (.table r cs) ∈ ts.map fun _ => ([] : List (Blk α)) := ha.1 ▸ List.mem_map.2 ⟨t, ht, rfl⟩
        obtain ⟨_, _, h'⟩ := List.mem_map.1 this
        rw [← h']; rfl
      rw [e, ← ha.2, one, List.nil_append]
    | some i =>
      rw [hw] at ha
      simp only [Except.ok.injEq, Prod.mk.injEq] at ha
      have e : (ts.flatMap fun t => items (given t (.table r cs))) = (ts.mapIdx fun j _ => if i = j then [Blk.table r cs] else []).flatMap items := by
        rw [ha.1, List.flatMap_map]
      unfold assignWhole at hw
      rw [List.findIdx?_eq_some_iff_getElem] at hw
      obtain ⟨hi, _, _⟩ := hw
      rw [e, ← ha.2]
      have hsum : ∀ (us : List Rect) (k i : ℕ), i < us.length → ((us.mapIdx fun j _ => if k + i = k + j then [Blk.table r cs] else []).flatMap items) = bItems (.table r cs) := by
        intro us
        induction us with
        | nil => intro k i hi; simp at hi
        | cons u us ih =>
          intro k i hi
          rw [List.mapIdx_cons, List.flatMap_cons]
          cases i with
          | zero =>
            rw [if_pos rfl, one]
            have : (List.mapIdx (fun j (_ : Rect) => if k + 0 = k + (j + 1) then [Blk.table r cs] else []) us).flatMap items = [] := by
              rw [List.flatMap_eq_nil_iff]
              intro g hg
              obtain ⟨j, _, rfl⟩ := List.mem_mapIdx.1 hg
              rw [if_neg (by omega)]; rfl
            rw [this, List.append_nil]
          | succ i =>
            rw [if_neg (by omega)]
            have := ih (k + 1) i (by simpa using hi)
            have e : (fun j (_ : Rect) => if k + (i + 1) = k + (j + 1) then [Blk.table r cs] else []) = fun j (_ : Rect) => if k + 1 + i = k + 1 + j then [Blk.table r cs] else [] := by
              funext j _
              have : (k + (i + 1) = k + (j + 1)) = (k + 1 + i = k + 1 + j) := by apply propext; constructor <;> omega
              simp only [this]
            rw [e, this]; rfl
      have := hsum ts 0 i hi
      simp only [Nat.zero_add] at this
      rw [this]
      simp [items, allLines, texts]

theorem ly_given_fine (t : Rect) (b : Blk α) (h : BlkFine b) : ∀ m ∈ given t b, BlkFine m := by
  intro m hm
  cases b with
  | table r cs =>
    unfold given at hm
    dsimp only at hm
    split_ifs at hm
    · rw [List.mem_singleton] at hm; subst hm; exact h
    · simp at hm
  | text r ls =>
    unfold given at hm
    dsimp only at hm
    split_ifs at hm with h1 h2
    · simp at hm
    · rw [List.mem_singleton] at hm; subst hm; exact h
    · rw [List.mem_singleton] at hm
      subst hm
      refine ly_mk_ok 0 _ (fun l hl _ => (h.2 l (ly_linesIn_sub t r ls l hl)).1) ?_
      by_contra ht
      rw [Bool.not_eq_true] at ht
      have hreal : ∀ l ∈ (mkText 0 (linesIn t r ls)).lines, RealBox l.bbox := by
        intro x hx
        obtain ⟨x0, hx0, h1, _, _, _⟩ := ly_mk_lines 0 _ x hx
        rw [h1]; exact (h.2 x0 (ly_linesIn_sub t r ls x0 hx0)).1.1
      cases hl : linesIn t r ls with
      | nil => rw [hl] at h1; simp at h1
      | cons l l' =>
        have hlr := (h.2 l (ly_linesIn_sub t r ls l (by rw [hl]; simp))).1.1
        have hmem : ({ l with pid := l.pid.or (some 0) } : Ln α) ∈ (mkText 0 (linesIn t r ls)).lines :=
          List.mem_map.2 ⟨l, List.mem_filter.2 ⟨by rw [hl]; simp, ly_real_truthy hlr⟩, rfl⟩
        obtain ⟨_, _, h3⟩ := ly_hull (fun l : Ln α => l.bbox) _ hreal Rect.zero (Or.inl rfl)
        have := ly_real_truthy (h3 _ hmem).2
        rw [show (mkText 0 (linesIn t r ls)).bbox = (mkText 0 (linesIn t r ls)).lines.foldl (fun b l => Coll.unionBbox b l.bbox) Rect.zero from rfl, this] at ht
        cases ht

theorem ly_mk_box (id : ℕ) (ls : List (Ln α)) (h : ∀ l ∈ ls, RealBox l.bbox) : (mkText id ls).bbox = ls.foldl (fun b l => Coll.unionBbox b l.bbox) Rect.zero := by
  show ((ls.filter fun l => l.bbox.truthy).map fun l => { l with pid := l.pid.or (some id) }).foldl (fun b (l : Ln α) => Coll.unionBbox b l.bbox) Rect.zero = _
  rw [List.filter_eq_self.2 fun l hl => ly_real_truthy (h l hl), List.foldl_map]

/-- With fitting tables, what is given to a table goes into its cells exactly once. -/
theorem ly_given_cells {ts : List Tab} {bs : List (Blk α)} (hf : Fits ts bs) (b : Blk α) (hb : b ∈ bs) (h : BlkFine b) (t : Tab) (ht : t ∈ ts) :
    ∀ m ∈ given t.box b, (t.cells.flatMap fun c => items (assignCell 0 c m)).Perm (bItems m) := by
  intro m hm
  cases b with
  | table r cs =>
    unfold given at hm
    dsimp only at hm
    split_ifs at hm with hc
    · rw [List.mem_singleton] at hm
      subst hm
      exact ly_cells_table (fun _ => 0) t.cells r h cs (hf.nested r cs hb t ht hc)
    · simp at hm
  | text r ls =>
    have hfine := ly_given_fine t.box (.text r ls) h m hm
    unfold given at hm
    dsimp only at hm
    have hw := hf.whole r ls hb t ht
    have hin := hf.inCell r ls hb t ht
    split_ifs at hm with h1 h2
    · simp at hm
    · rw [List.mem_singleton] at hm
      subst hm
      unfold boxIn at hw
      unfold linesIn at hin
      simp only [if_pos h2] at hw hin
      exact ly_cells_text (fun _ => 0) t.cells (hf.cells t ht) (hf.cellsApart t ht) r ls h hw hin
    · rw [List.mem_singleton] at hm
      subst hm
      unfold boxIn at hw
      simp only [if_neg h2] at hw
      rw [← ly_mk_box 0 (linesIn t.box r ls) fun l hl => (h.2 l (ly_linesIn_sub _ r ls l hl)).1.1] at hw
      refine ly_cells_text (fun _ => 0) t.cells (hf.cells t ht) (hf.cellsApart t ht) _ _ hfine hw ?_
      intro l hl x hx
      obtain ⟨l0, hl0, _, _, h3, _⟩ := ly_mk_lines 0 _ l hl
      refine hin l0 hl0 x ?_
      unfold itemBoxes at hx ⊢
      rw [← h3]; exact hx

theorem ly_mapM_eq {β γ : Type} (f : β → Except Err γ) (g : β → γ) (l : List β) (h : ∀ x ∈ l, f x = .ok (g x)) : l.mapM f = .ok (l.map g) := by
  induction l with
  | nil => rfl
  | cons a l ih =>
    rw [List.mapM_cons, h a (by simp), ih fun x hx => h x (by simp [hx])]
    rfl

theorem ly_staying_fine (ts : List Rect) (b : Blk α) (h : BlkFine b) : ∀ m ∈ staying ts b, m.bbox.truthy = false → bItems m = [] := by
  intro m hm ht
  cases b with
  | table r cs =>
    unfold staying at hm
    dsimp only at hm
    split_ifs at hm
    · simp at hm
    · rw [List.mem_singleton] at hm
      subst hm
      have : r.truthy = true := proper_truthy h
      rw [show (Blk.table r cs).bbox = r from rfl, this] at ht
      cases ht
  | text r ls =>
    unfold staying at hm
    rw [List.mem_singleton] at hm
    subst hm
    refine ly_mk_empty 0 _ (ly_lines_fine h _ ?_) ht
    split_ifs
    · simp
    · exact fun l h => List.mem_of_mem_filter h

/-- With fitting tables, assigning blocks to tables keeps every character and image exactly once. -/
theorem ly_assignTables_items (nid : ℕ → ℕ → ℕ → ℕ) (ts : List Tab) (bs : List (Blk α)) (hf : Fits ts bs) (hok : ∀ b ∈ bs, BlkFine b)
    (r : List (Blk α)) (ho : assignTables nid ts bs = .ok r) : (items r).Perm (items bs) := by
  unfold assignTables at ho
  split_ifs at ho with h0
  · simp only [Except.ok.injEq] at ho; subst ho; exact List.Perm.refl _
  have hp : ∀ t ∈ ts.map Tab.box, Proper t := by
    intro t ht
    obtain ⟨t', ht', rfl⟩ := List.mem_map.1 ht
    exact hf.box t' ht'
  have hd : (ts.map Tab.box).Pairwise Apart := List.pairwise_map.2 hf.apart
  rw [ly_mapM_eq _ (fun b => ((ts.map Tab.box).map fun t => given t b, staying (ts.map Tab.box) b)) bs fun b hb => ly_assignBlock _ hp hd b (hok b hb)] at ho
  simp only [Except.ok.injEq] at ho
  subst ho
  refine (ly_items_perm (ly_sort_perm _)).trans ?_
  rw [List.flatMap_map]
  dsimp only
  have hfill : ∀ t ∈ ts.zipIdx, (List.map (fun b => (List.map (fun t => given t b) (List.map Tab.box ts), staying (List.map Tab.box ts) b)) bs).flatMap
      (fun r => r.1.getD t.2 []) = bs.flatMap fun b => given t.1.box b := by
    intro t ht
    rw [List.flatMap_map]
    refine List.flatMap_congr fun b _ => ?_
    dsimp only
    have := (List.mem_zipIdx' ht)
    rw [List.getD_eq_getElem?_getD, List.getElem?_map, List.getElem?_map, List.getElem?_eq_getElem this.1, ← this.2]
    rfl
  rw [ly_items_real]
  · rw [ly_items_append]
    have e1 : (items (ts.zipIdx.map fun t => fillTable (nid t.2) t.1 ((List.map (fun b => (List.map (fun t => given t b) (List.map Tab.box ts), staying (List.map Tab.box ts) b)) bs).flatMap
        fun r => r.1.getD t.2 []))).Perm (ts.flatMap fun t => bs.flatMap fun b => items (given t.box b)) := by
      rw [ly_items, List.flatMap_map, ← ly_zipIdx_flatMap ts (fun t => bs.flatMap fun b => items (given t.1.box b)) _ fun x _ i => rfl]
      refine List.Perm.flatMap_left _ fun t ht => ?_
      rw [hfill t ht]
      have htm : t.1 ∈ ts := (List.mem_zipIdx' ht).2 ▸ List.getElem_mem _
      refine (ly_fill_items _ t.1 _ ?_ ?_).trans ?_
      · intro m hm
        obtain ⟨b, hb, hm⟩ := List.mem_flatMap.1 hm
        exact ly_given_fine _ b (hok b hb) m hm
      · intro m hm
        obtain ⟨b, hb, hm⟩ := List.mem_flatMap.1 hm
        exact ly_given_cells hf b hb (hok b hb) t.1 htm m hm
      · rw [ly_items, List.flatMap_assoc]
        exact List.Perm.of_eq (List.flatMap_congr fun b _ => (ly_items _).symm)
    have e2 : items (bs.flatMap fun b => staying (ts.map Tab.box) b) = bs.flatMap fun b => items (staying (ts.map Tab.box) b) := by
      rw [ly_items, List.flatMap_assoc]
      exact List.flatMap_congr fun b _ => (ly_items _).symm
    rw [e2]
    refine (List.Perm.append_left _ (e1.trans (ly_swap _ _ _))).trans ?_
    refine List.perm_append_comm.trans ?_
    refine (List.flatMap_append_perm bs _ _).trans ?_
    rw [ly_items]
    refine List.Perm.flatMap_left _ fun b hb => ?_
    have := ly_block_items (ts.map Tab.box) hp hd b (hok b hb)
    rw [List.flatMap_map] at this
    exact this
  · intro m hm ht
    rcases List.mem_append.1 hm with hm | hm
    · obtain ⟨b, hb, hm⟩ := List.mem_flatMap.1 hm
      exact ly_staying_fine _ b (hok b hb) m hm ht
    · obtain ⟨t, ht', rfl⟩ := List.mem_map.1 hm
      have htm : t.1 ∈ ts := (List.mem_zipIdx' ht').2 ▸ List.getElem_mem _
      have : t.1.box.truthy = true := proper_truthy (hf.box t.1 htm)
      unfold fillTable at ht
      rw [show (Blk.table t.1.box _ : Blk α).bbox = t.1.box from rfl, this] at ht
      cases ht

/-! ## Splitting back, and the recursion -/

theorem ly_splitBack_items (c : Cfg) (hi : ∀ l, (c.iter l).Perm l) (bs : List (Blk α)) (hok : ∀ b ∈ bs, BlkFine b) (r : List (Blk α))
    (ho : Lay.splitBack c bs = .ok r) : (items r).Perm (items bs) := by
  obtain ⟨gs, h1, h2, _, _⟩ := C69_split_back c.iter hi ((bs.filter (flow c)).flatMap Blk.lines)
  unfold Lay.splitBack at ho
  rw [h1] at ho
  simp only [Except.ok.injEq] at ho
  subst ho
  have hfl : ∀ b ∈ bs.filter (flow c), ∃ r ls, b = .text r ls ∧ TextOK (r, ls) := by
    intro b hb
    obtain ⟨hb, hf⟩ := List.mem_filter.1 hb
    cases b with
    | table r cs => simp [flow, Blk.isText] at hf
    | text r ls => exact ⟨r, ls, rfl, hok _ hb⟩
  have hfine : ∀ g ∈ gs, LinesFine g := by
    intro g hg l hl
    obtain ⟨b, hb, hl⟩ := List.mem_flatMap.1 (h2.subset (List.mem_flatten.2 ⟨g, hg, hl⟩))
    obtain ⟨r, ls, rfl, hrl⟩ := hfl b hb
    exact Or.inl (hrl.2 l hl).1.1
  refine (ly_items_perm (ly_sort_perm _)).trans ?_
  rw [ly_items_real]
  · rw [ly_items_append]
    have e1 : items (gs.map (mkText 0)) = gs.flatten.flatMap lineItems := by
      rw [ly_items, List.flatMap_map, ← List.flatMap_id, List.flatMap_assoc]
      exact List.flatMap_congr fun g hg => ly_mk_items 0 g (hfine g hg)
    have e2 : ((bs.filter (flow c)).flatMap Blk.lines).flatMap lineItems = items (bs.filter (flow c)) := by
      rw [ly_items, List.flatMap_assoc]
      refine List.flatMap_congr fun b hb => ?_
      obtain ⟨r, ls, rfl, _⟩ := hfl b hb
      rw [ly_bItems_text]; rfl
    rw [e1]
    refine (List.Perm.append_left _ (h2.flatMap_right _)).trans ?_
    rw [e2, ← ly_items_append]
    refine ly_items_perm ?_
    refine List.perm_append_comm.trans ?_
    exact List.filter_append_perm _ bs
  · intro m hm ht
    rcases List.mem_append.1 hm with hm | hm
    · have hm := List.mem_of_mem_filter hm
      cases m with
      | table r cs =>
        have : r.truthy = true := proper_truthy (hok _ hm)
        rw [show (Blk.table r cs).bbox = r from rfl, this] at ht; cases ht
      | text r ls =>
        have : r.truthy = true := ly_real_truthy (hok _ hm).1
        rw [show (Blk.text r ls).bbox = r from rfl, this] at ht; cases ht
    · obtain ⟨g, hg, rfl⟩ := List.mem_map.1 hm
      exact ly_mk_empty 0 g (hfine g hg) ht

end Content
end Props
