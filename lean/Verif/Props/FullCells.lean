import Verif.Props.FullLattice
/-! # The cells of a drawn table in the closed layout model (towards C92) -/

namespace Props
open Py Geom Spec

section FCells
open Full

variable {α : Type}

theorem fc_tables_text (sub : ℕ → ℕ → Types → Cell → List (Full.Blk α) → Except Err (List (Full.Blk α) × Types)) (i : ℕ) (ty : Types) (bs : List (Full.Blk α))
    (h : ∀ b ∈ bs, b.isText = true) : parseTables sub i ty bs = .ok (bs, ty) := by
  induction bs generalizing i with
  | nil => rfl
  | cons b bs ih =>
    cases b with
    | table b _ cs => cases h _ (List.mem_cons_self)
    | text r ls =>
      unfold parseTables
      rw [ih (i + 1) fun b hb => h b (by simp [hb])]

theorem fc_nothing (nid : ℕ → ℕ → ℕ → ℕ) (ty : Types) (sub : Sub) (bs : List (Full.Blk α)) : assignTables nid ty [] sub bs = .ok (bs, sub) := rfl

/-- Where no tables are found, no shape gets a type. -/
theorem fc_types (c : Full.Cfg) (fills : List (Rect × ℕ)) (gs : List (List Table.St)) (ty ty' : Types) (h : latticeLoop c fills ty gs = .ok ([], ty')) : ty' = ty := by
  induction gs with
  | nil =>
    unfold latticeLoop at h
    exact (Prod.mk.inj (Except.ok.inj h)).2.symm
  | cons g gs ih =>
    unfold latticeLoop at h
    split at h
    · cases h
    · rename_i t _
      split_ifs at h
      · split at h
        · cases h
        · cases (Prod.mk.inj (Except.ok.inj h)).1
      · exact ih h

theorem fc_types_stage (c : Full.Cfg) (ty ty' : Types) (sub : Sub) (h : latticeStage c ty sub = .ok ([], ty')) : ty' = ty := by
  unfold latticeStage at h
  split_ifs at h
  · exact (Prod.mk.inj (Except.ok.inj h)).2.symm
  · exact fc_types c _ _ _ _ h

/-- In a layout of text blocks below each other, with white fills at most and with lines far from each other only, no table is found. -/
theorem fc_stages (c : Full.Cfg) (hi : ∀ l, (c.base.lay.iter l).Perm l) (htol : 0 < c.base.lay.tol) (hd : 0 ≤ c.conn) (hc : 0 ≤ c.base.clear) (hw : 1 / 20 ≤ c.base.maxW)
    (nid : Lay.Ids) (path : List ℕ) (box : Rect) (bs : List (Full.Blk α)) (sub : Sub) (ty : Types) (hs : Stack bs)
    (hf : ∀ f ∈ sub.fills, f.2 = white) (hp : ∀ s ∈ sub.strokes, Proper s.bbox ∧ Tenths s.bbox) (ha : sub.strokes.Pairwise fun a b => ¬ Near c.conn c.conn a.bbox b.bbox) :
    stages c nid path box [1, 2] ⟨bs, sub, ty⟩ = .ok ⟨bs, sub, ty⟩ := by
  obtain ⟨fs, ty1, h1, h2⟩ := fx_stage c ty sub [] (fun _ => rfl) (fx_quiet c.base.lay.iter hi c.conn c.base.clear c.base.maxW hd hc hw sub.strokes hp ha) (by simp)
  obtain rfl := List.forall₂_nil_right_iff.1 h2
  have h3 := ft_stream c hi htol ty1 box sub (fun f h => Or.inl (hf f h)) bs hs
  have hty := fc_types_stage c ty ty1 sub h1
  rw [hty] at h1 h3
  unfold stages
  show (match latticeStage c ty sub with | .error e => _ | .ok t => _) = _
  rw [h1]
  dsimp only
  rw [fc_nothing]
  dsimp only
  unfold stages
  show (match streamStage c ty box sub bs with | .error e => _ | .ok t => _) = _
  rw [h3]
  dsimp only
  rw [fc_nothing]
  rfl

/-- A layout of text blocks below each other, with white fills at most and with lines far from each other only: shown as it is. -/
theorem fc_column_text (c : Full.Cfg) (hi : ∀ l, (c.base.lay.iter l).Perm l) (htol : 0 < c.base.lay.tol) (hd : 0 ≤ c.conn) (hc : 0 ≤ c.base.clear) (hw : 1 / 20 ≤ c.base.maxW)
    (fmt : Format α) (nid : Lay.Ids) (depth : ℕ) (path : List ℕ) (box : Rect) (bs : List (Full.Blk α)) (sub : Sub) (ty : Types) (hs : Stack bs) (ht : ∀ b ∈ bs, b.isText = true)
    (hf : ∀ f ∈ sub.fills, f.2 = white) (hp : ∀ s ∈ sub.strokes, Proper s.bbox ∧ Tenths s.bbox) (ha : sub.strokes.Pairwise fun a b => ¬ Near c.conn c.conn a.bbox b.bbox) :
    ∃ r ty', parse c fmt nid (depth + 1) path box [1, 2] ⟨bs, sub, ty⟩ = .ok (r, ty') ∧ ShowsDown r (bs.flatMap Blk.lines) ∧
      ∀ b ∈ r, PlainText b ∧ b.lines.Pairwise fun l m => Above l.bbox m.bbox := by
  have hst := fc_stages c hi htol hd hc hw nid path box bs sub ty hs hf hp ha
  obtain ⟨r, k1, k2, k3, k4, k5⟩ := ft_split c.base.lay hi htol bs hs
  have htr : ∀ b ∈ r, b.isText = true := by
    intro b hb
    by_contra hcon
    have : b ∈ bs.filter fun b => !b.isText := k4.subset (List.mem_filter.2 ⟨hb, by simpa using hcon⟩)
    obtain ⟨m1, m2⟩ := List.mem_filter.1 this
    rw [ht b m1] at m2
    cases m2
  refine ⟨r, ⟨ty.done, ty.styled ++ fmt path ⟨bs, sub, ty⟩ ⟨bs, sub, ty⟩ r⟩, ?_, ft_shows r _ k2 htr (k3.imp And.left) k5, fun b hb => k2 b hb (htr b hb)⟩
  unfold parse
  rw [hst]
  dsimp only
  rw [k1]
  dsimp only
  rw [fc_tables_text _ _ _ _ htr]

/-- The same, without the shape of the blocks. -/
theorem fc_column (c : Full.Cfg) (hi : ∀ l, (c.base.lay.iter l).Perm l) (htol : 0 < c.base.lay.tol) (hd : 0 ≤ c.conn) (hc : 0 ≤ c.base.clear) (hw : 1 / 20 ≤ c.base.maxW)
    (fmt : Format α) (nid : Lay.Ids) (depth : ℕ) (path : List ℕ) (box : Rect) (bs : List (Full.Blk α)) (sub : Sub) (ty : Types) (hs : Stack bs) (ht : ∀ b ∈ bs, b.isText = true)
    (hf : ∀ f ∈ sub.fills, f.2 = white) (hp : ∀ s ∈ sub.strokes, Proper s.bbox ∧ Tenths s.bbox) (ha : sub.strokes.Pairwise fun a b => ¬ Near c.conn c.conn a.bbox b.bbox) :
    ∃ r ty', parse c fmt nid (depth + 1) path box [1, 2] ⟨bs, sub, ty⟩ = .ok (r, ty') ∧ ShowsDown r (bs.flatMap Blk.lines) := by
  obtain ⟨r, ty', h1, h2, -⟩ := fc_column_text c hi htol hd hc hw fmt nid depth path box bs sub ty hs ht hf hp ha
  exact ⟨r, ty', h1, h2⟩

/-! ## The part of a block in a cell -/

/-- The lines of a block in a cell. -/
def inCellLines (cell : Rect) (ls : List (Lay.Ln α)) : List (Lay.Ln α) := ls.filter fun l => decide (Covers cell l.bbox)

theorem fc_cut_apart (cell : Rect) (hcell : Proper cell) (l : Lay.Ln α) (h : LineOK l) (ha : cell.intersects l.bbox = false) : (Lay.cutLine cell l).bbox = Rect.zero := by
  have hlp := h.1.1
  have hnc : ¬ cell.contains l.bbox = true := by
    intro hc
    have hcov := (contains_iff cell l.bbox hcell hlp).1 hc
    have := common_part hcell hlp hlp hcov ⟨le_refl _, le_refl _, le_refl _, le_refl _⟩
    rw [this] at ha
    cases ha
  unfold Lay.cutLine
  rw [if_neg hnc, ly_add_box_eq]
  dsimp only
  have : (l.spans.map fun s => ((Lay.cutSpan cell s.2).bbox, Lay.cutSpan cell s.2)).filter (fun s => s.1.truthy) = [] := by
    rw [List.filter_eq_nil_iff]
    intro x hx
    obtain ⟨s, hs, rfl⟩ := List.mem_map.1 hx
    dsimp only
    obtain ⟨e, hok, hcov⟩ := h.2 s hs
    have hsa : cell.intersects s.2.bbox = false := by
      by_contra hcon
      rw [Bool.not_eq_false] at hcon
      have := intersects_mono cell l.bbox s.2.bbox hcell hlp (ly_span_real hok).1 (by rw [← e]; exact hcov) hcon
      rw [this] at ha
      cases ha
    cases hsp : s.2 with
    | text b cs =>
      rw [hsp] at hok hsa
      unfold Lay.cutSpan
      dsimp only
      have hnc' : ¬ cell.contains b = true := by
        intro hc
        have hb : Proper b := hok.1.1
        have := common_part hcell hb hb ((contains_iff cell b hcell hb).1 hc) ⟨le_refl _, le_refl _, le_refl _, le_refl _⟩
        rw [show cell.intersects b = false from hsa] at this
        cases this
      rw [if_neg hnc', if_pos (by rw [show cell.intersects b = false from hsa]; rfl)]
      show ¬ Rect.zero.truthy = true
      decide
    | image b a =>
      rw [hsp] at hok hsa
      unfold Lay.cutSpan
      dsimp only
      have hb : Proper b := And.left (show RealBox b from hok)
      have := mainIn_apart (3 / 4) (by norm_num) b b cell hb hb hcell ⟨le_refl _, le_refl _, le_refl _, le_refl _⟩ hsa
      rw [if_neg (by rw [this]; decide)]
      show ¬ Rect.zero.truthy = true
      decide
  rw [this]
  rfl

/-- What a cell gets of a block. -/
structure PartOf (cell : Rect) (b B : Full.Blk α) : Prop where
  text : PlainText B
  lines : B.lines = inCellLines cell b.lines

theorem fc_mk_cut (cell : Rect) (hcell : Proper cell) (id : ℕ) (ls : List (Lay.Ln α)) (hok : ∀ l ∈ ls, LineOK l) (hin : ∀ l ∈ ls, Covers cell l.bbox ∨ cell.intersects l.bbox = false) :
    Full.mkText id (ls.map (Lay.cutLine cell)) = Full.mkText id (inCellLines cell ls) := by
  have e : (ls.map (Lay.cutLine cell)).filter (fun l => l.bbox.truthy) = (inCellLines cell ls).filter fun l => l.bbox.truthy := by
    unfold inCellLines
    induction ls with
    | nil => rfl
    | cons l ls ih =>
      have ih := ih (fun x hx => hok x (by simp [hx])) (fun x hx => hin x (by simp [hx]))
      have hl := hok l (by simp)
      rcases hin l (by simp) with h | h
      · have hc := (contains_iff cell l.bbox hcell hl.1.1).2 h
        have e1 : Lay.cutLine cell l = l := by unfold Lay.cutLine; rw [if_pos hc]
        rw [List.map_cons, e1, List.filter_cons_of_pos (p := fun l : Lay.Ln α => decide (Covers cell l.bbox)) (by simpa using h),
          List.filter_cons_of_pos (by exact ly_real_truthy hl.1), List.filter_cons_of_pos (by exact ly_real_truthy hl.1), ih]
      · have hnc : ¬ Covers cell l.bbox := by
          intro hc
          have := common_part hcell hl.1.1 hl.1.1 hc ⟨le_refl _, le_refl _, le_refl _, le_refl _⟩
          rw [h] at this
          cases this
        rw [List.map_cons, List.filter_cons_of_neg (p := fun l : Lay.Ln α => decide (Covers cell l.bbox)) (by simpa using hnc),
          List.filter_cons_of_neg (by rw [fc_cut_apart cell hcell l hl h]; decide), ih]
  unfold Full.mkText Lay.mkText
  rw [e]

theorem fc_part (cell : Rect) (hcell : Proper cell) (id : ℕ) (b : Full.Blk α) (hb : LineText b) (hcol : LineColumn (inCellLines cell b.lines)) (hw : Mostly cell b.bbox → Covers cell b.bbox)
    (hin : ∀ l ∈ b.lines, Covers cell l.bbox ∨ cell.intersects l.bbox = false) :
    (assignCell id cell b = [] ∧ inCellLines cell b.lines = []) ∨ ∃ B, assignCell id cell b = [B] ∧ PartOf cell b B := by
  have hreal : ∀ l ∈ b.lines, RealBox l.bbox := fun l hl => (hb.boxes.2 l hl).1.1
  cases b with
  | table _ _ _ => exact absurd hb.text (by simp [Blk.isText])
  | text r ls =>
    unfold assignCell
    by_cases h1 : El.contains ⟨cell, .leftRight⟩ ⟨r, .leftRight⟩ (19 / 20) = true
    · right
      rw [show (Full.Blk.text r ls).bbox = r from rfl, if_pos h1]
      have hall : inCellLines cell ls = ls := by
        have hc := hw h1
        unfold inCellLines
        rw [List.filter_eq_self.2]
        intro l hl
        simpa using covers_trans hc (hb.boxes.2 l hl).2
      exact ⟨_, List.filter_cons_of_pos (by exact ly_real_truthy hb.boxes.1), ⟨hb, by rw [← hall]; exact hcol⟩, hall.symm⟩
    · rw [show (Full.Blk.text r ls).bbox = r from rfl, if_neg h1]
      by_cases h2 : (!(cell.inter r).truthy) = true
      · left
        rw [if_pos h2]
        refine ⟨rfl, ?_⟩
        unfold inCellLines
        rw [List.filter_eq_nil_iff]
        intro l hl hcon
        have hcov : Covers cell l.bbox := by simpa using hcon
        have hl' := hb.boxes.2 l hl
        have hrp : Proper r := hb.boxes.1.1
        have := common_part hcell hrp hl'.1.1.1 hcov hl'.2
        unfold Rect.intersects at this
        have h3 : cell.inter r = Rect.zero := by
          unfold Rect.truthy at h2
          simpa using h2
        rw [h3] at this
        split_ifs at this with h4 h5
        exact h5 (by decide)
      · rw [if_neg h2]
        dsimp only
        rw [fc_mk_cut cell hcell id ls (fun l hl => (hb.boxes.2 l hl).1) hin]
        have hsub : ∀ l ∈ inCellLines cell ls, l ∈ ls := fun l hl => (List.mem_filter.1 hl).1
        obtain ⟨m1, m2⟩ := ft_mk id (inCellLines cell ls) (fun l hl => hreal l (hsub l hl)) (fun l hl => hb.source l (hsub l hl))
        by_cases hne : inCellLines cell ls = []
        · left
          refine ⟨?_, hne⟩
          rw [hne]
          rfl
        · right
          obtain ⟨m2, m3⟩ := m2 hne
          refine ⟨_, List.filter_cons_of_pos (by exact ly_real_truthy m2), ⟨⟨rfl, ⟨m2, ?_⟩, ?_, ?_, ?_, ?_⟩, ?_⟩, m1⟩
          · intro l hl
            rw [m1] at hl
            exact ⟨(hb.boxes.2 l (hsub l hl)).1, m3.1 _ (List.mem_map_of_mem hl)⟩
          · rw [m1]; exact hne
          · rw [m1]; exact m3
          · rw [m1]; exact fun l hl => hb.horizontal l (hsub l hl)
          · rw [m1]; exact fun l hl => hb.source l (hsub l hl)
          · rw [m1]; exact hcol

/-- The layout of a cell, block by block. -/
theorem fc_layout (cell : Rect) (nid : ℕ → ℕ) (bs : List (Full.Blk α))
    (h : ∀ b ∈ bs, ∀ id, (assignCell id cell b = [] ∧ inCellLines cell b.lines = []) ∨ ∃ B, assignCell id cell b = [B] ∧ PartOf cell b B) :
    ∃ L : List (Full.Blk α × Full.Blk α), cellLayout nid cell bs = L.map Prod.snd ∧ (L.map Prod.fst).Sublist bs ∧ (∀ p ∈ L, PartOf cell p.1 p.2) ∧
      (cellLayout nid cell bs).flatMap Blk.lines = inCellLines cell (bs.flatMap Blk.lines) := by
  unfold cellLayout
  have key : ∀ (bs : List (Full.Blk α)) (n : ℕ), (∀ b ∈ bs, ∀ id, (assignCell id cell b = [] ∧ inCellLines cell b.lines = []) ∨ ∃ B, assignCell id cell b = [B] ∧ PartOf cell b B) →
      ∃ L : List (Full.Blk α × Full.Blk α), ((bs.zipIdx n).flatMap fun b => assignCell (nid b.2) cell b.1) = L.map Prod.snd ∧ (L.map Prod.fst).Sublist bs ∧
        (∀ p ∈ L, PartOf cell p.1 p.2) ∧ ((bs.zipIdx n).flatMap fun b => assignCell (nid b.2) cell b.1).flatMap Blk.lines = inCellLines cell (bs.flatMap Blk.lines) := by
    intro bs
    induction bs with
    | nil => intro n _; exact ⟨[], rfl, List.Sublist.refl _, by simp, rfl⟩
    | cons b bs ih =>
      intro n h
      obtain ⟨L, h1, h2, h3, h4⟩ := ih (n + 1) fun b hb => h b (by simp [hb])
      have app : inCellLines cell (b.lines ++ bs.flatMap Blk.lines) = inCellLines cell b.lines ++ inCellLines cell (bs.flatMap Blk.lines) := List.filter_append _ _
      rw [List.zipIdx_cons, List.flatMap_cons, List.flatMap_append, h4, List.flatMap_cons, app]
      rcases h b (by simp) (nid n) with ⟨e1, e2⟩ | ⟨B, e1, e2⟩
      · refine ⟨L, ?_, h2.cons b, h3, ?_⟩
        · rw [e1, h1]; rfl
        · rw [e1, e2]; rfl
      · refine ⟨(b, B) :: L, ?_, ?_, ?_, ?_⟩
        · rw [e1, h1]; rfl
        · exact h2.cons_cons b
        · intro p hp
          rcases List.mem_cons.1 hp with rfl | hp
          · exact e2
          · exact h3 p hp
        · rw [e1, ← e2.lines]; simp
  exact key bs 0 h

theorem fc_bound {rs : List Rect} (f : Rect → ℚ) (M : ℚ) (h : ∀ r ∈ rs, f r < M) : ∃ m < M, ∀ r ∈ rs, f r ≤ m := by
  induction rs with
  | nil => exact ⟨M - 1, by linarith, by simp⟩
  | cons r rs ih =>
    obtain ⟨m, h1, h2⟩ := ih fun x hx => h x (by simp [hx])
    refine ⟨max m (f r), max_lt h1 (h r (by simp)), ?_⟩
    intro x hx
    rcases List.mem_cons.1 hx with rfl | hx
    · exact le_max_right _ _
    · exact le_trans (h2 x hx) (le_max_left _ _)

/-- If all lines of one block are above all lines of the other, so are the blocks. -/
theorem fc_above {a b : Full.Blk α} (ha : PlainText a) (hb : PlainText b) (h : ∀ l ∈ a.lines, ∀ m ∈ b.lines, l.bbox.y1 < m.bbox.y0) : a.bbox.y1 < b.bbox.y0 := by
  have hm : ∀ m ∈ b.lines, a.bbox.y1 < m.bbox.y0 := by
    intro m hm
    obtain ⟨q, hq, hq'⟩ := fc_bound (rs := a.lines.map fun l => l.bbox) (fun r => r.y1) m.bbox.y0 (by
      intro r hr
      obtain ⟨l, hl, rfl⟩ := List.mem_map.1 hr
      exact h l hl m hm)
    have := ha.hull.2 ⟨a.bbox.x0, a.bbox.y0, a.bbox.x1, q⟩ (by
      intro r hr
      have := ha.hull.1 r hr
      exact ⟨this.1, this.2.1, this.2.2.1, hq' r hr⟩)
    exact lt_of_le_of_lt this.2.2.2 hq
  obtain ⟨q, hq, hq'⟩ := fc_bound (rs := b.lines.map fun l => l.bbox) (fun r => -r.y0) (-a.bbox.y1) (by
    intro r hr
    obtain ⟨l, hl, rfl⟩ := List.mem_map.1 hr
    linarith [hm l hl])
  have := hb.hull.2 ⟨b.bbox.x0, -q, b.bbox.x1, b.bbox.y1⟩ (by
    intro r hr
    have := hb.hull.1 r hr
    have := hq' r hr
    exact ⟨(hb.hull.1 r hr).1, by dsimp only; linarith, (hb.hull.1 r hr).2.2.1, (hb.hull.1 r hr).2.2.2⟩)
  have := this.2.1
  dsimp only at this
  linarith

/-- The parts in a cell are below each other. -/
theorem fc_stack (cell : Rect) (L : List (Full.Blk α × Full.Blk α)) (bs : List (Full.Blk α)) (hsub : (L.map Prod.fst).Sublist bs) (hL : ∀ p ∈ L, PartOf cell p.1 p.2)
    (hsrc : bs.Pairwise OtherSource)
    (hord : bs.Pairwise fun a b => (∀ l ∈ a.lines, ∀ m ∈ b.lines, Covers cell l.bbox → Covers cell m.bbox → l.bbox.y1 < m.bbox.y0) ∨
      (∀ l ∈ a.lines, ∀ m ∈ b.lines, Covers cell l.bbox → Covers cell m.bbox → m.bbox.y1 < l.bbox.y0)) : Stack (L.map Prod.snd) := by
  have hmem : ∀ p ∈ L, ∀ l ∈ p.2.lines, l ∈ p.1.lines ∧ Covers cell l.bbox := by
    intro p hp l hl
    rw [(hL p hp).lines] at hl
    obtain ⟨h1, h2⟩ := List.mem_filter.1 hl
    exact ⟨h1, by simpa using h2⟩
  have s1 := List.Pairwise.sublist hsub hsrc
  have s2 := List.Pairwise.sublist hsub hord
  rw [List.pairwise_map] at s1 s2
  refine ⟨?_, ?_, ?_, ?_⟩
  · intro B hB _
    obtain ⟨p, hp, rfl⟩ := List.mem_map.1 hB
    exact (hL p hp).text
  · intro B hB
    obtain ⟨p, hp, rfl⟩ := List.mem_map.1 hB
    exact (hL p hp).text.boxes.1
  · rw [List.pairwise_map]
    refine s2.imp_of_mem ?_
    intro p q hp hq h
    rcases h with h | h
    · left
      exact fc_above (hL p hp).text (hL q hq).text fun l hl m hm => h l (hmem p hp l hl).1 m (hmem q hq m hm).1 (hmem p hp l hl).2 (hmem q hq m hm).2
    · right
      exact fc_above (hL q hq).text (hL p hp).text fun m hm l hl => h l (hmem p hp l hl).1 m (hmem q hq m hm).1 (hmem p hp l hl).2 (hmem q hq m hm).2
  · rw [List.pairwise_map]
    refine s1.imp_of_mem ?_
    intro p q hp hq h l hl m hm
    exact h l (hmem p hp l hl).1 m (hmem q hq m hm).1

theorem fc_cells (sub : ℕ → Types → Cell → List (Full.Blk α) → Except Err (List (Full.Blk α) × Types)) (P : Cell → List (Full.Blk α) → Prop) (cs : List (Cell × List (Full.Blk α)))
    (h : ∀ c ∈ cs, ∀ i ty, ∃ r ty', sub i ty c.1 c.2 = .ok (r, ty') ∧ P c.1 r) (i : ℕ) (ty : Types) :
    ∃ cs' ty', parseCells sub i ty cs = .ok (cs', ty') ∧ cs'.map Prod.fst = cs.map Prod.fst ∧ ∀ c ∈ cs', P c.1 c.2 := by
  induction cs generalizing i ty with
  | nil => exact ⟨[], ty, rfl, rfl, by simp⟩
  | cons c cs ih =>
    obtain ⟨r, ty1, h1, h2⟩ := h c (by simp) i ty
    obtain ⟨cs', ty2, h3, h4, h5⟩ := ih (fun c hc => h c (by simp [hc])) (i + 1) ty1
    refine ⟨(c.1, r) :: cs', ty2, ?_, by simp [h4], ?_⟩
    · unfold parseCells
      rw [h1]
      dsimp only
      rw [h3]
    · intro x hx
      rcases List.mem_cons.1 hx with rfl | hx
      · exact h2
      · exact h5 x hx

end FCells

end Props
