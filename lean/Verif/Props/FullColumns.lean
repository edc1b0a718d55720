import Verif.Props.FullText
import Verif.Props.FullTableEx
import Verif.Props.Columns
import Verif.Spec.FullColumns
/-! # A page in two columns is shown in two columns (C124) -/

namespace Props
open Py Geom Spec

section FTwo
open Full

variable {α : Type}

theorem tc_side {X : ℚ} (r : Rect) : LeftOf X r ∨ RightOf X r ∨ Across X r := by
  unfold LeftOf RightOf Across
  by_cases h1 : r.x1 < X
  · exact Or.inl h1
  · by_cases h2 : X < r.x0
    · exact Or.inr (Or.inl h2)
    · exact Or.inr (Or.inr ⟨not_lt.1 h2, not_lt.1 h1⟩)

theorem tc_across {X : ℚ} (r : Rect) : ¬ Across X r ↔ LeftOf X r ∨ RightOf X r := by
  unfold LeftOf RightOf Across
  rw [not_and_or, not_le, not_le]
  exact Or.comm

/-- Everything on the page lies on a line of text. -/
theorem tc_els {X : ℚ} {bs : List (Full.Blk α)} {shapes : List Sh} (ht : TwoColumnText X bs) (hs : LinksOnly X bs shapes) (e : Rect) (he : e ∈ pageBoxes bs shapes) :
    RealBox e ∧ ∃ b ∈ bs, ∃ l ∈ b.lines, Covers l.bbox e ∧ (Across X l.bbox → Across X e) := by
  rcases List.mem_append.1 he with h | h
  · obtain ⟨l, hl, rfl⟩ := List.mem_map.1 h
    obtain ⟨b, hb, hl⟩ := List.mem_flatMap.1 hl
    exact ⟨((ht.text b hb).boxes.2 l hl).1.1, b, hb, l, hl, ⟨le_refl _, le_refl _, le_refl _, le_refl _⟩, id⟩
  · obtain ⟨s, hsm, rfl⟩ := List.mem_map.1 h
    obtain ⟨r, rfl, hr, b, hb, l, hl, h1, h2⟩ := hs s hsm
    exact ⟨hr, b, hb, l, hl, h1, h2⟩

theorem tc_two {X : ℚ} {bs : List (Full.Blk α)} {shapes : List Sh} (ht : TwoColumnText X bs) (hs : LinksOnly X bs shapes) : TwoColumns X (pageBoxes bs shapes) := by
  intro e he hx
  obtain ⟨hr, b, hb, l, hl, hc, _⟩ := tc_els ht hs e he
  have hbl := ((ht.text b hb).boxes.2 l hl).2
  have hcol : ∀ c ∈ pageBoxes bs shapes, LeftOf X c ∨ RightOf X c → ∃ a ∈ bs, ∃ m ∈ a.lines, ¬ Across X m.bbox ∧ Covers m.bbox c := by
    intro c hcm hcx
    obtain ⟨_, a, ha, m, hm, h1, h2⟩ := tc_els ht hs c hcm
    exact ⟨a, ha, m, hm, fun h => (tc_across c).2 hcx (h2 h), h1⟩
  rcases ht.place b hb with h | ⟨_, _, h | h⟩
  · exfalso
    have := hr.1.1
    unfold LeftOf RightOf at h
    unfold Across at hx
    rcases h l hl with h | h
    · linarith [hc.2.2.1, hx.2]
    · linarith [hc.1, hx.1]
  · left
    intro c hcm hcx
    obtain ⟨a, ha, m, hm, h1, h2⟩ := hcol c hcm hcx
    have := h a ha m hm h1
    linarith [hc.2.2.2, hbl.2.2.2, h2.2.1]
  · right
    intro c hcm hcx
    obtain ⟨a, ha, m, hm, h1, h2⟩ := hcol c hcm hcx
    have := h a ha m hm h1
    linarith [hc.2.1, hbl.2.1, h2.2.2.2]

/-- The page-layout stage on such a page. -/
theorem tc_stage (page : Rect) (shapes : List Sh) (bs S : List (Full.Blk α)) (hSp : S.Perm bs) (ht : TwoColumnText ((page.x0 + page.x1) / 2) bs) (hs : LinksOnly ((page.x0 + page.x1) / 2) bs shapes)
    (hw : page.x0 + 42 / 5 ≤ page.x1) (hp : ∀ r ∈ pageBoxes bs shapes, page.x0 ≤ r.x0 ∧ r.x1 ≤ page.x1) :
    ∃ a b : Rect, pageStage page (mkSub S shapes) S = .ok [⟨⟨a.x0, a.y0, b.x1, a.y1⟩, [[true, true]], [⟨a, 0, 0, 0, 0, none⟩, ⟨b, 0, 0, 0, 0, none⟩]⟩] ∧ RealBox a ∧ RealBox b ∧
      RealBox ⟨a.x0, a.y0, b.x1, a.y1⟩ ∧ a.x1 = round1 ((page.x0 + page.x1) / 2) ∧ b.x0 = a.x1 ∧ a.y0 = b.y0 ∧ a.y1 = b.y1 ∧
      (∀ c ∈ bs, ∀ l ∈ c.lines, LeftOf ((page.x0 + page.x1) / 2) l.bbox → Covers a l.bbox) ∧ (∀ c ∈ bs, ∀ l ∈ c.lines, RightOf ((page.x0 + page.x1) / 2) l.bbox → Covers b l.bbox) ∧
      (∃ c ∈ bs, ∃ l ∈ c.lines, ¬ Across ((page.x0 + page.x1) / 2) l.bbox ∧ l.bbox.y0 - 5 ≤ a.y0) ∧
      ∃ c ∈ bs, ∃ l ∈ c.lines, ¬ Across ((page.x0 + page.x1) / 2) l.bbox ∧ a.y1 ≤ l.bbox.y1 + 5 := by
  have hpb : ∀ r, r ∈ pageBoxes S shapes ↔ r ∈ pageBoxes bs shapes := fun r => (((hSp.flatMap_right _).map _).append_right _).mem_iff
  have hpc : PageContent page (pageBoxes S shapes) := by
    intro r hr
    have hr := (hpb r).1 hr
    have := (tc_els ht hs r hr).1
    exact ⟨this.1, this.2, hp r hr⟩
  have hlin : ∀ c ∈ bs, ∀ l ∈ c.lines, l.bbox ∈ pageBoxes S shapes := fun c hc l hl =>
    (hpb _).2 (List.mem_append_left _ (List.mem_map_of_mem (f := fun l : Lay.Ln α => l.bbox) (List.mem_flatMap.2 ⟨c, hc, hl⟩)))
  have htc : TwoColumns ((page.x0 + page.x1) / 2) (pageBoxes S shapes) := by
    have := tc_two ht hs
    intro e he hx
    rcases this e ((hpb e).1 he) hx with h | h
    · exact Or.inl fun c hc => h c ((hpb c).1 hc)
    · exact Or.inr fun c hc => h c ((hpb c).1 hc)
  obtain ⟨cl, hcl, l, hl, hl'⟩ := ht.left
  obtain ⟨cr, hcr, r, hr, hr'⟩ := ht.right
  obtain ⟨a, b, e, pa, pb, ta, tb, e1, e2, e3, e4, ca, cb, ⟨x, hx, hxa, hxy⟩, ⟨y, hy, hya, hyy⟩⟩ :=
    C80_two_columns_partial page (pageBoxes S shapes) hpc hw l.bbox r.bbox (hlin cl hcl l hl) hl' (hlin cr hcr r hr) hr' htc
  have hb : Columns.tableBox [[some ((1, 1), a), some ((1, 1), b)]] = ⟨a.x0, a.y0, b.x1, a.y1⟩ := by
    rw [tableBox_two a b pa pb ta tb, ← e3, ← e4, min_self, max_self, min_eq_left (by linarith [pa.1]), max_eq_right (by linarith [pb.1])]
  have hT : RealBox ⟨a.x0, a.y0, b.x1, a.y1⟩ := by
    refine ⟨⟨?_, pa.2⟩, ?_⟩
    · change a.x0 < b.x1
      linarith [pa.1, pb.1]
    · have k1 := (tenths_iff a).1 ta
      have k2 := (tenths_iff b).1 tb
      refine (tenths_iff _).2 ?_
      unfold Rect.round at k1 k2 ⊢
      rw [← k1, ← k2]
      simp
  refine ⟨a, b, ?_, ⟨pa, ta⟩, ⟨pb, tb⟩, hT, e1, e2, e3, e4, fun c hc l hl h => ca _ (hlin c hc l hl) h, fun c hc l hl h => cb _ (hlin c hc l hl) h, ?_, ?_⟩
  · unfold pageStage
    show (match Columns.pageTable page (pageBoxes S shapes) with | .error e => _ | .ok t => _) = _
    rw [e]
    dsimp only
    have hf : found ([[some ((1, 1), a), some ((1, 1), b)]].map fun r : List Table.CellOut => r.map fun c => c.map fun i => (⟨i.2, 0, 0, 0, 0, none⟩ : CellInfo)) =
        ⟨⟨a.x0, a.y0, b.x1, a.y1⟩, [[true, true]], [⟨a, 0, 0, 0, 0, none⟩, ⟨b, 0, 0, 0, 0, none⟩]⟩ := by
      have q1 : a.truthy = true := ly_real_truthy ⟨pa, ta⟩
      have q2 : b.truthy = true := ly_real_truthy ⟨pb, tb⟩
      unfold found
      congr 1
      · simp [isCell, q1, q2]
      · simp [q1, q2]
    rw [hf, List.filter_cons_of_pos (by exact ly_real_truthy hT)]
    rfl
  · obtain ⟨_, c, hc, m, hm, h1, h2⟩ := tc_els ht hs x ((hpb x).1 hx)
    exact ⟨c, hc, m, hm, fun h => hxa (h2 h), by rw [hxy]; linarith [h1.2.1]⟩
  · obtain ⟨_, c, hc, m, hm, h1, h2⟩ := tc_els ht hs y ((hpb y).1 hy)
    exact ⟨c, hc, m, hm, fun h => hya (h2 h), by rw [hyy]; linarith [h1.2.2.2]⟩

/-- A cell at the side of the centre: what it covers of the lines of a page in two columns is what lies on its side. -/
structure SideCell (X : ℚ) (side : Rect → Prop) (cell : Rect) (bs : List (Full.Blk α)) : Prop where
  real : RealBox cell
  cover : ∀ b ∈ bs, ∀ l ∈ b.lines, side l.bbox → Covers cell l.bbox
  out : ∀ b ∈ bs, ∀ l ∈ b.lines, ¬ side l.bbox → cell.intersects l.bbox = false

theorem tc_side_iff {X : ℚ} {side : Rect → Prop} {cell : Rect} {bs : List (Full.Blk α)} (h : SideCell X side cell bs) (b : Full.Blk α) (hb : b ∈ bs) (l : Lay.Ln α) (hl : l ∈ b.lines) (hr : RealBox l.bbox) :
    Covers cell l.bbox ↔ side l.bbox := by
  refine ⟨fun hc => ?_, h.cover b hb l hl⟩
  by_contra hn
  have := h.out b hb l hl hn
  rw [← Bool.not_eq_true, intersects_iff cell l.bbox h.real.1 hr.1] at this
  refine this ⟨?_, ?_⟩
  · rw [max_eq_right hc.1, min_eq_right hc.2.2.1]; exact hr.1.1
  · rw [max_eq_right hc.2.1, min_eq_right hc.2.2.2]; exact hr.1.2

/-- A cell that overlaps at most nine tenths of the width of a box does not hold it. -/
theorem tc_little (a q : Rect) (hq : Proper q) (ha : Proper a) (h : min q.x1 a.x1 - max q.x0 a.x0 ≤ 9 / 10 * (q.x1 - q.x0)) : ¬ Mostly a q := by
  unfold Mostly El.contains
  dsimp only
  have hpos := area_pos q hq
  rw [if_neg (ne_of_gt hpos)]
  obtain ⟨w, k, e, w0, k0, hw, hk, hw', _⟩ := ly_inter_area_le hq ha
  have h1 : w ≤ 9 / 10 * (q.x1 - q.x0) := by
    rcases hw' with rfl | rfl
    · have := hq.1; linarith
    · exact h
  have h4 : (a.inter q).area / q.area ≤ 9 / 10 := by
    rw [div_le_iff₀ hpos, fy_inter_comm, e]
    unfold Rect.area Rect.width Rect.height at *
    have := hq.1
    have h2 := mul_le_mul h1 hk k0 (by linarith)
    linarith
  have h5 := abs_roundHE_sub (100 * ((a.inter q).area / q.area))
  rw [abs_le] at h5
  rw [if_pos]
  · simp
  · rw [div_lt_iff₀ (by norm_num)]
    linarith [h5.2]

/-- What such a cell gets of the blocks in the columns. -/
theorem tc_cell {X : ℚ} {side : Rect → Prop} [DecidablePred side] {cell : Rect} {bs inside : List (Full.Blk α)} (h : SideCell X side cell bs) (hin : ∀ q ∈ inside, q ∈ bs) (ht : ∀ b ∈ bs, LineText b)
    (hcol : ∀ b ∈ bs, LineColumn (b.lines.filter fun l => decide (side l.bbox))) (hsrc : inside.Pairwise OtherSource) (hord : inside.Pairwise (DownIn side))
    (hm : ∀ q ∈ inside, Mostly cell q.bbox → Covers cell q.bbox) (sort : Bool) (n : ℕ → ℕ) :
    ∃ L, L = arrange sort (cellLayout n cell inside) ∧ Stack L ∧ (∀ b ∈ L, b.isText = true) ∧ (L.flatMap Blk.lines).Perm ((inside.flatMap Blk.lines).filter fun l => side l.bbox) := by
  have hiff : ∀ q ∈ bs, ∀ l ∈ q.lines, (Covers cell l.bbox ↔ side l.bbox) := fun q hq l hl => tc_side_iff h q hq l hl ((ht q hq).boxes.2 l hl).1.1
  have hfil : ∀ q ∈ bs, inCellLines cell q.lines = q.lines.filter fun l => decide (side l.bbox) := by
    intro q hq
    unfold inCellLines
    exact List.filter_congr fun l hl => by rw [decide_eq_decide]; exact hiff q hq l hl
  have hpart : ∀ q ∈ inside, ∀ id, (assignCell id cell q = [] ∧ inCellLines cell q.lines = []) ∨ ∃ B, assignCell id cell q = [B] ∧ PartOf cell q B := by
    intro q hq id
    refine fc_part _ h.real.1 id q (ht q (hin q hq)) ?_ (hm q hq) ?_
    · rw [hfil q (hin q hq)]
      exact hcol q (hin q hq)
    · intro l hl
      by_cases hs : side l.bbox
      · exact Or.inl (h.cover q (hin q hq) l hl hs)
      · exact Or.inr (h.out q (hin q hq) l hl hs)
  obtain ⟨L, l1, l2, l3, l4⟩ := fc_layout cell n inside hpart
  have hst : Stack (L.map Prod.snd) := by
    refine fc_stack cell L inside l2 l3 hsrc ?_
    refine hord.imp_of_mem ?_
    intro a b ha hb hab
    rcases hab with k | k
    · exact Or.inl fun l hl m hm c1 c2 => k l hl m hm ((hiff a (hin a ha) l hl).1 c1) ((hiff b (hin b hb) m hm).1 c2)
    · exact Or.inr fun l hl m hm c1 c2 => k l hl m hm ((hiff a (hin a ha) l hl).1 c1) ((hiff b (hin b hb) m hm).1 c2)
  have hperm' : (arrange sort (cellLayout n cell inside)).Perm (cellLayout n cell inside) := by
    unfold arrange
    split_ifs
    · exact ft_sort_perm _
    · exact List.Perm.refl _
  refine ⟨_, rfl, ?_, ?_, ?_⟩
  · refine ft_stack_perm hperm'.symm ?_
    rw [l1]; exact hst
  · intro b hb
    have := hperm'.subset hb
    rw [l1] at this
    obtain ⟨p, hp', rfl⟩ := List.mem_map.1 this
    exact (l3 p hp').text.text
  · refine (hperm'.flatMap_right _).trans ?_
    rw [l4]
    unfold inCellLines
    rw [List.filter_congr fun l hl => ?_]
    obtain ⟨q, hq, hlq⟩ := List.mem_flatMap.1 hl
    rw [decide_eq_decide]
    exact hiff q (hin q hq) l hlq

/-- **C124 (proved part).** A page of text in two columns left and right of its centre, with headings above the columns and notes below them (and links): the parsed page is
these headings, one layout table with one row of two cells, and these notes. The left cell shows exactly the lines of the left column, from top to bottom; the right cell exactly
those of the right column; no line is lost, shown twice, or shown in the other column – also if a block has lines in both. Nothing else is on the page.

Not covered: other shapes than links (rules, highlights, pictures), and pages where headings go between the columns (there the first table ends at the heading, see C80). -/
theorem C124_two_columns_partial (c : Full.Cfg) (hi : ∀ l, (c.base.lay.iter l).Perm l) (htol : 0 < c.base.lay.tol) (hd : 0 ≤ c.conn) (hc : 0 ≤ c.base.clear) (hw : 1 / 20 ≤ c.base.maxW)
    (fmt : Format α) (nid : Lay.Ids) (depth : ℕ) (page : Rect) (shapes : List Sh) (bs : List (Full.Blk α)) (ht : TwoColumnText ((page.x0 + page.x1) / 2) bs)
    (hs : LinksOnly ((page.x0 + page.x1) / 2) bs shapes) (hwide : page.x0 + 42 / 5 ≤ page.x1) (hp : ∀ r ∈ pageBoxes bs shapes, page.x0 ≤ r.x0 ∧ r.x1 ≤ page.x1) :
    ∃ above box cl left cr right below ty,
      Full.parsePage c fmt nid (depth + 2) page shapes bs = .ok (above ++ .table box [[true, true]] [(cl, left), (cr, right)] :: below, ty) ∧
      ShowsDown left ((bs.flatMap Blk.lines).filter fun l => LeftOf ((page.x0 + page.x1) / 2) l.bbox) ∧
      ShowsDown right ((bs.flatMap Blk.lines).filter fun l => RightOf ((page.x0 + page.x1) / 2) l.bbox) ∧
      ShowsDown (above ++ below) ((bs.flatMap Blk.lines).filter fun l => Across ((page.x0 + page.x1) / 2) l.bbox) ∧
      ∀ m ∈ bs.flatMap Blk.lines, ¬ Across ((page.x0 + page.x1) / 2) m.bbox →
        (∀ l ∈ above.flatMap Blk.lines, l.bbox.y1 < m.bbox.y0) ∧ ∀ l ∈ below.flatMap Blk.lines, m.bbox.y1 < l.bbox.y0 := by
  set X := (page.x0 + page.x1) / 2 with hX
  set S := sortBlocks bs with hS
  have hSp : S.Perm bs := ft_sort_perm bs
  have hSb : ∀ b ∈ S, b ∈ bs := fun b hb => hSp.subset hb
  have hSt : ∀ b ∈ S, LineText b := fun b hb => ht.text b (hSb b hb)
  obtain ⟨a, b, hstage, ra, rb, rT, e1, e2, e3, e4, ca, cb, ⟨xc, hxc, xl, hxl, hxn, hxy⟩, ⟨yc, hyc, yl, hyl, hyn, hyy⟩⟩ := tc_stage page shapes bs S hSp ht hs hwide hp
  rw [← hX] at e1 ca cb hxn hyn
  set TB : Rect := ⟨a.x0, a.y0, b.x1, a.y1⟩ with hTB
  set f : Found := ⟨TB, [[true, true]], [⟨a, 0, 0, 0, 0, none⟩, ⟨b, 0, 0, 0, 0, none⟩]⟩ with hf
  have hCa : ∀ r, Covers a r → Covers TB r := fun r h => ⟨h.1, h.2.1, le_trans h.2.2.1 (by rw [← e2]; exact le_of_lt rb.1.1), h.2.2.2⟩
  have hCb : ∀ r, Covers b r → Covers TB r := fun r h => ⟨le_trans (by rw [e2]; exact le_of_lt ra.1.1) h.1, by rw [hTB]; dsimp only; rw [e3]; exact h.2.1, h.2.2.1, by rw [hTB]; dsimp only; rw [e4]; exact h.2.2.2⟩
  -- the blocks in the columns, the other ones
  have hcol : ∀ q ∈ bs, (∀ l ∈ q.lines, LeftOf X l.bbox ∨ RightOf X l.bbox) → Covers TB q.bbox := by
    intro q hq h
    refine (ht.text q hq).hull.2 TB ?_
    intro r hr
    obtain ⟨l, hl, rfl⟩ := List.mem_map.1 hr
    rcases h l hl with h | h
    · exact hCa _ (ca q hq l hl h)
    · exact hCb _ (cb q hq l hl h)
  have hout : ∀ q ∈ bs, PlainText q ∧ (∀ l ∈ q.lines, Across X l.bbox) ∧
      ((∀ a ∈ bs, ∀ m ∈ a.lines, ¬ Across X m.bbox → q.bbox.y1 + 5 < m.bbox.y0) ∨ (∀ a ∈ bs, ∀ m ∈ a.lines, ¬ Across X m.bbox → m.bbox.y1 + 5 < q.bbox.y0)) →
      q.bbox.y1 < TB.y0 ∨ TB.y1 < q.bbox.y0 := by
    rintro q hq ⟨_, _, h | h⟩
    · left
      have := h xc hxc xl hxl hxn
      change q.bbox.y1 < a.y0
      linarith
    · right
      have := h yc hyc yl hyl hyn
      change a.y1 < q.bbox.y0
      linarith
  have hplace : ∀ q ∈ S, Covers f.box q.bbox ∨ f.box.intersects q.bbox = false := by
    intro q hq
    rcases ht.place q (hSb q hq) with h | h
    · exact Or.inl (hcol q (hSb q hq) h)
    · right
      rcases hout q (hSb q hq) h with h | h
      · exact rp_beside rT.1 (hSt q hq).boxes.1.1 (Or.inr (Or.inr (Or.inr (le_of_lt h))))
      · exact rp_beside rT.1 (hSt q hq).boxes.1.1 (Or.inr (Or.inr (Or.inl (le_of_lt h))))
  have hncov : ∀ q ∈ bs, ¬ Covers TB q.bbox → PlainText q ∧ (∀ l ∈ q.lines, Across X l.bbox) ∧ (q.bbox.y1 < TB.y0 ∨ TB.y1 < q.bbox.y0) := by
    intro q hq h
    rcases ht.place q hq with k | k
    · exact absurd (hcol q hq k) h
    · exact ⟨k.1, k.2.1, hout q hq k⟩
  have hcov : ∀ q ∈ bs, Covers TB q.bbox → ∀ l ∈ q.lines, LeftOf X l.bbox ∨ RightOf X l.bbox := by
    intro q hq h
    rcases ht.place q hq with k | k
    · exact k
    · exfalso
      have p := (ht.text q hq).boxes.1.1.2
      rcases hout q hq k with w | w
      · linarith [h.2.1]
      · linarith [h.2.2.2]
  have hassign := fy_assign (nid [] 0) ⟨[], []⟩ f rT (mkSub S shapes) S hSt hplace
  set given := (mkSub S shapes).shapes.filter fun s => decide (tableOf (⟨[], []⟩ : Types) [f.box] s = some 0) with hgiven
  set inside := S.filter fun b => decide (Covers f.box b.bbox) with hinside
  set outside := S.filter fun b => !decide (Covers f.box b.bbox) with houtside
  set T := fillTable (nid [] 0 0) f given inside with hT
  have hTbox : T.bbox = TB := rfl
  have hinP : ∀ q ∈ inside, q ∈ bs ∧ Covers TB q.bbox := fun q hq => ⟨hSb q (List.mem_filter.1 hq).1, by simpa using (List.mem_filter.1 hq).2⟩
  have houtP : ∀ q ∈ outside, q ∈ bs ∧ PlainText q ∧ (∀ l ∈ q.lines, Across X l.bbox) ∧ (q.bbox.y1 < TB.y0 ∨ TB.y1 < q.bbox.y0) := by
    intro q hq
    obtain ⟨h1, h2⟩ := List.mem_filter.1 hq
    exact ⟨hSb q h1, hncov q (hSb q h1) (by simpa using h2)⟩
  have hstack : Stack (outside ++ [T]) := by
    refine ⟨?_, ?_, ?_, ?_⟩
    · intro q hq htx
      rcases List.mem_append.1 hq with hq | hq
      · exact (houtP q hq).2.1
      · rw [List.mem_singleton] at hq
        subst hq
        cases htx
    · intro q hq
      rcases List.mem_append.1 hq with hq | hq
      · exact (ht.text q (houtP q hq).1).boxes.1
      · rw [List.mem_singleton] at hq
        subst hq
        exact rT
    · rw [List.pairwise_append]
      refine ⟨?_, List.pairwise_singleton _ _, ?_⟩
      · have := hSp.symm.pairwise ht.clear (fun {a b} h h1 h2 => (h h2 h1).symm)
        rw [houtside]
        refine (this.sublist List.filter_sublist).imp_of_mem ?_
        intro a b ha hb h
        exact h (houtP a ha).2.2.1 (houtP b hb).2.2.1
      · intro q hq t htm
        rw [List.mem_singleton] at htm
        subst htm
        rw [hTbox]
        exact (houtP q hq).2.2.2
    · rw [List.pairwise_append]
      refine ⟨?_, List.pairwise_singleton _ _, ?_⟩
      · exact (hSp.symm.pairwise ht.sources (fun h => ft_other_symm h)).sublist List.filter_sublist
      · intro q _ t htm l _ m hm
        rw [List.mem_singleton] at htm
        subst htm
        cases hm
  set B := sortBlocks (outside ++ [T]) with hB
  have hBst : Stack B := ft_stack_perm (ft_sort_perm _).symm hstack
  set sub1 : Sub := ⟨leftShapes ⟨[], []⟩ [f.box] (mkSub S shapes).shapes, (mkSub S shapes).strokes, (mkSub S shapes).fills⟩ with hsub1
  have hlinks : ∀ (P : List Shapes.TB) (ss : List Sh), (∀ s ∈ ss, s ∈ shapes) → ss.filterMap (borderOf P) = [] ∧ ss.filterMap (shadingOf P) = [] := by
    intro P ss hss
    constructor
    · rw [List.filterMap_eq_nil_iff]
      intro s hsm
      obtain ⟨r, rfl, _⟩ := hs s (hss s hsm)
      rfl
    · rw [List.filterMap_eq_nil_iff]
      intro s hsm
      obtain ⟨r, rfl, _⟩ := hs s (hss s hsm)
      rfl
  have hl0 := hlinks (textBlocks S) shapes fun s h => h
  have hstages : stages c nid [] page [0, 1, 2] ⟨S, mkSub S shapes, ⟨[], []⟩⟩ = .ok ⟨B, sub1, ⟨[], []⟩⟩ := by
    rw [← fc_stages c hi htol hd hc hw nid [] page B sub1 ⟨[], []⟩ hBst (by
        intro g hg
        rw [hsub1] at hg
        have : (mkSub S shapes).fills = [] := hl0.2
        rw [this] at hg
        cases hg) (by
        intro g hg
        rw [hsub1] at hg
        have : (mkSub S shapes).strokes = [] := hl0.1
        rw [this] at hg
        cases hg) (by
        rw [hsub1]
        have : (mkSub S shapes).strokes = [] := hl0.1
        rw [this]
        exact List.Pairwise.nil)]
    conv_lhs => unfold stages
    have e0 : stage c 0 (⟨[], []⟩ : Types) page (mkSub S shapes) S = .ok ([f], ⟨[], []⟩) := by
      show (pageStage page (mkSub S shapes) S).map _ = _
      rw [hstage]
      rfl
    dsimp only
    rw [e0]
    dsimp only
    rw [hassign]
  -- splitting back
  obtain ⟨R, s1, s2, s3, s4, s5⟩ := ft_split c.base.lay hi htol B hBst
  have hnt : (R.filter fun b => !b.isText).Perm [T] := by
    refine s4.trans (((ft_sort_perm (outside ++ [T])).filter _).trans ?_)
    rw [List.filter_append]
    have : (outside.filter fun b : Full.Blk α => !b.isText) = [] := by
      rw [List.filter_eq_nil_iff]
      intro b hb
      simp [(ht.text b (houtP b hb).1).text]
    rw [this, List.nil_append]
    rfl
  have hTR : T ∈ R := (List.mem_filter.1 (hnt.symm.subset (by simp))).1
  obtain ⟨A, D, hAD⟩ := List.append_of_mem hTR
  have hlen := hnt.length_eq
  rw [hAD, List.filter_append, List.filter_cons_of_pos (by rfl), List.length_append, List.length_cons, List.length_singleton] at hlen
  have hA : ∀ b ∈ A, b.isText = true := by
    intro b hb
    by_contra hcon
    have : 0 < (A.filter fun b : Full.Blk α => !b.isText).length := List.length_pos_of_mem (List.mem_filter.2 ⟨hb, by simpa using hcon⟩)
    omega
  have hDt : ∀ b ∈ D, b.isText = true := by
    intro b hb
    by_contra hcon
    have : 0 < (D.filter fun b : Full.Blk α => !b.isText).length := List.length_pos_of_mem (List.mem_filter.2 ⟨hb, by simpa using hcon⟩)
    omega
  have hDsub : D.Sublist R := by rw [hAD]; exact (List.sublist_cons_self _ _).trans (List.sublist_append_right _ _)
  have hAst : ∀ b ∈ A, b.isText = true → PlainText b ∧ b.lines.Pairwise fun l m => Above l.bbox m.bbox := fun b hb => s2 b (by rw [hAD]; simp [hb])
  have hDst : ∀ b ∈ D, b.isText = true → PlainText b ∧ b.lines.Pairwise fun l m => Above l.bbox m.bbox := fun b hb => s2 b (hDsub.subset hb)
  have hord := s3
  rw [hAD, List.pairwise_append, List.pairwise_cons] at hord
  obtain ⟨o1, ⟨o2, o3⟩, o4⟩ := hord
  have hAT : ∀ b ∈ A, b.bbox.y1 < TB.y0 := fun b hb => by have := (o4 b hb T (by simp)).2 (Or.inr rfl); rw [hTbox] at this; exact this
  have hDT : ∀ b ∈ D, TB.y1 < b.bbox.y0 := fun b hb => by have := (o2 b hb).2 (Or.inl rfl); rw [hTbox] at this; exact this
  have hlines : (A.flatMap Blk.lines ++ D.flatMap Blk.lines).Perm (outside.flatMap Blk.lines) := by
    have h1 := s5
    rw [hAD, List.flatMap_append, List.flatMap_cons] at h1
    have h2 : (B.flatMap Blk.lines).Perm ((outside ++ [T]).flatMap Blk.lines) := (ft_sort_perm _).flatMap_right _
    rw [List.flatMap_append, List.flatMap_cons] at h2
    have e : T.lines = [] := rfl
    rw [e] at h1 h2
    simpa using h1.trans h2
  have hsplit : (bs.flatMap Blk.lines).Perm (outside.flatMap Blk.lines ++ inside.flatMap Blk.lines) := by
    refine (hSp.symm.flatMap_right _).trans ?_
    have := (List.filter_append_perm (fun b : Full.Blk α => decide (Covers f.box b.bbox)) S).flatMap_right Blk.lines
    rw [List.flatMap_append] at this
    exact this.symm.trans List.perm_append_comm
  have hinL : ∀ l ∈ inside.flatMap Blk.lines, ¬ Across X l.bbox := by
    intro l hl
    obtain ⟨q, hq, hl⟩ := List.mem_flatMap.1 hl
    obtain ⟨hqm, hqc⟩ := hinP q hq
    exact (tc_across _).2 (hcov q hqm hqc l hl)
  have houtL : ∀ l ∈ outside.flatMap Blk.lines, Across X l.bbox := by
    intro l hl
    obtain ⟨q, hq, hl⟩ := List.mem_flatMap.1 hl
    exact (houtP q hq).2.2.1 l hl
  -- the cells
  have cellA : SideCell X (LeftOf X) a bs := by
    refine ⟨ra, ca, ?_⟩
    intro q hq l hl hn
    have hlr := ((ht.text q hq).boxes.2 l hl).1.1
    rcases tc_side (X := X) l.bbox with h | h | h
    · exact absurd h hn
    · have := cb q hq l hl h
      refine rp_beside ra.1 hlr.1 (Or.inl ?_)
      rw [← e2]; exact this.1
    · rcases ht.place q hq with k | k
      · exact absurd h ((tc_across _).2 (k l hl))
      · have hql := ((ht.text q hq).boxes.2 l hl).2
        rcases hout q hq k with w | w
        · refine rp_beside ra.1 hlr.1 (Or.inr (Or.inr (Or.inr ?_)))
          change q.bbox.y1 < a.y0 at w
          linarith [hql.2.2.2]
        · refine rp_beside ra.1 hlr.1 (Or.inr (Or.inr (Or.inl ?_)))
          change a.y1 < q.bbox.y0 at w
          linarith [hql.2.1]
  have cellB : SideCell X (RightOf X) b bs := by
    refine ⟨rb, cb, ?_⟩
    intro q hq l hl hn
    have hlr := ((ht.text q hq).boxes.2 l hl).1.1
    rcases tc_side (X := X) l.bbox with h | h | h
    · have := ca q hq l hl h
      refine rp_beside rb.1 hlr.1 (Or.inr (Or.inl ?_))
      rw [e2]; exact this.2.2.1
    · exact absurd h hn
    · rcases ht.place q hq with k | k
      · exact absurd h ((tc_across _).2 (k l hl))
      · have hql := ((ht.text q hq).boxes.2 l hl).2
        rcases hout q hq k with w | w
        · refine rp_beside rb.1 hlr.1 (Or.inr (Or.inr (Or.inr ?_)))
          change q.bbox.y1 < a.y0 at w
          linarith [hql.2.2.2]
        · refine rp_beside rb.1 hlr.1 (Or.inr (Or.inr (Or.inl ?_)))
          change a.y1 < q.bbox.y0 at w
          linarith [hql.2.1]
  have hround := abs_round1_sub X
  rw [abs_le] at hround
  have hmA : ∀ q ∈ inside, Mostly a q.bbox → Covers a q.bbox := by
    intro q hq hm
    obtain ⟨hqm, hqc⟩ := hinP q hq
    have hl := hcov q hqm hqc
    have hh := (ht.text q hqm).hull
    have hqr := (ht.text q hqm).boxes.1.1
    by_contra hncv
    refine tc_little a q.bbox hqr ra.1 ?_ hm
    have hright : ∃ m ∈ q.lines, RightOf X m.bbox := by
      by_contra hno
      push Not at hno
      refine hncv (hh.2 a ?_)
      intro r hr
      obtain ⟨l, hlm, rfl⟩ := List.mem_map.1 hr
      exact ca q hqm l hlm ((hl l hlm).resolve_right (hno l hlm))
    obtain ⟨m, hmm, hmr⟩ := hright
    have k1 := min_le_right q.bbox.x1 a.x1
    have k2 := le_max_left q.bbox.x0 a.x0
    have k3 := hqr.1
    by_cases hleft : ∃ l ∈ q.lines, LeftOf X l.bbox
    · obtain ⟨l, hlm, hll⟩ := hleft
      have := (ht.reach q hqm l hlm m hmm hll hmr).2
      rw [e1] at k1 ⊢
      linarith [hround.2]
    · push Not at hleft
      have : Covers ⟨a.x1, TB.y0, TB.x1, TB.y1⟩ q.bbox := by
        refine hh.2 _ ?_
        intro r hr
        obtain ⟨l, hlm, rfl⟩ := List.mem_map.1 hr
        have := cb q hqm l hlm ((hl l hlm).resolve_left (hleft l hlm))
        exact ⟨by rw [← e2]; exact this.1, by change a.y0 ≤ _; rw [e3]; exact this.2.1, this.2.2.1, by change _ ≤ a.y1; rw [e4]; exact this.2.2.2⟩
      have := this.1
      dsimp only at this
      linarith
  have hmB : ∀ q ∈ inside, Mostly b q.bbox → Covers b q.bbox := by
    intro q hq hm
    obtain ⟨hqm, hqc⟩ := hinP q hq
    have hl := hcov q hqm hqc
    have hh := (ht.text q hqm).hull
    have hqr := (ht.text q hqm).boxes.1.1
    by_contra hncv
    refine tc_little b q.bbox hqr rb.1 ?_ hm
    have hleft : ∃ m ∈ q.lines, LeftOf X m.bbox := by
      by_contra hno
      push Not at hno
      refine hncv (hh.2 b ?_)
      intro r hr
      obtain ⟨l, hlm, rfl⟩ := List.mem_map.1 hr
      exact cb q hqm l hlm ((hl l hlm).resolve_left (hno l hlm))
    obtain ⟨m, hmm, hml⟩ := hleft
    have k1 := min_le_left q.bbox.x1 b.x1
    have k2 := le_max_right q.bbox.x0 b.x0
    have k3 := hqr.1
    by_cases hright : ∃ l ∈ q.lines, RightOf X l.bbox
    · obtain ⟨l, hlm, hll⟩ := hright
      have := (ht.reach q hqm m hmm l hlm hml hll).1
      rw [e2, e1] at k2 ⊢
      linarith [hround.1]
    · push Not at hright
      have : Covers ⟨TB.x0, TB.y0, a.x1, TB.y1⟩ q.bbox := by
        refine hh.2 _ ?_
        intro r hr
        obtain ⟨l, hlm, rfl⟩ := List.mem_map.1 hr
        exact ca q hqm l hlm ((hl l hlm).resolve_right (hright l hlm))
      have := this.2.2.1
      dsimp only at this
      rw [e2] at k2 ⊢
      linarith
  have hsrc : inside.Pairwise OtherSource := (hSp.symm.pairwise ht.sources (fun h => ft_other_symm h)).sublist List.filter_sublist
  have hdown : ∀ {side : Rect → Prop}, bs.Pairwise (DownIn side) → inside.Pairwise (DownIn side) := by
    intro side h
    refine (hSp.symm.pairwise h (fun {a b} h => ?_)).sublist List.filter_sublist
    rcases h with h | h
    · exact Or.inr fun l hl m hm c1 c2 => h m hm l hl c2 c1
    · exact Or.inl fun l hl m hm c1 c2 => h m hm l hl c2 c1
  have hside : ∀ (side : Rect → Prop) [DecidablePred side], (∀ r, side r → ¬ Across X r) →
      ((inside.flatMap Blk.lines).filter fun l => decide (side l.bbox)).Perm ((bs.flatMap Blk.lines).filter fun l => decide (side l.bbox)) := by
    intro side _ hsd
    refine List.Perm.trans ?_ (hsplit.filter _).symm
    rw [List.filter_append]
    have : ((outside.flatMap Blk.lines).filter fun l => decide (side l.bbox)) = [] := by
      rw [List.filter_eq_nil_iff]
      intro l hl hcon
      exact hsd l.bbox (by simpa using hcon) (houtL l hl)
    rw [this, List.nil_append]
  obtain ⟨LA, la0, la1, la2, la3⟩ := tc_cell cellA (fun q hq => (hinP q hq).1) ht.text ht.leftColumn hsrc (hdown ht.leftOrder) hmA (!given.isEmpty) (nid [] 0 0 0)
  obtain ⟨LB, lb0, lb1, lb2, lb3⟩ := tc_cell cellB (fun q hq => (hinP q hq).1) ht.text ht.rightColumn hsrc (hdown ht.rightOrder) hmB (!given.isEmpty) (nid [] 0 0 1)
  replace la3 := la3.trans (hside (LeftOf X) fun r h => (tc_across r).2 (Or.inl h))
  replace lb3 := lb3.trans (hside (RightOf X) fun r h => (tc_across r).2 (Or.inr h))
  have eT : T = Blk.table TB [[true, true]] [(⟨⟨a, 0, 0, 0, 0, none⟩, cellSub given a LA⟩, LA), (⟨⟨b, 0, 0, 0, 0, none⟩, cellSub given b LB⟩, LB)] := by
    rw [la0, lb0]; rfl
  have hgs : ∀ s ∈ given, s ∈ shapes := fun s hsm => (List.mem_filter.1 hsm).1
  have hcs : ∀ (x : Rect) (L : List (Full.Blk α)), (cellSub given x L).fills = [] ∧ (cellSub given x L).strokes = [] := by
    intro x L
    unfold cellSub
    split_ifs
    · exact ⟨rfl, rfl⟩
    · have := hlinks (textBlocks L) (given.filter fun s => (x.inter s.bbox).truthy && s.bbox.truthy) fun s hsm => hgs s (List.mem_filter.1 hsm).1
      exact ⟨this.2, this.1⟩
  have hcolumn : ∀ (path : List ℕ) (x : Rect) (L : List (Full.Blk α)) (ty : Types), Stack L → (∀ b ∈ L, b.isText = true) →
      ∃ r ty', parse c fmt nid (depth + 1) path (⟨x, 0, 0, 0, 0, none⟩ : CellInfo).working [1, 2] ⟨L, cellSub given x L, ty⟩ = .ok (r, ty') ∧ ShowsDown r (L.flatMap Blk.lines) := by
    intro path x L ty h1 h2
    refine fc_column c hi htol hd hc hw fmt nid depth path _ L (cellSub given x L) ty h1 h2 ?_ ?_ ?_
    · rw [(hcs x L).1]; simp
    · rw [(hcs x L).2]; simp
    · rw [(hcs x L).2]; exact List.Pairwise.nil
  obtain ⟨cs', ty', p1, cl, left, cr, right, p2, p3, p4⟩ := fy_tables_one
    (fun i j ty cell sub => parse c fmt nid (depth + 1) ([] ++ [i, j]) cell.info.working [1, 2] ⟨sub, cell.sub, ty⟩) A D TB [[true, true]]
    [(⟨⟨a, 0, 0, 0, 0, none⟩, cellSub given a LA⟩, LA), (⟨⟨b, 0, 0, 0, 0, none⟩, cellSub given b LB⟩, LB)] hA hDt
    (fun cs' => ∃ cl left cr right, cs' = [(cl, left), (cr, right)] ∧ ShowsDown left (LA.flatMap Blk.lines) ∧ ShowsDown right (LB.flatMap Blk.lines))
    (by
      intro i ty
      obtain ⟨r1, ty1, q1, q2⟩ := hcolumn ([] ++ [i, 0]) a LA ty la1 la2
      obtain ⟨r2, ty2, q3, q4⟩ := hcolumn ([] ++ [i, 0 + 1]) b LB ty1 lb1 lb2
      refine ⟨[(⟨⟨a, 0, 0, 0, 0, none⟩, cellSub given a LA⟩, r1), (⟨⟨b, 0, 0, 0, 0, none⟩, cellSub given b LB⟩, r2)], ty2, ?_, _, r1, _, r2, rfl, q2, q4⟩
      unfold parseCells
      dsimp only
      rw [q1]
      dsimp only
      unfold parseCells
      dsimp only
      rw [q3]
      rfl) 0 ⟨[], [] ++ fmt [] ⟨S, mkSub S shapes, ⟨[], []⟩⟩ ⟨B, sub1, ⟨[], []⟩⟩ R⟩
  subst p2
  have hAL : ∀ l ∈ A.flatMap Blk.lines, l.bbox.y1 < TB.y0 ∧ l ∈ outside.flatMap Blk.lines := by
    intro l hl
    refine ⟨?_, hlines.subset (List.mem_append_left _ hl)⟩
    obtain ⟨q, hq, hl⟩ := List.mem_flatMap.1 hl
    obtain ⟨q1, q2⟩ := (hAst q hq (hA q hq)).1.boxes.2 l hl
    exact lt_of_le_of_lt q2.2.2.2 (hAT q hq)
  have hDL : ∀ l ∈ D.flatMap Blk.lines, TB.y1 < l.bbox.y0 ∧ l ∈ outside.flatMap Blk.lines := by
    intro l hl
    refine ⟨?_, hlines.subset (List.mem_append_right _ hl)⟩
    obtain ⟨q, hq, hl⟩ := List.mem_flatMap.1 hl
    obtain ⟨q1, q2⟩ := (hDst q hq (hDt q hq)).1.boxes.2 l hl
    exact lt_of_lt_of_le (hDT q hq) q2.2.1
  refine ⟨A, TB, cl, left, cr, right, D, ty', ?_, ?_, ?_, ?_, ?_⟩
  · unfold Full.parsePage
    rw [← hS]
    unfold parse
    rw [hstages]
    dsimp only
    rw [s1]
    dsimp only
    rw [hAD] at p1 ⊢
    rw [← eT] at p1
    exact p1
  · exact ⟨p3.1, p3.2.1.trans la3, p3.2.2⟩
  · exact ⟨p4.1, p4.2.1.trans lb3, p4.2.2⟩
  · refine ft_shows _ _ ?_ ?_ ?_ ?_
    · intro q hq
      rcases List.mem_append.1 hq with hq | hq
      · exact hAst q hq
      · exact hDst q hq
    · intro q hq
      rcases List.mem_append.1 hq with hq | hq
      · exact hA q hq
      · exact hDt q hq
    · rw [List.pairwise_append]
      exact ⟨o1.imp And.left, o3.imp And.left, fun x hx y hy => (o4 x hx y (by simp [hy])).1⟩
    · rw [List.flatMap_append]
      refine hlines.trans ?_
      refine List.Perm.trans ?_ (hsplit.filter _).symm
      rw [List.filter_append]
      have e1 : ((outside.flatMap Blk.lines).filter fun l => decide (Across X l.bbox)) = outside.flatMap Blk.lines := List.filter_eq_self.2 fun l hl => by simpa using houtL l hl
      have e2 : ((inside.flatMap Blk.lines).filter fun l => decide (Across X l.bbox)) = [] := List.filter_eq_nil_iff.2 fun l hl => by simpa using hinL l hl
      rw [e1, e2, List.append_nil]
  · intro m hm hmn
    have hmi : m ∈ inside.flatMap Blk.lines := by
      rcases List.mem_append.1 (hsplit.subset hm) with h | h
      · exact absurd (houtL m h) hmn
      · exact h
    obtain ⟨q, hq, hmq⟩ := List.mem_flatMap.1 hmi
    obtain ⟨hqm, hqc⟩ := hinP q hq
    have hmc := covers_trans hqc ((ht.text q hqm).boxes.2 m hmq).2
    exact ⟨fun l hl => lt_of_lt_of_le (hAL l hl).1 hmc.2.1, fun l hl => lt_of_le_of_lt hmc.2.2.2 (hDL l hl).1⟩

/-! ## An example, and a limit -/

/-- A heading, two columns (the first block has lines in both), a note. -/
def tcPage : List (Full.Blk ℕ) := [fyBlock ⟨20, 20, 380, 40⟩ 1 [(⟨20, 20, 380, 40⟩, 1)], fyBlock ⟨20, 60, 380, 85⟩ 2 [(⟨20, 60, 180, 70⟩, 2), (⟨220, 60, 380, 70⟩, 3), (⟨20, 75, 170, 85⟩, 4)],
  fyBlock ⟨220, 80, 380, 100⟩ 3 [(⟨220, 80, 380, 100⟩, 5)], fyBlock ⟨20, 95, 180, 105⟩ 4 [(⟨20, 95, 180, 105⟩, 6)], fyBlock ⟨20, 130, 380, 140⟩ 5 [(⟨20, 130, 380, 140⟩, 7)]]

example : fpSeen [.link ⟨220, 60, 260, 70⟩] tcPage = some [.inl [1], .inr [[2, 4, 6], [3, 5]], .inl [7]] := by decide +kernel

/-- A block of lines is text. -/
theorem tc_ex_block (b : Rect) (id : ℕ) (ls : List (Rect × ℕ)) (hb : b.x0 < b.x1 ∧ b.y0 < b.y1 ∧ Rect.round b = b) (hl : ∀ p ∈ ls, (p.1.x0 < p.1.x1 ∧ p.1.y0 < p.1.y1 ∧ Rect.round p.1 = p.1) ∧ Covers b p.1)
    (hn : ls ≠ []) (h0 : ∃ r ∈ ls.map Prod.fst, r.x0 = b.x0) (h1 : ∃ r ∈ ls.map Prod.fst, r.y0 = b.y0) (h2 : ∃ r ∈ ls.map Prod.fst, r.x1 = b.x1) (h3 : ∃ r ∈ ls.map Prod.fst, r.y1 = b.y1) :
    LineText (fyBlock b id ls) := by
  have e' : fyBlock b id ls = fyBlocks b (ls.map fun p => (p.1, id, p.2)) := by unfold fyBlock fyBlocks; rw [List.map_map]; rfl
  have e2 : (ls.map fun p => (p.1, id, p.2)).map Prod.fst = ls.map Prod.fst := by rw [List.map_map]; rfl
  rw [e']
  refine fy_line b _ hb ?_ (by simpa using hn) (by rw [e2]; exact h0) (by rw [e2]; exact h1) (by rw [e2]; exact h2) (by rw [e2]; exact h3)
  intro p hp
  obtain ⟨q, hq, rfl⟩ := List.mem_map.1 hp
  exact hl q hq

/-- Lines of one block one below the other are a column. -/
theorem tc_ex_column (L : List (Lay.Ln ℕ)) (h : L.Pairwise fun l m => Above l.bbox m.bbox ∨ Above m.bbox l.bbox) (hp : ∀ l ∈ L, ∀ m ∈ L, m.pid = l.pid) : LineColumn L :=
  ⟨h, fun l hl m hm _ _ _ _ _ => hp l hl m hm⟩

/-- Non-vacuity: the page meets the hypotheses. -/
example (nid : Lay.Ids) : ∃ above box cl left cr right below ty,
    Full.parsePage fpCfg fpFmt nid 2 ⟨0, 0, 400, 600⟩ [.link ⟨220, 60, 260, 70⟩] tcPage = .ok (above ++ .table box [[true, true]] [(cl, left), (cr, right)] :: below, ty) ∧
      ShowsDown left ((tcPage.flatMap Blk.lines).filter fun l => LeftOf 200 l.bbox) ∧ ShowsDown right ((tcPage.flatMap Blk.lines).filter fun l => RightOf 200 l.bbox) := by
  have e : ((⟨0, 0, 400, 600⟩ : Rect).x0 + (⟨0, 0, 400, 600⟩ : Rect).x1) / 2 = 200 := by decide +kernel
  have hfine : TwoColumnText 200 tcPage := by
    refine ⟨?_, ?_, ?_, ?_, ?_, ?_, ?_, ?_, ?_, ?_, ?_⟩
    · intro b hb
      simp only [tcPage, List.mem_cons, List.not_mem_nil, or_false] at hb
      rcases hb with rfl | rfl | rfl | rfl | rfl <;> exact (tc_ex_block _ _ _ (by decide +kernel) (by decide +kernel) (by decide +kernel) (by decide +kernel) (by decide +kernel) (by decide +kernel) (by decide +kernel))
    · unfold OtherSource; decide +kernel
    · intro b hb
      simp only [tcPage, List.mem_cons, List.not_mem_nil, or_false] at hb
      rcases hb with rfl | rfl | rfl | rfl | rfl
      · exact Or.inr ⟨fy_plain _ _ _ (by decide +kernel) (by decide +kernel) (by decide +kernel) (by decide +kernel) (by decide +kernel) (by decide +kernel) (by decide +kernel) (by decide +kernel),
          by decide +kernel, Or.inl (by decide +kernel)⟩
      · exact Or.inl (by decide +kernel)
      · exact Or.inl (by decide +kernel)
      · exact Or.inl (by decide +kernel)
      · exact Or.inr ⟨fy_plain _ _ _ (by decide +kernel) (by decide +kernel) (by decide +kernel) (by decide +kernel) (by decide +kernel) (by decide +kernel) (by decide +kernel) (by decide +kernel),
          by decide +kernel, Or.inr (by decide +kernel)⟩
    · decide +kernel
    · decide +kernel
    · decide +kernel
    · have h4 : ∀ b ∈ tcPage, (b.lines.filter fun l => decide (LeftOf 200 l.bbox)).Pairwise fun l m => Above l.bbox m.bbox ∨ Above m.bbox l.bbox := by unfold Above; decide +kernel
      have h5 : ∀ b ∈ tcPage, ∀ l ∈ b.lines.filter (fun l => decide (LeftOf 200 l.bbox)), ∀ m ∈ b.lines.filter (fun l => decide (LeftOf 200 l.bbox)), m.pid = l.pid := by decide +kernel
      exact fun b hb => tc_ex_column _ (h4 b hb) (h5 b hb)
    · have h4 : ∀ b ∈ tcPage, (b.lines.filter fun l => decide (RightOf 200 l.bbox)).Pairwise fun l m => Above l.bbox m.bbox ∨ Above m.bbox l.bbox := by unfold Above; decide +kernel
      have h5 : ∀ b ∈ tcPage, ∀ l ∈ b.lines.filter (fun l => decide (RightOf 200 l.bbox)), ∀ m ∈ b.lines.filter (fun l => decide (RightOf 200 l.bbox)), m.pid = l.pid := by decide +kernel
      exact fun b hb => tc_ex_column _ (h4 b hb) (h5 b hb)
    · unfold DownIn; decide +kernel
    · unfold DownIn; decide +kernel
    · decide +kernel
  have hlink : LinksOnly 200 tcPage [.link ⟨220, 60, 260, 70⟩] := by
    intro s hs
    rw [List.mem_singleton] at hs
    subst hs
    refine ⟨_, rfl, ly_ex_real (by decide +kernel), ?_⟩
    unfold Covers
    decide +kernel
  obtain ⟨above, box, cl, left, cr, right, below, ty, h1, h2, h3, _⟩ := C124_two_columns_partial fpCfg (fun l => List.Perm.refl l) (by decide +kernel) (by decide +kernel) (by decide +kernel) (by decide +kernel)
    fpFmt nid 0 ⟨0, 0, 400, 600⟩ [.link ⟨220, 60, 260, 70⟩] tcPage (by rw [e]; exact hfine) (by rw [e]; exact hlink) (by decide +kernel) (by decide +kernel)
  rw [e] at h2 h3
  exact ⟨above, box, cl, left, cr, right, below, ty, h1, h2, h3⟩

/-- C124 (refuted in general): a block with a line on either side of the centre, of which only a twentieth or less is left of it (here 7pt of 187pt), goes to the right cell as a
whole, *and* its line on the left goes to the left cell too: that line is shown twice, also among the text of the other column. -/
theorem C124_refuted_narrow_reach : fpSeen [] [fyBlock ⟨193, 60, 380, 70⟩ 1 [(⟨193, 60, 195, 70⟩, 1), (⟨205, 60, 380, 70⟩, 2)], fyBlock ⟨20, 100, 180, 110⟩ 2 [(⟨20, 100, 180, 110⟩, 3)]] =
    some [.inr [[1, 3], [2, 1]]] := by decide +kernel

end FTwo
end Props
