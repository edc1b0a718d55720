import Verif.Props.FullTableEx
import Verif.Spec.FullText
/-! # A page of text with drawings that are no table stays text (C96) -/

namespace Props
open Py Geom Spec

section FText
open Full

variable {α : Type}

/-- An area covering at most 70% of a box does not count as containing it. -/
theorem fw_little (a b : Rect) (hb : Proper b) (h : CoversLittle a b) : Shapes.containsBox a b (3 / 4) = false := by
  unfold Shapes.containsBox El.contains
  dsimp only
  have hpos := area_pos b hb
  rw [if_neg (ne_of_gt hpos)]
  have h4 : (a.inter b).area / b.area ≤ 7 / 10 := by
    rw [div_le_iff₀ hpos]
    exact h
  have h5 := abs_roundHE_sub (100 * ((a.inter b).area / b.area))
  rw [abs_le] at h5
  rw [if_pos]
  rw [div_lt_iff₀ (by norm_num)]
  linarith [h5.2]

/-- A box within another is contained in it. -/
theorem fw_inside (a b : Rect) (ha : Proper a) (hb : Proper b) (h : Covers a b) : Shapes.containsBox a b 1 = true := by
  unfold Shapes.containsBox El.contains
  dsimp only
  have hpos := area_pos b hb
  have e1 : a.inter b = b := by rw [fy_inter_comm]; exact inter_covered b a hb ha h
  rw [if_neg (ne_of_gt hpos), e1, div_self (ne_of_gt hpos), show roundHE (100 * (1 : ℚ)) = 100 by decide +kernel, if_neg (by norm_num)]
  obtain ⟨c0, c1, c2, c3⟩ := h
  unfold Rect.width Rect.height
  split_ifs
  · rw [decide_eq_true_eq]; linarith
  · rw [decide_eq_true_eq]; linarith

/-- A stroke within a line is an underline. -/
theorem fw_underline (bs : List (Full.Blk α)) (hs : ∀ b ∈ bs, PlainText b) (ha : bs.Pairwise fun a b => a.bbox.y1 < b.bbox.y0) (s : Table.St) (hr : RealBox s.bbox) (h : InLine bs s.bbox) :
    Shapes.determined (Sh.stroke s).shp (textBlocks bs) = true := by
  have e : textBlocks bs = bs.map fun b => ⟨b.bbox, b.lines.map fun l => l.bbox⟩ := by
    unfold textBlocks
    rw [List.filter_eq_self.2 fun b hb => (hs b hb).text]
  rw [e]
  clear e
  induction bs with
  | nil => obtain ⟨b, hb, _⟩ := h; cases hb
  | cons b bs ih =>
    obtain ⟨h1, h2⟩ := List.pairwise_cons.1 ha
    have ih := ih (fun x hx => hs x (by simp [hx])) h2
    obtain ⟨x, hx, l, hl, hc⟩ := h
    have hxb := (hs x hx).boxes
    have hlx := (hxb.2 l hl).2
    rw [List.map_cons]
    unfold Shapes.determined
    rcases List.mem_cons.1 hx with rfl | hx'
    · have hcc : Covers x.bbox s.bbox := ⟨le_trans hlx.1 hc.1, le_trans hlx.2.1 hc.2.1, le_trans hc.2.2.1 hlx.2.2.1, le_trans hc.2.2.2 hlx.2.2.2⟩
      rw [if_neg]
      · rw [if_pos]
        unfold Shapes.check
        dsimp only [Sh.shp]
        rw [Bool.and_eq_true]
        refine ⟨fw_inside _ _ hxb.1.1 hr.1 hcc, ?_⟩
        rw [List.any_eq_true]
        exact ⟨l.bbox, List.mem_map_of_mem hl, fw_inside _ _ (hxb.2 l hl).1.1.1 hr.1 hc⟩
      · dsimp only [Sh.shp]
        have h1 := hcc.2.2.2
        have h2 := hr.1.2
        exact not_lt.2 (by linarith)
    · have ih := ih ⟨x, hx', l, hl, hc⟩
      split_ifs with k1 k2 k3
      · exact ih
      · rfl
      · exfalso
        dsimp only [Sh.shp] at k3
        have q1 := h1 x hx'
        have q2 := hlx.2.1
        have q3 := hc.2.1
        have q4 := hr.1.2
        have q5 := (hs b (by simp)).boxes.1.1.2
        linarith
      · exact ih

/-- A filled area that covers little of every block and line of text is no shading. -/
theorem fw_not_shading (bs : List (Full.Blk α)) (hb : ∀ b ∈ bs, PlainText b) (r : Rect) (k : ℕ) (h : ∀ b ∈ bs, CoversLittle r b.bbox ∧ ∀ l ∈ b.lines, CoversLittle r l.bbox) :
    Shapes.determined (Sh.fill r k).shp (textBlocks bs) = false := by
  by_contra hdet
  rw [Bool.not_eq_false] at hdet
  obtain ⟨tb, htb, hck⟩ := fy_determined _ _ hdet
  unfold textBlocks at htb
  obtain ⟨b, hbm, rfl⟩ := List.mem_map.1 htb
  have hbm := (List.mem_filter.1 hbm).1
  obtain ⟨h1, h2⟩ := h b hbm
  unfold Shapes.check at hck
  dsimp only [Sh.shp] at hck
  rw [fw_little _ _ (hb b hbm).boxes.1.1 h1, Bool.false_or, List.any_eq_true] at hck
  obtain ⟨x, hx, hxc⟩ := hck
  obtain ⟨l, hl, rfl⟩ := List.mem_map.1 hx
  rw [fw_little _ _ ((hb b hbm).boxes.2 l hl).1.1.1 (h2 l hl)] at hxc
  cases hxc

/-- On a page of text in one column, with drawings that are no table, no table is found, and no shape gets a type. -/
theorem fw_stages (c : Full.Cfg) (hi : ∀ l, (c.base.lay.iter l).Perm l) (htol : 0 < c.base.lay.tol) (hd : 0 ≤ c.conn) (hc : 0 ≤ c.base.clear) (hw : 1 / 20 ≤ c.base.maxW)
    (nid : Lay.Ids) (page : Rect) (shapes : List Sh) (bs : List (Full.Blk α)) (ht : TextColumn bs) (hs : Harmless c.conn bs shapes)
    (hp : ∀ r ∈ pageBoxes bs shapes, page.x0 ≤ r.x0 ∧ r.x1 ≤ page.x1) (hn : NotTwoColumns ((page.x0 + page.x1) / 2) (pageBoxes bs shapes)) :
    stages c nid [] page [0, 1, 2] ⟨sortBlocks bs, mkSub (sortBlocks bs) shapes, ⟨[], []⟩⟩ = .ok ⟨sortBlocks bs, mkSub (sortBlocks bs) shapes, ⟨[], []⟩⟩ ∧ Stack (sortBlocks bs) := by
  have hst0 : Stack bs := ⟨fun b hb _ => ht.text b hb, fun b hb => (ht.text b hb).boxes.1, ht.clear, ht.sources⟩
  set S := sortBlocks bs with hS
  have hSp : S.Perm bs := ft_sort_perm bs
  have hSb : ∀ b ∈ S, b ∈ bs := fun b hb => hSp.subset hb
  have hSt : ∀ b ∈ S, PlainText b := fun b hb => ht.text b (hSb b hb)
  have hst : Stack S := ft_stack_perm hSp.symm hst0
  have habove := ft_sort_above bs hst0
  rw [← hS] at habove
  have hpb : ∀ r, r ∈ pageBoxes S shapes ↔ r ∈ pageBoxes bs shapes := fun r => (((hSp.flatMap_right _).map _).append_right _).mem_iff
  -- no two columns
  have st0 : pageStage page (mkSub S shapes) S = .ok [] := by
    unfold pageStage
    obtain ⟨e, he, k, hk, h1, h2, h3⟩ := hn
    show (match Columns.pageTable page (pageBoxes S shapes) with | .error e => _ | .ok t => _) = _
    rw [C80_otherwise page _ ?_ e k ((hpb _).2 he) h1 ((hpb _).2 hk) h2 h3]
    · rfl
    · intro q hq
      have hq' := hp q ((hpb _).1 hq)
      rcases List.mem_append.1 hq with hq | hq
      · obtain ⟨l, hl, rfl⟩ := List.mem_map.1 hq
        obtain ⟨b, hbm, hl⟩ := List.mem_flatMap.1 hl
        have hreal := ((hSt b hbm).boxes.2 l hl).1.1
        exact ⟨hreal.1, hreal.2, hq'⟩
      · obtain ⟨s, hsm, rfl⟩ := List.mem_map.1 hq
        exact ⟨(hs.real s hsm).1, (hs.real s hsm).2, hq'⟩
  have hfills : ∀ f ∈ (mkSub S shapes).fills, f.2 = white := by
    intro f hf
    obtain ⟨s, hsm, he⟩ := List.mem_filterMap.1 hf
    cases s with
    | stroke s => cases he
    | link b => cases he
    | fill r k =>
      unfold shadingOf at he
      dsimp only at he
      split_ifs at he with hdet
      obtain rfl := Option.some.inj he
      rcases hs.fills r k hsm with h | h
      · exact h
      · exfalso
        rw [fw_not_shading S hSt r k fun b hb => h b (hSb b hb)] at hdet
        cases hdet
  have hstrokes : (mkSub S shapes).strokes = (strokesOnly shapes).filter fun s => !Shapes.determined (Sh.stroke s).shp (textBlocks S) := fy_strokes _ _
  have hnotin : ∀ s ∈ (mkSub S shapes).strokes, RealBox s.bbox ∧ ¬ InLine bs s.bbox := by
    intro s hsm
    rw [hstrokes] at hsm
    obtain ⟨k1, k2⟩ := List.mem_filter.1 hsm
    have hr := hs.real _ ((fy_only_mem _ _).1 k1)
    refine ⟨hr, fun hin => ?_⟩
    obtain ⟨b, hb, h⟩ := hin
    rw [fw_underline S hSt habove s hr ⟨b, hSp.symm.subset hb, h⟩] at k2
    cases k2
  have hapart : (mkSub S shapes).strokes.Pairwise fun a b => ¬ Near c.conn c.conn a.bbox b.bbox := by
    have : (mkSub S shapes).strokes.Pairwise fun a b => InLine bs a.bbox ∨ InLine bs b.bbox ∨ ¬ Near c.conn c.conn a.bbox b.bbox := by
      rw [hstrokes]
      exact hs.strokes.sublist List.filter_sublist
    refine this.imp_of_mem fun {a b} ha hb h => ?_
    rcases h with h | h | h
    · exact absurd h (hnotin a ha).2
    · exact absurd h (hnotin b hb).2
    · exact h
  refine ⟨?_, hst⟩
  rw [← fc_stages c hi htol hd hc hw nid [] page S (mkSub S shapes) ⟨[], []⟩ hst hfills (fun s hsm => ⟨(hnotin s hsm).1.1, (hnotin s hsm).1.2⟩) hapart]
  conv_lhs => unfold stages
  have e0 : stage c 0 (⟨[], []⟩ : Types) page (mkSub S shapes) S = .ok ([], ⟨[], []⟩) := by
    show (pageStage page (mkSub S shapes) S).map _ = _
    rw [st0]
    rfl
  show (match stage c 0 (⟨[], []⟩ : Types) page (mkSub S shapes) S with | .error e => _ | .ok t => _) = _
  rw [e0]
  dsimp only
  rw [fc_nothing]

/-- **C96**: the text of a page in one column, with drawings that are no table, is shown as text: no table is made, every line appears exactly once, from top to bottom. -/
theorem C96_stays_text (c : Full.Cfg) (hi : ∀ l, (c.base.lay.iter l).Perm l) (htol : 0 < c.base.lay.tol) (hd : 0 ≤ c.conn) (hc : 0 ≤ c.base.clear) (hw : 1 / 20 ≤ c.base.maxW)
    (fmt : Format α) (nid : Lay.Ids) (depth : ℕ) (page : Rect) (shapes : List Sh) (bs : List (Full.Blk α)) (ht : TextColumn bs) (hs : Harmless c.conn bs shapes)
    (hp : ∀ r ∈ pageBoxes bs shapes, page.x0 ≤ r.x0 ∧ r.x1 ≤ page.x1) (hn : NotTwoColumns ((page.x0 + page.x1) / 2) (pageBoxes bs shapes)) :
    ∃ r ty, Full.parsePage c fmt nid (depth + 1) page shapes bs = .ok (r, ty) ∧ ShowsDown r (bs.flatMap Blk.lines) := by
  obtain ⟨hst, hS⟩ := fw_stages c hi htol hd hc hw nid page shapes bs ht hs hp hn
  have htx : ∀ b ∈ sortBlocks bs, b.isText = true := fun b hb => (ht.text b ((ft_sort_perm bs).subset hb)).text
  obtain ⟨r, k1, k2, k3, k4, k5⟩ := ft_split c.base.lay hi htol (sortBlocks bs) hS
  have htr : ∀ b ∈ r, b.isText = true := by
    intro b hb
    by_contra hcon
    have : b ∈ (sortBlocks bs).filter fun b => !b.isText := k4.subset (List.mem_filter.2 ⟨hb, by simpa using hcon⟩)
    obtain ⟨m1, m2⟩ := List.mem_filter.1 this
    rw [htx b m1] at m2
    cases m2
  refine ⟨r, ⟨[], [] ++ fmt [] ⟨sortBlocks bs, mkSub (sortBlocks bs) shapes, ⟨[], []⟩⟩ ⟨sortBlocks bs, mkSub (sortBlocks bs) shapes, ⟨[], []⟩⟩ r⟩, ?_,
    ft_shows r _ k2 htr (k3.imp And.left) (k5.trans ((ft_sort_perm bs).flatMap_right _))⟩
  unfold Full.parsePage parse
  rw [hst]
  dsimp only
  rw [k1]
  dsimp only
  rw [fc_tables_text _ _ _ _ htr]

/-- A title and a block of two lines. -/
def fwPage : List (Full.Blk ℕ) := [fyBlock ⟨20, 20, 300, 30⟩ 1 [(⟨20, 20, 300, 30⟩, 1)], fyBlock ⟨20, 110, 360, 170⟩ 2 [(⟨20, 110, 350, 130⟩, 2), (⟨30, 150, 360, 170⟩, 3)]]

/-- A white background, a highlighted word, two underlines that touch, a rule, a link. -/
def fwShapes : List Sh := [.fill ⟨0, 0, 400, 600⟩ white, .fill ⟨20, 110, 90, 130⟩ 16776960, .stroke ⟨20, 57 / 2, 100, 57 / 2, ⟨20, 28, 100, 29⟩, 1, 0⟩,
  .stroke ⟨100, 57 / 2, 140, 57 / 2, ⟨100, 28, 140, 29⟩, 1, 0⟩, .stroke fyRule, .link ⟨30, 150, 80, 170⟩]

example : fpSeen fwShapes fwPage = some [.inl [1], .inl [2, 3]] := by decide +kernel

/-- Non-vacuity: the page meets the hypotheses. -/
example (nid : Lay.Ids) : ∃ r ty, Full.parsePage fpCfg fpFmt nid 1 ⟨0, 0, 400, 600⟩ fwShapes fwPage = .ok (r, ty) ∧ ShowsDown r (fwPage.flatMap Blk.lines) := by
  refine C96_stays_text fpCfg (fun l => List.Perm.refl l) (by decide +kernel) (by decide +kernel) (by decide +kernel) (by decide +kernel) _ _ 0 _ _ _ ⟨?_, ?_, ?_⟩ ⟨?_, ?_, ?_⟩ ?_ ?_
  · intro b hb
    simp only [fwPage, List.mem_cons, List.not_mem_nil, or_false] at hb
    rcases hb with rfl | rfl <;> exact fy_plain _ _ _ (by decide +kernel) (by decide +kernel) (by decide +kernel) (by decide +kernel) (by decide +kernel) (by decide +kernel) (by decide +kernel) (by decide +kernel)
  · unfold OtherSource; decide +kernel
  · decide +kernel
  · have : ∀ s ∈ fwShapes, s.bbox.x0 < s.bbox.x1 ∧ s.bbox.y0 < s.bbox.y1 ∧ Rect.round s.bbox = s.bbox := by decide +kernel
    intro s hs
    exact ly_ex_real (this s hs)
  · unfold InLine Covers Near; decide +kernel
  · intro r k h
    simp only [fwShapes, List.mem_cons, Sh.fill.injEq, reduceCtorEq, List.not_mem_nil, or_false] at h
    rcases h with ⟨rfl, rfl⟩ | ⟨rfl, rfl⟩
    · exact Or.inl rfl
    · right; unfold CoversLittle; decide +kernel
  · decide +kernel
  · unfold NotTwoColumns; decide +kernel

end FText
end Props
