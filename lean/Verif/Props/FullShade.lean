import Verif.Props.FullText
import Verif.Props.ShadeBorders
import Verif.Spec.FullShade
/-! # Text on a coloured area (towards C97) -/

namespace Props
open Py Geom Spec

section FShade
open Full

variable {α : Type}

/-! ## The lines of the table -/

theorem sd_loop_cons (b : Stream.SBlock) (bs : List Stream.SBlock) (s : Stream.CSt) : Stream.collectLoop (b :: bs) s =
    Stream.collectLoop bs (Stream.stepRow b (bs.headD Stream.noBlock) bs.isEmpty (Stream.stepFlow b (Stream.stepShading b (bs.headD Stream.noBlock) s))) := by
  cases bs <;> rfl

/-- Blocks of text, one below the other. -/
structure SColumn (bs : List Stream.SBlock) : Prop where
  flow : ∀ b ∈ bs, b.flow = true
  row : bs.IsChain fun a b => a.el.horizontallyAlign b.el 0 true = false

theorem sd_tail {b : Stream.SBlock} {bs : List Stream.SBlock} (h : SColumn (b :: bs)) : SColumn bs ∧ b.el.horizontallyAlign (bs.headD Stream.noBlock).el 0 true = false := by
  refine ⟨⟨fun x hx => h.flow x (by simp [hx]), h.row.tail⟩, ?_⟩
  cases bs with
  | nil => exact align_noBlock b
  | cons c bs => exact (List.isChain_cons_cons.1 h.row).1

/-- The area contains the block. -/
def Holds (F : Rect) (b : Stream.SBlock) : Prop := El.contains ⟨F, .leftRight⟩ b.el (9 / 10) = true

theorem sd_after (F : Rect) (bs : List Stream.SBlock) (h : SColumn bs) (ha : ∀ b ∈ bs, ¬ Holds F b) (res : List (List El)) (sh : List Stream.SShape) (hs : sh = [] ∨ sh = [⟨F, false⟩]) :
    (Stream.collectLoop bs ⟨res, [], true, sh⟩).res = res := by
  induction bs generalizing sh with
  | nil => rfl
  | cons b bs ih =>
    obtain ⟨h1, h2⟩ := sd_tail h
    rw [sd_loop_cons]
    have e : ∃ sh', (sh' = [] ∨ sh' = [⟨F, false⟩]) ∧ Stream.stepShading b (bs.headD Stream.noBlock) ⟨res, [], true, sh⟩ = ⟨res, [], true, sh'⟩ := by
      unfold Stream.stepShading
      rcases hs with rfl | rfl
      · exact ⟨[], Or.inl rfl, rfl⟩
      · dsimp only
        have : El.contains ⟨F, .leftRight⟩ b.el (9 / 10) = false := by simpa [Holds] using ha b (by simp)
        rw [this]
        simp only [Bool.not_false, Bool.and_false, Bool.false_eq_true, if_false]
        split_ifs
        · exact ⟨[], Or.inl rfl, rfl⟩
        · exact ⟨_, Or.inr rfl, rfl⟩
    obtain ⟨sh', hs', e⟩ := e
    rw [e]
    unfold Stream.stepFlow
    rw [h.flow b (by simp)]
    simp only [Bool.not_true, Bool.and_false, Bool.false_eq_true, if_false]
    unfold Stream.stepRow
    rw [h2]
    simp only [Bool.false_eq_true, if_false, List.isEmpty_nil, Bool.not_true, Bool.false_and]
    exact ih h1 (fun x hx => ha x (by simp [hx])) sh' hs'

theorem sd_during (F : Rect) (mid post : List Stream.SBlock) (h : SColumn (mid ++ post)) (hm : ∀ b ∈ mid, Holds F b ∧ b.lines ≠ [] ∧ ∀ l ∈ b.lines, l.truthy = true) (hne : mid ≠ [])
    (hp : ∀ b ∈ post, ¬ Holds F b) (res : List (List El)) (cur : List El) :
    (Stream.collectLoop (mid ++ post) ⟨res, cur, true, [⟨F, false⟩]⟩).res = res ++ [cur ++ mid.flatMap Stream.SBlock.lines] := by
  induction mid generalizing cur with
  | nil => exact absurd rfl hne
  | cons b mid ih =>
    rw [List.cons_append] at h ⊢
    obtain ⟨h1, h2⟩ := sd_tail h
    obtain ⟨m1, m2, m3⟩ := hm b (by simp)
    rw [sd_loop_cons]
    have e : Stream.stepShading b ((mid ++ post).headD Stream.noBlock) ⟨res, cur, true, [⟨F, false⟩]⟩ = ⟨res, cur ++ b.lines, false, [⟨F, false⟩]⟩ := by
      unfold Stream.stepShading
      dsimp only
      have : El.contains ⟨F, .leftRight⟩ b.el (9 / 10) = true := m1
      rw [this]
      simp only [Bool.not_false, Bool.and_true, if_true]
      unfold Stream.addLines
      rw [List.filter_eq_self.2 m3]
    have hcur : (cur ++ b.lines).isEmpty = false := by simp [m2]
    rw [e]
    unfold Stream.stepFlow
    simp only [Bool.false_and, Bool.false_eq_true, if_false]
    by_cases hmn : mid = []
    · subst hmn
      rw [List.nil_append] at h1 h2 ⊢
      unfold Stream.stepRow
      rw [h2]
      simp only [Bool.false_eq_true, if_false, hcur, Bool.not_false, Bool.true_and, Bool.false_or]
      cases post with
      | nil =>
        simp [Stream.collectLoop]
      | cons p post =>
        simp only [List.isEmpty_cons, Bool.false_eq_true, if_false]
        obtain ⟨k1, k2⟩ := sd_tail h1
        rw [sd_loop_cons]
        have e : ∃ sh', (sh' = [] ∨ sh' = [⟨F, false⟩]) ∧ Stream.stepShading p (post.headD Stream.noBlock) ⟨res, cur ++ b.lines, true, [⟨F, false⟩]⟩ = ⟨res, cur ++ b.lines, true, sh'⟩ := by
          unfold Stream.stepShading
          dsimp only
          have : El.contains ⟨F, .leftRight⟩ p.el (9 / 10) = false := by simpa [Holds] using hp p (by simp)
          rw [this]
          simp only [Bool.not_false, Bool.and_false, Bool.false_eq_true, if_false]
          split_ifs
          · exact ⟨[], Or.inl rfl, rfl⟩
          · exact ⟨_, Or.inr rfl, rfl⟩
        obtain ⟨sh', hs', e⟩ := e
        rw [e]
        unfold Stream.stepFlow
        rw [h1.flow p (by simp)]
        simp only [Bool.not_true, Bool.and_false, Bool.false_eq_true, if_false]
        unfold Stream.stepRow
        rw [k2]
        simp only [Bool.false_eq_true, if_false, hcur, Bool.not_false, Bool.true_and, Bool.true_or, if_true]
        rw [sd_after F post k1 (fun x hx => hp x (by simp [hx])) _ sh' hs']
        simp
    · have hl : (mid ++ post).isEmpty = false := by simp [hmn]
      unfold Stream.stepRow
      rw [h2, hl]
      simp only [Bool.false_eq_true, if_false, Bool.or_false, Bool.and_false]
      rw [ih h1 (fun x hx => hm x (by simp [hx])) hmn]
      simp

/-- One coloured area: its lines are the one candidate for a table. -/
theorem sd_collect (F : Rect) (pre mid post : List Stream.SBlock) (h : SColumn (pre ++ (mid ++ post))) (hpre : ∀ b ∈ pre, ¬ Holds F b ∧ b.el.bbox.y0 ≤ F.y1)
    (hm : ∀ b ∈ mid, Holds F b ∧ (b.lines ≠ [] ∧ ∀ l ∈ b.lines, l.truthy = true) ∧ b.el.bbox.y0 ≤ F.y1) (hne : mid ≠ []) (hp : ∀ b ∈ post, ¬ Holds F b) :
    Stream.collect [⟨F, false⟩] (pre ++ (mid ++ post)) = [mid.flatMap Stream.SBlock.lines] := by
  unfold Stream.collect
  induction pre with
  | nil =>
    rw [List.nil_append] at h ⊢
    rw [sd_during F mid post h (fun b hb => ⟨(hm b hb).1, (hm b hb).2.1⟩) hne hp]
    rfl
  | cons b pre ih =>
    rw [List.cons_append] at h ⊢
    obtain ⟨h1, h2⟩ := sd_tail h
    rw [sd_loop_cons]
    have hn : ((pre ++ (mid ++ post)).headD Stream.noBlock).el.bbox.y0 ≤ F.y1 := by
      cases pre with
      | cons q pre => exact (hpre q (by simp)).2
      | nil =>
        cases mid with
        | cons q mid => exact (hm q (by simp)).2.2
        | nil => exact absurd rfl hne
    have e : Stream.stepShading b ((pre ++ (mid ++ post)).headD Stream.noBlock) ⟨[], [], true, [⟨F, false⟩]⟩ = ⟨[], [], true, [⟨F, false⟩]⟩ := by
      unfold Stream.stepShading
      dsimp only
      have : El.contains ⟨F, .leftRight⟩ b.el (9 / 10) = false := by simpa [Holds] using (hpre b (by simp)).1
      rw [this, if_neg (by simp), if_neg (not_lt.2 hn)]
    rw [e]
    unfold Stream.stepFlow
    rw [h.flow b (by simp)]
    simp only [Bool.not_true, Bool.and_false, Bool.false_eq_true, if_false]
    unfold Stream.stepRow
    rw [h2]
    simp only [Bool.false_eq_true, if_false, List.isEmpty_nil, Bool.not_true, Bool.false_and]
    exact ih h1 fun x hx => hpre x (by simp [hx])

/-! ## The structure of the table -/

/-- The sides of the area as grid lines. -/
def sdX (F : Rect) (j : ℕ) : ℚ := if j = 0 then F.x0 else F.x1
def sdY (F : Rect) (i : ℕ) : ℚ := if i = 0 then F.y0 else F.y1

def sdSegs : List Seg := [⟨true, 0, 0, 0, 1⟩, ⟨true, 0, 1, 0, 1⟩, ⟨false, 0, 0, 0, 1⟩, ⟨false, 0, 1, 0, 1⟩]

theorem sd_stroke (F : Rect) (t : (ℚ × ℚ × ℚ × ℚ) × ℚ × ℕ) : SideLine F t ↔ ∃ g ∈ sdSegs, strokeOf t = g.stroke (sdX F) (sdY F) := by
  have key : ∀ x0 y0 x1 y1 : ℚ, strokeOf ((x0, y0, x1, y1), 0, 0) = ⟨x0, y0, x1, y1, (⟨x0, y0, x1, y1⟩ : Rect).round, 0, 0⟩ := by
    intro x0 y0 x1 y1
    unfold strokeOf Rect.expand
    simp
  have row : ∀ i, Seg.stroke (sdX F) (sdY F) ⟨true, 0, i, 0, 1⟩ = ⟨F.x0, sdY F i, F.x1, sdY F i, (⟨F.x0, sdY F i, F.x1, sdY F i⟩ : Rect).round, 0, 0⟩ := by
    intro i
    simp [Seg.stroke, rowSegment, sdX]
  have col : ∀ j, Seg.stroke (sdX F) (sdY F) ⟨false, 0, j, 0, 1⟩ = ⟨sdX F j, F.y0, sdX F j, F.y1, (⟨sdX F j, F.y0, sdX F j, F.y1⟩ : Rect).round, 0, 0⟩ := by
    intro j
    simp [Seg.stroke, colSegment, sdY]
  have inj : ∀ a b, strokeOf a = strokeOf b → a = b := by
    rintro ⟨⟨a0, a1, a2, a3⟩, w, k⟩ ⟨⟨b0, b1, b2, b3⟩, w', k'⟩ h
    unfold strokeOf at h
    simp only [Table.St.mk.injEq] at h
    obtain ⟨h0, h1, h2, h3, _, h5, h6⟩ := h
    rw [h0, h1, h2, h3, h5, h6]
  constructor
  · intro h
    cases h with
    | top => exact ⟨_, by unfold sdSegs; exact List.mem_cons_self, by rw [key, row 0]; rfl⟩
    | bottom => exact ⟨_, by unfold sdSegs; exact List.mem_cons_of_mem _ List.mem_cons_self, by rw [key, row 1]; rfl⟩
    | left => exact ⟨_, by unfold sdSegs; exact List.mem_cons_of_mem _ (List.mem_cons_of_mem _ List.mem_cons_self), by rw [key, col 0]; rfl⟩
    | right => exact ⟨_, by unfold sdSegs; exact List.mem_cons_of_mem _ (List.mem_cons_of_mem _ (List.mem_cons_of_mem _ List.mem_cons_self)), by rw [key, col 1]; rfl⟩
  · rintro ⟨g, hg, e⟩
    simp only [sdSegs, List.mem_cons, List.not_mem_nil, or_false] at hg
    rcases hg with rfl | rfl | rfl | rfl
    · rw [row 0, ← key] at e
      rw [inj _ _ e]; exact SideLine.top
    · rw [row 1, ← key] at e
      rw [inj _ _ e]; exact SideLine.bottom
    · rw [col 0, ← key] at e
      rw [inj _ _ e]; exact SideLine.left
    · rw [col 1, ← key] at e
      rw [inj _ _ e]; exact SideLine.right

/-- Different sides are different strokes. -/
theorem sd_inj (F : Rect) (hF : Proper F) : ∀ g ∈ sdSegs, ∀ h ∈ sdSegs, g.stroke (sdX F) (sdY F) = h.stroke (sdX F) (sdY F) → g = h := by
  have hx := ne_of_lt hF.1
  have hy := ne_of_lt hF.2
  intro g hg h hh e
  simp only [sdSegs, List.mem_cons, List.not_mem_nil, or_false] at hg hh
  rcases hg with rfl | rfl | rfl | rfl <;> rcases hh with rfl | rfl | rfl | rfl <;> first | rfl | (exfalso; simp [Seg.stroke, rowSegment, colSegment, sdX, sdY, hx, hx.symm, hy, hy.symm] at e)

theorem sd_segs (F : Rect) (hF : Proper F) (new : List Table.St) (hn : ∀ s, s ∈ new ↔ ∃ g ∈ sdSegs, s = g.stroke (sdX F) (sdY F)) :
    ∃ segs : List Seg, new = segs.map (Seg.stroke (sdX F) (sdY F)) ∧ ∀ g, g ∈ segs ↔ g ∈ sdSegs := by
  have : ∀ l : List Table.St, (∀ s ∈ l, ∃ g ∈ sdSegs, s = g.stroke (sdX F) (sdY F)) → ∃ segs : List Seg, l = segs.map (Seg.stroke (sdX F) (sdY F)) ∧ ∀ g ∈ segs, g ∈ sdSegs := by
    intro l
    induction l with
    | nil => intro _; exact ⟨[], rfl, by simp⟩
    | cons s l ih =>
      intro h
      obtain ⟨segs, e, h1⟩ := ih fun x hx => h x (by simp [hx])
      obtain ⟨g, hg, rfl⟩ := h s (by simp)
      refine ⟨g :: segs, by rw [e]; rfl, ?_⟩
      intro q hq
      rcases List.mem_cons.1 hq with rfl | hq
      · exact hg
      · exact h1 q hq
  obtain ⟨segs, rfl, h1⟩ := this new fun s hs => (hn s).1 hs
  refine ⟨segs, rfl, fun g => ⟨h1 g, fun hg => ?_⟩⟩
  obtain ⟨q, hq, e⟩ := List.mem_map.1 ((hn (g.stroke (sdX F) (sdY F))).2 ⟨g, hg, rfl⟩)
  rw [← sd_inj F hF q (h1 q hq) g hg e]
  exact hq

theorem sd_draws (segs : List Seg) (h : ∀ g, g ∈ segs ↔ g ∈ sdSegs) : DrawsCells 1 1 unitCell segs := by
  have m : ∀ g ∈ sdSegs, g ∈ segs := fun g hg => (h g).2 hg
  have a0 := m ⟨true, 0, 0, 0, 1⟩ (by decide +kernel)
  have a1 := m ⟨true, 0, 1, 0, 1⟩ (by decide +kernel)
  have a2 := m ⟨false, 0, 0, 0, 1⟩ (by decide +kernel)
  have a3 := m ⟨false, 0, 1, 0, 1⟩ (by decide +kernel)
  refine ⟨le_refl _, le_refl _, ?_, ?_, ?_, ?_, ?_, ?_, ?_⟩
  · intro g hg
    have hg := (h g).1 hg
    simp only [sdSegs, List.mem_cons, List.not_mem_nil, or_false] at hg
    rcases hg with rfl | rfl | rfl | rfl <;> simp
  · intro i hi j hj
    obtain rfl : i = 0 := by omega
    obtain rfl : j = 0 := by omega
    exact ⟨fun _ => rfl, fun _ => ⟨_, a0, rfl, rfl, le_refl _, by simp⟩⟩
  · intro i hi j hj
    obtain rfl : i = 0 := by omega
    obtain rfl : j = 0 := by omega
    exact ⟨fun _ => rfl, fun _ => ⟨_, a2, rfl, rfl, le_refl _, by simp⟩⟩
  · intro j hj
    obtain rfl : j = 0 := by omega
    exact ⟨_, a1, rfl, rfl, le_refl _, by simp⟩
  · intro j hj
    obtain rfl : j = 0 := by omega
    exact ⟨_, a3, rfl, rfl, le_refl _, by simp⟩
  · intro i hi
    exact ⟨0, by omega, rfl⟩
  · intro j hj
    exact ⟨0, by omega, rfl⟩

/-- The sides of a coloured area: one cell, with the colour of the area. -/
theorem sd_structure (F : Rect) (hF : RealBox F) (k : ℕ) (c w : ℚ) (hc : 0 ≤ c) (hw : 1 / 20 ≤ w) (h1 : F.x0 + 3 / 10 < F.x1) (h2 : F.y0 + 3 / 10 < F.y1) (h3 : F.x0 + c < F.x1) (h4 : F.y0 + c < F.y1)
    (new : List Table.St) (hn : ∀ s, s ∈ new ↔ ∃ g ∈ sdSegs, s = g.stroke (sdX F) (sdY F)) :
    ∃ t, structure_ c w new [(F, k)] = .ok t ∧ t.1 = [[some ⟨F, 0, 0, 0, 0, some k⟩]] ∧ (F, k) ∈ t.2.2 := by
  obtain ⟨segs, e, hs⟩ := sd_segs F hF.1 new hn
  have hten : F.round = F := (tenths_iff _).1 hF.2
  have hr : round1 F.x0 = F.x0 ∧ round1 F.y0 = F.y0 ∧ round1 F.x1 = F.x1 ∧ round1 F.y1 = F.y1 := by
    refine ⟨congrArg Rect.x0 hten, congrArg Rect.y0 hten, congrArg Rect.x1 hten, congrArg Rect.y1 hten⟩
  have rX : ∀ j ≤ 1, round1 (sdX F j) = sdX F j := by
    intro j _
    unfold sdX
    split_ifs
    · exact hr.1
    · exact hr.2.2.1
  have rY : ∀ j ≤ 1, round1 (sdY F j) = sdY F j := by
    intro j _
    unfold sdY
    split_ifs
    · exact hr.2.1
    · exact hr.2.2.2
  have tX : ∀ j ≤ 1, ∃ m : ℤ, sdX F j = m / 10 := fun j hj => ⟨roundHE (10 * sdX F j), (rX j hj).symm⟩
  have tY : ∀ j ≤ 1, ∃ m : ℤ, sdY F j = m / 10 := fun j hj => ⟨roundHE (10 * sdY F j), (rY j hj).symm⟩
  have hX : ∀ j < 1, sdX F j + max c (3 / 10) < sdX F (j + 1) := by
    intro j hj
    obtain rfl : j = 0 := by omega
    show F.x0 + max c (3 / 10) < F.x1
    rcases max_choice c (3 / 10) with q | q <;> rw [q] <;> assumption
  have hY : ∀ j < 1, sdY F j + max c (3 / 10) < sdY F (j + 1) := by
    intro j hj
    obtain rfl : j = 0 := by omega
    show F.y0 + max c (3 / 10) < F.y1
    rcases max_choice c (3 / 10) with q | q <;> rw [q] <;> assumption
  obtain ⟨table, p1, p2⟩ := C91_segments_partial c w 0 (max c (3 / 10)) hc hw (le_refl _) (le_max_left _ _) (by rw [zero_add]; exact le_max_right _ _) hX hY rX rY unitCell rg_division segs
    (by
      intro g hg
      have hg := (hs g).1 hg
      simp only [sdSegs, List.mem_cons, List.not_mem_nil, or_false] at hg
      rcases hg with rfl | rfl | rfl | rfl <;> simp) (sd_draws segs hs) (by
      refine List.Pairwise.imp_of_mem (R := fun _ _ => True) ?_ (List.pairwise_of_forall fun _ _ => trivial)
      intro g q hg _ _ _ _ k1 k2
      have hg := (hs g).1 hg
      simp only [sdSegs, List.mem_cons, List.not_mem_nil, or_false] at hg
      rcases hg with rfl | rfl | rfl | rfl <;> simp at k1 k2)
  rw [← e] at p1
  have p3 := fx_exact tX tY table ⟨p2.1, p2.2.1, by
    intro i hi j hj
    have := p2.2.2 i hi j hj
    dsimp only at this ⊢
    split_ifs at this ⊢
    · obtain ⟨b, q0, q1, q2, q3, q4⟩ := this
      exact ⟨b, q0, by linarith, by linarith, by linarith, by linarith⟩
    · exact this⟩ (fx_rounded _ _ _ _ p1)
  obtain ⟨t, s1, s2⟩ := fx_structure_rows c w new [(F, k)] table p1
  refine ⟨t, s1, ?_⟩
  have hrows : (t.1.map fun r => r.map fun c => c.map CellInfo.box) = [[some F]] := by
    rw [s2, p3]
    show [[some (gridCell (sdX F) (sdY F) 0 0)]] = _
    rfl
  obtain ⟨ci, ht1, hbox⟩ : ∃ ci : CellInfo, t.1 = [[some ci]] ∧ ci.box = F := by
    match h : t.1, hrows with
    | [], q => cases q
    | a :: b :: l, q => simp at q
    | [[]], q => simp at q
    | [a :: b :: l], q => simp at q
    | [[none]], q => simp at q
    | [[some ci]], q => exact ⟨ci, rfl, by simpa using q⟩
  -- the style
  unfold structure_ at s1
  split at s1
  · obtain rfl := Except.ok.inj s1
    cases ht1
  · rename_i H V hg
    split_ifs at s1
    · obtain rfl := Except.ok.inj s1
      cases ht1
    · obtain rfl := Except.ok.inj s1
      dsimp only at ht1 ⊢
      have hmem : [some ci] ∈ ((styles H V [(F, k)]).map fun r => r.map fun c => c.map Prod.fst).filter (fun r => (Full.rowBox r).truthy) := by rw [ht1]; simp
      obtain ⟨row', hrow', e1⟩ := List.mem_map.1 (List.mem_filter.1 hmem).1
      have hin : some ci ∈ row'.map fun c => c.map Prod.fst := by rw [e1]; simp
      obtain ⟨o', ho', e2⟩ := List.mem_map.1 hin
      obtain ⟨x, rfl, hx⟩ := Option.map_eq_some_iff.1 e2
      have hrow2 := hrow'
      unfold styles at hrow'
      obtain ⟨i, _, rfl⟩ := List.mem_map.1 hrow'
      obtain ⟨j, _, e3⟩ := List.mem_map.1 ho'
      obtain ⟨r, _, rfl⟩ := Option.map_eq_some_iff.1 e3
      have hw0 : ∀ s ∈ new, s.width = 0 := by
        intro s hsm
        obtain ⟨g, hg', rfl⟩ := (hn s).1 hsm
        simp only [sdSegs, List.mem_cons, List.not_mem_nil, or_false] at hg'
        rcases hg' with rfl | rfl | rfl | rfl <;> rfl
      have hst := cs_style [.fill F k] new [(F, k)] H V c w hg ⟨fun s hsm _ _ => Or.inl (hw0 s hsm), fun s hsm _ _ => Or.inl (hw0 s hsm)⟩ (by simp) r
      have z : ∀ {o : Bool} {q : ℚ}, DrawnWidth [Sh.fill F k] o q → q = 0 := by
        intro o q h
        rcases h with h | ⟨s, h, _⟩
        · exact h
        · simp at h
      have z1 := z hst.top
      have z2 := z hst.bottom
      have z3 := z hst.left
      have z4 := z hst.right
      rw [hx] at z1 z2 z3 z4
      have hrr : r.round = F := by rw [← hbox, ← hx]; rfl
      have hf : (cellStyle H V [(F, k)] r).2 = some (F, k) := by
        have y1 : widthOf false r.x0 r.x1 (Full.strokesAt H r.y0) = 0 := by rw [← hx] at z1; exact z1
        have y2 : widthOf false r.x0 r.x1 (Full.strokesAt H r.y1) = 0 := by rw [← hx] at z2; exact z2
        have y3 : widthOf true r.y0 r.y1 (Full.strokesAt V r.x0) = 0 := by rw [← hx] at z3; exact z3
        have y4 : widthOf true r.y0 r.y1 (Full.strokesAt V r.x1) = 0 := by rw [← hx] at z4; exact z4
        unfold cellStyle
        dsimp only
        rw [y1, y2, y3, y4]
        unfold pickFill Table.shading
        simp only [zero_div, add_zero, sub_zero]
        have : (⟨r.x0, r.y0, r.x1, r.y1⟩ : Rect).round = F := hrr
        rw [this]
        have hcn : El.contains ⟨F, .leftRight⟩ ⟨F, .leftRight⟩ (9 / 10) = true := by
          unfold El.contains
          dsimp only
          have hpos := area_pos F hF.1
          rw [if_neg (ne_of_gt hpos), inter_covered F F hF.1 hF.1 ⟨le_refl _, le_refl _, le_refl _, le_refl _⟩, div_self (ne_of_gt hpos),
            show roundHE (100 * (1 : ℚ)) = 100 by decide +kernel, if_neg (by norm_num)]
          unfold Rect.width Rect.height
          split_ifs
          · rw [decide_eq_true_eq]; linarith
          · rw [decide_eq_true_eq]; linarith
        simp [hcn]
      refine ⟨?_, ?_⟩
      · rw [ht1]
        have hbg : ci.bg = some k := by
          rw [← hx]
          show ((cellStyle H V [(F, k)] r).2).map Prod.snd = _
          rw [hf]; rfl
        obtain ⟨b, a1, a2, a3, a4, a5⟩ := ci
        dsimp only at hbox z1 z2 z3 z4 hbg
        rw [hbox, z1, z2, z3, z4, hbg]
      · refine List.mem_filterMap.2 ⟨some (cellStyle H V [(F, k)] r), ?_, hf⟩
        exact List.mem_flatten.2 ⟨_, hrow2, ho'⟩

/-! ## The table found -/

theorem sd_no_lattice (c : Full.Cfg) (ty : Types) (sub : Sub) (h : sub.strokes = []) : latticeStage c ty sub = .ok ([], ty) := by
  unfold latticeStage
  split_ifs
  · rfl
  · rw [h]
    have e : Lattice.strokeGroups c.base.lay.iter c.conn [] = [] := by
      have : ∀ g ∈ Lattice.strokeGroups c.base.lay.iter c.conn [], False := by
        intro g hg
        unfold Lattice.strokeGroups at hg
        have : Sweep.groupIdx c.conn c.conn [] = .ok [] := by
          unfold Sweep.groupIdx
          have e1 : Sweep.pairs [] = [] := by decide +kernel
          have e2 : (Graph.build 0 [] : Graph.G) = [] := by decide +kernel
          rw [List.map_nil, e1, List.length_nil, e2]
          unfold Graph.graphBfs
          rw [List.length_nil, List.range_zero, Graph.bfsLoop]
        rw [List.map_nil, this] at hg
        cases hg
      exact List.eq_nil_iff_forall_not_mem.2 fun g hg => this g hg
    rw [e]
    rfl

theorem sd_found (F : Rect) (hF : RealBox F) (ci : CellInfo) (h : ci.box = F) : found [[some ci]] = ⟨F, [[true]], [ci]⟩ := by
  have ht : F.truthy = true := ly_real_truthy hF
  unfold found
  have e : Columns.tableBox (Rows.boxes [[some ci]]) = F := by
    show Coll.unionBbox Rect.zero (Coll.unionBbox Rect.zero ci.box) = F
    rw [h, ly_union_zero hF, ly_union_zero hF]
  rw [e]
  have e2 : ([[some ci]].map fun r => r.map isCell) = [[true]] := by
    show [[ci.box.truthy]] = _
    rw [h, ht]
  rw [e2]
  congr 1
  show [ci].filter _ = [ci]
  rw [List.filter_cons_of_pos (by rw [h]; exact ht)]
  rfl

theorem sd_stream (c : Full.Cfg) (hi : ∀ l, (c.base.lay.iter l).Perm l) (hord : ∀ l, (c.base.order l).Perm l) (hc : 0 ≤ c.base.clear) (hw : 1 / 20 ≤ c.base.maxW)
    (ty : Types) (page F : Rect) (k : ℕ) (hk : k ≠ 0 ∧ k ≠ white) (hF : RealBox F) (hpF : Covers page F) (hcx : F.x0 + c.base.clear < F.x1) (hcy : F.y0 + c.base.clear < F.y1)
    (hty : ty.determined (.fill F k) = false) (sub : Sub) (hs : sub.strokes = []) (hf : sub.fills = [(F, k)]) (boxes : List Rect) (ls : List El) (hls : AreaLines F ls) (hne : ls ≠ [])
    (hb : ∀ b ∈ boxes, b.y0 ≤ b.y1 ∧ (b.y1 < F.y0 ∨ F.y1 < b.y0 ∨ ((Stream.tableBox ls).y0 ≤ b.y1 ∧ b.y0 ≤ (Stream.tableBox ls).y1))) :
    ∃ ty', streamTable c ty page sub boxes ls = .ok ([⟨F, [[true]], [⟨F, 0, 0, 0, 0, some k⟩]⟩], ty') ∧ Sh.fill F k ∈ ty'.done := by
  obtain ⟨gs, e1, hg⟩ := sb_borders c.base.lay.iter hi F page boxes ls hls
  have hiF : Covers F (Stream.tableBox ls) := tableBox_in ls hne F hls.inside
  obtain ⟨l0, hl0⟩ := List.exists_mem_of_ne_nil ls hne
  have hcl := tableBox_covers ls l0 hl0
  have hsz := hls.size l0 hl0
  have hx : (Stream.tableBox ls).x0 + 1 < (Stream.tableBox ls).x1 := by linarith [hcl.1, hcl.2.2.1, hsz.1]
  have hy : (Stream.tableBox ls).y0 + 1 < (Stream.tableBox ls).y1 := by linarith [hcl.2.1, hcl.2.2.2, hsz.2]
  have hbd := sb_boundaries F page.y1 (Stream.tableBox ls).y0 (Stream.tableBox ls).y1 hiF.2.1 hiF.2.2.2 (by linarith) hpF.2.2.2 boxes (fun b hm => (hb b hm).1) (fun b hm => (hb b hm).2) page.y0 hpF.2.1
  have hoF : Covers (Stream.outerBox page boxes ls) F := ⟨hpF.1, hbd.1, hpF.2.2.1, hbd.2⟩
  have hfin := sb_final F (Stream.tableBox ls) (Stream.outerBox page boxes ls) hiF hoF hx hy gs hg c.base.order hord
  dsimp only at hfin
  have hsx : F.x0 + 3 / 10 < F.x1 := by linarith [hiF.1, hiF.2.2.1]
  have hsy : F.y0 + 3 / 10 < F.y1 := by linarith [hiF.2.1, hiF.2.2.2]
  unfold streamTable
  rw [e1]
  dsimp only
  rw [hs, hf]
  have ef : ([(F, k)].filter fun f => !(ty.determined (.fill f.1 f.2) || decide (f.2 = white))).map Prod.fst = [F] := by
    rw [List.filter_cons_of_pos (by simp [hty, hk.2])]
    rfl
  rw [ef]
  rw [show ([] : List Table.St).filter (fun s => (Stream.outerBox page boxes ls).round.contains s.bbox) = [] from rfl, List.map_nil]
  set fin := Border.finalize c.base.order [] [F] (Stream.outer (Stream.tableBox ls) (Stream.outerBox page boxes ls) ++ gs) with hfd
  obtain ⟨t, s1, s2, s3⟩ := sd_structure F hF k c.base.clear c.base.maxW hc hw hsx hsy hcx hcy
    (sortBy (fun s : Table.St => Coll.key s.bbox.y0 s.bbox.x0 s.bbox.x1) ((fin.filterMap fun b => (Border.toStroke fin b).map strokeOf).filter fun s => s.bbox.truthy)) (by
      intro s
      rw [(sortBy_perm _ _).mem_iff, List.mem_filter]
      constructor
      · rintro ⟨h, _⟩
        obtain ⟨b, hbm, hbs⟩ := List.mem_filterMap.1 h
        obtain ⟨t, ht, rfl⟩ := Option.map_eq_some_iff.1 hbs
        exact (sd_stroke F t).1 ((hfin t).1 ⟨b, hbm, ht⟩)
      · rintro ⟨g, hgm, rfl⟩
        have hex : ∃ t, SideLine F t ∧ strokeOf t = g.stroke (sdX F) (sdY F) := by
          have row : ∀ i, strokeOf ((F.x0, sdY F i, F.x1, sdY F i), 0, 0) = Seg.stroke (sdX F) (sdY F) ⟨true, 0, i, 0, 1⟩ := by
            intro i
            simp [Seg.stroke, rowSegment, sdX, strokeOf, Rect.expand]
          have col : ∀ j, strokeOf ((sdX F j, F.y0, sdX F j, F.y1), 0, 0) = Seg.stroke (sdX F) (sdY F) ⟨false, 0, j, 0, 1⟩ := by
            intro j
            simp [Seg.stroke, colSegment, sdY, strokeOf, Rect.expand]
          simp only [sdSegs, List.mem_cons, List.not_mem_nil, or_false] at hgm
          rcases hgm with rfl | rfl | rfl | rfl
          · exact ⟨_, SideLine.top, row 0⟩
          · exact ⟨_, SideLine.bottom, row 1⟩
          · exact ⟨_, SideLine.left, col 0⟩
          · exact ⟨_, SideLine.right, col 1⟩
        obtain ⟨t, ht, e⟩ := hex
        obtain ⟨b, hbm, hbt⟩ := (hfin t).2 ht
        have hten : F.round = F := (tenths_iff _).1 hF.2
        have hr : round1 F.x0 = F.x0 ∧ round1 F.y0 = F.y0 ∧ round1 F.x1 = F.x1 ∧ round1 F.y1 = F.y1 := by
          refine ⟨congrArg Rect.x0 hten, congrArg Rect.y0 hten, congrArg Rect.x1 hten, congrArg Rect.y1 hten⟩
        refine ⟨List.mem_filterMap.2 ⟨b, hbm, by rw [hbt]; exact congrArg some e⟩, ?_⟩
        have hlx := hF.1.1
        have hly := hF.1.2
        rw [← e]
        have tr : ∀ r : Rect, (r.x0 ≠ r.x1 ∨ r.y0 ≠ r.y1) → r.truthy = true := by
          intro r h
          unfold Rect.truthy
          rw [decide_eq_true_eq]
          rintro rfl
          rcases h with h | h <;> exact h rfl
        apply tr
        cases ht
        · left; simp only [strokeOf, Rect.expand, Rect.round, zero_div, sub_zero, add_zero]; rw [hr.1, hr.2.2.1]; exact ne_of_lt hlx
        · left; simp only [strokeOf, Rect.expand, Rect.round, zero_div, sub_zero, add_zero]; rw [hr.1, hr.2.2.1]; exact ne_of_lt hlx
        · right; simp only [strokeOf, Rect.expand, Rect.round, zero_div, sub_zero, add_zero]; rw [hr.2.1, hr.2.2.2]; exact ne_of_lt hly
        · right; simp only [strokeOf, Rect.expand, Rect.round, zero_div, sub_zero, add_zero]; rw [hr.2.1, hr.2.2.2]; exact ne_of_lt hly)
  rw [s1]
  dsimp only
  rw [s2, sd_found F hF _ rfl]
  have htr : F.truthy = true := ly_real_truthy hF
  rw [if_pos (by simp [hk.1]), if_pos htr, List.filter_cons_of_pos (by exact htr), List.filter_nil]
  refine ⟨_, rfl, ?_⟩
  · unfold Types.mark
    dsimp only
    refine List.mem_append_right _ (List.mem_map.2 ⟨(F, k), s3, rfl⟩)

/-! ## A page with one table -/

/-- A table block among blocks of text above and below it. -/
theorem sd_page (c : Full.Cfg) (hi : ∀ l, (c.base.lay.iter l).Perm l) (htol : 0 < c.base.lay.tol) (fmt : Format α) (nid : Lay.Ids) (depth : ℕ) (page F : Rect) (hF : RealBox F) (ss : List ℕ)
    (st : State α) (bs : List (Full.Blk α)) (ht : ∀ b ∈ bs, PlainText b) (hsrc : bs.Pairwise OtherSource) (hclear : bs.Pairwise fun a b => Clears a.bbox b.bbox)
    (hplace : ∀ b ∈ bs, Covers F b.bbox ∨ b.bbox.y1 < F.y0 ∨ F.y1 < b.bbox.y0) (cells : List (Cell × List (Full.Blk α))) (sub : Sub) (ty1 : Types)
    (hstages : stages c nid [] page ss st = .ok ⟨sortBlocks ((bs.filter fun b => !decide (Covers F b.bbox)) ++ [.table F [[true]] cells]), sub, ty1⟩)
    (P : List (Cell × List (Full.Blk α)) → Prop)
    (hcells : ∀ i ty, ∃ cs' ty', parseCells (fun j ty cell sub => parse c fmt nid (depth + 1) ([] ++ [i, j]) cell.info.working [1, 2] ⟨sub, cell.sub, ty⟩) 0 ty cells = .ok (cs', ty') ∧ P cs') :
    ∃ above cs' below ty, parse c fmt nid (depth + 2) [] page ss st = .ok (above ++ .table F [[true]] cs' :: below, ty) ∧
      ShowsDown above ((bs.flatMap Blk.lines).filter fun l => l.bbox.y1 < F.y0) ∧
      ShowsDown below ((bs.flatMap Blk.lines).filter fun l => F.y1 < l.bbox.y0) ∧ P cs' := by
  have hyy : F.y0 < F.y1 := hF.1.2
  set inside := bs.filter fun b => decide (Covers F b.bbox) with hinside
  set outside := bs.filter fun b => !decide (Covers F b.bbox) with houtside
  set T : Full.Blk α := .table F [[true]] cells with hT
  have hTbox : T.bbox = F := rfl
  have houtP : ∀ b ∈ outside, b ∈ bs ∧ (b.bbox.y1 < F.y0 ∨ F.y1 < b.bbox.y0) := by
    intro b hb
    obtain ⟨h1, h2⟩ := List.mem_filter.1 hb
    refine ⟨h1, ?_⟩
    rcases hplace b h1 with h | h
    · simp [h] at h2
    · exact h
  have hstack : Stack (outside ++ [T]) := by
    refine ⟨?_, ?_, ?_, ?_⟩
    · intro b hb htx
      rcases List.mem_append.1 hb with hb | hb
      · exact ht b (houtP b hb).1
      · rw [List.mem_singleton] at hb
        subst hb
        cases htx
    · intro b hb
      rcases List.mem_append.1 hb with hb | hb
      · exact (ht b (houtP b hb).1).boxes.1
      · rw [List.mem_singleton] at hb
        subst hb
        exact hF
    · rw [List.pairwise_append]
      refine ⟨hclear.sublist List.filter_sublist, List.pairwise_singleton _ _, ?_⟩
      intro a ha b hb
      rw [List.mem_singleton] at hb
      subst hb
      exact (houtP a ha).2
    · rw [List.pairwise_append]
      refine ⟨hsrc.sublist List.filter_sublist, List.pairwise_singleton _ _, ?_⟩
      intro a _ b hb l _ m hm
      rw [List.mem_singleton] at hb
      subst hb
      cases hm
  set B := sortBlocks (outside ++ [T]) with hB
  have hBst : Stack B := ft_stack_perm (ft_sort_perm _).symm hstack
  obtain ⟨R, s1, s2, s3, s4, s5⟩ := ft_split c.base.lay hi htol B hBst
  have hnt : (R.filter fun b => !b.isText).Perm [T] := by
    refine s4.trans (((ft_sort_perm (outside ++ [T])).filter _).trans ?_)
    rw [List.filter_append]
    have : (outside.filter fun b : Full.Blk α => !b.isText) = [] := by
      rw [List.filter_eq_nil_iff]
      intro b hb
      simp [(ht b (houtP b hb).1).text]
    rw [this, List.nil_append]
    rfl
  have hTR : T ∈ R := (List.mem_filter.1 (hnt.symm.subset (by simp))).1
  obtain ⟨A, D, hAD⟩ := List.append_of_mem hTR
  have hlen := hnt.length_eq
  rw [hAD, List.filter_append, List.filter_cons_of_pos (by rfl), List.length_append, List.length_cons, List.length_singleton] at hlen
  have hA : ∀ b ∈ A, b.isText = true := by
    intro b hb
    by_contra hcon
    have : 0 < (A.filter fun b : Full.Blk α => !b.isText).length := List.length_pos_of_mem (List.mem_filter.2 ⟨hb, by simpa using hcon⟩)
    omega
  have hDt : ∀ b ∈ D, b.isText = true := by
    intro b hb
    by_contra hcon
    have : 0 < (D.filter fun b : Full.Blk α => !b.isText).length := List.length_pos_of_mem (List.mem_filter.2 ⟨hb, by simpa using hcon⟩)
    omega
  have hDsub : D.Sublist R := by rw [hAD]; exact (List.sublist_cons_self _ _).trans (List.sublist_append_right _ _)
  have hAst : ∀ b ∈ A, b.isText = true → PlainText b ∧ b.lines.Pairwise fun l m => Above l.bbox m.bbox := fun b hb => s2 b (by rw [hAD]; simp [hb])
  have hDst : ∀ b ∈ D, b.isText = true → PlainText b ∧ b.lines.Pairwise fun l m => Above l.bbox m.bbox := fun b hb => s2 b (hDsub.subset hb)
  have hord := s3
  rw [hAD, List.pairwise_append, List.pairwise_cons] at hord
  obtain ⟨o1, ⟨o2, o3⟩, o4⟩ := hord
  have hAT : ∀ b ∈ A, b.bbox.y1 < F.y0 := fun b hb => by have := (o4 b hb T (by simp)).2 (Or.inr rfl); rw [hTbox] at this; exact this
  have hDT : ∀ b ∈ D, F.y1 < b.bbox.y0 := fun b hb => by have := (o2 b hb).2 (Or.inl rfl); rw [hTbox] at this; exact this
  have hlines : (A.flatMap Blk.lines ++ D.flatMap Blk.lines).Perm (outside.flatMap Blk.lines) := by
    have h1 := s5
    rw [hAD, List.flatMap_append, List.flatMap_cons] at h1
    have h2 : (B.flatMap Blk.lines).Perm ((outside ++ [T]).flatMap Blk.lines) := (ft_sort_perm _).flatMap_right _
    rw [List.flatMap_append, List.flatMap_cons] at h2
    have e : T.lines = [] := rfl
    rw [e] at h1 h2
    simpa using h1.trans h2
  have hsplit : (bs.flatMap Blk.lines).Perm (outside.flatMap Blk.lines ++ inside.flatMap Blk.lines) := by
    have := (List.filter_append_perm (fun b : Full.Blk α => decide (Covers F b.bbox)) bs).flatMap_right Blk.lines
    rw [List.flatMap_append] at this
    exact this.symm.trans List.perm_append_comm
  have hinP : ∀ b ∈ inside, b ∈ bs ∧ Covers F b.bbox := fun b hb => ⟨(List.mem_filter.1 hb).1, by simpa using (List.mem_filter.1 hb).2⟩
  have hinL : ∀ l ∈ inside.flatMap Blk.lines, F.y0 ≤ l.bbox.y0 ∧ l.bbox.y1 ≤ F.y1 ∧ l.bbox.y0 < l.bbox.y1 := by
    intro l hl
    obtain ⟨b, hb, hl⟩ := List.mem_flatMap.1 hl
    obtain ⟨hbm, hbc⟩ := hinP b hb
    obtain ⟨q1, q2⟩ := (ht b hbm).boxes.2 l hl
    have := covers_trans hbc q2
    exact ⟨this.2.1, this.2.2.2, q1.1.1.2⟩
  have hAL : ∀ l ∈ A.flatMap Blk.lines, l.bbox.y1 < F.y0 ∧ l.bbox.y0 < l.bbox.y1 := by
    intro l hl
    obtain ⟨b, hb, hl⟩ := List.mem_flatMap.1 hl
    obtain ⟨q1, q2⟩ := (hAst b hb (hA b hb)).1.boxes.2 l hl
    exact ⟨lt_of_le_of_lt q2.2.2.2 (hAT b hb), q1.1.1.2⟩
  have hDL : ∀ l ∈ D.flatMap Blk.lines, F.y1 < l.bbox.y0 ∧ l.bbox.y0 < l.bbox.y1 := by
    intro l hl
    obtain ⟨b, hb, hl⟩ := List.mem_flatMap.1 hl
    obtain ⟨q1, q2⟩ := (hDst b hb (hDt b hb)).1.boxes.2 l hl
    exact ⟨lt_of_lt_of_le (hDT b hb) q2.2.1, q1.1.1.2⟩
  have hall := (hlines.append_right (inside.flatMap Blk.lines)).trans hsplit.symm
  obtain ⟨cs', ty', p1, p2⟩ := fy_tables_one
    (fun i j ty cell sub => parse c fmt nid (depth + 1) ([] ++ [i, j]) cell.info.working [1, 2] ⟨sub, cell.sub, ty⟩) A D F [[true]] cells hA hDt P hcells 0
      ⟨ty1.done, ty1.styled ++ fmt [] st ⟨sortBlocks ((bs.filter fun b => !decide (Covers F b.bbox)) ++ [.table F [[true]] cells]), sub, ty1⟩ R⟩
  refine ⟨A, cs', D, ty', ?_, ?_, ?_, p2⟩
  · unfold parse
    rw [hstages]
    dsimp only
    rw [s1]
    dsimp only
    rw [hAD] at p1 ⊢
    exact p1
  · refine ft_shows A _ hAst hA (o1.imp And.left) ?_
    refine List.Perm.trans ?_ (hall.filter _)
    rw [List.filter_append, List.filter_append]
    have e1 : ((A.flatMap Blk.lines).filter fun l => decide (l.bbox.y1 < F.y0)) = A.flatMap Blk.lines := List.filter_eq_self.2 fun l hl => by simpa using (hAL l hl).1
    have e2 : ((D.flatMap Blk.lines).filter fun l => decide (l.bbox.y1 < F.y0)) = [] := List.filter_eq_nil_iff.2 fun l hl => by
      have := hDL l hl
      simp only [decide_eq_true_eq, not_lt]
      linarith [this.1, this.2]
    have e3 : ((inside.flatMap Blk.lines).filter fun l => decide (l.bbox.y1 < F.y0)) = [] := List.filter_eq_nil_iff.2 fun l hl => by
      have := hinL l hl
      simp only [decide_eq_true_eq, not_lt]
      linarith [this.1, this.2.2]
    rw [e1, e2, e3]
    simp
  · refine ft_shows D _ hDst hDt (o3.imp And.left) ?_
    refine List.Perm.trans ?_ (hall.filter _)
    rw [List.filter_append, List.filter_append]
    have e1 : ((D.flatMap Blk.lines).filter fun l => decide (F.y1 < l.bbox.y0)) = D.flatMap Blk.lines := List.filter_eq_self.2 fun l hl => by simpa using (hDL l hl).1
    have e2 : ((A.flatMap Blk.lines).filter fun l => decide (F.y1 < l.bbox.y0)) = [] := List.filter_eq_nil_iff.2 fun l hl => by
      have := hAL l hl
      simp only [decide_eq_true_eq, not_lt]
      linarith [this.1, this.2]
    have e3 : ((inside.flatMap Blk.lines).filter fun l => decide (F.y1 < l.bbox.y0)) = [] := List.filter_eq_nil_iff.2 fun l hl => by
      have := hinL l hl
      simp only [decide_eq_true_eq, not_lt]
      linarith [this.2.1, this.2.2]
    rw [e1, e2, e3]
    simp

/-! ## Text on a coloured area -/

theorem sd_holds (F : Rect) (hF : Proper F) (e : El) (he : Proper e.bbox) (h : Covers F e.bbox) (t : ℚ) (ht : t ≤ 1) : El.contains ⟨F, .leftRight⟩ e t = true := by
  unfold El.contains
  dsimp only
  have hpos := area_pos e.bbox he
  have e1 : F.inter e.bbox = e.bbox := by rw [fy_inter_comm]; exact inter_covered e.bbox F he hF h
  rw [if_neg (ne_of_gt hpos), e1, div_self (ne_of_gt hpos), show roundHE (100 * (1 : ℚ)) = 100 by decide +kernel, if_neg (by norm_num; linarith)]
  obtain ⟨c0, c1, c2, c3⟩ := h
  unfold Rect.width Rect.height
  split_ifs
  · rw [decide_eq_true_eq]; linarith
  · rw [decide_eq_true_eq]; linarith

theorem sd_apart (F : Rect) (hF : Proper F) (e : El) (he : Proper e.bbox) (h : e.bbox.y1 < F.y0 ∨ F.y1 < e.bbox.y0) : ¬ El.contains ⟨F, .leftRight⟩ e (9 / 10) = true := by
  have hap : Apart F e.bbox := by
    refine (ly_apart_intersects hF he).2 (rp_beside hF he ?_)
    rcases h with h | h
    · exact Or.inr (Or.inr (Or.inr (le_of_lt h)))
    · exact Or.inr (Or.inr (Or.inl (le_of_lt h)))
  have h3 := ly_area_add he hF he hap
  rw [inter_covered e.bbox e.bbox he he ⟨le_refl _, le_refl _, le_refl _, le_refl _⟩, fy_inter_comm] at h3
  have hpos := area_pos e.bbox he
  unfold El.contains
  dsimp only
  rw [if_neg (ne_of_gt hpos)]
  have h4 : (F.inter e.bbox).area / e.bbox.area ≤ 0 := div_nonpos_of_nonpos_of_nonneg (by linarith) (le_of_lt hpos)
  have h5 := abs_roundHE_sub (100 * ((F.inter e.bbox).area / e.bbox.area))
  rw [abs_le] at h5
  rw [if_pos]
  · simp
  · rw [div_lt_iff₀ (by norm_num)]
    linarith [h5.2]

/-- The blocks above, on and below the area. -/
theorem sd_parts (F : Rect) (hF : F.y0 < F.y1) (S : List (Full.Blk α)) (hr : ∀ b ∈ S, b.bbox.y0 < b.bbox.y1) (ha : S.Pairwise fun a b => a.bbox.y1 < b.bbox.y0)
    (hp : ∀ b ∈ S, Covers F b.bbox ∨ b.bbox.y1 < F.y0 ∨ F.y1 < b.bbox.y0) :
    S = (S.filter fun b => decide (b.bbox.y1 < F.y0)) ++ ((S.filter fun b => decide (Covers F b.bbox)) ++ S.filter fun b => decide (F.y1 < b.bbox.y0)) := by
  induction S with
  | nil => rfl
  | cons b S ih =>
    obtain ⟨h1, h2⟩ := List.pairwise_cons.1 ha
    have ih := ih (fun x hx => hr x (by simp [hx])) h2 (fun x hx => hp x (by simp [hx]))
    have hb := hr b (by simp)
    have hlate : ∀ x ∈ S, b.bbox.y1 < x.bbox.y0 ∧ x.bbox.y0 < x.bbox.y1 := fun x hx => ⟨h1 x hx, hr x (by simp [hx])⟩
    rcases hp b (by simp) with h | h | h
    · have n1 : ¬ b.bbox.y1 < F.y0 := by linarith [h.2.1]
      have n2 : ¬ F.y1 < b.bbox.y0 := by linarith [h.2.2.2]
      have e : (S.filter fun b => decide (b.bbox.y1 < F.y0)) = [] := by
        rw [List.filter_eq_nil_iff]
        intro x hx hcon
        have := hlate x hx
        have hcon : x.bbox.y1 < F.y0 := by simpa using hcon
        linarith [h.2.1]
      rw [e, List.nil_append] at ih
      rw [List.filter_cons_of_neg (by simpa using n1), e, List.nil_append, List.filter_cons_of_pos (by simpa using h), List.filter_cons_of_neg (by simpa using n2), List.cons_append, ← ih]
    · have n1 : ¬ Covers F b.bbox := fun q => by linarith [q.2.1]
      have n2 : ¬ F.y1 < b.bbox.y0 := by linarith
      rw [List.filter_cons_of_pos (by simpa using h), List.filter_cons_of_neg (by simpa using n1), List.filter_cons_of_neg (by simpa using n2), List.cons_append, ← ih]
    · have n1 : ¬ Covers F b.bbox := fun q => by linarith [q.2.2.2]
      have n2 : ¬ b.bbox.y1 < F.y0 := by linarith
      have e : (S.filter fun b => decide (b.bbox.y1 < F.y0)) = [] := by
        rw [List.filter_eq_nil_iff]
        intro x hx hcon
        have := hlate x hx
        have hcon : x.bbox.y1 < F.y0 := by simpa using hcon
        linarith
      have e' : (S.filter fun b => decide (Covers F b.bbox)) = [] := by
        rw [List.filter_eq_nil_iff]
        intro x hx hcon
        have := hlate x hx
        have hcon : Covers F x.bbox := by simpa using hcon
        linarith [hcon.2.2.2]
      rw [e, e', List.nil_append, List.nil_append] at ih
      rw [List.filter_cons_of_neg (by simpa using n2), List.filter_cons_of_neg (by simpa using n1), e, e', List.filter_cons_of_pos (by simpa using h), List.nil_append, List.nil_append, ← ih]

theorem sd_textBlocks (bs : List (Full.Blk α)) (hs : ∀ b ∈ bs, PlainText b) : textBlocks bs = bs.map fun b => ⟨b.bbox, b.lines.map fun l => l.bbox⟩ := by
  unfold textBlocks
  rw [List.filter_eq_self.2 fun b hb => (hs b hb).text]

/-- The area behind a block is a background. -/
theorem sd_background (F : Rect) (hF : Proper F) (k : ℕ) (bs : List (Full.Blk α)) (hs : ∀ b ∈ bs, PlainText b) (ha : bs.Pairwise fun a b => a.bbox.y1 < b.bbox.y0) (h : ∃ b ∈ bs, Covers F b.bbox) :
    Shapes.determined (Sh.fill F k).shp (textBlocks bs) = true := by
  rw [sd_textBlocks bs hs]
  induction bs with
  | nil => obtain ⟨b, hb, _⟩ := h; cases hb
  | cons b bs ih =>
    obtain ⟨h1, h2⟩ := List.pairwise_cons.1 ha
    have ih := ih (fun x hx => hs x (by simp [hx])) h2
    obtain ⟨x, hx, hc⟩ := h
    have hxb := (hs x hx).boxes
    rw [List.map_cons]
    unfold Shapes.determined
    rcases List.mem_cons.1 hx with rfl | hx'
    · rw [if_neg]
      · rw [if_pos]
        unfold Shapes.check
        dsimp only [Sh.shp]
        rw [Bool.or_eq_true]
        exact Or.inl (sd_holds F hF ⟨x.bbox, .leftRight⟩ hxb.1.1 hc (3 / 4) (by norm_num))
      · dsimp only [Sh.shp]
        have q1 := hc.2.1
        have q2 := hxb.1.1.2
        exact not_lt.2 (by linarith)
    · have ih := ih ⟨x, hx', hc⟩
      split_ifs with k1 k2 k3
      · exact ih
      · rfl
      · exfalso
        dsimp only [Sh.shp] at k3
        have q1 := h1 x hx'
        have q2 := hc.2.2.2
        have q3 := hxb.1.1.2
        have q5 := (hs b (by simp)).boxes.1.1.2
        linarith
      · exact ih

/-- An area that covers little is no background. -/
theorem sd_no_background (r : Rect) (k : ℕ) (bs : List (Full.Blk α)) (hs : ∀ b ∈ bs, PlainText b) (h : ∀ b ∈ bs, CoversLittle r b.bbox ∧ ∀ l ∈ b.lines, CoversLittle r l.bbox) :
    Shapes.determined (Sh.fill r k).shp (textBlocks bs) = false := by
  rw [Bool.eq_false_iff]
  intro hdet
  obtain ⟨tb, htb, hck⟩ := fy_determined _ _ hdet
  rw [sd_textBlocks bs hs] at htb
  obtain ⟨b, hb, rfl⟩ := List.mem_map.1 htb
  obtain ⟨h1, h2⟩ := h b hb
  unfold Shapes.check at hck
  dsimp only [Sh.shp] at hck
  rw [fw_little _ _ (hs b hb).boxes.1.1 h1, Bool.false_or, List.any_eq_true] at hck
  obtain ⟨x, hx, hxc⟩ := hck
  obtain ⟨l, hl, rfl⟩ := List.mem_map.1 hx
  rw [fw_little _ _ ((hs b hb).boxes.2 l hl).1.1.1 (h2 l hl)] at hxc
  cases hxc

theorem sd_count {β γ : Type} [DecidableEq β] (f : β → Option γ) (a : β) (x : γ) (l : List β) (h : ∀ s ∈ l, f s = if s = a then some x else none) : l.filterMap f = List.replicate (l.count a) x := by
  induction l with
  | nil => rfl
  | cons s l ih =>
    have ih := ih fun s hs => h s (by simp [hs])
    have hs := h s (by simp)
    by_cases e : s = a
    · rw [if_pos e] at hs
      rw [List.filterMap_cons_some hs, ih, e, List.count_cons_self, List.replicate_succ]
    · rw [if_neg e] at hs
      rw [List.filterMap_cons_none hs, ih, List.count_cons_of_ne (Ne.symm (Ne.symm e))]

/-- Blocks within a cell stay as they are. -/
theorem sd_layout (F : Rect) (hF : Proper F) (n : ℕ → ℕ) (L : List (Full.Blk α)) (hr : ∀ b ∈ L, RealBox b.bbox ∧ Covers F b.bbox) : cellLayout n F L = L := by
  unfold cellLayout
  have : ∀ i, (L.zipIdx i).flatMap (fun b => assignCell (n b.2) F b.1) = L := by
    induction L with
    | nil => intro i; rfl
    | cons b L ih =>
      intro i
      obtain ⟨h1, h2⟩ := hr b (by simp)
      rw [List.zipIdx_cons, List.flatMap_cons, ih fun x hx => hr x (by simp [hx])]
      unfold assignCell
      dsimp only
      rw [if_pos (sd_holds F hF ⟨b.bbox, .leftRight⟩ h1.1 h2 (19 / 20) (by norm_num))]
      unfold Full.real
      rw [List.filter_cons_of_pos (by exact ly_real_truthy h1)]
      rfl
  exact this 0

/-- **C97** (partial: one area, no drawn lines except within lines of text, text in one column). Text on a coloured area is shown in a table of one cell, at its place between the text above and
below: the cell is as large as the area, has its colour as background, no visible borders, and shows exactly the lines on the area, from top to bottom. -/
theorem C97_shaded_partial (c : Full.Cfg) (hi : ∀ l, (c.base.lay.iter l).Perm l) (hord : ∀ l, (c.base.order l).Perm l) (htol : 0 < c.base.lay.tol) (hd : 0 ≤ c.conn) (hc : 0 ≤ c.base.clear)
    (hw : 1 / 20 ≤ c.base.maxW) (fmt : Format α) (nid : Lay.Ids) (depth : ℕ) (page F : Rect) (color : ℕ) (shapes : List Sh) (bs : List (Full.Blk α)) (ht : TextColumn bs)
    (hs : OnArea F color bs shapes) (hcx : F.x0 + c.base.clear < F.x1) (hcy : F.y0 + c.base.clear < F.y1) (hpF : Covers page F)
    (hp : ∀ r ∈ pageBoxes bs shapes, page.x0 ≤ r.x0 ∧ r.x1 ≤ page.x1) (hn : NotTwoColumns ((page.x0 + page.x1) / 2) (pageBoxes bs shapes)) :
    ∃ above cell content below ty, Full.parsePage c fmt nid (depth + 2) page shapes bs = .ok (above ++ .table F [[true]] [(cell, content)] :: below, ty) ∧
      ShowsDown above ((bs.flatMap Blk.lines).filter fun l => l.bbox.y1 < F.y0) ∧
      ShowsDown below ((bs.flatMap Blk.lines).filter fun l => F.y1 < l.bbox.y0) ∧
      cell.info = ⟨F, 0, 0, 0, 0, some color⟩ ∧
      ShowsDown content ((bs.flatMap Blk.lines).filter fun l => Covers F l.bbox) := by
  have hFin : Sh.fill F color ∈ shapes := List.count_pos_iff.1 (by rw [hs.area]; omega)
  have hF : RealBox F := hs.real _ hFin
  have hst0 : Stack bs := ⟨fun b hb _ => ht.text b hb, fun b hb => (ht.text b hb).boxes.1, ht.clear, ht.sources⟩
  set S := sortBlocks bs with hS
  have hSp : S.Perm bs := ft_sort_perm bs
  have hSb : ∀ b ∈ S, b ∈ bs := fun b hb => hSp.subset hb
  have hSt : ∀ b ∈ S, PlainText b := fun b hb => ht.text b (hSb b hb)
  have hst : Stack S := ft_stack_perm hSp.symm hst0
  have habove := ft_sort_above bs hst0
  rw [← hS] at habove
  have hpb : ∀ r, r ∈ pageBoxes S shapes ↔ r ∈ pageBoxes bs shapes := fun r => (((hSp.flatMap_right _).map _).append_right _).mem_iff
  have hplace : ∀ b ∈ S, Covers F b.bbox ∨ b.bbox.y1 < F.y0 ∨ F.y1 < b.bbox.y0 := fun b hb => hs.place b (hSb b hb)
  -- no two columns
  have st0 : pageStage page (mkSub S shapes) S = .ok [] := by
    unfold pageStage
    obtain ⟨e, he, k, hk, h1, h2, h3⟩ := hn
    show (match Columns.pageTable page (pageBoxes S shapes) with | .error e => _ | .ok t => _) = _
    rw [C80_otherwise page _ ?_ e k ((hpb _).2 he) h1 ((hpb _).2 hk) h2 h3]
    · rfl
    · intro q hq
      have hq' := hp q ((hpb _).1 hq)
      rcases List.mem_append.1 hq with hq | hq
      · obtain ⟨l, hl, rfl⟩ := List.mem_map.1 hq
        obtain ⟨b, hbm, hl⟩ := List.mem_flatMap.1 hl
        have hreal := ((hSt b hbm).boxes.2 l hl).1.1
        exact ⟨hreal.1, hreal.2, hq'⟩
      · obtain ⟨s, hsm, rfl⟩ := List.mem_map.1 hq
        exact ⟨(hs.real s hsm).1, (hs.real s hsm).2, hq'⟩
  -- the shapes
  have hstrokes : (mkSub S shapes).strokes = [] := by
    show shapes.filterMap (borderOf (textBlocks S)) = []
    rw [fy_strokes, List.filter_eq_nil_iff]
    intro s hsm
    have hsm := (fy_only_mem _ _).1 hsm
    obtain ⟨b, hb, h⟩ := hs.strokes s hsm
    rw [fw_underline S hSt habove s (hs.real _ hsm) ⟨b, hSp.symm.subset hb, h⟩]
    simp
  have hsome : ∃ b ∈ S, Covers F b.bbox := by
    obtain ⟨b, hb, h⟩ := hs.some_
    exact ⟨b, hSp.symm.subset hb, h⟩
  have hfills : (mkSub S shapes).fills = [(F, color)] := by
    show shapes.filterMap (shadingOf (textBlocks S)) = _
    rw [sd_count _ (Sh.fill F color) (F, color) shapes, hs.area]
    · rfl
    · intro s hsm
      cases s with
      | stroke s => rw [if_neg (by simp)]; rfl
      | link b => rw [if_neg (by simp)]; rfl
      | fill r k =>
        unfold shadingOf
        dsimp only
        by_cases e : (r, k) = (F, color)
        · obtain ⟨rfl, rfl⟩ := Prod.mk.inj e
          rw [sd_background r hF.1 k S hSt habove hsome]
          simp
        · rw [sd_no_background r k S hSt (fun b hb => ((hs.fills r k hsm).resolve_left e) b (hSb b hb))]
          rw [if_neg (by simp), if_neg]
          rintro h
          obtain ⟨rfl, rfl⟩ := Sh.fill.inj h
          exact e rfl
  -- the table found
  have hparts := sd_parts F hF.1.2 S (fun b hb => (hst.real b hb).1.2) habove hplace
  set pre := S.filter fun b => decide (b.bbox.y1 < F.y0) with hpre
  set mid := S.filter fun b => decide (Covers F b.bbox) with hmid
  set post := S.filter fun b => decide (F.y1 < b.bbox.y0) with hpost
  have hmidP : ∀ b ∈ mid, b ∈ S ∧ Covers F b.bbox := fun b hb => ⟨(List.mem_filter.1 hb).1, by simpa using (List.mem_filter.1 hb).2⟩
  have hmne : mid ≠ [] := by
    obtain ⟨b, hb, h⟩ := hsome
    exact List.ne_nil_of_mem (List.mem_filter.2 ⟨hb, by simpa using h⟩)
  have hel : ∀ x : Full.Blk α, (sblock c.base.lay x).el = x.el := fun x => by cases x <;> rfl
  have hlines : ∀ b ∈ S, (sblock c.base.lay b).lines = b.lines.map Lns.Ln.el := by
    intro b hb
    have := (hSt b hb).text
    cases b with
    | table r _ cs => cases this
    | text r ls => rfl
  have hcol : SColumn (S.map (sblock c.base.lay)) := by
    constructor
    · intro b hb
      obtain ⟨q, hq, rfl⟩ := List.mem_map.1 hb
      have hpt := hSt q hq
      cases q with
      | table r _ cs => rfl
      | text r ls => exact ft_flow c.base.lay hi htol ls (fun l hl => (hpt.boxes.2 l hl).1.1.1) hpt.horizontal hpt.column.apart
    · refine List.Pairwise.isChain ?_
      rw [List.pairwise_map]
      refine hst.clear.imp_of_mem ?_
      intro a b ha hb hab
      rw [hel, hel]
      refine dt_not_row _ _ (ft_dir a (hst.text a ha)) ?_ ?_ ?_
      · rw [ft_el_bbox]; exact (hst.real a ha).1
      · rw [ft_el_bbox]; exact (hst.real b hb).1
      · rw [ft_el_bbox, ft_el_bbox]; exact hab
  set ls : List El := mid.flatMap fun b => b.lines.map Lns.Ln.el with hls
  have hcollect : Stream.collect [⟨F, false⟩] (S.map (sblock c.base.lay)) = [ls] := by
    have e : S.map (sblock c.base.lay) = pre.map (sblock c.base.lay) ++ (mid.map (sblock c.base.lay) ++ post.map (sblock c.base.lay)) := by
      conv_lhs => rw [hparts]
      rw [List.map_append, List.map_append]
    rw [e] at hcol ⊢
    rw [sd_collect F _ _ _ hcol]
    · rw [hls, List.flatMap_map]
      congr 1
      exact List.flatMap_congr fun b hb => hlines b (hmidP b hb).1
    · intro b hb
      obtain ⟨q, hq, rfl⟩ := List.mem_map.1 hb
      obtain ⟨hqS, hq⟩ := List.mem_filter.1 hq
      have hq : q.bbox.y1 < F.y0 := by simpa using hq
      have hr := (hst.real q hqS).1
      rw [hel, ft_el_bbox]
      refine ⟨?_, by linarith [hr.2, hF.1.2]⟩
      unfold Holds
      rw [hel]
      exact sd_apart F hF.1 q.el (by rw [ft_el_bbox]; exact hr) (Or.inl (by rw [ft_el_bbox]; exact hq))
    · intro b hb
      obtain ⟨q, hq, rfl⟩ := List.mem_map.1 hb
      obtain ⟨hqS, hq⟩ := hmidP q hq
      have hr := (hst.real q hqS).1
      refine ⟨?_, ⟨?_, ?_⟩, ?_⟩
      · unfold Holds
        rw [hel]
        exact sd_holds F hF.1 q.el (by rw [ft_el_bbox]; exact hr) (by rw [ft_el_bbox]; exact hq) _ (by norm_num)
      · rw [hlines q hqS]
        simpa using (hSt q hqS).nonempty
      · rw [hlines q hqS]
        intro l hl
        obtain ⟨m, hm, rfl⟩ := List.mem_map.1 hl
        exact ly_real_truthy ((hSt q hqS).boxes.2 m hm).1.1
      · rw [hel, ft_el_bbox]
        linarith [hq.2.2.2, hr.2]
    · simpa using hmne
    · intro b hb
      obtain ⟨q, hq, rfl⟩ := List.mem_map.1 hb
      obtain ⟨hqS, hq⟩ := List.mem_filter.1 hq
      have hq : F.y1 < q.bbox.y0 := by simpa using hq
      have hr := (hst.real q hqS).1
      unfold Holds
      rw [hel]
      exact sd_apart F hF.1 q.el (by rw [ft_el_bbox]; exact hr) (Or.inr (by rw [ft_el_bbox]; exact hq))
  have hlsm : ∀ e ∈ ls, ∃ b ∈ mid, ∃ l ∈ b.lines, e = Lns.Ln.el l := by
    intro e he
    obtain ⟨b, hb, he⟩ := List.mem_flatMap.1 he
    obtain ⟨l, hl, rfl⟩ := List.mem_map.1 he
    exact ⟨b, hb, l, hl, rfl⟩
  have harea : AreaLines F ls := by
    refine ⟨?_, ?_, ?_, ?_⟩
    · intro e he
      obtain ⟨b, hb, l, hl, rfl⟩ := hlsm e he
      have hpt := hSt b (hmidP b hb).1
      exact ⟨(hpt.boxes.2 l hl).1.1.1, (hpt.boxes.2 l hl).1.1.2, hpt.horizontal l hl⟩
    · intro e he
      obtain ⟨b, hb, l, hl, rfl⟩ := hlsm e he
      exact covers_trans (hmidP b hb).2 ((hSt b (hmidP b hb).1).boxes.2 l hl).2
    · intro e he
      obtain ⟨b, hb, l, hl, rfl⟩ := hlsm e he
      exact hs.size b (hSb b (hmidP b hb).1) (hmidP b hb).2 l hl
    · intro e he f hf
      obtain ⟨b, hb, l, hl, rfl⟩ := hlsm e he
      obtain ⟨b', hb', l', hl', rfl⟩ := hlsm f hf
      exact hs.column b (hSb b (hmidP b hb).1) (hmidP b hb).2 b' (hSb b' (hmidP b' hb').1) (hmidP b' hb').2 l hl l' hl'
  have hlne : ls ≠ [] := by
    obtain ⟨b, hb⟩ := List.exists_mem_of_ne_nil _ hmne
    obtain ⟨l, hl⟩ := List.exists_mem_of_ne_nil _ (hSt b (hmidP b hb).1).nonempty
    exact List.ne_nil_of_mem (List.mem_flatMap.2 ⟨b, hb, List.mem_map_of_mem hl⟩)
  obtain ⟨ty1, e1, hdone⟩ := sd_stream c hi hord hc hw ⟨[], []⟩ page F color hs.visible hF hpF hcx hcy rfl (mkSub S shapes) hstrokes hfills (S.map Blk.bbox) ls harea hlne (by
    intro r hr
    obtain ⟨b, hb, rfl⟩ := List.mem_map.1 hr
    refine ⟨le_of_lt (hst.real b hb).1.2, ?_⟩
    rcases hplace b hb with h | h
    · right; right
      obtain ⟨l, hl⟩ := List.exists_mem_of_ne_nil _ (hSt b hb).nonempty
      have hbm : b ∈ mid := List.mem_filter.2 ⟨hb, by simpa using h⟩
      have q1 := tableBox_covers ls (Lns.Ln.el l) (List.mem_flatMap.2 ⟨b, hbm, List.mem_map_of_mem hl⟩)
      obtain ⟨q2, q3⟩ := (hSt b hb).boxes.2 l hl
      have q4 : (Lns.Ln.el l).bbox = l.bbox := rfl
      rw [q4] at q1
      have q5 := q2.1.1.2
      exact ⟨by linarith [q1.2.1, q3.2.2.2], by linarith [q1.2.2.2, q3.2.1]⟩
    · rcases h with h | h
      · exact Or.inl h
      · exact Or.inr (Or.inl h))
  have hstream : streamStage c ⟨[], []⟩ page (mkSub S shapes) S = .ok ([⟨F, [[true]], [⟨F, 0, 0, 0, 0, some color⟩]⟩], ty1) := by
    unfold streamStage
    rw [hfills]
    have ef : ([(F, color)].filter fun f => decide (f.2 ≠ white)).map (fun f => (⟨f.1, (⟨[], []⟩ : Types).determined (.fill f.1 f.2)⟩ : Stream.SShape)) = [⟨F, false⟩] := by
      rw [List.filter_cons_of_pos (by simpa using hs.visible.2)]
      rfl
    rw [ef, hcollect]
    unfold streamLoop
    rw [e1]
    rfl
  set f : Found := ⟨F, [[true]], [⟨F, 0, 0, 0, 0, some color⟩]⟩ with hfd
  have hassign := fy_assign (nid [] 2) ty1 f hF (mkSub S shapes) S (fun b hb => (hSt b hb).toLineText) (by
    intro b hb
    rcases hplace b hb with h | h | h
    · exact Or.inl h
    · exact Or.inr (rp_beside hF.1 (hst.real b hb).1 (Or.inr (Or.inr (Or.inr (le_of_lt h)))))
    · exact Or.inr (rp_beside hF.1 (hst.real b hb).1 (Or.inr (Or.inr (Or.inl (le_of_lt h))))))
  have hfb : f.box = F := rfl
  rw [hfb] at hassign
  set given := (mkSub S shapes).shapes.filter fun s => decide (tableOf ty1 [F] s = some 0) with hgiven
  have hstages : stages c nid [] page [0, 1, 2] ⟨S, mkSub S shapes, ⟨[], []⟩⟩ =
      .ok ⟨sortBlocks ((S.filter fun b => !decide (Covers F b.bbox)) ++ [fillTable (nid [] 2 0) f given mid]), (⟨leftShapes ty1 [F] (mkSub S shapes).shapes, (mkSub S shapes).strokes, (mkSub S shapes).fills⟩ : Sub), ty1⟩ := by
    unfold stages
    have e0 : stage c 0 (⟨[], []⟩ : Types) page (mkSub S shapes) S = .ok ([], ⟨[], []⟩) := by
      show (pageStage page (mkSub S shapes) S).map (fun t => (t, (⟨[], []⟩ : Types))) = _
      rw [st0]; rfl
    dsimp only
    rw [e0]
    dsimp only
    rw [fc_nothing]
    dsimp only
    unfold stages
    have e1 : stage c 1 (⟨[], []⟩ : Types) page (mkSub S shapes) S = .ok ([], ⟨[], []⟩) := sd_no_lattice c _ _ hstrokes
    dsimp only
    rw [e1]
    dsimp only
    rw [fc_nothing]
    dsimp only
    unfold stages
    have e2 : stage c 2 (⟨[], []⟩ : Types) page (mkSub S shapes) S = .ok ([f], ty1) := hstream
    dsimp only
    rw [e2]
    dsimp only
    rw [hassign]
    rfl
  -- the cell
  set L := arrange (!given.isEmpty) mid with hL
  have hLp : L.Perm mid := by
    rw [hL]; unfold arrange
    split_ifs
    · exact ft_sort_perm _
    · exact List.Perm.refl _
  have hmst : Stack mid := ⟨fun b hb => hst.text b (hmidP b hb).1, fun b hb => hst.real b (hmidP b hb).1, hst.clear.sublist List.filter_sublist, hst.sources.sublist List.filter_sublist⟩
  have hLst : Stack L := ft_stack_perm hLp.symm hmst
  have hLP : ∀ b ∈ L, b ∈ S ∧ Covers F b.bbox := fun b hb => hmidP b (hLp.subset hb)
  have hfill : fillTable (nid [] 2 0) f given mid = .table F [[true]] [((⟨⟨F, 0, 0, 0, 0, some color⟩, cellSub given F L⟩ : Cell), L)] := by
    unfold fillTable
    show Blk.table F [[true]] [_] = _
    dsimp only
    rw [sd_layout F hF.1 _ mid (fun b hb => ⟨hmst.real b hb, (hmidP b hb).2⟩)]
  have hgivP : ∀ s ∈ given, s ∈ shapes ∧ s ≠ .fill F color ∧ Covers F s.bbox := by
    intro s hsm
    obtain ⟨h1, h2⟩ := List.mem_filter.1 hsm
    have h1 : s ∈ shapes := h1
    have h2 : tableOf ty1 [F] s = some 0 := by simpa using h2
    unfold tableOf at h2
    split_ifs at h2 with hdn
    refine ⟨h1, ?_, ?_⟩
    · rintro rfl
      exact hdn hdone
    · rw [List.findIdx?_eq_some_iff_getElem] at h2
      obtain ⟨_, h, _⟩ := h2
      exact (contains_iff _ _ hF.1 (hs.real s h1).1).1 h
  have hsub : (cellSub given F L).strokes = [] ∧ (cellSub given F L).fills = [] := by
    unfold cellSub
    by_cases hg : given.isEmpty = true
    · rw [if_pos hg]; exact ⟨rfl, rfl⟩
    · rw [if_neg hg]
      have hLs : L = sortBlocks mid := by
        rw [hL]; unfold arrange; rw [if_pos (by simpa using hg)]
      have hLa : L.Pairwise fun a b => a.bbox.y1 < b.bbox.y0 := by rw [hLs]; exact ft_sort_above mid hmst
      constructor
      · show (given.filter _).filterMap (borderOf (textBlocks L)) = []
        rw [fy_strokes, List.filter_eq_nil_iff]
        intro s hsm
        have hsm := (List.mem_filter.1 ((fy_only_mem _ _).1 hsm)).1
        obtain ⟨g1, _, g3⟩ := hgivP _ hsm
        obtain ⟨b, hb, l, hl, hc⟩ := hs.strokes s g1
        have hreal := (hs.real _ g1).1
        have g3 : Covers F s.bbox := g3
        have hreal : Proper s.bbox := hreal
        have hbF : Covers F b.bbox := by
          have q := ((ht.text b hb).boxes.2 l hl).2
          rcases hs.place b hb with h | h | h
          · exact h
          · exfalso; linarith [hc.2.1, hc.2.2.2, q.2.1, q.2.2.2, g3.2.1, g3.2.2.2, hreal.2]
          · exfalso; linarith [hc.2.1, hc.2.2.2, q.2.1, q.2.2.2, g3.2.1, g3.2.2.2, hreal.2]
        have hbL : b ∈ L := hLp.symm.subset (List.mem_filter.2 ⟨hSp.symm.subset hb, by simpa using hbF⟩)
        rw [fw_underline L (fun b hb => hSt b (hLP b hb).1) hLa s (hs.real _ g1) ⟨b, hbL, l, hl, hc⟩]
        simp
      · show (given.filter _).filterMap (shadingOf (textBlocks L)) = []
        rw [List.filterMap_eq_nil_iff]
        intro s hsm
        obtain ⟨g1, g2, _⟩ := hgivP _ (List.mem_filter.1 hsm).1
        cases s with
        | stroke s => rfl
        | link b => rfl
        | fill r k =>
          unfold shadingOf
          dsimp only
          have hne : ¬ (r, k) = (F, color) := by
            intro q
            obtain ⟨rfl, rfl⟩ := Prod.mk.inj q
            exact g2 rfl
          rw [sd_no_background r k L (fun b hb => hSt b (hLP b hb).1) (fun b hb => ((hs.fills r k g1).resolve_left hne) b (hSb b (hLP b hb).1)), if_neg (by simp)]
  have hcontent : (L.flatMap Blk.lines).Perm ((bs.flatMap Blk.lines).filter fun l => decide (Covers F l.bbox)) := by
    have h1 : (bs.flatMap Blk.lines).filter (fun l => decide (Covers F l.bbox)) = (bs.filter fun b => decide (Covers F b.bbox)).flatMap Blk.lines := by
      have : ∀ l : List (Full.Blk α), (∀ b ∈ l, b ∈ bs) → (l.flatMap Blk.lines).filter (fun l => decide (Covers F l.bbox)) = (l.filter fun b => decide (Covers F b.bbox)).flatMap Blk.lines := by
        intro l
        induction l with
        | nil => intro _; rfl
        | cons b l ih =>
          intro h
          have hb := h b (by simp)
          rw [List.flatMap_cons, List.filter_append, ih fun x hx => h x (by simp [hx])]
          rcases hs.place b hb with q | q
          · rw [List.filter_cons_of_pos (by simpa using q), List.flatMap_cons]
            congr 1
            rw [List.filter_eq_self]
            intro l hl
            simpa using covers_trans q ((ht.text b hb).boxes.2 l hl).2
          · have hn : ¬ Covers F b.bbox := by
              intro w
              have := (ht.text b hb).boxes.1.1.2
              rcases q with q | q <;> linarith [w.2.1, w.2.2.2]
            rw [List.filter_cons_of_neg (by simpa using hn)]
            have : b.lines.filter (fun l => decide (Covers F l.bbox)) = [] := by
              rw [List.filter_eq_nil_iff]
              intro l hl hcon
              have hcon : Covers F l.bbox := by simpa using hcon
              obtain ⟨w1, w2⟩ := (ht.text b hb).boxes.2 l hl
              have w3 := w1.1.1.2
              rcases q with q | q <;> linarith [w2.2.1, w2.2.2.2, hcon.2.1, hcon.2.2.2]
            rw [this, List.nil_append]
      exact this bs fun _ h => h
    rw [h1]
    exact (hLp.trans (hSp.filter _)).flatMap_right _
  rw [hfill] at hstages
  obtain ⟨A, cs', D, ty, p1, p2, p3, cell, content, rfl, p4, p5⟩ := sd_page c hi htol fmt nid depth page F hF [0, 1, 2] ⟨S, mkSub S shapes, ⟨[], []⟩⟩ S hSt hst.sources hst.clear hplace _ _ _ hstages
    (fun cs' => ∃ cell content, cs' = [(cell, content)] ∧ cell.info = ⟨F, 0, 0, 0, 0, some color⟩ ∧ ShowsDown content ((bs.flatMap Blk.lines).filter fun l => Covers F l.bbox)) (by
      intro i ty
      obtain ⟨R', ty', w1, w2⟩ := fc_column c hi htol hd hc hw fmt nid depth ([] ++ [i, 0]) (⟨F, 0, 0, 0, 0, some color⟩ : CellInfo).working L (cellSub given F L) ty hLst
        (fun b hb => (hSt b (hLP b hb).1).text) (by rw [hsub.2]; intro f hf; cases hf) (by rw [hsub.1]; intro f hf; cases hf) (by rw [hsub.1]; exact List.Pairwise.nil)
      refine ⟨[(⟨⟨F, 0, 0, 0, 0, some color⟩, cellSub given F L⟩, R')], ty', ?_, _, _, rfl, rfl, w2.1, w2.2.1.trans hcontent, w2.2.2⟩
      unfold parseCells
      rw [w1]
      dsimp only
      unfold parseCells
      rfl)
  have hperm := hSp.flatMap_right Blk.lines
  refine ⟨A, cell, content, D, ty, p1, ⟨p2.1, p2.2.1.trans (hperm.filter _), p2.2.2⟩, ⟨p3.1, p3.2.1.trans (hperm.filter _), p3.2.2⟩, p4, p5⟩

/-- A title, a block of two lines on the area, a block further down. -/
def sdPage : List (Full.Blk ℕ) := [fyBlock ⟨25, 20, 300, 30⟩ 1 [(⟨25, 20, 300, 30⟩, 1)], fyBlock ⟨25, 55, 300, 75⟩ 2 [(⟨25, 55, 300, 63⟩, 2), (⟨25, 66, 300, 75⟩, 3)],
  fyBlock ⟨20, 400, 300, 410⟩ 3 [(⟨20, 400, 300, 410⟩, 4)]]

/-- A highlighted word, the area, an underline, a link. -/
def sdShapes : List Sh := [.fill ⟨30, 55, 90, 63⟩ 16776960, .fill ⟨20, 50, 380, 80⟩ 1000, .stroke ⟨25, 57 / 2, 100, 57 / 2, ⟨25, 28, 100, 29⟩, 1, 0⟩, .link ⟨30, 66, 80, 75⟩]

example : csSeen sdShapes sdPage = some [[], [⟨⟨20, 50, 380, 80⟩, 0, 0, 0, 0, some 1000⟩], []] := by decide +kernel

/-- Non-vacuity: the page meets the hypotheses. -/
example (nid : Lay.Ids) : ∃ above cell content below ty, Full.parsePage fpCfg fpFmt nid 2 ⟨0, 0, 400, 600⟩ sdShapes sdPage = .ok (above ++ .table ⟨20, 50, 380, 80⟩ [[true]] [(cell, content)] :: below, ty) ∧
    ShowsDown above ((sdPage.flatMap Blk.lines).filter fun l => l.bbox.y1 < 50) ∧
    ShowsDown below ((sdPage.flatMap Blk.lines).filter fun l => 80 < l.bbox.y0) ∧
    cell.info = ⟨⟨20, 50, 380, 80⟩, 0, 0, 0, 0, some 1000⟩ ∧
    ShowsDown content ((sdPage.flatMap Blk.lines).filter fun l => Covers ⟨20, 50, 380, 80⟩ l.bbox) := by
  refine C97_shaded_partial fpCfg (fun l => List.Perm.refl l) (fun l => List.Perm.refl l) (by decide +kernel) (by decide +kernel) (by decide +kernel) (by decide +kernel) _ _ 0 _ ⟨20, 50, 380, 80⟩ 1000 _ _
    ⟨?_, ?_, ?_⟩ ⟨?_, ?_, ?_, ?_, ?_, ?_, ?_, ?_, ?_⟩ (by decide +kernel) (by decide +kernel) ?_ ?_ ?_
  · intro b hb
    simp only [sdPage, List.mem_cons, List.not_mem_nil, or_false] at hb
    rcases hb with rfl | rfl | rfl <;> exact fy_plain _ _ _ (by decide +kernel) (by decide +kernel) (by decide +kernel) (by decide +kernel) (by decide +kernel) (by decide +kernel) (by decide +kernel) (by decide +kernel)
  · unfold OtherSource; decide +kernel
  · decide +kernel
  · have : ∀ s ∈ sdShapes, s.bbox.x0 < s.bbox.x1 ∧ s.bbox.y0 < s.bbox.y1 ∧ Rect.round s.bbox = s.bbox := by decide +kernel
    intro s hs
    exact ly_ex_real (this s hs)
  · decide +kernel
  · decide +kernel
  · intro r k h
    simp only [sdShapes, List.mem_cons, Sh.fill.injEq, reduceCtorEq, List.not_mem_nil, or_false] at h
    rcases h with ⟨rfl, rfl⟩ | ⟨rfl, rfl⟩
    · right; unfold CoversLittle; decide +kernel
    · exact Or.inl rfl
  · intro s h
    simp only [sdShapes, List.mem_cons, Sh.stroke.injEq, reduceCtorEq, List.not_mem_nil, or_false, false_or] at h
    subst h
    unfold InLine Covers; decide +kernel
  · unfold Covers; decide +kernel
  · unfold Covers; decide +kernel
  · unfold Covers; decide +kernel
  · unfold Covers; decide +kernel
  · unfold Covers; decide +kernel
  · decide +kernel
  · unfold NotTwoColumns; decide +kernel

/-- **C97, refuted for a page with a white background.** The white area of the page holds the coloured area, and the first of the two in drawing order gives the cell its colour: the cell becomes white.
Drawn in the other order (the white one on top), the cell has the colour. -/
theorem C97_refuted_white_page :
    csSeen [.fill ⟨0, 0, 400, 600⟩ white, .fill ⟨20, 50, 380, 80⟩ 1000] sdPage = some [[], [⟨⟨20, 50, 380, 80⟩, 0, 0, 0, 0, some white⟩], []] ∧
    csSeen [.fill ⟨20, 50, 380, 80⟩ 1000, .fill ⟨0, 0, 400, 600⟩ white] sdPage = some [[], [⟨⟨20, 50, 380, 80⟩, 0, 0, 0, 0, some 1000⟩], []] := by
  constructor <;> decide +kernel

/-- **C97, refuted for black.** White text on a black area: there is no table and the area is lost. -/
theorem C97_refuted_black : csSeen [.fill ⟨20, 50, 380, 80⟩ 0, .link ⟨30, 66, 80, 75⟩] sdPage = some [[], [], []] := by decide +kernel

end FShade
end Props
