import Verif.Props.WholeClean
import Verif.Props.Whole
/-! # Text on a page with a grid, before and after clean-up (towards C108) -/

namespace Props
open Geom Py Pipe Spec Assign

section WOn
variable {X Y : ℕ → ℚ} {r k : ℕ} {W gap mg : ℚ}

theorem wt_same_cell (hg : Grid X Y r k W gap) (h0 : 0 ≤ gap) {i j i' j' : ℕ} (hi : i < r) (hj : j < k) (hi' : i' < r) (hj' : j' < k) {x : Rect} (hx : Proper x)
    (h : Covers (gridCell X Y i j) x) (h' : Covers (gridCell X Y i' j') x) : i = i' ∧ j = j' := by
  obtain ⟨a1, a2, a3, a4⟩ := h
  obtain ⟨b1, b2, b3, b4⟩ := h'
  simp only [gridCell] at a1 a2 a3 a4 b1 b2 b3 b4
  have h1 := hx.1
  have h2 := hx.2
  refine ⟨?_, ?_⟩
  · rcases lt_trichotomy i i' with h | h | h
    · have := rl_mono Y r gap h0 hg.gapY (i + 1) i' h (by omega); linarith
    · exact h
    · have := rl_mono Y r gap h0 hg.gapY (i' + 1) i h (by omega); linarith
  · rcases lt_trichotomy j j' with h | h | h
    · have := rl_mono X k gap h0 hg.gapX (j + 1) j' h (by omega); linarith
    · exact h
    · have := rl_mono X k gap h0 hg.gapX (j' + 1) j h (by omega); linarith

theorem wt_cell_in (hg : Grid X Y r k W gap) (h0 : 0 ≤ gap) {i j : ℕ} (hi : i < r) (hj : j < k) : Covers (gridBox X Y r k) (gridCell X Y i j) :=
  ⟨rl_mono X k gap h0 hg.gapX 0 j (by omega) (by omega), rl_mono Y r gap h0 hg.gapY 0 i (by omega) (by omega),
    rl_mono X k gap h0 hg.gapX (j + 1) k (by omega) (by omega), rl_mono Y r gap h0 hg.gapY (i + 1) r (by omega) (by omega)⟩

/-- Being in the grid, above or below it does not change when a box becomes smaller. -/
theorem wt_inside (hg : Grid X Y r k W gap) {B b : Rect} (hb : Proper b) (hc : Covers B b)
    (hp : B.y1 < Y 0 - W / 2 ∨ Y r + W / 2 < B.y0 ∨ Covers (gridBox X Y r k) B) : Covers (gridBox X Y r k) b ↔ Covers (gridBox X Y r k) B := by
  have hW := hg.width
  have h2 := hb.2
  obtain ⟨c1, c2, c3, c4⟩ := hc
  constructor
  · rintro ⟨a1, a2, a3, a4⟩
    simp only [gridBox] at a1 a2 a3 a4
    rcases hp with h | h | h
    · exfalso; linarith
    · exfalso; linarith
    · exact h
  · exact fun h => wc_trans h ⟨c1, c2, c3, c4⟩

/-- A line in a cell after stripping was in the cell before. -/
theorem wt_cell_raw (hg : Grid X Y r k W gap) (h0 : 0 ≤ gap) {bs : List Raw} (ht : TextOn mg X Y r k W bs) (hok : ∀ b ∈ bs, RawOK b) (ws : Char → Bool) (hws : ws ' ' = true)
    {b : Raw} (hb : b ∈ bs) {l : Lay.Ln Tok} (hl : l ∈ b.lines) {i j : ℕ} (hi : i < r) (hj : j < k) :
    Covers (gridCell X Y i j) (stripLine ws l).1.bbox ↔ Covers (gridCell X Y i j) l.bbox := by
  have hlok := ((hok b hb).boxes.2 l hl).1
  have hcl := wc_strip_line ws hws l hlok
  have hlp := ((pp_stripLine ws hws l).ok hlok).1.1
  constructor
  · intro h
    have hin : Covers (gridBox X Y r k) b.bbox := by
      have := wt_inside hg hlp (wc_trans ((hok b hb).boxes.2 l hl).2 hcl) (ht.place b hb)
      exact this.1 (wc_trans (wt_cell_in hg h0 hi hj) h)
    obtain ⟨i', hi', j', hj', hc⟩ := ht.inCell b hb hin l hl
    obtain ⟨rfl, rfl⟩ := wt_same_cell hg h0 hi hj hi' hj' hlp h (wc_trans hc hcl)
    exact hc
  · exact fun h => wc_trans h hcl

theorem wt_above_in {A B a b : Rect} (ha : Covers A a) (hb : Covers B b) (h : Above A B) : Above a b := pl_above_in (pl_covers_in ha) (pl_covers_in hb) h

theorem wt_strip_map (ws : Char → Bool) (bs : List Raw) : (bs.map (stripBlock ws)).flatMap Lns.Blk.lines = (bs.flatMap Lns.Blk.lines).map fun l => (stripLine ws l).1 := by
  rw [List.flatMap_map, List.map_flatMap]
  exact List.flatMap_congr fun b _ => wc_strip_lines ws b

/-- Stripping keeps the arrangement. -/
theorem wt_strip (hg : Grid X Y r k W gap) (h0 : 0 ≤ gap) {bs : List Raw} (ht : TextOn mg X Y r k W bs) (hok : ∀ b ∈ bs, RawOK b) (ws : Char → Bool) (hws : ws ' ' = true) :
    TextOn mg X Y r k W (bs.map (stripBlock ws)) := by
  have hlok : ∀ b ∈ bs, ∀ l ∈ b.lines, LineOK l := fun b hb l hl => ((hok b hb).boxes.2 l hl).1
  have hline : ∀ b ∈ bs, ∀ l ∈ b.lines, Covers l.bbox (stripLine ws l).1.bbox := fun b hb l hl => wc_strip_line ws hws l (hlok b hb l hl)
  have hall : ∀ l ∈ bs.flatMap Lns.Blk.lines, Covers l.bbox (stripLine ws l).1.bbox := by
    intro l hl
    obtain ⟨b, hb, hl⟩ := List.mem_flatMap.1 hl
    exact hline b hb l hl
  have hpid : ∀ b ∈ bs, ∀ l ∈ b.lines, (stripLine ws l).1.pid = l.pid := fun b hb l hl => (pl_strip_line ws hws l (hlok b hb l hl)).2
  have hbox : ∀ b ∈ bs, Covers b.bbox (stripBlock ws b).bbox := fun b hb => wc_strip_block ws hws b (hok b hb)
  have hins : ∀ b ∈ bs, Covers (gridBox X Y r k) (stripBlock ws b).bbox ↔ Covers (gridBox X Y r k) b.bbox := fun b hb =>
    wt_inside hg (pp_stripBlock ws hws b (hok b hb)).1.boxes.1.1 (hbox b hb) (ht.place b hb)
  have hmem : ∀ b ∈ bs, ∀ l ∈ (stripBlock ws b).lines, ∃ l0 ∈ b.lines, l = (stripLine ws l0).1 := by
    intro b _ l hl
    rw [wc_strip_lines] at hl
    obtain ⟨l0, hl0, rfl⟩ := List.mem_map.1 hl
    exact ⟨l0, hl0, rfl⟩
  refine ⟨?_, ?_, ?_, ?_, ?_, ?_, ?_, ?_, ?_, ?_⟩
  · rintro b' hb' l hl
    obtain ⟨b, hb, rfl⟩ := List.mem_map.1 hb'
    obtain ⟨l0, hl0, rfl⟩ := hmem b hb l hl
    rw [(pp_stripLine ws hws l0).dir]; exact ht.horizontal b hb l0 hl0
  · rintro b' hb'
    obtain ⟨b, hb, rfl⟩ := List.mem_map.1 hb'
    obtain ⟨id, hid⟩ := ht.own b hb
    refine ⟨id, fun l hl => ?_⟩
    obtain ⟨l0, hl0, rfl⟩ := hmem b hb l hl
    rw [hpid b hb l0 hl0]; exact hid l0 hl0
  · rw [List.pairwise_map]
    refine ht.ids.imp_of_mem ?_
    intro a b ha hb h l hl m hm
    obtain ⟨l0, hl0, rfl⟩ := hmem a ha l hl
    obtain ⟨m0, hm0, rfl⟩ := hmem b hb m hm
    rw [hpid a ha l0 hl0, hpid b hb m0 hm0]; exact h l0 hl0 m0 hm0
  · rw [wt_strip_map, List.pairwise_map]
    exact ht.spaced.imp_of_mem fun {l m} hl hm h => wc_spaced_in (hall l hl) (hall m hm) h
  · intro b' hb'
    obtain ⟨b, hb, rfl⟩ := List.mem_map.1 hb'
    obtain ⟨c1, c2, c3, c4⟩ := hbox b hb
    rcases ht.place b hb with h | h | h
    · exact Or.inl (lt_of_le_of_lt c4 h)
    · exact Or.inr (Or.inl (lt_of_lt_of_le h c2))
    · exact Or.inr (Or.inr ((hins b hb).2 h))
  · rw [List.pairwise_map]
    refine ht.clear.imp_of_mem ?_
    intro a b ha hb h h1 h2
    rw [hins a ha] at h1
    rw [hins b hb] at h2
    obtain ⟨a1, a2, a3, a4⟩ := hbox a ha
    obtain ⟨b1, b2, b3, b4⟩ := hbox b hb
    rcases h h1 h2 with h | h
    · exact Or.inl (by linarith)
    · exact Or.inr (by linarith)
  · intro b' hb' h
    obtain ⟨b, hb, rfl⟩ := List.mem_map.1 hb'
    rw [hins b hb] at h
    rw [wc_strip_lines, List.pairwise_map]
    refine (ht.column b hb h).imp_of_mem ?_
    intro l m hl hm h
    exact h.imp (wt_above_in (hline b hb l hl) (hline b hb m hm)) (wt_above_in (hline b hb m hm) (hline b hb l hl))
  · intro b' hb' h l hl
    obtain ⟨b, hb, rfl⟩ := List.mem_map.1 hb'
    rw [hins b hb] at h
    obtain ⟨l0, hl0, rfl⟩ := hmem b hb l hl
    obtain ⟨i, hi, j, hj, hc⟩ := ht.inCell b hb h l0 hl0
    exact ⟨i, hi, j, hj, wc_trans hc (hline b hb l0 hl0)⟩
  · rw [wt_strip_map, List.pairwise_map]
    refine ht.cellColumn.imp_of_mem ?_
    intro l m hl hm h i hi j hj h1 h2
    obtain ⟨a, ha, hla⟩ := List.mem_flatMap.1 hl
    obtain ⟨b, hb, hmb⟩ := List.mem_flatMap.1 hm
    rw [wt_cell_raw hg h0 ht hok ws hws ha hla hi hj] at h1
    rw [wt_cell_raw hg h0 ht hok ws hws hb hmb hi hj] at h2
    exact (h i hi j hj h1 h2).imp (wt_above_in (hall l hl) (hall m hm)) (wt_above_in (hall m hm) (hall l hl))
  · rw [List.pairwise_map]
    refine ht.order.imp_of_mem ?_
    intro a b ha hb h i hi j hj
    refine (h i hi j hj).imp ?_ ?_
    · intro h l hl m hm h1 h2
      obtain ⟨l0, hl0, rfl⟩ := hmem a ha l hl
      obtain ⟨m0, hm0, rfl⟩ := hmem b hb m hm
      rw [wt_cell_raw hg h0 ht hok ws hws ha hl0 hi hj] at h1
      rw [wt_cell_raw hg h0 ht hok ws hws hb hm0 hi hj] at h2
      have := h l0 hl0 m0 hm0 h1 h2
      obtain ⟨_, _, _, c4⟩ := hline a ha l0 hl0
      obtain ⟨_, d2, _, _⟩ := hline b hb m0 hm0
      linarith
    · intro h l hl m hm h1 h2
      obtain ⟨l0, hl0, rfl⟩ := hmem a ha l hl
      obtain ⟨m0, hm0, rfl⟩ := hmem b hb m hm
      rw [wt_cell_raw hg h0 ht hok ws hws ha hl0 hi hj] at h1
      rw [wt_cell_raw hg h0 ht hok ws hws hb hm0 hi hj] at h2
      have := h l0 hl0 m0 hm0 h1 h2
      obtain ⟨_, c2, _, _⟩ := hline a ha l0 hl0
      obtain ⟨_, _, _, d4⟩ := hline b hb m0 hm0
      linarith

/-- The order of the blocks does not matter. -/
theorem wt_perm {bs bs' : List Raw} (hp : bs.Perm bs') (ht : TextOn mg X Y r k W bs) : TextOn mg X Y r k W bs' := by
  have hf := hp.flatMap_right Lns.Blk.lines
  refine ⟨fun b hb => ht.horizontal b (hp.symm.subset hb), fun b hb => ht.own b (hp.symm.subset hb), hp.pairwise ht.ids ?_, hf.pairwise ht.spaced wc_spaced_symm,
    fun b hb => ht.place b (hp.symm.subset hb), hp.pairwise ht.clear ?_, fun b hb => ht.column b (hp.symm.subset hb), fun b hb => ht.inCell b (hp.symm.subset hb),
    hf.pairwise ht.cellColumn ?_, hp.pairwise ht.order ?_⟩
  · exact fun h l hl m hm e => h m hm l hl e.symm
  · exact fun h h1 h2 => (h h2 h1).symm
  · exact fun h i hi j hj h1 h2 => (h i hi j hj h2 h1).symm
  · intro a b h i hi j hj
    exact (h i hi j hj).symm.imp (fun h l hl m hm h1 h2 => h m hm l hl h2 h1) (fun h l hl m hm h1 h2 => h m hm l hl h2 h1)

/-- A block outside the grid is alone in its group. -/
theorem wt_alone (hg : Grid X Y r k W gap) {bs : List Raw} (ht : TextOn mg X Y r k W bs) (hok : ∀ b ∈ bs, RawOK b) (hne : ∀ b ∈ bs, b.lines ≠ []) {g : List Raw}
    (hgs : List.Subperm g bs) 
    (hconn : ∀ a ∈ g, ∀ b ∈ g, Relation.ReflTransGen (fun x y : Raw => x ∈ g ∧ y ∈ g ∧ (x.bbox.y0 ≤ y.bbox.y1 ∧ y.bbox.y0 ≤ x.bbox.y1)) a b)
    {b : Raw} (hb : b ∈ g) (hout : ¬ Covers (gridBox X Y r k) b.bbox) : g = [b] := by
  have hW := hg.width
  have hsub : ∀ x ∈ g, x ∈ bs := fun x hx => hgs.subset hx
  have hsame : ∀ x ∈ g, x = b := by
    intro x hx
    by_contra hxb
    obtain ⟨c, hcb, hc1, hc2, h1, h2⟩ := ln_leaves (hconn b hb x hx) (Ne.symm hxb)
    have pc := (hok c (hsub c hc2)).boxes.1.1.2
    have pb := (hok b (hsub b hb)).boxes.1.1.2
    simp only at pc pb
    by_cases hin : Covers (gridBox X Y r k) c.bbox
    · obtain ⟨a1, a2, a3, a4⟩ := hin
      simp only [gridBox] at a1 a2 a3 a4
      rcases ht.place b (hsub b hb) with h | h | h
      · linarith
      · linarith
      · exact hout h
    · have := pl_forall ht.clear (fun a b h h1 h2 => (h h2 h1).symm) (hsub b hb) (hsub c hc2) (Ne.symm hcb) hout hin
      rcases this with h | h <;> linarith
  -- no block occurs twice
  have hnd : g.Nodup := by
    have : bs.Nodup := by
      refine ht.ids.imp_of_mem ?_
      rintro a c ha _ h rfl
      obtain ⟨l, hl⟩ := List.exists_mem_of_ne_nil _ (hne a ha)
      exact h l hl l hl rfl
    obtain ⟨g', hp, hs⟩ := hgs
    exact hp.nodup_iff.1 (hs.nodup this)
  match g, hb, hsame, hnd with
  | [x], _, hs, _ => rw [hs x (by simp)]
  | x :: y :: t, _, hs, hnd =>
    exfalso
    have h1 := hs x (by simp)
    have h2 := hs y (by simp)
    subst h1
    subst h2
    simp at hnd

/-- The cleaned-up blocks around and in the grid. -/
theorem wt_around (hg : Grid X Y r k W gap) (iter : List ℕ → List ℕ) (hi : ∀ l, (iter l).Perm l) (ov : ℚ) (hov : 1 / 1000000 < ov) (hmg : 0 ≤ mg)
    (bs js : List Raw) (hok : ∀ b ∈ bs, RawOK b) (hne : ∀ b ∈ bs, b.lines ≠ []) (ht : TextOn mg X Y r k W bs) (hj : Lns.joinHorizontally iter ov mg bs = .ok js)
    (hjok : ∀ j ∈ js, TextOK (j.bbox, j.lines)) (hwhole : ∀ b ∈ js, ∀ i < r, ∀ j < k, Mostly (gridCell X Y i j) b.bbox → Covers (gridCell X Y i j) b.bbox) :
    (js.flatMap Lns.Blk.lines).Perm (bs.flatMap Lns.Blk.lines) ∧ TextAround X Y r k W (js.map fun b => Full.Blk.text b.bbox b.lines) := by
  have hW := hg.width
  obtain ⟨gs, h1, h3, h2, h4, rfl, h6⟩ := wc_groups iter hi ov mg hov hmg bs js hok hne ht.horizontal ht.spaced hj
  have hgg : ∀ g ∈ gs, ∀ b ∈ g, b ∈ bs := fun g hg b hbg => h1.subset (List.mem_flatten.2 ⟨g, hg, hbg⟩)
  have hgsub : ∀ g ∈ gs, List.Subperm g bs := fun g hg => (List.Sublist.subperm (List.sublist_flatten_of_mem hg)).trans h1.subperm
  have hmem : ∀ g ∈ gs, ∀ l ∈ (Lns.joinedBlock ov mg g).lines, ∃ b ∈ g, l ∈ b.lines := by
    intro g hg l hl
    rw [(h6 g hg).1] at hl
    exact List.mem_flatMap.1 ((C67_permutation _).subset hl)
  have hmem' : ∀ g ∈ gs, ∀ b ∈ g, ∀ l ∈ b.lines, l ∈ (Lns.joinedBlock ov mg g).lines := by
    intro g hg b hb l hl
    rw [(h6 g hg).1]
    exact (C67_permutation _).symm.subset (List.mem_flatMap.2 ⟨b, hb, hl⟩)
  have hcov : ∀ b ∈ bs, ∀ l ∈ b.lines, Covers b.bbox l.bbox := fun b hb l hl => ((hok b hb).boxes.2 l hl).2
  have hprop : ∀ b ∈ bs, ∀ l ∈ b.lines, Proper l.bbox := fun b hb l hl => ((hok b hb).boxes.2 l hl).1.1.1
  have hjp : ∀ g ∈ gs, Proper (Lns.joinedBlock ov mg g).bbox := fun g hg => (hjok _ (List.mem_map_of_mem hg)).1.1
  -- the box of a joined block within any box around its blocks
  have hjbox : ∀ g ∈ gs, ∀ B : Rect, (∀ b ∈ g, Covers B b.bbox) → Covers B (Lns.joinedBlock ov mg g).bbox := by
    intro g hg B hB
    refine (h6 g hg).2.2 B ?_
    intro x hx
    obtain ⟨l, hl, rfl⟩ := List.mem_map.1 hx
    obtain ⟨b, hb, hl⟩ := List.mem_flatMap.1 hl
    exact wc_trans (hB b hb) (hcov b (hgg g hg b hb) l hl)
  -- inside or alone
  have hcase : ∀ g ∈ gs, (∀ b ∈ g, Covers (gridBox X Y r k) b.bbox) ∨ ∃ b, g = [b] ∧ ¬ Covers (gridBox X Y r k) b.bbox := by
    intro g hgm
    by_cases h : ∀ b ∈ g, Covers (gridBox X Y r k) b.bbox
    · exact Or.inl h
    · push Not at h
      obtain ⟨b, hb, hout⟩ := h
      exact Or.inr ⟨b, wt_alone hg ht hok hne (hgsub g hgm) (h4 g hgm) hb hout, hout⟩
  have hin : ∀ g ∈ gs, Covers (gridBox X Y r k) (Lns.joinedBlock ov mg g).bbox → ∀ b ∈ g, Covers (gridBox X Y r k) b.bbox := by
    intro g hgm hc
    rcases hcase g hgm with h | ⟨b, rfl, hout⟩
    · exact h
    · exfalso
      have hb : b ∈ bs := hgg _ hgm b (by simp)
      have hle := hjbox _ hgm b.bbox (by intro x hx; rw [List.mem_singleton] at hx; subst hx; exact wc_refl _)
      exact hout ((wt_inside hg (hjp _ hgm) hle (ht.place b hb)).1 hc)
  have hlin : (js' : List Raw) → js' = gs.map (Lns.joinedBlock ov mg) → (js'.flatMap Lns.Blk.lines).Perm (bs.flatMap Lns.Blk.lines) := by
    rintro js' rfl
    refine List.Perm.trans ?_ (h1.flatMap_right Lns.Blk.lines)
    clear h1 h2 h3 h4 hjok hwhole hj hgsub hcase hin hjbox hjp
    induction gs with
    | nil => simp
    | cons g gs ih =>
      rw [List.map_cons, List.flatMap_cons, List.flatten_cons, List.flatMap_append, (h6 g (by simp)).1]
      exact (C67_permutation _).append (ih (fun g hg => h6 g (by simp [hg])) (fun g hg => hgg g (by simp [hg])) (fun g hg => hmem g (by simp [hg]))
        (fun g hg => hmem' g (by simp [hg])))
  -- groups one below the other
  have hsep : gs.Pairwise fun g h => Clears (Lns.joinedBlock ov mg g).bbox (Lns.joinedBlock ov mg h).bbox := by
    have hgood : ∀ b ∈ bs, BlockGood b := fun b h => pp_block_good (hok b h)
    refine h2.imp_of_mem ?_
    intro g h hgm hhm hs
    have wg := (ln_joined_within ov mg g (fun b hb => hgood b (hgg g hgm b hb))).resolve_left (st_proper_ne (hjp g hgm))
    have wh := (ln_joined_within ov mg h (fun b hb => hgood b (hgg h hhm b hb))).resolve_left (st_proper_ne (hjp h hhm))
    obtain ⟨⟨ra, ia, ha'⟩, rb, ib, hb''⟩ := wg
    obtain ⟨⟨rc, ic, hc'⟩, rd, id', hd'⟩ := wh
    obtain ⟨a, ha, rfl⟩ := List.mem_map.1 ia
    obtain ⟨b, hb', rfl⟩ := List.mem_map.1 ib
    obtain ⟨c, hc, rfl⟩ := List.mem_map.1 ic
    obtain ⟨d, hd, rfl⟩ := List.mem_map.1 id'
    rcases hs with hs | hs
    · exact Or.inl (lt_of_le_of_lt hb'' (lt_of_lt_of_le (hs b hb' c hc) hc'))
    · exact Or.inr (lt_of_le_of_lt hd' (lt_of_lt_of_le (hs a ha d hd) ha'))
  have hLT : ∀ g ∈ gs, LineText (Full.Blk.text (Lns.joinedBlock ov mg g).bbox (Lns.joinedBlock ov mg g).lines) := by
    intro g hgm
    refine ⟨rfl, hjok _ (List.mem_map_of_mem hgm), ?_, ?_, ?_, ?_⟩
    · obtain ⟨b, hb⟩ := List.exists_mem_of_ne_nil _ (h3 g hgm)
      obtain ⟨l, hl⟩ := List.exists_mem_of_ne_nil _ (hne b (hgg g hgm b hb))
      exact List.ne_nil_of_mem (hmem' g hgm b hb l hl)
    · show IsHull ((Lns.joinedBlock ov mg g).lines.map _) (Lns.joinedBlock ov mg g).bbox
      rw [(h6 g hgm).1]
      have hp : ∀ x, x ∈ ((Lns.sort (g.flatMap Lns.Blk.lines)).map fun l => l.bbox) ↔ x ∈ (g.flatMap Lns.Blk.lines).map Lns.Ln.bbox := fun x =>
        ((C67_permutation (g.flatMap Lns.Blk.lines)).map Lns.Ln.bbox).mem_iff
      exact ⟨fun x hx => (h6 g hgm).2.1 x ((hp x).1 hx), fun B hB => (h6 g hgm).2.2 B fun x hx => hB x ((hp x).2 hx)⟩
    · intro l hl
      obtain ⟨b, hb, hl⟩ := hmem g hgm l hl
      exact ht.horizontal b (hgg g hgm b hb) l hl
    · intro l hl
      obtain ⟨b, hb, hl⟩ := hmem g hgm l hl
      obtain ⟨id, hid⟩ := ht.own b (hgg g hgm b hb)
      rw [hid l hl]; simp
  refine ⟨hlin _ rfl, ?_⟩
  rw [List.map_map]
  have hm : ∀ x ∈ gs.map ((fun b : Raw => Full.Blk.text b.bbox b.lines) ∘ Lns.joinedBlock ov mg), ∃ g ∈ gs, x = .text (Lns.joinedBlock ov mg g).bbox (Lns.joinedBlock ov mg g).lines := by
    intro x hx
    obtain ⟨g, hg, rfl⟩ := List.mem_map.1 hx
    exact ⟨g, hg, rfl⟩
  refine ⟨?_, ?_, ?_, ?_, ?_, ?_, ?_, ?_, ?_⟩
  · intro x hx
    obtain ⟨g, hgm, rfl⟩ := hm x hx
    exact hLT g hgm
  · rw [List.pairwise_map]
    have hids : gs.flatten.Pairwise fun a b => ∀ l ∈ a.lines, ∀ m ∈ b.lines, l.pid ≠ m.pid := h1.symm.pairwise ht.ids (fun h l hl m hm e => h m hm l hl e.symm)
    rw [List.pairwise_flatten] at hids
    refine hids.2.imp_of_mem ?_
    intro g h hgm hhm hgh l hl m hm
    obtain ⟨a, ha, hl⟩ := hmem g hgm l hl
    obtain ⟨b, hb, hm⟩ := hmem h hhm m hm
    exact hgh a ha b hb l hl m hm
  · intro x hx
    obtain ⟨g, hgm, rfl⟩ := hm x hx
    rcases hcase g hgm with h | ⟨b, rfl, hout⟩
    · exact Or.inr (Or.inr (hjbox g hgm _ h))
    · have hle := hjbox _ hgm b.bbox (by intro x hx; rw [List.mem_singleton] at hx; subst hx; exact wc_refl _)
      rcases ht.place b (hgg _ hgm b (by simp)) with h | h | h
      · exact Or.inl (lt_of_le_of_lt hle.2.2.2 h)
      · exact Or.inr (Or.inl (lt_of_lt_of_le h hle.2.1))
      · exact absurd h hout
  · intro x hx hout
    obtain ⟨g, hgm, rfl⟩ := hm x hx
    rcases hcase g hgm with h | ⟨b, rfl, hb⟩
    · exact absurd (hjbox g hgm _ h) hout
    · refine ⟨hLT _ hgm, ?_, ?_⟩
      · show ((Lns.joinedBlock ov mg [b]).lines).Pairwise _
        rw [(h6 _ hgm).1]
        refine (C67_permutation _).symm.pairwise ?_ (fun h => h.symm)
        simpa using ht.column b (hgg _ hgm b (by simp)) hb
      · intro l hl m hm n hn _ _ _
        obtain ⟨b1, hb1, hl1⟩ := hmem _ hgm l hl
        obtain ⟨b2, hb2, hm2⟩ := hmem _ hgm m hm
        obtain rfl := List.mem_singleton.1 hb1
        obtain rfl := List.mem_singleton.1 hb2
        obtain ⟨id, hid⟩ := ht.own b2 (hgg _ hgm b2 (by simp))
        rw [hid l hl1, hid m hm2]
  · rw [List.pairwise_map]
    exact hsep.imp fun h _ _ => h
  · intro x hx hc l hl
    obtain ⟨g, hgm, rfl⟩ := hm x hx
    obtain ⟨b, hb, hl⟩ := hmem g hgm l hl
    exact ht.inCell b (hgg g hgm b hb) (hin g hgm hc b hb) l hl
  · intro x hx hc i hi j hj
    obtain ⟨g, hgm, rfl⟩ := hm x hx
    refine ⟨?_, ?_⟩
    · have hall : (g.flatMap Lns.Blk.lines).Pairwise fun l m => ∀ i < r, ∀ j < k, Covers (gridCell X Y i j) l.bbox → Covers (gridCell X Y i j) m.bbox →
          Above l.bbox m.bbox ∨ Above m.bbox l.bbox := by
        have := (h1.flatMap_right Lns.Blk.lines).symm.pairwise ht.cellColumn (fun h i hi j hj h1 h2 => (h i hi j hj h2 h1).symm)
        refine List.Pairwise.sublist ?_ this
        obtain ⟨u, v, rfl⟩ := List.append_of_mem hgm
        simp only [List.flatten_append, List.flatten_cons, List.flatMap_append]
        exact List.Sublist.trans (List.sublist_append_left _ _) (List.sublist_append_right _ _)
      show (((Lns.joinedBlock ov mg g).lines).filter _).Pairwise _
      rw [(h6 g hgm).1]
      have := (C67_permutation (g.flatMap Lns.Blk.lines)).symm.pairwise hall (fun h i hi j hj h1 h2 => (h i hi j hj h2 h1).symm)
      refine (this.sublist List.filter_sublist).imp_of_mem ?_
      intro l m hl hm h
      exact h i hi j hj (by simpa using (List.mem_filter.1 hl).2) (by simpa using (List.mem_filter.1 hm).2)
    · intro l hl m hm n hn h12 h23 hpid
      obtain ⟨hl, cl⟩ := List.mem_filter.1 hl
      obtain ⟨hm, cm⟩ := List.mem_filter.1 hm
      obtain ⟨hn, cn⟩ := List.mem_filter.1 hn
      rw [decide_eq_true_eq] at cl cm cn
      obtain ⟨a, ha, hl⟩ := hmem g hgm l hl
      obtain ⟨b, hb, hm⟩ := hmem g hgm m hm
      obtain ⟨c, hc, hn⟩ := hmem g hgm n hn
      have ha' := hgg g hgm a ha
      have hb' := hgg g hgm b hb
      have hc' := hgg g hgm c hc
      have hac : a = c := by
        by_contra hne
        exact pl_forall ht.ids (fun a b h l hl m hm e => h m hm l hl e.symm) ha' hc' hne l hl n hn hpid
      subst hac
      by_contra hpm
      have hab : a ≠ b := by
        rintro rfl
        obtain ⟨id, hid⟩ := ht.own a ha'
        exact hpm (by rw [hid l hl, hid m hm])
      have p1 := (hprop a ha' l hl).2
      have p2 := (hprop b hb' m hm).2
      have p3 := (hprop a ha' n hn).2
      unfold Above at h12 h23
      have hsymm : ∀ ⦃a b : Raw⦄, (∀ i < r, ∀ j < k,
          (∀ l ∈ a.lines, ∀ m ∈ b.lines, Covers (gridCell X Y i j) l.bbox → Covers (gridCell X Y i j) m.bbox → l.bbox.y1 < m.bbox.y0) ∨
          (∀ l ∈ a.lines, ∀ m ∈ b.lines, Covers (gridCell X Y i j) l.bbox → Covers (gridCell X Y i j) m.bbox → m.bbox.y1 < l.bbox.y0)) → ∀ i < r, ∀ j < k,
          (∀ l ∈ b.lines, ∀ m ∈ a.lines, Covers (gridCell X Y i j) l.bbox → Covers (gridCell X Y i j) m.bbox → l.bbox.y1 < m.bbox.y0) ∨
          (∀ l ∈ b.lines, ∀ m ∈ a.lines, Covers (gridCell X Y i j) l.bbox → Covers (gridCell X Y i j) m.bbox → m.bbox.y1 < l.bbox.y0) := by
        intro a b h i hi j hj
        exact (h i hi j hj).symm.imp (fun h l hl m hm h1 h2 => h m hm l hl h2 h1) (fun h l hl m hm h1 h2 => h m hm l hl h2 h1)
      rcases pl_forall ht.order hsymm ha' hb' hab i hi j hj with h | h
      · have := h n hn m hm cn cm; linarith
      · have := h l hl m hm cl cm; linarith
  · intro x hx
    obtain ⟨g, hgm, rfl⟩ := hm x hx
    exact hwhole _ (List.mem_map_of_mem hgm)
  · rw [List.pairwise_map]
    refine hsep.imp_of_mem ?_
    intro g h hgm hhm hs i hi j hj
    have cov : ∀ g ∈ gs, ∀ l ∈ (Lns.joinedBlock ov mg g).lines, Covers (Lns.joinedBlock ov mg g).bbox l.bbox := fun g hg l hl => ((hjok _ (List.mem_map_of_mem hg)).2 l hl).2
    rcases hs with hs | hs
    · left
      intro l hl m hm _ _
      have c1 := (cov g hgm l hl).2.2.2
      have c2 := (cov h hhm m hm).2.1
      linarith
    · right
      intro l hl m hm _ _
      have c1 := (cov g hgm l hl).2.1
      have c2 := (cov h hhm m hm).2.2.2
      linarith

end WOn

section WPage
variable {π : Type} {X Y : ℕ → ℚ} {r k : ℕ} {W gap : ℚ}

theorem wt_perm_map {β γ : Type} {f : β → γ} {l : List γ} {m : List β} (h : l.Perm (m.map f)) : ∃ n : List β, n.Perm m ∧ l = n.map f := by
  have hf : List.Forall₂ (fun a b => a = f b) (m.map f) m := by
    rw [List.forall₂_map_left_iff, List.forall₂_same]
    exact fun _ _ => rfl
  obtain ⟨n, h1, h2⟩ := List.perm_comp_forall₂ h hf
  refine ⟨n, h2, ?_⟩
  clear h h2 hf
  induction h1 with
  | nil => rfl
  | cons h _ ih => rw [h, ih, List.map_cons]

/-- What shows the stripped lines in a region shows the lines in it. -/
theorem wt_shows (ws : Char → Bool) (hws : ws ' ' = true) (K jl : List (Lay.Ln Tok)) (hp : jl.Perm (K.map fun l => (stripLine ws l).1)) (hok : ∀ l ∈ K, LineOK l)
    (P : Rect → Prop) [DecidablePred P] (hP : ∀ l ∈ K, P (stripLine ws l).1.bbox ↔ P l.bbox)
    (hv : K.Pairwise fun l m => P l.bbox → P m.bbox → VSep l.bbox m.bbox) (ts : List (Spec.Tree Par))
    (h : ShowsLines ws ts (jl.filter fun l => decide (P l.bbox))) : ShowsLines ws ts (K.filter fun l => decide (P l.bbox)) := by
  obtain ⟨h1, L, h2, h3, h4⟩ := h
  have hfil : (jl.filter fun l => decide (P l.bbox)).Perm ((K.filter fun l => decide (P l.bbox)).map fun l => (stripLine ws l).1) := by
    refine (hp.filter _).trans (List.Perm.of_eq ?_)
    rw [List.filter_map]
    congr 1
    apply List.filter_congr
    intro l hl
    simp only [Function.comp_apply]
    exact decide_eq_decide.2 (hP l hl)
  obtain ⟨L0, e1, rfl⟩ := wt_perm_map (h2.trans hfil)
  refine ⟨h1, L0, e1, ?_, ?_⟩
  · rw [List.pairwise_map] at h3
    have hmem : ∀ l ∈ L0, l ∈ K := fun l hl => List.mem_of_mem_filter (e1.subset hl)
    have hv' : L0.Pairwise fun l m => VSep l.bbox m.bbox := by
      refine e1.symm.pairwise ?_ (fun h => pl_sep_symm h)
      refine (hv.sublist List.filter_sublist).imp_of_mem ?_
      intro l m hl hm h
      exact h (by simpa using (List.mem_filter.1 hl).2) (by simpa using (List.mem_filter.1 hm).2)
    refine (h3.and hv').imp_of_mem ?_
    rintro l m hl hm ⟨h, hs⟩
    have c1 := wc_strip_line ws hws l (hok l (hmem l hl))
    have c2 := wc_strip_line ws hws m (hok m (hmem m hm))
    have p1 := ((pp_stripLine ws hws l).ok (hok l (hmem l hl))).1.1.2
    have p2 := ((pp_stripLine ws hws m).ok (hok m (hmem m hm))).1.1.2
    rcases hs with hs | hs
    · exact hs
    · exfalso
      unfold Above at h hs
      linarith [c1.2.1, c2.2.2.2]
  · rw [h4, List.flatMap_map]
    exact List.flatMap_congr fun l _ => (pp_stripLine ws hws l).seen

/-- The cleaned-up page. -/
theorem wt_page (c : Whole.Cfg) (hws : c.ws ' ' = true) (hi : ∀ l, (c.full.base.lay.iter l).Perm l) (hov : 1 / 1000000 < c.ov) (hmg : 0 ≤ c.mg) (hg : Grid X Y r k W gap) (h0 : 0 ≤ gap)
    (p : Whole.Page π) (hp : GridPage c X Y r k W p) :
    ∃ js, cleanUp c.pipe p.box p.raw = .ok (js, []) ∧ (js.flatMap Lns.Blk.lines).Perm (((pageBlocks c.ws p).flatMap Lns.Blk.lines).map fun l => (stripLine c.ws l).1) ∧
      TextAround X Y r k W (js.map fun b => Full.Blk.text b.bbox b.lines) ∧ OnPage p.work X k W p.shapes (js.map fun b => Full.Blk.text b.bbox b.lines) ∧
      ∀ l ∈ js.flatMap Lns.Blk.lines, LineOK l ∧ ∀ s ∈ l.spans, Tagged s.2 := by
  obtain ⟨js, fs, bs, g1, g2, g3, _, _, _, _⟩ := pp_cleanUp c.pipe hws hi p.box p.raw hp.raw
  have hfs := hp.floats bs fs g1
  subst hfs
  set K := pageBlocks c.ws p with hK
  have hKok : ∀ b ∈ K, RawOK b := fun b hb => hp.raw b (List.mem_of_mem_filter hb)
  have hKf : (p.raw.filter (keep c.ws p.box)).filter (fun b => b.bbox.truthy) = K := by
    rw [hK, pageBlocks, List.filter_filter]
    apply List.filter_congr
    intro b hb
    have hpb := (hp.raw b hb).boxes.1
    rw [show b.bbox.truthy = true from ly_real_truthy hpb, Bool.true_and, Bool.eq_iff_iff, decide_eq_true_eq]
    exact pp_keep c.ws p.box b hpb.1
  have hbs : bs.Perm (K.map (stripBlock c.ws)) := by
    have hb := g1
    unfold beforeJoin at hb
    rw [show c.pipe.ws = c.ws from rfl, hKf] at hb
    rw [pl_no_floats _ _ _ hb]
    exact pp_sort_perm _
  have hKne : ∀ b ∈ K, b.lines ≠ [] := by
    intro b hb e
    have := (List.mem_filter.1 hb).2
    rw [decide_eq_true_eq] at this
    refine this.2.2.1 ?_
    unfold rawToks
    rw [e]; rfl
  have hbsok : ∀ b ∈ bs, RawOK b := by
    intro b hb
    obtain ⟨b0, hb0, rfl⟩ := List.mem_map.1 (hbs.subset hb)
    exact (pp_stripBlock c.ws hws b0 (hKok b0 hb0)).1
  have hbsne : ∀ b ∈ bs, b.lines ≠ [] := by
    intro b hb
    obtain ⟨b0, hb0, rfl⟩ := List.mem_map.1 (hbs.subset hb)
    rw [wc_strip_lines]
    simpa using hKne b0 hb0
  have hton : TextOn c.mg X Y r k W bs := wt_perm hbs.symm (wt_strip hg h0 hp.text hKok c.ws hws)
  have hj : Lns.joinHorizontally c.full.base.lay.iter c.ov c.mg bs = .ok js := by
    have := g2
    unfold cleanUp at this
    rw [g1] at this
    dsimp only at this
    cases hjj : Lns.joinHorizontally c.pipe.lay.iter c.pipe.ov c.pipe.mg bs with
    | error e => rw [hjj] at this; cases this
    | ok js' =>
      rw [hjj] at this
      obtain ⟨rfl, _⟩ := Prod.mk.inj (Except.ok.inj this)
      exact hjj
  obtain ⟨e1, e2⟩ := wt_around hg c.full.base.lay.iter hi c.ov hov hmg bs js hbsok hbsne hton hj (fun j hj => (g3 j hj).1) (hp.whole js [] g2)
  have hperm : (js.flatMap Lns.Blk.lines).Perm ((K.flatMap Lns.Blk.lines).map fun l => (stripLine c.ws l).1) := by
    refine e1.trans ((hbs.flatMap_right _).trans (List.Perm.of_eq ?_))
    exact wt_strip_map c.ws K
  refine ⟨js, g2, hperm, e2, ⟨hp.shapes, ?_, hp.left, hp.right⟩, ?_⟩
  · intro b hb l hl
    obtain ⟨j, hjm, rfl⟩ := List.mem_map.1 hb
    obtain ⟨l0, hl0, rfl⟩ := List.mem_map.1 (hperm.subset (List.mem_flatMap.2 ⟨j, hjm, hl⟩))
    obtain ⟨b0, hb0, hl0⟩ := List.mem_flatMap.1 hl0
    have := hp.lines b0 hb0 l0 hl0
    have hc := wc_strip_line c.ws hws l0 ((hKok b0 hb0).boxes.2 l0 hl0).1
    exact ⟨this.1.trans hc.1, hc.2.2.1.trans this.2⟩
  · intro l hl
    obtain ⟨j, hjm, hl⟩ := List.mem_flatMap.1 hl
    exact ⟨((g3 j hjm).1.2 l hl).1, (g3 j hjm).2 l hl⟩

/-- The areas behind cells, seen from the cleaned-up lines. -/
theorem wt_drawn (c : Whole.Cfg) (hws : c.ws ' ' = true) (hg : Grid X Y r k W gap) (h0 : 0 ≤ gap) (p : Whole.Page π) (hp : GridPage c X Y r k W p) (js : List Raw)
    (hj : (js.flatMap Lns.Blk.lines).Perm (((pageBlocks c.ws p).flatMap Lns.Blk.lines).map fun l => (stripLine c.ws l).1)) (others : List Table.St)
    (hd : DrawnAround c.full.conn X Y r k W (((pageBlocks c.ws p).flatMap Lns.Blk.lines).map fun l => l.bbox) others p.shapes) :
    DrawnAround c.full.conn X Y r k W (lineRects (js.map fun b => Full.Blk.text b.bbox b.lines)) others p.shapes := by
  refine ⟨hd.strokes, hd.others, fun b col hm => (hd.fills b col hm).imp_right fun hP => ?_, hd.real⟩
  refine ⟨hP.within, hP.cells, hP.some_, ?_, hP.alone, hP.sizeX, hP.sizeY, hP.thin⟩
  intro i hi j hj' hcv l hl hcl
  unfold lineRects at hl
  rw [List.flatMap_map] at hl
  obtain ⟨l', hl', rfl⟩ := List.mem_map.1 hl
  obtain ⟨l0, hl0, rfl⟩ := List.mem_map.1 (hj.subset hl')
  obtain ⟨B, hB, hlB⟩ := List.mem_flatMap.1 hl0
  have hok := ((hp.raw B (List.mem_of_mem_filter hB)).boxes.2 l0 hlB)
  have hlB' := hok.2
  dsimp only at hlB'
  have hst := wc_strip_line c.ws hws l0 hok.1
  have hpr := ((pp_stripLine c.ws hws l0).ok hok.1).1.1
  have hcell := fx_cell_real hg h0 i j hi hj'
  refine covers_trans (hP.text i hi j hj' hcv l0.bbox (List.mem_map_of_mem hl0) ?_) hst
  have hi0 := rg_leY hg h0 0 i (by omega) (by omega)
  have hir := rg_leY hg h0 (i + 1) r (by omega) (le_refl _)
  have hW := hg.width
  have q := hpr.2
  have g1 := hst.2.1
  have g2 := hst.2.2.2
  have g3 := hlB'.2.1
  have g4 := hlB'.2.2.2
  have g5 := hcl.2.1
  have g6 := hcl.2.2.2
  dsimp only [gridCell] at g5 g6
  rcases hp.text.place B hB with h | h | h
  · exfalso; linarith
  · exfalso; linarith
  obtain ⟨i', hi', j', hj'', hc'⟩ := hp.text.inCell B hB h l0 hlB
  by_cases e : i = i' ∧ j = j'
  · rw [e.1, e.2]; exact hc'
  · exfalso
    have hap := fy_cells_apart hg h0 i j i' j' hi hj' hi' hj'' e
    have h1 := covers_trans hc' hst
    have hx := hpr.1
    unfold Apart at hap
    rcases hap with hap | hap
    · have := le_min hcl.2.2.1 h1.2.2.1
      have := max_le hcl.1 h1.1
      linarith
    · have := le_min hcl.2.2.2 h1.2.2.2
      have := max_le hcl.2.1 h1.2.1
      linarith

/-- Parsing a page with a grid. -/
theorem wt_parse (c : Whole.Cfg) (hws : c.ws ' ' = true) (hi : ∀ l, (c.full.base.lay.iter l).Perm l) (htol : 0 < c.full.base.lay.tol) (hov : 1 / 1000000 < c.ov) (hmg : 0 ≤ c.mg)
    (hd : 0 ≤ c.full.conn) (hc : 0 ≤ c.full.base.clear) (hw : 1 / 20 ≤ c.full.base.maxW) (depth : ℕ)
    (hg : Grid X Y r k W gap) (hgd : W + 2 * c.full.conn ≤ gap) (hgw : c.full.base.maxW + 1 / 20 ≤ gap) (hgc : c.full.base.clear ≤ gap) (hgW : W + 3 / 10 ≤ gap)
    (p : Whole.Page π) (hp : GridPage c X Y r k W p) :
    ∃ dd, Whole.parsePage c (depth + 2) p = .ok dd ∧ TableShown c.ws X Y r k ((pageBlocks c.ws p).flatMap Lns.Blk.lines) (ofBlocks dd.blocks) := by
  have h0 : 0 ≤ gap := le_trans hc hgc
  obtain ⟨js, j1, j2, j3, j4, j5⟩ := wt_page c hws hi hov hmg hg h0 p hp
  obtain ⟨others, hdr⟩ := hp.drawn
  have hdr := wt_drawn c hws hg h0 p hp js j2 others hdr
  obtain ⟨A, cells, D, ty, e1, e2, e3, e4, e5⟩ := C92_grid_partial c.full hi htol hd hc hw p.styled p.ids depth p.work hg hgd hgw hgc hgW others p.shapes _ hdr j3 j4
  have hfl : (js.map fun b => Full.Blk.text b.bbox b.lines).flatMap Full.Blk.lines = js.flatMap Lns.Blk.lines := by
    rw [List.flatMap_map]
    rfl
  rw [hfl] at e2 e3 e5
  refine ⟨⟨p.props, Whole.blocks c.ws p.fmt (A ++ .table (gridBox X Y r k) (fullGrid r k) cells :: D), []⟩, ?_, ?_⟩
  · unfold Whole.parsePage
    rw [j1]
    dsimp only
    rw [e1]
  have hKok : ∀ b ∈ pageBlocks c.ws p, RawOK b := fun b hb => hp.raw b (List.mem_of_mem_filter hb)
  set K := (pageBlocks c.ws p).flatMap Lns.Blk.lines with hK
  have hlok : ∀ l ∈ K, LineOK l := by
    intro l hl
    obtain ⟨b, hb, hl⟩ := List.mem_flatMap.1 hl
    exact ((hKok b hb).boxes.2 l hl).1
  have hW := hg.width
  have hYr : Y 0 ≤ Y r := rl_mono Y r gap h0 hg.gapY 0 r (by omega) (le_refl _)
  -- where a line is
  have hplace : ∀ b ∈ pageBlocks c.ws p, ∀ l ∈ b.lines, l.bbox.y1 < Y 0 ∧ ¬ Covers (gridBox X Y r k) b.bbox ∨ Y r < l.bbox.y0 ∧ ¬ Covers (gridBox X Y r k) b.bbox ∨ Y 0 ≤ l.bbox.y0 ∧ l.bbox.y1 ≤ Y r := by
    intro b hb l hl
    have hcv := ((hKok b hb).boxes.2 l hl).2
    have hpb := (hKok b hb).boxes.1.1.2
    simp only at hpb
    simp only [Covers] at hcv
    rcases hp.text.place b hb with h | h | h
    · refine Or.inl ⟨by linarith [hcv.2.2.2], ?_⟩
      rintro ⟨_, a2, _, _⟩
      simp only [gridBox] at a2
      linarith
    · refine Or.inr (Or.inl ⟨by linarith [hcv.2.1], ?_⟩)
      rintro ⟨_, _, _, a4⟩
      simp only [gridBox] at a4
      linarith
    · obtain ⟨_, a2, _, a4⟩ := h
      simp only [gridBox] at a2 a4
      exact Or.inr (Or.inr ⟨by linarith [hcv.2.1], by linarith [hcv.2.2.2]⟩)
  have hout : K.Pairwise fun l m => (l.bbox.y1 < Y 0 ∨ Y r < l.bbox.y0) → (m.bbox.y1 < Y 0 ∨ Y r < m.bbox.y0) → VSep l.bbox m.bbox := by
    have hno : ∀ b ∈ pageBlocks c.ws p, ∀ l ∈ b.lines, (l.bbox.y1 < Y 0 ∨ Y r < l.bbox.y0) → ¬ Covers (gridBox X Y r k) b.bbox := by
      intro b hb l hl h
      have hlp := ((hKok b hb).boxes.2 l hl).1.1.1.2
      rcases hplace b hb l hl with h' | h' | h'
      · exact h'.2
      · exact h'.2
      · exfalso
        rcases h with h | h <;> linarith [h'.1, h'.2]
    rw [hK, List.pairwise_flatMap]
    refine ⟨?_, ?_⟩
    · intro b hb
      by_cases hin : Covers (gridBox X Y r k) b.bbox
      · refine List.pairwise_of_forall_mem_list ?_
        intro l hl m _ h
        exact absurd hin (hno b hb l hl h)
      · exact (hp.text.column b hb hin).imp fun h _ _ => h
    · refine hp.text.clear.imp_of_mem ?_
      intro a b ha hb h l hl m hm h1 h2
      have c1 := ((hKok a ha).boxes.2 l hl).2
      have c2 := ((hKok b hb).boxes.2 m hm).2
      simp only [Covers] at c1 c2
      rcases h (hno a ha l hl h1) (hno b hb m hm h2) with h | h
      · exact Or.inl (show l.bbox.y1 ≤ m.bbox.y0 by linarith [c1.2.2.2, c2.2.1])
      · exact Or.inr (show m.bbox.y1 ≤ l.bbox.y0 by linarith [c1.2.1, c2.2.2.2])
  have hst : ∀ l ∈ K, Covers l.bbox (stripLine c.ws l).1.bbox ∧ Proper (stripLine c.ws l).1.bbox ∧ Proper l.bbox := fun l hl =>
    ⟨wc_strip_line c.ws hws l (hlok l hl), ((pp_stripLine c.ws hws l).ok (hlok l hl)).1.1, (hlok l hl).1.1⟩
  have hjl : ∀ (P : Rect → Prop) [DecidablePred P] (bs : List (Full.Blk Tok)), ShowsDown bs ((js.flatMap Lns.Blk.lines).filter fun l => decide (P l.bbox)) →
      ShowsLines c.ws (ofBlocks (Whole.blocks c.ws p.fmt bs)) ((js.flatMap Lns.Blk.lines).filter fun l => decide (P l.bbox)) := by
    intro P _ bs h
    exact wh_shows c.ws p.fmt bs _ h (fun l hl => (j5 l (List.mem_of_mem_filter hl)).1) (fun l hl => (j5 l (List.mem_of_mem_filter hl)).2)
  have hclen : cells.length = r * k := by
    have := congrArg List.length e4
    rwa [List.length_map, wh_gridCells_length] at this
  refine ⟨ofBlocks (Whole.blocks c.ws p.fmt A),
    (List.range r).map fun i => (List.range k).map fun j => (cells[i * k + j]?).map fun x => ofBlocks (Whole.blocks c.ws p.fmt x.2),
    ofBlocks (Whole.blocks c.ws p.fmt D), ?_, ?_, ?_, ?_⟩
  · show ofBlocks (Whole.blocks c.ws p.fmt (A ++ .table (gridBox X Y r k) (fullGrid r k) cells :: D)) = _
    rw [wh_blocks_map, List.map_append, wh_ofBlocks_append, List.map_cons, ← wh_blocks_map, ← wh_blocks_map]
    simp only [Whole.block, ofBlocks]
    rw [wh_rows_map, wh_place r k _ (by rw [wh_cells_map, List.length_map]; exact hclen), wh_cells_map, List.map_map]
    congr 3
    refine List.map_congr_left fun i _ => ?_
    rw [Function.comp_apply, List.map_map]
    refine List.map_congr_left fun j _ => ?_
    rw [Function.comp_apply, List.getElem?_map, Option.map_map]
    rfl
  · refine wt_shows c.ws hws K _ j2 hlok (fun x => x.y1 < Y 0) ?_ ?_ _ (hjl (fun x => x.y1 < Y 0) A e2)
    · intro l hl
      obtain ⟨h1, h2, h3⟩ := hst l hl
      obtain ⟨b, hb, hlb⟩ := List.mem_flatMap.1 hl
      have := hplace b hb l hlb
      have q := h2.2
      have q' := h3.2
      simp only [Covers] at h1
      constructor
      · intro h
        rcases this with h' | h' | h'
        · exact h'.1
        · linarith [h1.2.1]
        · linarith [h1.2.1]
      · intro h; linarith [h1.2.2.2]
    · exact hout.imp fun h h1 h2 => h (Or.inl h1) (Or.inl h2)
  · refine wt_shows c.ws hws K _ j2 hlok (fun x => Y r < x.y0) ?_ ?_ _ (hjl (fun x => Y r < x.y0) D e3)
    · intro l hl
      obtain ⟨h1, h2, h3⟩ := hst l hl
      obtain ⟨b, hb, hlb⟩ := List.mem_flatMap.1 hl
      have := hplace b hb l hlb
      have q := h2.2
      have q' := h3.2
      simp only [Covers] at h1
      constructor
      · intro h
        rcases this with h' | h' | h'
        · linarith [h1.2.2.2]
        · exact h'.1
        · linarith [h1.2.2.2]
      · intro h; linarith [h1.2.1]
    · exact hout.imp fun h h1 h2 => h (Or.inr h1) (Or.inr h2)
  · refine ⟨by simp, ?_⟩
    intro i hir
    refine ⟨(List.range k).map fun j => (cells[i * k + j]?).map fun x => ofBlocks (Whole.blocks c.ws p.fmt x.2), by simp [hir], by simp, ?_⟩
    intro j hjk
    have hlt : i * k + j < cells.length := by
      rw [hclen]
      calc i * k + j < i * k + k := by omega
        _ = (i + 1) * k := by ring
        _ ≤ r * k := Nat.mul_le_mul_right k hir
    obtain ⟨x, hx⟩ : ∃ x, cells[i * k + j]? = some x := ⟨_, List.getElem?_eq_getElem hlt⟩
    have hbx : x.1.info.box = gridCell X Y i j := by
      have := congrArg (fun l => l[i * k + j]?) e4
      simp only [List.getElem?_map, hx, Option.map_some] at this
      rw [wh_gridCells X Y r k i j hir hjk] at this
      exact Option.some.inj this
    refine ⟨ofBlocks (Whole.blocks c.ws p.fmt x.2), by simp [hjk, hx], ?_⟩
    have hsh := e5 x (List.mem_of_getElem? hx)
    rw [hbx] at hsh
    refine wt_shows c.ws hws K _ j2 hlok (fun y => Covers (gridCell X Y i j) y) ?_ ?_ _ (hjl (fun y => Covers (gridCell X Y i j) y) x.2 hsh)
    · intro l hl
      obtain ⟨b, hb, hlb⟩ := List.mem_flatMap.1 hl
      exact wt_cell_raw hg h0 hp.text hKok c.ws hws hb hlb hir hjk
    · exact hp.text.cellColumn.imp fun h h1 h2 => h i hir j hjk h1 h2

end WPage

end Props
