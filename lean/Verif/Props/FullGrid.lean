import Verif.Props.FullStyle
import Verif.Props.FullCells
/-! # The borders of the cells of a drawn grid (towards C92) -/

namespace Props
open Geom Py Spec Table

section FBorders

/-! ## One direction -/

/-- Strokes on different lines form one group per line. -/
theorem fb_groups (c gap : ℚ) (hc : 0 ≤ c) (hgap : c ≤ gap) (pos : St → ℚ) (Y : ℕ → ℚ) (n : ℕ) (hY : ∀ i < n, Y i + gap < Y (i + 1)) (S : ℕ → St)
    (hS : ∀ i ≤ n, round1 (pos (S i)) = Y i) (hs : List St) (hnd : hs.Nodup) (hmem : ∀ s, s ∈ hs ↔ ∃ i ≤ n, s = S i) :
    (∀ e ∈ groupBy c (hs.map fun s => (round1 (pos s), s)), ∃ i ≤ n, e = (Y i, [S i])) ∧
    (∀ i ≤ n, (Y i, [S i]) ∈ groupBy c (hs.map fun s => (round1 (pos s), s))) ∧
    (groupBy c (hs.map fun s => (round1 (pos s), s))).Pairwise fun e f => e.1 ≠ f.1 := by
  classical
  have h0 : 0 ≤ gap := le_trans hc hgap
  have hlt : ∀ i j, i < j → j ≤ n → Y i + gap < Y j := fun i j h hj => rl_gap Y n gap h0 hY i j h hj
  let lv : St → ℕ := fun s => if h : ∃ i ≤ n, s = S i then h.choose else 0
  have hinj : ∀ i j, i ≤ n → j ≤ n → Y i = Y j → i = j := by
    intro i j hi hj e
    rcases Nat.lt_trichotomy i j with h | h | h
    · have := hlt i j h hj; linarith
    · exact h
    · have := hlt j i h hi; linarith
  have hlv : ∀ i ≤ n, lv (S i) = i := by
    intro i hi
    have hex : ∃ j ≤ n, S i = S j := ⟨i, hi, rfl⟩
    have h1 := hex.choose_spec
    simp only [lv, dif_pos hex]
    refine (hinj i _ hi h1.1 ?_).symm
    rw [← hS i hi, ← hS _ h1.1, ← h1.2]
  have key := rl_levels c 0 (le_refl _) (by linarith) (fun s => round1 (pos s)) lv Y hs (by
    intro s h
    obtain ⟨i, hi, rfl⟩ := (hmem s).1 h
    rw [hlv i hi, hS i hi, sub_self, abs_zero]) (by
    intro s h t h' hne
    obtain ⟨i, hi, rfl⟩ := (hmem s).1 h
    obtain ⟨j, hj, rfl⟩ := (hmem t).1 h'
    rw [hlv i hi, hlv j hj] at hne ⊢
    rcases lt_or_gt_of_ne hne with h | h
    · have := hlt i j h hj
      rw [abs_sub_comm]
      refine lt_of_lt_of_le ?_ (le_abs_self _)
      linarith
    · have := hlt j i h hi
      refine lt_of_lt_of_le ?_ (le_abs_self _)
      linarith)
  have hfil : ∀ i ≤ n, (hs.filter fun s => decide (lv s = i)) = [S i] := by
    intro i hi
    refine List.perm_singleton.1 ((List.perm_ext_iff_of_nodup (hnd.filter _) (List.nodup_singleton _)).2 fun s => ?_)
    rw [List.mem_filter, List.mem_singleton, hmem]
    constructor
    · rintro ⟨⟨j, hj, rfl⟩, h⟩
      rw [hlv j hj] at h
      rw [of_decide_eq_true h]
    · rintro rfl
      exact ⟨⟨i, hi, rfl⟩, by rw [hlv i hi]; simp⟩
  have hone : ∀ e ∈ groupBy c (hs.map fun s => (round1 (pos s), s)), ∃ i ≤ n, e = (Y i, [S i]) := by
    intro e he
    obtain ⟨i, ⟨s, hs', rfl⟩, h1, h2⟩ := key.1 e he
    obtain ⟨j, hj, rfl⟩ := (hmem s).1 hs'
    rw [hlv j hj] at h1 h2
    refine ⟨j, hj, ?_⟩
    rw [hfil j hj] at h2
    have : e.1 = Y j := by have := abs_nonpos_iff.1 h1; linarith
    rw [← this, ← h2]
  refine ⟨hone, ?_, key.2.2.imp fun {e f} h heq => ?_⟩
  · intro i hi
    obtain ⟨e, he, h1⟩ := key.2.1 (S i) ((hmem _).2 ⟨i, hi, rfl⟩)
    rw [hlv i hi] at h1
    obtain ⟨j, hj, rfl⟩ := hone e he
    have : Y j = Y i := by have := abs_nonpos_iff.1 h1; dsimp only at this; linarith
    rw [hinj j i hj hi this] at he
    exact he
  · rw [heq, sub_self, abs_zero] at h
    linarith

/-- In this list of strokes of a line, `s` runs from `lo` to `hi` and the others lie outside of this range, `s` being met before those behind `hi`. -/
def Carries (ext : St → ℚ × ℚ) (lo hi : ℚ) (s : St) (l : List St) : Prop :=
  ext s = (lo, hi) ∧ ∃ pre post, l = pre ++ s :: post ∧ (∀ t ∈ pre, (ext t).2 ≤ lo) ∧ ∀ t ∈ post, (ext t).2 ≤ lo ∨ hi ≤ (ext t).1

theorem fb_loop_post {β : Type} (x0 x1 lo hi : ℚ) (h0 : lo ≤ x0) (h1 : x1 ≤ hi) (l : List ((ℚ × ℚ) × β)) (h : ∀ t ∈ l, t.1.2 ≤ lo ∨ hi ≤ t.1.1) :
    borderLoop x0 x1 l = (0, []) := by
  induction l with
  | nil => rfl
  | cons p l ih =>
    obtain ⟨⟨t0, t1⟩, a⟩ := p
    unfold borderLoop
    split_ifs with g1 g2
    · exact ih fun t ht => h t (List.mem_cons_of_mem _ ht)
    · rfl
    · exfalso
      rcases h _ List.mem_cons_self with h | h
      · exact g1 (le_trans h h0)
      · exact g2 (le_trans h1 h)
    · exfalso
      rcases h _ List.mem_cons_self with h | h
      · exact g1 (le_trans h h0)
      · exact g2 (le_trans h1 h)

theorem fb_loop {β : Type} (x0 x1 lo hi : ℚ) (h0 : lo ≤ x0) (h1 : x1 ≤ hi) (h5 : 5 ≤ x1 - x0) (s : β) (pre post : List ((ℚ × ℚ) × β)) (hpre : ∀ t ∈ pre, t.1.2 ≤ lo)
    (hpost : ∀ t ∈ post, t.1.2 ≤ lo ∨ hi ≤ t.1.1) : borderLoop x0 x1 (pre ++ ((lo, hi), s) :: post) = (x1 - x0, [s]) := by
  induction pre with
  | nil =>
    rw [List.nil_append]
    unfold borderLoop
    rw [if_neg (by linarith), if_neg (by linarith), min_eq_left h1, max_eq_left h0, if_neg (by linarith), fb_loop_post x0 x1 lo hi h0 h1 post hpost]
    simp
  | cons p pre ih =>
    obtain ⟨⟨t0, t1⟩, a⟩ := p
    rw [List.cons_append]
    unfold borderLoop
    rw [if_pos (le_trans (hpre _ List.mem_cons_self) h0)]
    exact ih fun t ht => hpre t (List.mem_cons_of_mem _ ht)

/-- The border of a side of a cell on this line. -/
theorem fb_border (vertical : Bool) (lo hi x0 x1 : ℚ) (s : St) (l : List St) (h : Carries (extOf vertical) lo hi s l) (h0 : lo ≤ x0) (h1 : x1 ≤ hi) (h5 : 5 ≤ x1 - x0) :
    borderStroke vertical x0 x1 l = some s := by
  obtain ⟨he, pre, post, rfl, hpre, hpost⟩ := h
  unfold borderStroke
  have e : ∀ l : List St, (l.map fun s => (if vertical then (s.y0, s.y1) else (s.x0, s.x1), s)) = l.map fun s => (extOf vertical s, s) := fun _ => rfl
  have := fb_loop x0 x1 lo hi h0 h1 h5 s (pre.map fun s => (extOf vertical s, s)) (post.map fun s => (extOf vertical s, s))
    (by intro t ht; obtain ⟨t', ht', rfl⟩ := List.mem_map.1 ht; exact hpre t' ht') (by intro t ht; obtain ⟨t', ht', rfl⟩ := List.mem_map.1 ht; exact hpost t' ht')
  simp only [e, List.map_append, List.map_cons, he, this]
  rw [if_neg (by rw [not_lt, div_self (by linarith)]; norm_num)]
  simp

/-- A line completed at the frame. -/
theorem fb_complete (sd : Side) (T lo hi l0 r0 : ℚ) (s : St) (hext : sideExt sd s = (lo, hi)) (hal : along sd s = (l0, r0)) (hl : l0 ≤ lo) (hr : hi ≤ r0) (hlt : lo < hi)
    (hround : round1 r0 = r0) : Carries (sideExt sd) lo hi s (sortSide sd (sortSide sd [s] ++ missing sd T lo hi ((sortSide sd [s]).map (along sd)))) := by
  refine ⟨hext, ?_⟩
  have e1 : sortSide sd [s] = [s] := by cases sd <;> rfl
  rw [e1]
  set M := missing sd T lo hi ([s].map (along sd)) with hM
  have hMm : ∀ t ∈ M, t = frameLine sd T lo l0 ∨ t = frameLine sd T r0 hi := by
    intro t ht
    rw [hM] at ht
    simp only [List.map_cons, List.map_nil, hal, missing, List.mem_append] at ht
    rcases ht with ht | ht
    · split_ifs at ht
      · exact Or.inl (List.mem_singleton.1 ht)
      · cases ht
    · split_ifs at ht
      · exact Or.inr (List.mem_singleton.1 ht)
      · cases ht
  have hperm : (sortSide sd ([s] ++ M)).Perm (s :: M) := by cases sd <;> exact sortBy_perm _ _
  obtain ⟨pre, post, e⟩ := List.append_of_mem (hperm.mem_iff.2 List.mem_cons_self)
  have hsort := rl_sortSide sd ([s] ++ M)
  rw [e] at hperm hsort
  have hp2 : (pre ++ post).Perm M := (List.perm_cons s).1 (List.perm_middle.symm.trans hperm)
  refine ⟨pre, post, e, ?_, ?_⟩
  · intro t ht
    rcases hMm t (hp2.subset (List.mem_append_left _ ht)) with rfl | rfl
    · rw [(rl_frameLine sd T lo l0).1]; exact hl
    · exfalso
      have := (List.pairwise_append.1 hsort).2.2 _ ht s List.mem_cons_self
      rw [(rl_frameLine sd T r0 hi).2, hal, hround] at this
      dsimp only at this
      linarith
  · intro t ht
    rcases hMm t (hp2.subset (List.mem_append_right _ ht)) with rfl | rfl
    · rw [(rl_frameLine sd T lo l0).1]; exact Or.inl hl
    · rw [(rl_frameLine sd T r0 hi).1]; exact Or.inr hr

theorem fb_single (sd : Side) (lo hi : ℚ) (s : St) (hext : sideExt sd s = (lo, hi)) : Carries (sideExt sd) lo hi s [s] :=
  ⟨hext, [], [], rfl, by simp, by simp⟩

variable {Y : ℕ → ℚ} {n : ℕ} {S : ℕ → St} {lo hi l0 r0 w : ℚ}

theorem fb_min {d : Dict St} (h : ∀ e ∈ d, ∃ i ≤ n, e.1 = Y i) (h0 : ∃ e ∈ d, e.1 = Y 0) (hm : ∀ i ≤ n, Y 0 ≤ Y i) : minOf (d.map Prod.fst) = Y 0 := by
  obtain ⟨e0, he0, h0⟩ := h0
  refine rl_minOf _ _ (List.mem_map.2 ⟨_, he0, h0⟩) ?_
  intro y hy
  obtain ⟨e, he, rfl⟩ := List.mem_map.1 hy
  obtain ⟨i, hi, e⟩ := h e he
  rw [e]; exact hm i hi

theorem fb_max {d : Dict St} (h : ∀ e ∈ d, ∃ i ≤ n, e.1 = Y i) (h0 : ∃ e ∈ d, e.1 = Y n) (hm : ∀ i ≤ n, Y i ≤ Y n) : maxOf (d.map Prod.fst) = Y n := by
  obtain ⟨e0, he0, h0⟩ := h0
  refine rl_maxOf _ _ (List.mem_map.2 ⟨_, he0, h0⟩) ?_
  intro y hy
  obtain ⟨e, he, rfl⟩ := List.mem_map.1 hy
  obtain ⟨i, hi, e⟩ := h e he
  rw [e]; exact hm i hi

/-- The last line completed. -/
theorem fb_last (sd sb : Side) (hsd : (sd = .top ∧ sb = .bottom) ∨ (sd = .left ∧ sb = .right)) (table : Rect) (hw : 0 ≤ w) (hmono : ∀ i < n, Y i < Y n)
    (hS : ∀ i ≤ n, sideExt sd (S i) = (lo, hi) ∧ along sd (S i) = (l0, r0)) (hl : l0 ≤ lo) (hr : hi ≤ r0) (hlt : lo < hi) (hround : round1 r0 = r0)
    (hf : frame table sb = (Y n, lo, hi)) (d : Dict St) (hkeys : ∀ e ∈ d, ∃ i ≤ n, e.1 = Y i) (hn : (Y n, [S n]) ∈ d) (m : ℕ)
    (hcar : ∀ i, m ≤ i → i < n → ∃ l, (Y i, l) ∈ d ∧ Carries (sideExt sd) lo hi (S i) l) (hnd : d.Pairwise fun e f => e.1 ≠ f.1) :
    (∀ i, m ≤ i → i ≤ n → ∃ l, (Y i, l) ∈ checkOuter table sb w d ∧ Carries (sideExt sd) lo hi (S i) l) ∧ ((checkOuter table sb w d).Pairwise fun e f => e.1 ≠ f.1) ∧
      ∀ e ∈ checkOuter table sb w d, ∃ i ≤ n, e.1 = Y i := by
  have hext : sideExt sb = sideExt sd := by rcases hsd with ⟨rfl, rfl⟩ | ⟨rfl, rfl⟩ <;> rfl
  have hal : along sb = along sd := by rcases hsd with ⟨rfl, rfl⟩ | ⟨rfl, rfl⟩ <;> rfl
  have hle : ∀ i ≤ n, Y i ≤ Y n := fun i hi => by
    rcases Nat.eq_or_lt_of_le hi with rfl | h
    · exact le_refl _
    · exact le_of_lt (hmono i h)
  have hout : outermost sb d = Y n := by
    have := fb_max hkeys ⟨_, hn, rfl⟩ hle
    rcases hsd with ⟨rfl, rfl⟩ | ⟨rfl, rfl⟩ <;> exact this
  rw [rl_checkOuter table sb w d (by rw [hout, hf, sub_self, abs_zero]; exact hw), hout, hf]
  refine ⟨?_, ?_⟩
  · intro i hmi hin
    rcases Nat.eq_or_lt_of_le hin with rfl | h
    · refine ⟨_, List.mem_map.2 ⟨_, hn, Prod.ext rfl rfl⟩, ?_⟩
      dsimp only
      rw [if_pos rfl, ← hext]
      have := fb_complete sb (Y i) lo hi l0 r0 (S i) (by rw [hext]; exact (hS i (le_refl _)).1) (by rw [hal]; exact (hS i (le_refl _)).2) hl hr hlt hround
      exact this
    · obtain ⟨l, hl', hc⟩ := hcar i hmi h
      refine ⟨_, List.mem_map.2 ⟨_, hl', Prod.ext rfl rfl⟩, ?_⟩
      dsimp only
      rw [if_neg (ne_of_lt (hmono i h))]
      exact hc
  · refine ⟨by rw [List.pairwise_map]; exact hnd, ?_⟩
    intro e he
    obtain ⟨x, hx, rfl⟩ := List.mem_map.1 he
    exact hkeys x hx

/-- All lines of one direction drawn. -/
theorem fb_dir (sd sb : Side) (hsd : (sd = .top ∧ sb = .bottom) ∨ (sd = .left ∧ sb = .right)) (table : Rect) (hw : 0 ≤ w) (hmono : ∀ i j, i < j → j ≤ n → Y i < Y j) (hn : 1 ≤ n)
    (hS : ∀ i ≤ n, sideExt sd (S i) = (lo, hi) ∧ along sd (S i) = (l0, r0)) (hl : l0 ≤ lo) (hr : hi ≤ r0) (hlt : lo < hi) (hround : round1 r0 = r0)
    (hf0 : frame table sd = (Y 0, lo, hi)) (hf : frame table sb = (Y n, lo, hi)) (d : Dict St) (h1 : ∀ e ∈ d, ∃ i ≤ n, e = (Y i, [S i])) (h2 : ∀ i ≤ n, (Y i, [S i]) ∈ d)
    (hnd : d.Pairwise fun e f => e.1 ≠ f.1) :
    (∀ i ≤ n, ∃ l, (Y i, l) ∈ checkOuter table sb w (checkOuter table sd w d) ∧ Carries (sideExt sd) lo hi (S i) l) ∧
      ((checkOuter table sb w (checkOuter table sd w d)).Pairwise fun e f => e.1 ≠ f.1) ∧ ∀ e ∈ checkOuter table sb w (checkOuter table sd w d), ∃ i ≤ n, e.1 = Y i := by
  have hkeys : ∀ e ∈ d, ∃ i ≤ n, e.1 = Y i := fun e he => by obtain ⟨i, hi, rfl⟩ := h1 e he; exact ⟨i, hi, rfl⟩
  have hle : ∀ i ≤ n, Y 0 ≤ Y i := fun i hi => by
    rcases Nat.eq_zero_or_pos i with rfl | h
    · exact le_refl _
    · exact le_of_lt (hmono 0 i h hi)
  have hout : outermost sd d = Y 0 := by
    have := fb_min hkeys ⟨_, h2 0 (by omega), rfl⟩ hle
    rcases hsd with ⟨rfl, rfl⟩ | ⟨rfl, rfl⟩ <;> exact this
  have e : checkOuter table sd w d = d.map fun e => (e.1, if e.1 = Y 0 then sortSide sd (sortSide sd e.2 ++ missing sd (Y 0) lo hi ((sortSide sd e.2).map (along sd))) else e.2) := by
    rw [rl_checkOuter table sd w d (by rw [hout, hf0, sub_self, abs_zero]; exact hw), hout, hf0]
  have hm1 : ∀ i, 1 ≤ i → i ≤ n → (Y i, [S i]) ∈ checkOuter table sd w d := by
    intro i h1 hi
    rw [e, List.mem_map]
    refine ⟨_, h2 i hi, ?_⟩
    dsimp only
    rw [if_neg (ne_of_gt (hmono 0 i h1 hi))]
  have := fb_last sd sb hsd table hw (fun i h => hmono i n h (le_refl _)) hS hl hr hlt hround hf (checkOuter table sd w d) (by
      intro x hx
      rw [e] at hx
      obtain ⟨y, hy, rfl⟩ := List.mem_map.1 hx
      exact hkeys y hy) (hm1 n hn (le_refl _)) 0 (by
      intro i _ hin
      rcases Nat.eq_zero_or_pos i with rfl | h
      · refine ⟨_, by rw [e, List.mem_map]; exact ⟨_, h2 0 (by omega), Prod.ext rfl rfl⟩, ?_⟩
        dsimp only
        rw [if_pos rfl]
        exact fb_complete sd (Y 0) lo hi l0 r0 (S 0) (hS 0 (by omega)).1 (hS 0 (by omega)).2 hl hr hlt hround
      · exact ⟨_, hm1 i h (le_of_lt hin), fb_single sd lo hi (S i) (hS i (le_of_lt hin)).1⟩) (by
      rw [e, List.pairwise_map]; exact hnd)
  exact ⟨fun i hi => this.1 i (by omega) hi, this.2⟩

/-- The first line missing. -/
theorem fb_dir_open (sd sb : Side) (hsd : (sd = .top ∧ sb = .bottom) ∨ (sd = .left ∧ sb = .right)) (table : Rect) (hw : 0 ≤ w) (hmono : ∀ i j, i < j → j ≤ n → Y i < Y j) (hn : 1 ≤ n)
    (hgap : w < Y 1 - Y 0)
    (hS : ∀ i ≤ n, sideExt sd (S i) = (lo, hi) ∧ along sd (S i) = (l0, r0)) (hl : l0 ≤ lo) (hr : hi ≤ r0) (hlt : lo < hi) (hround : round1 r0 = r0)
    (hf0 : frame table sd = (Y 0, lo, hi)) (hf : frame table sb = (Y n, lo, hi)) (d : Dict St) (h1 : ∀ e ∈ d, ∃ i ≤ n, 1 ≤ i ∧ e = (Y i, [S i]))
    (h2 : ∀ i ≤ n, 1 ≤ i → (Y i, [S i]) ∈ d) (hnd : d.Pairwise fun e f => e.1 ≠ f.1) :
    (∀ i ≤ n, 1 ≤ i → ∃ l, (Y i, l) ∈ checkOuter table sb w (checkOuter table sd w d) ∧ Carries (sideExt sd) lo hi (S i) l) ∧
      ((checkOuter table sb w (checkOuter table sd w d)).Pairwise fun e f => e.1 ≠ f.1) ∧ ∀ e ∈ checkOuter table sb w (checkOuter table sd w d), ∃ i ≤ n, e.1 = Y i := by
  have hkeys : ∀ e ∈ d, ∃ i ≤ n, 1 ≤ i ∧ e.1 = Y i := fun e he => by obtain ⟨i, hi, h, rfl⟩ := h1 e he; exact ⟨i, hi, h, rfl⟩
  have hout : outermost sd d = Y 1 := by
    have : minOf (d.map Prod.fst) = Y 1 := by
      refine rl_minOf _ _ (List.mem_map.2 ⟨_, h2 1 hn (le_refl _), rfl⟩) ?_
      intro y hy
      obtain ⟨e, he, rfl⟩ := List.mem_map.1 hy
      obtain ⟨i, hi, h, e⟩ := hkeys e he
      rw [e]
      rcases Nat.eq_or_lt_of_le h with rfl | h
      · exact le_refl _
      · exact le_of_lt (hmono 1 i h hi)
    rcases hsd with ⟨rfl, rfl⟩ | ⟨rfl, rfl⟩ <;> exact this
  have hsame : (d.map fun e => if e.1 = Y 1 then (e.1, sortSide sd e.2) else e) = d := by
    conv_rhs => rw [← List.map_id d]
    refine List.map_congr_left fun e he => ?_
    obtain ⟨i, hi, _, rfl⟩ := h1 e he
    split_ifs
    · cases sd <;> rfl
    · rfl
  have e : checkOuter table sd w d = d ++ [(Y 0, [frameLine sd (Y 0) lo hi])] := by
    rw [checkOuter_eq, hout, hf0]
    dsimp only
    rw [hsame, if_pos (by rw [abs_sub_comm]; exact lt_of_lt_of_le hgap (le_abs_self _))]
    refine dset_new d _ _ fun x hx => ?_
    obtain ⟨i, hi, h, e⟩ := hkeys x hx
    rw [e]
    exact ne_of_gt (hmono 0 i h hi)
  have := fb_last sd sb hsd table hw (fun i h => hmono i n h (le_refl _)) hS hl hr hlt hround hf (checkOuter table sd w d) (by
      intro x hx
      rw [e] at hx
      rcases List.mem_append.1 hx with hx | hx
      · obtain ⟨i, hi, _, e⟩ := hkeys x hx
        exact ⟨i, hi, e⟩
      · rw [List.mem_singleton] at hx
        exact ⟨0, by omega, by rw [hx]⟩) (by rw [e]; exact List.mem_append_left _ (h2 n (le_refl _) hn)) 1 (by
      intro i h hin
      exact ⟨_, by rw [e]; exact List.mem_append_left _ (h2 i (le_of_lt hin) h), fb_single sd lo hi (S i) (hS i (le_of_lt hin)).1⟩) (by
      rw [e, List.pairwise_append]
      refine ⟨hnd, List.pairwise_singleton _ _, ?_⟩
      intro x hx y hy
      rw [List.mem_singleton] at hy
      obtain ⟨i, hi, h, e⟩ := hkeys x hx
      rw [e, hy]
      exact ne_of_gt (hmono 0 i h hi))
  exact ⟨fun i hi h => this.1 i h hi, this.2⟩

/-! ## The strokes of a grid -/

variable {X : ℕ → ℚ} {r k : ℕ} {W gap : ℚ}

/-- The lines of the grid, except possibly its first column. -/
def GridGroup (X Y : ℕ → ℚ) (r k : ℕ) (W : ℚ) (q : Prop) (g : List St) : Prop :=
  g.Nodup ∧ ∀ s, s ∈ g ↔ (∃ i ≤ r, s = Seg.stroke X Y ⟨true, W, i, 0, k⟩) ∨ ∃ j ≤ k, (j = 0 → q) ∧ s = Seg.stroke X Y ⟨false, W, j, 0, r⟩

theorem fb_hor (hg : Grid X Y r k W gap) (q : Prop) (g : List St) (h : GridGroup X Y r k W q g) (h0 : 1 / 1000 ≤ gap) :
    (g.filter St.horizontal).Nodup ∧ (∀ s, s ∈ g.filter St.horizontal ↔ ∃ i ≤ r, s = Seg.stroke X Y ⟨true, W, i, 0, k⟩) ∧
    (g.filter fun s => !s.horizontal && s.vertical).Nodup ∧
      ∀ s, s ∈ (g.filter fun s => !s.horizontal && s.vertical) ↔ ∃ j ≤ k, (j = 0 → q) ∧ s = Seg.stroke X Y ⟨false, W, j, 0, r⟩ := by
  have hr := hg.rows
  have hh : ∀ i, (Seg.stroke X Y ⟨true, W, i, 0, k⟩).horizontal = true := by
    intro i
    simp [Seg.stroke, rowSegment, St.horizontal]
  have hv : ∀ j, (Seg.stroke X Y ⟨false, W, j, 0, r⟩).horizontal = false ∧ (Seg.stroke X Y ⟨false, W, j, 0, r⟩).vertical = true := by
    intro j
    have := rg_gapY hg (by linarith) 0 r (by omega) (le_refl _)
    simp only [Seg.stroke, colSegment, St.horizontal, St.vertical, Bool.false_eq_true, if_false, sub_self, abs_zero, decide_eq_false_iff_not, not_lt, decide_eq_true_eq]
    refine ⟨?_, by norm_num⟩
    rw [abs_sub_comm]
    exact le_trans (by linarith) (le_abs_self _)
  refine ⟨h.1.filter _, ?_, h.1.filter _, ?_⟩
  · intro s
    rw [List.mem_filter, h.2]
    constructor
    · rintro ⟨h1 | ⟨j, _, _, rfl⟩, h2⟩
      · exact h1
      · rw [(hv j).1] at h2; cases h2
    · rintro ⟨i, hi, rfl⟩
      exact ⟨Or.inl ⟨i, hi, rfl⟩, hh i⟩
  · intro s
    rw [List.mem_filter, h.2]
    constructor
    · rintro ⟨⟨i, _, rfl⟩ | h1, h2⟩
      · rw [hh i] at h2; cases h2
      · exact h1
    · rintro ⟨j, hj, hq, rfl⟩
      exact ⟨Or.inr ⟨j, hj, hq, rfl⟩, by rw [(hv j).1, (hv j).2]; rfl⟩

theorem fb_region (hg : Grid X Y r k W gap) (q : Prop) (g : List St) (h : GridGroup X Y r k W q g) (h0 : 1 / 1000 ≤ gap) : region g = gridBox X Y r k := by
  obtain ⟨_, h2, _, h4⟩ := fb_hor hg q g h h0
  have hk := hg.cols
  have tX : ∀ j ≤ k, round1 (X j) = X j := fun j hj => rg_ten (hg.tenX j hj)
  have tY : ∀ j ≤ r, round1 (Y j) = Y j := fun j hj => rg_ten (hg.tenY j hj)
  have m1 := (h2 _).2 ⟨0, by omega, rfl⟩
  have m2 := (h4 _).2 ⟨k, le_refl _, fun e => by omega, rfl⟩
  have e1 : minOf ((g.filter St.horizontal).map St.x0) = X 0 := by
    refine rl_minOf _ _ (List.mem_map.2 ⟨_, m1, rfl⟩) ?_
    intro y hy
    obtain ⟨s, hs, rfl⟩ := List.mem_map.1 hy
    obtain ⟨i, _, rfl⟩ := (h2 s).1 hs
    exact le_refl _
  have e2 : maxOf ((g.filter St.horizontal).map St.x1) = X k := by
    refine rl_maxOf _ _ (List.mem_map.2 ⟨_, m1, rfl⟩) ?_
    intro y hy
    obtain ⟨s, hs, rfl⟩ := List.mem_map.1 hy
    obtain ⟨i, _, rfl⟩ := (h2 s).1 hs
    exact le_refl _
  have e3 : minOf ((g.filter fun s => !s.horizontal && s.vertical).map St.y0) = Y 0 := by
    refine rl_minOf _ _ (List.mem_map.2 ⟨_, m2, rfl⟩) ?_
    intro y hy
    obtain ⟨s, hs, rfl⟩ := List.mem_map.1 hy
    obtain ⟨i, _, _, rfl⟩ := (h4 s).1 hs
    exact le_refl _
  have e4 : maxOf ((g.filter fun s => !s.horizontal && s.vertical).map St.y1) = Y r := by
    refine rl_maxOf _ _ (List.mem_map.2 ⟨_, m2, rfl⟩) ?_
    intro y hy
    obtain ⟨s, hs, rfl⟩ := List.mem_map.1 hy
    obtain ⟨i, _, _, rfl⟩ := (h4 s).1 hs
    exact le_refl _
  unfold region
  dsimp only
  rw [e1, e2, e3, e4]
  unfold Rect.round gridBox
  dsimp only
  rw [tX 0 (by omega), tX k (le_refl _), tY 0 (by omega), tY r (le_refl _)]

/-- The border lines of the table. -/
theorem fb_group (hg : Grid X Y r k W gap) (q : Prop) (g : List St) (h : GridGroup X Y r k W q g) (h0 : 1 / 1000 ≤ gap) (c w : ℚ) (hc : 0 ≤ c) (hw : 0 ≤ w) (hgc : c ≤ gap) (hgw : w ≤ gap) :
    ∃ H V, groupStrokes c w g = some (H, V) ∧
      ((∀ i ≤ r, ∃ l, (Y i, l) ∈ H ∧ Carries (extOf false) (X 0) (X k) (Seg.stroke X Y ⟨true, W, i, 0, k⟩) l) ∧ (H.Pairwise fun e f => e.1 ≠ f.1) ∧ ∀ e ∈ H, ∃ i ≤ r, e.1 = Y i) ∧
      ((∀ j ≤ k, (j = 0 → q) → ∃ l, (X j, l) ∈ V ∧ Carries (extOf true) (Y 0) (Y r) (Seg.stroke X Y ⟨false, W, j, 0, r⟩) l) ∧ (V.Pairwise fun e f => e.1 ≠ f.1) ∧ ∀ e ∈ V, ∃ j ≤ k, e.1 = X j) := by
  obtain ⟨f1, f2, f3, f4⟩ := fb_hor hg q g h h0
  have hr := hg.rows
  have hk := hg.cols
  have hW := hg.width
  have h0' : 0 ≤ gap := by linarith
  have tX : ∀ j ≤ k, round1 (X j) = X j := fun j hj => rg_ten (hg.tenX j hj)
  have tY : ∀ j ≤ r, round1 (Y j) = Y j := fun j hj => rg_ten (hg.tenY j hj)
  have mX : ∀ i j, i < j → j ≤ k → X i < X j := fun i j h hj => by linarith [rg_gap hg h0' i j h hj]
  have mY : ∀ i j, i < j → j ≤ r → Y i < Y j := fun i j h hj => by linarith [rg_gapY hg h0' i j h hj]
  have hx := mX 0 k (by omega) (le_refl _)
  have hy := mY 0 r (by omega) (le_refl _)
  obtain ⟨a1, a2, a3⟩ := fb_groups c gap hc hgc St.y0 Y r hg.gapY (fun i => Seg.stroke X Y ⟨true, W, i, 0, k⟩) (fun i hi => tY i hi) _ f1 f2
  have A := fb_dir (w := w) (lo := X 0) (hi := X k) (l0 := X 0 - W / 2) (r0 := X k + W / 2) .top .bottom (Or.inl ⟨rfl, rfl⟩) (region g) hw mY hr (by
      intro i hi
      refine ⟨rfl, ?_⟩
      show ((Seg.stroke X Y ⟨true, W, i, 0, k⟩).bbox.x0, (Seg.stroke X Y ⟨true, W, i, 0, k⟩).bbox.x1) = _
      rw [rg_row hg i hi]; rfl) (by linarith) (by linarith) hx (rg_ten (rg_add (hg.tenX k (le_refl _)) hg.tenW))
    (by rw [fb_region hg q g h h0]; rfl) (by rw [fb_region hg q g h h0]; rfl) _ a1 a2 a3
  have hcol : ∀ j ≤ k, sideExt .left (Seg.stroke X Y ⟨false, W, j, 0, r⟩) = (Y 0, Y r) ∧ along .left (Seg.stroke X Y ⟨false, W, j, 0, r⟩) = (Y 0 - W / 2, Y r + W / 2) := by
    intro j hj
    refine ⟨rfl, ?_⟩
    show ((Seg.stroke X Y ⟨false, W, j, 0, r⟩).bbox.y0, (Seg.stroke X Y ⟨false, W, j, 0, r⟩).bbox.y1) = _
    rw [rg_col hg j hj]; rfl
  have B : (∀ j ≤ k, (j = 0 → q) → ∃ l, (X j, l) ∈ checkOuter (region g) .right w (checkOuter (region g) .left w (groupHV c g).2) ∧
      Carries (extOf true) (Y 0) (Y r) (Seg.stroke X Y ⟨false, W, j, 0, r⟩) l) ∧
      ((checkOuter (region g) .right w (checkOuter (region g) .left w (groupHV c g).2)).Pairwise fun e f => e.1 ≠ f.1) ∧
      (∀ e ∈ checkOuter (region g) .right w (checkOuter (region g) .left w (groupHV c g).2), ∃ j ≤ k, e.1 = X j) ∧ (groupHV c g).2 ≠ [] := by
    unfold groupHV
    dsimp only
    by_cases hq : q
    · obtain ⟨b1, b2, b3⟩ := fb_groups c gap hc hgc St.x0 X k hg.gapX (fun j => Seg.stroke X Y ⟨false, W, j, 0, r⟩) (fun i hi => tX i hi) _ f3 (by
        intro s; rw [f4]
        exact ⟨fun ⟨j, hj, _, e⟩ => ⟨j, hj, e⟩, fun ⟨j, hj, e⟩ => ⟨j, hj, fun _ => hq, e⟩⟩)
      have := fb_dir (w := w) (lo := Y 0) (hi := Y r) (l0 := Y 0 - W / 2) (r0 := Y r + W / 2) .left .right (Or.inr ⟨rfl, rfl⟩) (region g) hw mX hk hcol
        (by linarith) (by linarith) hy (rg_ten (rg_add (hg.tenY r (le_refl _)) hg.tenW)) (by rw [fb_region hg q g h h0]; rfl) (by rw [fb_region hg q g h h0]; rfl) _ b1 b2 b3
      exact ⟨fun j hj _ => this.1 j hj, this.2.1, this.2.2, List.ne_nil_of_mem (b2 0 (by omega))⟩
    · obtain ⟨b1, b2, b3⟩ := fb_groups c gap hc hgc St.x0 (fun j => X (j + 1)) (k - 1) (fun i hi => hg.gapX (i + 1) (by omega)) (fun j => Seg.stroke X Y ⟨false, W, j + 1, 0, r⟩)
        (fun i hi => tX (i + 1) (by omega)) _ f3 (by
        intro s; rw [f4]
        constructor
        · rintro ⟨j, hj, h1, e⟩
          have : j ≠ 0 := fun e => hq (h1 e)
          refine ⟨j - 1, by omega, ?_⟩
          rw [e, show j - 1 + 1 = j by omega]
        · rintro ⟨j, hj, e⟩
          exact ⟨j + 1, by omega, fun e => by omega, e⟩)
      have := fb_dir_open (w := w) (lo := Y 0) (hi := Y r) (l0 := Y 0 - W / 2) (r0 := Y r + W / 2) .left .right (Or.inr ⟨rfl, rfl⟩) (region g) hw mX hk (by linarith [hg.gapX 0 (by omega)]) hcol
        (by linarith) (by linarith) hy (rg_ten (rg_add (hg.tenY r (le_refl _)) hg.tenW)) (by rw [fb_region hg q g h h0]; rfl) (by rw [fb_region hg q g h h0]; rfl) _
        (by
          intro e he
          obtain ⟨i, hi, rfl⟩ := b1 e he
          exact ⟨i + 1, by omega, by omega, rfl⟩)
        (by
          intro i hi h1
          have := b2 (i - 1) (by omega)
          rw [show i - 1 + 1 = i by omega] at this
          exact this) b3
      exact ⟨fun j hj h1 => this.1 j hj (by
        rcases Nat.eq_zero_or_pos j with e | e
        · exact absurd (h1 e) hq
        · exact e), this.2.1, this.2.2, List.ne_nil_of_mem (b2 0 (by omega))⟩
  refine ⟨_, _, ?_, A, B.1, B.2.1, B.2.2.1⟩
  unfold groupStrokes
  dsimp only
  rw [if_neg]
  · rfl
  · rintro (e | e)
    · exact List.ne_nil_of_mem (a2 0 (by omega)) e
    · exact B.2.2.2 e

open Full in
/-- The width of a border on a line. -/
theorem fb_width (vertical : Bool) (d : Dict St) (hd : d.Pairwise fun e f => e.1 ≠ f.1) (y : ℚ) (l : List St) (hl : (y, l) ∈ d) (a b x0 x1 : ℚ) (s : St)
    (h : Carries (extOf vertical) a b s l) (h0 : a ≤ x0) (h1 : x1 ≤ b) (h5 : 5 ≤ x1 - x0) : widthOf vertical x0 x1 (Full.strokesAt d y) = s.width := by
  have e : Full.strokesAt d y = l := by
    unfold Full.strokesAt
    rw [rl_find d hd (y, l) hl]
    rfl
  unfold widthOf
  rw [e, fb_border vertical a b x0 x1 s l h h0 h1 h5]
  rfl

section
open Full

/-- Where the cells of a structure come from. -/
theorem fb_cells (c w : ℚ) (strokes : List St) (fills : List (Rect × ℕ)) (t : Rows × List St × List (Rect × ℕ)) (h : structure_ c w strokes fills = .ok t) (H V : Dict St)
    (hg : groupStrokes c w strokes = some (H, V)) : ∀ ci ∈ (found t.1).cells, ∃ i j, ∃ m : ℕ × ℕ,
      ci = (cellStyle H V fills ⟨(keys V).getD j 0, (keys H).getD i 0, (keys V).getD (j + m.2) 0, (keys H).getD (i + m.1) 0⟩).1 ∧
        ∀ p, (cellStyle H V fills ⟨(keys V).getD j 0, (keys H).getD i 0, (keys V).getD (j + m.2) 0, (keys H).getD (i + m.1) 0⟩).2 = some p → p ∈ t.2.2 := by
  unfold structure_ at h
  rw [hg] at h
  dsimp only at h
  split_ifs at h
  · obtain rfl := Except.ok.inj h
    intro ci hc; cases hc
  · obtain rfl := Except.ok.inj h
    intro ci hc
    unfold found at hc
    dsimp only at hc
    have hc := (List.mem_filter.1 hc).1
    obtain ⟨o, ho, hoc⟩ := List.mem_filterMap.1 hc
    rw [id] at hoc
    subst hoc
    obtain ⟨row, hrow, hin⟩ := List.mem_flatten.1 ho
    have hrow := (List.mem_filter.1 hrow).1
    obtain ⟨row', hrow', rfl⟩ := List.mem_map.1 hrow
    obtain ⟨o', ho', e⟩ := List.mem_map.1 hin
    obtain ⟨x, rfl, hx⟩ := Option.map_eq_some_iff.1 e
    have hmem : some x ∈ (styles H V fills).flatten := List.mem_flatten.2 ⟨row', hrow', ho'⟩
    unfold styles at hrow'
    obtain ⟨i, _, rfl⟩ := List.mem_map.1 hrow'
    obtain ⟨j, _, e2⟩ := List.mem_map.1 ho'
    obtain ⟨R, hR, rfl⟩ := Option.map_eq_some_iff.1 e2
    unfold boxAt at hR
    dsimp only at hR
    split_ifs at hR
    obtain rfl := Option.some.inj hR
    exact ⟨i, j, _, hx.symm, fun p hp => List.mem_filterMap.2 ⟨_, hmem, hp⟩⟩

theorem fb_key_ten (d : Dict St) (n : ℕ) (Z : ℕ → ℚ) (hZ : ∀ i ≤ n, ∃ m : ℤ, Z i = m / 10) (hd : ∀ e ∈ d, ∃ i ≤ n, e.1 = Z i) (i : ℕ) : round1 ((keys d).getD i 0) = (keys d).getD i 0 := by
  by_cases h : i < (keys d).length
  · have hm : (keys d).getD i 0 ∈ keys d := by
      rw [List.getD_eq_getElem _ _ h]; exact List.getElem_mem h
    unfold keys at hm
    obtain ⟨e, he, h2⟩ := List.mem_map.1 ((sortBy_perm _ _).subset hm)
    obtain ⟨j, hj, h3⟩ := hd e he
    have : round1 ((keys d).getD i 0) = (keys d).getD i 0 ↔ round1 (Z j) = Z j := by
      rw [← h3, h2]; rfl
    exact this.2 (rg_ten (hZ j hj))
  · rw [List.getD_eq_default _ _ (by omega)]
    exact rg_ten ⟨0, by norm_num⟩

/-- The borders drawn around the cells of a grid. -/
def GridBordered (X Y : ℕ → ℚ) (r k : ℕ) (W : ℚ) (ci : CellInfo) : Prop :=
  ∃ i < r, ∃ j < k, ci.box = gridCell X Y i j ∧ ci.top = W ∧ ci.right = W ∧ ci.bottom = W ∧ (j ≠ 0 → ci.left = W) ∧ (ci.left = W ∨ ci.left = 0)

theorem fb_structure (hg : Grid X Y r k W gap) (q : Prop) (g : List St) (h : GridGroup X Y r k W q g) (h0 : 5 ≤ gap) (c w : ℚ) (hc : 0 ≤ c) (hw : 0 ≤ w) (hgc : c ≤ gap) (hgw : w ≤ gap)
    (fills : List (Rect × ℕ)) (t : Rows × List St × List (Rect × ℕ)) (ht : structure_ c w g fills = .ok t) (ci : CellInfo) (hci : ci ∈ (found t.1).cells)
    (hbox : ci.box ∈ gridCells X Y r k) :
    GridBordered X Y r k W ci ∧ ci.bg = (pickFill ci.box ci.top ci.right ci.bottom ci.left fills).map Prod.snd ∧ ∀ p, pickFill ci.box ci.top ci.right ci.bottom ci.left fills = some p → p ∈ t.2.2 := by
  obtain ⟨H, V, hgr, ⟨a1, a2, a3⟩, b1, b2, b3⟩ := fb_group hg q g h (by linarith) c w hc hw hgc hgw
  obtain ⟨i', j', m, e, hused⟩ := fb_cells c w g fills t ht H V hgr ci hci
  obtain ⟨i, hi, h2⟩ := List.mem_flatMap.1 hbox
  obtain ⟨j, hj, h3⟩ := List.mem_map.1 h2
  have hi := List.mem_range.1 hi
  have hj := List.mem_range.1 hj
  obtain ⟨_, hV⟩ := cs_groupStrokes c w g H V hgr
  set R : Rect := ⟨(keys V).getD j' 0, (keys H).getD i' 0, (keys V).getD (j' + m.2) 0, (keys H).getD (i' + m.1) 0⟩ with hR
  have hround : R.round = R := by
    rw [hR]
    unfold Rect.round
    dsimp only
    rw [fb_key_ten V k X hg.tenX b3, fb_key_ten V k X hg.tenX b3, fb_key_ten H r Y hg.tenY a3, fb_key_ten H r Y hg.tenY a3]
  have hRc : R = gridCell X Y i j := by
    rw [h3, e]
    exact hround.symm
  have hk := hg.cols
  have x0 := rg_leX hg (by linarith) 0 j (by omega) (by omega)
  have x1 := rg_leX hg (by linarith) (j + 1) k (by omega) (le_refl _)
  have y0 := rg_leY hg (by linarith) 0 i (by omega) (by omega)
  have y1 := rg_leY hg (by linarith) (i + 1) r (by omega) (le_refl _)
  have gx := hg.gapX j hj
  have gy := hg.gapY i hi
  have top : ∀ n ≤ r, widthOf false (X j) (X (j + 1)) (Full.strokesAt H (Y n)) = W := by
    intro n hn
    obtain ⟨l, hl, hcar⟩ := a1 n hn
    exact fb_width false H a2 (Y n) l hl _ _ _ _ _ hcar x0 x1 (by linarith)
  have side : ∀ n ≤ k, (n = 0 → q) → widthOf true (Y i) (Y (i + 1)) (Full.strokesAt V (X n)) = W := by
    intro n hn hq
    obtain ⟨l, hl, hcar⟩ := b1 n hn hq
    exact fb_width true V b2 (X n) l hl _ _ _ _ _ hcar y0 y1 (by linarith)
  rw [hRc] at e hused
  have hcr : (gridCell X Y i j).round = gridCell X Y i j := by rw [← hRc]; exact hround
  refine ⟨⟨i, hi, j, hj, h3.symm, ?_, ?_, ?_, ?_, ?_⟩, ?_⟩
  · rw [e]; exact top i (by omega)
  · rw [e]; exact side (j + 1) (by omega) (fun h => by omega)
  · rw [e]; exact top (i + 1) (by omega)
  · intro hj0
    rw [e]; exact side j (by omega) (fun h => absurd h hj0)
  · rw [e]
    show widthOf true (Y i) (Y (i + 1)) (Full.strokesAt V (X j)) = W ∨ widthOf true (Y i) (Y (i + 1)) (Full.strokesAt V (X j)) = 0
    rcases cs_width _ V hV true (Y i) (Y (i + 1)) (X j) with h1 | ⟨s, ⟨hs1, _⟩, hs2, _⟩
    · exact Or.inr h1
    · left
      rw [← hs2]
      rcases (h.2 s).1 hs1 with ⟨n, _, rfl⟩ | ⟨n, _, _, rfl⟩ <;> rfl
  · rw [e]
    unfold cellStyle at hused ⊢
    dsimp only at hused ⊢
    rw [hcr]
    exact ⟨rfl, hused⟩

/-- Marks stay. -/
theorem fb_loop_done (c : Full.Cfg) (fills : List (Rect × ℕ)) (gs : List (List St)) (ty : Types) (t : List Found × Types) (h : latticeLoop c fills ty gs = .ok t) : ∀ s ∈ ty.done, s ∈ t.2.done := by
  induction gs generalizing ty t with
  | nil =>
    unfold latticeLoop at h
    obtain rfl := Except.ok.inj h
    exact fun s hs => hs
  | cons g gs ih =>
    unfold latticeLoop at h
    split at h
    · cases h
    · split_ifs at h with htr
      · split at h
        · cases h
        · rename_i r hr
          obtain rfl := Except.ok.inj h
          exact fun s hs => ih _ _ hr s (List.mem_append_left _ hs)
      · exact ih _ _ h

/-- The tables found come from groups of strokes, and the fills used are marked. -/
theorem fb_loop_mem (c : Full.Cfg) (fills : List (Rect × ℕ)) (gs : List (List St)) (ty : Types) (t : List Found × Types) (h : latticeLoop c fills ty gs = .ok t) :
    ∀ f ∈ t.1, ∃ g ∈ gs, ∃ u, structure_ c.base.clear c.base.maxW g (fills.filter fun f => (Lattice.box g).contains f.1) = .ok u ∧ f = found u.1 ∧ (found u.1).box.truthy = true ∧
      ∀ p ∈ u.2.2, Sh.fill p.1 p.2 ∈ t.2.done := by
  induction gs generalizing ty t with
  | nil =>
    unfold latticeLoop at h
    obtain rfl := Except.ok.inj h
    intro f hf; cases hf
  | cons g gs ih =>
    unfold latticeLoop at h
    split at h
    · cases h
    · rename_i u hu
      split_ifs at h with htr
      · split at h
        · cases h
        · rename_i r hr
          obtain rfl := Except.ok.inj h
          intro f hf
          rcases List.mem_cons.1 hf with rfl | hf
          · refine ⟨g, by simp, u, hu, rfl, htr, fun p hp => fb_loop_done c fills _ _ _ hr _ ?_⟩
            exact List.mem_append_right _ (List.mem_append_right _ (List.mem_map.2 ⟨p, hp, rfl⟩))
          · obtain ⟨g', hg', rest⟩ := ih _ _ hr f hf
            exact ⟨g', by simp [hg'], rest⟩
      · intro f hf
        obtain ⟨g', hg', rest⟩ := ih _ _ h f hf
        exact ⟨g', by simp [hg'], rest⟩

/-- The group of the grid. -/
theorem fb_lattice (c : Full.Cfg) (hi : ∀ l, (c.base.lay.iter l).Perm l) (hd : 0 ≤ c.conn) (hc : 0 ≤ c.base.clear) (hw : 0 ≤ c.base.maxW) (hg : Grid X Y r k W gap)
    (hgd : W + 2 * c.conn ≤ gap) (hgw : c.base.maxW + 1 / 20 ≤ gap) (hgc : c.base.clear ≤ gap) (h5 : 5 ≤ gap) (sub : Sub) (others : List St)
    (hp : sub.strokes.Perm (gridStrokes X Y r k W ++ others)) (ho : OtherLines c.conn X Y r k W others) (ty : Types) (f : Found) (ty' : Types)
    (h : latticeStage c ty sub = .ok ([f], ty')) (hcells : f.cells.map CellInfo.box = gridCells X Y r k) :
    ∀ ci ∈ f.cells, GridBordered X Y r k W ci ∧
      ci.bg = (pickFill ci.box ci.top ci.right ci.bottom ci.left (sub.fills.filter fun f => (gridFrame X Y r k W).contains f.1)).map Prod.snd ∧
      ∀ p, pickFill ci.box ci.top ci.right ci.bottom ci.left (sub.fills.filter fun f => (gridFrame X Y r k W).contains f.1) = some p → Sh.fill p.1 p.2 ∈ ty'.done := by
  classical
  have hW := hg.width
  have hpage := (rg_page (w := c.base.maxW) hg hd hgd hgw (by linarith) hp ho).1
  obtain ⟨gs, hgs, hpart, hclass, _⟩ := rp_groups hpage (by linarith) (le_refl _)
  have othNot : ∀ o ∈ others, o ∉ gridStrokes X Y r k W := fun o h1 h2 => ho.away o h1 o h2 (rg_near_self hd (ho.proper o h1).1)
  have othNd : others.Nodup := by
    refine List.Pairwise.imp_of_mem ?_ ho.apart
    rintro a b ha hb h rfl
    exact h (rg_near_self hd (ho.proper a ha).1)
  have hnd : sub.strokes.Nodup := by
    rw [hp.nodup_iff, List.nodup_append]
    exact ⟨rg_nodup hg (by linarith), othNd, fun a ha b hb e => othNot b hb (e ▸ ha)⟩
  intro ci hci
  unfold latticeStage at h
  split_ifs at h
  · have := congrArg Prod.fst (Except.ok.inj h)
    cases this
  · obtain ⟨g, hgm, u, hu, hf, htr, hdone⟩ := fb_loop_mem c sub.fills _ ty _ h f (by simp)
    have hgm := cs_remove_mem c.base.lay.iter hi Lattice.box _ g hgm
    unfold Lattice.strokeGroups at hgm
    rw [hgs] at hgm
    dsimp only at hgm
    obtain ⟨ix, hix, rfl⟩ := List.mem_map.1 hgm
    have hixnd : (c.base.lay.iter ix).Nodup := by
      rw [(hi ix).nodup_iff]
      have := hpart.nodup_iff.2 List.nodup_range
      rw [List.nodup_flatten] at this
      exact this.1 ix hix
    rcases hclass ix hix with ⟨t, hm⟩ | ⟨n, hn, rfl, _⟩
    · have hmi : Main sub.strokes (gridOwn (gridStrokes X Y r k W) sub.strokes) (fun i => decide (sub.strokes[i]? = some (Seg.stroke X Y ⟨false, W, 0, 0, r⟩))) 1 t (c.base.lay.iter ix) :=
        ⟨hm.lt, fun i h => hm.sub i ((hi ix).subset h), fun i h1 h2 h3 => (hi ix).mem_iff.2 (hm.all i h1 h2 h3)⟩
      have hbx : Lattice.box ((c.base.lay.iter ix).filterMap (sub.strokes[·]?)) = gridFrame X Y r k W := rp_box hpage (by linarith) (le_refl _) t _ hmi
      rw [hbx] at hu
      have key := fb_structure hg (Seg.stroke X Y ⟨false, W, 0, 0, r⟩ ∈ (c.base.lay.iter ix).filterMap (sub.strokes[·]?)) ((c.base.lay.iter ix).filterMap (sub.strokes[·]?)) ⟨?_, ?_⟩ h5
        c.base.clear c.base.maxW hc hw hgc (by linarith) _ u hu ci (by rw [← hf]; exact hci) ?_
      · exact ⟨key.1, key.2.1, fun p hp => hdone p (key.2.2 p hp)⟩
      · refine hixnd.filterMap ?_
        intro a b s ha hb
        obtain ⟨l1, e1⟩ := List.getElem?_eq_some_iff.1 ha
        obtain ⟨l2, e2⟩ := List.getElem?_eq_some_iff.1 hb
        exact (List.Nodup.getElem_inj_iff hnd).1 (e1.trans e2.symm)
      · intro s
        constructor
        · intro hs
          obtain ⟨n, hn, e⟩ := List.mem_filterMap.1 hs
          obtain ⟨_, ho'⟩ := hm.sub n ((hi ix).subset hn)
          obtain ⟨_, s', hs', e'⟩ := (rg_own _ _ _ _).1 ho'
          rw [e] at e'
          obtain rfl := Option.some.inj e'
          rcases (rg_mem s).1 hs' with h1 | ⟨j, hj, rfl⟩
          · exact Or.inl h1
          · exact Or.inr ⟨j, hj, fun e => by subst e; exact hs, rfl⟩
        · have key : ∀ s ∈ gridStrokes X Y r k W, s ≠ Seg.stroke X Y ⟨false, W, 0, 0, r⟩ → s ∈ (c.base.lay.iter ix).filterMap (sub.strokes[·]?) := by
            intro s hs hne
            obtain ⟨n, hn⟩ := List.mem_iff_getElem?.1 (hp.symm.subset (List.mem_append_left others hs))
            refine List.mem_filterMap.2 ⟨n, (hi ix).mem_iff.2 (hm.all n (List.getElem?_eq_some_iff.1 hn).1 ?_ ?_), hn⟩
            · have := hm.lt
              obtain rfl : t = 0 := by omega
              exact (rg_own _ _ _ _).2 ⟨rfl, s, hs, hn⟩
            · rw [hn]
              simpa using hne
          have inj : ∀ a ∈ gridSegs r k W, ∀ b ∈ gridSegs r k W, a ≠ b → Seg.stroke X Y a ≠ Seg.stroke X Y b := fun a ha b hb hne e => hne (rg_inj hg (by linarith) a b ha hb e)
          have c0 : (⟨false, W, 0, 0, r⟩ : Seg) ∈ gridSegs r k W := by
            unfold gridSegs
            exact List.mem_append_right _ (List.mem_map.2 ⟨0, List.mem_range.2 (by omega), rfl⟩)
          rintro (⟨i, hi', rfl⟩ | ⟨j, hj, hq, rfl⟩)
          · refine key _ ((rg_mem _).2 (Or.inl ⟨i, hi', rfl⟩)) (inj _ ?_ _ c0 (by simp))
            unfold gridSegs
            exact List.mem_append_left _ (List.mem_map.2 ⟨i, List.mem_range.2 (by omega), rfl⟩)
          · by_cases hj0 : j = 0
            · subst hj0
              exact hq rfl
            · refine key _ ((rg_mem _).2 (Or.inr ⟨j, hj, rfl⟩)) (inj _ ?_ _ c0 (by simp [hj0]))
              unfold gridSegs
              exact List.mem_append_right _ (List.mem_map.2 ⟨j, List.mem_range.2 (by omega), rfl⟩)
      · rw [← hcells]
        exact List.mem_map_of_mem hci
    · exfalso
      have e1 : c.base.lay.iter [n] = [n] := List.perm_singleton.1 (hi [n])
      rw [e1] at hu
      have e2 : ([n] : List ℕ).filterMap (sub.strokes[·]?) = [sub.strokes[n]] := by simp [List.getElem?_eq_getElem hn]
      rw [e2] at hu
      obtain ⟨u', hu', hsame⟩ := fx_structure c.base.clear c.base.maxW [sub.strokes[n]] _ [] (rp_single _ _ _)
      rw [hu] at hu'
      obtain rfl := Except.ok.inj hu'
      rw [hsame.box] at htr
      revert htr
      decide

end

end FBorders

end Props
