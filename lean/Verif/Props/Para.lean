import Verif.Para
import Mathlib.Tactic.IntervalCases
import Mathlib.Data.List.GetD
/-! # C46, C51, C52, C54: horizontal layout and content of paragraphs -/

namespace Props
open Para Py

/-! ## C46 -/

theorem internal_align (f : ℚ) (t : Thr) (rows : List (List Ext)) :
    (internal f t rows).1 ∈ [Align.none, .unknown, .left, .right, .center, .justify] := by
  cases (internal f t rows).1 <;> simp

theorem external_align (f : ℚ) (t : Thr) (b c : Ext) : (external f t b c).1 ∈ [Align.left, .right, .center] := by
  unfold external
  dsimp only
  split
  · simp
  · split <;> simp

/-- **C46**: every paragraph gets one of the four alignments, whatever its lines and the thresholds. -/
theorem C46_definite_alignment (f : ℚ) (t : Thr) (b c : Ext) (rows : List (List Ext)) (lines : List Ext) :
    (parse f t b c rows lines).align ∈ [Align.left, .right, .center, .justify] := by
  have he := external_align f t b c
  unfold parse
  dsimp only
  generalize (internal f t rows).1 = i
  generalize (external f t b c).1 = e at *
  cases i <;> cases e <;> simp_all

/-- **C46**: the indents are between zero and the free space on each side, and together with the block they fit into the container
up to rounding (0.1pt) if the block lies inside it. `f = 1` for horizontal text, `-1` for vertical text. -/
theorem C46_indents_fit (f : ℚ) (t : Thr) (b c : Ext) (rows : List (List Ext)) (lines : List Ext) :
    let s := parse f t b c rows lines
    0 ≤ s.left ∧ s.left ≤ s.leftTotal ∧ 0 ≤ s.right ∧ s.right ≤ s.rightTotal ∧
    (0 ≤ (b.1 - c.1) * f → 0 ≤ (c.2 - b.2) * f →
      |s.leftTotal - (b.1 - c.1) * f| ≤ 1 / 20 ∧ |s.rightTotal - (c.2 - b.2) * f| ≤ 1 / 20 ∧
      s.left + (b.2 - b.1) * f + s.right ≤ (c.2 - c.1) * f + 1 / 10) := by
  have hd := C46_definite_alignment f t b c rows lines
  have key : ∃ dl dr, dl = max (round1 ((b.1 - c.1) * f)) 0 ∧ dr = max (round1 ((c.2 - b.2) * f)) 0 ∧
      (parse f t b c rows lines).leftTotal = dl ∧ (parse f t b c rows lines).rightTotal = dr ∧
      ((parse f t b c rows lines).left = dl ∨ (parse f t b c rows lines).left = min dl dr ∨ (parse f t b c rows lines).left = 0) ∧
      ((parse f t b c rows lines).right = dr ∨ (parse f t b c rows lines).right = min dl dr ∨
        (parse f t b c rows lines).right = 0) := by
    refine ⟨_, _, rfl, rfl, ?_⟩
    have e21 : (external f t b c).2.1 = max (round1 ((b.1 - c.1) * f)) 0 := rfl
    have e22 : (external f t b c).2.2 = max (round1 ((c.2 - b.2) * f)) 0 := rfl
    unfold parse
    dsimp only
    rw [e21, e22]
    generalize (if (if (internal f t rows).1 ≠ .unknown then (internal f t rows).1 else (external f t b c).1) = .none then
      Align.left else if (internal f t rows).1 ≠ .unknown then (internal f t rows).1 else (external f t b c).1) = a
    cases a <;> simp
  obtain ⟨dl, dr, hdl, hdr, h1, h2, h3, h4⟩ := key
  have n1 : 0 ≤ dl := hdl ▸ le_max_right _ _
  have n2 : 0 ≤ dr := hdr ▸ le_max_right _ _
  have m1 : min dl dr ≤ dl := min_le_left _ _
  have m2 : min dl dr ≤ dr := min_le_right _ _
  have m3 : 0 ≤ min dl dr := le_min n1 n2
  have hl : 0 ≤ (parse f t b c rows lines).left ∧ (parse f t b c rows lines).left ≤ dl := by
    rcases h3 with h | h | h <;> rw [h] <;> constructor <;> linarith
  have hr : 0 ≤ (parse f t b c rows lines).right ∧ (parse f t b c rows lines).right ≤ dr := by
    rcases h4 with h | h | h <;> rw [h] <;> constructor <;> linarith
  dsimp only
  rw [h1, h2]
  refine ⟨hl.1, hl.2, hr.1, hr.2, ?_⟩
  intro i1 i2
  have e1 : dl = round1 ((b.1 - c.1) * f) := by rw [hdl, max_eq_left (round1_nonneg i1)]
  have e2 : dr = round1 ((c.2 - b.2) * f) := by rw [hdr, max_eq_left (round1_nonneg i2)]
  have a1 := abs_round1_sub ((b.1 - c.1) * f)
  have a2 := abs_round1_sub ((c.2 - b.2) * f)
  refine ⟨by rw [e1]; exact a1, by rw [e2]; exact a2, ?_⟩
  rw [abs_le] at a1 a2
  have : (b.2 - b.1) * f = (c.2 - c.1) * f - (b.1 - c.1) * f - (c.2 - b.2) * f := by ring
  rw [this]
  linarith [hl.2, hr.2, a1.2, a2.2]

/-- Default thresholds (Page.py L78-81). -/
def thr0 : Thr := ⟨5, 1, 1, 2⟩

/-- Non-vacuity: three rows, justified, with a short last row; and a single centred line. -/
example : (parse 1 thr0 (50, 150) (0, 300) [[(50, 150)], [(50, 150)], [(50, 100)]] [(50, 150), (50, 150), (50, 100)]).align = .justify ∧
    parse 1 thr0 (100, 200) (0, 300) [[(100, 200)]] [(100, 200)] = ⟨.center, 0, 0, 100, 100, 0, []⟩ := by decide +kernel

/-! ## C52: where lines start -/

/-- Start of the first row and of the other rows of a left-aligned paragraph in Word: left indent plus first line indent, and left
indent. -/
def startFirst (s : HSp) : ℚ := (indents s).1 + (indents s).2.2
def startOther (s : HSp) : ℚ := (indents s).1

theorem foldl_min_le (l : List ℚ) : ∀ x, l.foldl min x ≤ x ∧ ∀ y ∈ l, l.foldl min x ≤ y := by
  induction l with
  | nil => intro x; simp
  | cons a l ih =>
    intro x
    obtain ⟨h1, h2⟩ := ih (min x a)
    refine ⟨le_trans h1 (min_le_left _ _), ?_⟩
    intro y hy
    rcases List.mem_cons.1 hy with rfl | hy
    · exact le_trans h1 (min_le_right _ _)
    · exact h2 y hy

theorem le_foldl_max (l : List ℚ) : ∀ x, x ≤ l.foldl max x ∧ ∀ y ∈ l, y ≤ l.foldl max x := by
  induction l with
  | nil => intro x; simp
  | cons a l ih =>
    intro x
    obtain ⟨h1, h2⟩ := ih (max x a)
    refine ⟨le_trans (le_max_left _ _) h1, ?_⟩
    intro y hy
    rcases List.mem_cons.1 hy with rfl | hy
    · exact le_trans (le_max_right _ _) h1
    · exact h2 y hy

theorem spread_bound (l : List ℚ) (x y : ℚ) (hx : x ∈ l) (hy : y ∈ l) : |x - y| ≤ |spread l| := by
  cases l with
  | nil => simp at hx
  | cons a l =>
    unfold spread
    obtain ⟨m1, m2⟩ := foldl_min_le l a
    obtain ⟨M1, M2⟩ := le_foldl_max l a
    have lo : ∀ z ∈ a :: l, l.foldl min a ≤ z := by
      intro z hz; rcases List.mem_cons.1 hz with rfl | hz
      · exact m1
      · exact m2 z hz
    have hi : ∀ z ∈ a :: l, z ≤ l.foldl max a := by
      intro z hz; rcases List.mem_cons.1 hz with rfl | hz
      · exact M1
      · exact M2 z hz
    rw [abs_of_nonneg (a := l.foldl max a - l.foldl min a) (by linarith), abs_le]
    constructor <;> linarith [lo x hx, lo y hy, hi x hx, hi y hy]

theorem decideAlign_some {n : ℕ} {l r c : Bool} {fl v : ℚ} (h : (decideAlign n l r c fl).2 = some v) :
    (decideAlign n l r c fl).1 = .left ∧ l = true ∧ v = fl := by
  cases l <;> cases r <;> cases c <;> simp_all [decideAlign]

/-- What a set `first_line_space` tells. -/
theorem internal_first (f : ℚ) (t : Thr) (rows : List (List Ext)) (v : ℚ) (h : (internal f t rows).2 = some v) :
    (internal f t rows).1 = .left ∧ 2 ≤ rows.length ∧
    v = ((rows.getD 0 []).headD (0, 0)).1 - ((rows.getD 1 []).headD (0, 0)).1 ∧
    ∀ i j, 1 ≤ i → 1 ≤ j → i < rows.length → j < rows.length →
      |((rows.getD i []).headD (0, 0)).1 - ((rows.getD j []).headD (0, 0)).1| ≤ t.left := by
  unfold internal at h ⊢
  split at h
  · simp at h
  rename_i h1
  split at h
  · simp at h
  rename_i h2
  rw [if_neg h1, if_neg h2]
  rw [not_lt] at h2
  dsimp only at h ⊢
  obtain ⟨h0, h4, h⟩ := decideAlign_some h
  · rw [h0]
    have hget : ∀ i, i < rows.length → (rows.map fun r => (r.headD (0, 0)).1).getD i 0 = ((rows.getD i []).headD (0, 0)).1 := by
      intro i hi
      rw [List.getD_eq_getElem _ _ (by simpa using hi), List.getElem_map, List.getD_eq_getElem _ _ hi]
    refine ⟨rfl, h2, ?_, ?_⟩
    · rw [h, hget 0 (by omega), hget 1 (by omega)]
    · intro i j hi hj hil hjl
      have h5 := of_decide_eq_true h4
      refine le_trans ?_ h5
      have hmem : ∀ k, 1 ≤ k → k < rows.length → ((rows.getD k []).headD (0, 0)).1 ∈
          (if 3 ≤ rows.length then (rows.map fun r => (r.headD (0, 0)).1).drop 1 else rows.map fun r => (r.headD (0, 0)).1) := by
        intro k hk hkl
        rw [← hget k hkl, List.getD_eq_getElem _ _ (by simpa using hkl)]
        split
        · rw [List.mem_iff_getElem]
          refine ⟨k - 1, by simp; omega, ?_⟩
          rw [List.getElem_drop]
          congr 1; omega
        · exact List.getElem_mem _
      exact spread_bound _ _ _ (hmem i hi hil) (hmem j hj hjl)

/-- **C52** (partial). For a horizontal left-aligned paragraph whose first row is *not* indented to the right of the second one
(none or hanging indent), every row starts where it does in the PDF: the first up to `lines_left_aligned_threshold`, the others up
to twice that. `b0` is the block's left edge, the smallest start. -/
theorem C52_row_starts_partial (t : Thr) (b0 b1 : ℚ) (c : Ext) (rows : List (List Ext)) (lines : List Ext) (v : ℚ)
    (hv : (internal 1 t rows).2 = some v) (hneg : v ≤ 0)
    (hb : ∀ i < rows.length, b0 ≤ ((rows.getD i []).headD (0, 0)).1)
    (hb' : ∃ i < rows.length, b0 = ((rows.getD i []).headD (0, 0)).1) :
    let s := parse 1 t (b0, b1) c rows lines
    let trueStart := fun i => s.left + (((rows.getD i []).headD (0, 0)).1 - b0)
    |startFirst s - trueStart 0| ≤ t.left ∧ ∀ i, 1 ≤ i → i < rows.length → |startOther s - trueStart i| ≤ 2 * t.left := by
  obtain ⟨ha, hlen, hve, hsp⟩ := internal_first 1 t rows v hv
  have hf : (parse 1 t (b0, b1) c rows lines).firstLine = v := by
    unfold parse
    dsimp only
    rw [ha, hv]
    simp
  have ht : 0 ≤ t.left := le_trans (abs_nonneg _) (hsp 1 1 (le_refl _) (le_refl _) (by omega) (by omega))
  dsimp only
  unfold startFirst startOther indents
  dsimp only
  rw [hf]
  generalize (parse 1 t (b0, b1) c rows lines).left = L
  generalize hr : (fun i => ((rows.getD i []).headD (0, 0)).1) = r at *
  have hr' : ∀ i, ((rows.getD i []).headD (0, 0)).1 = r i := fun i => by rw [← hr]
  simp only [hr'] at *
  obtain ⟨k, hk, hbk⟩ := hb'
  have h0 : b0 ≤ r 0 := hb 0 (by omega)
  have h0' : r 0 ≤ b0 + t.left := by
    rcases Nat.eq_zero_or_pos k with rfl | hk1
    · linarith
    · have := hsp 1 k (le_refl _) hk1 (by omega) hk
      rw [abs_le] at this
      linarith [this.2]
  refine ⟨?_, ?_⟩
  · rw [abs_le]; constructor <;> linarith
  · intro i hi hil
    have := hsp 1 i (le_refl _) hi (by omega) hil
    rw [abs_le] at this ⊢
    constructor <;> linarith [this.1, this.2]

/-- Non-vacuity: a hanging indent of 20pt. -/
example : (internal 1 thr0 [[(50, 250)], [(70, 260)], [(70, 200)]]).2 = some (-20) := by decide +kernel

/-- **C52 is false** for an ordinary first line indent: the whole paragraph is shifted to the left by the indent – the first row
starts at the block's left edge instead of 20pt to the right, the others 20pt to the left of it. With a block at the left margin the
written left indent is negative. -/
theorem C52_refuted_first_line_indent :
    ∃ (rows : List (List Ext)) (lines : List Ext), rows = [[(70, 250)], [(50, 260)], [(50, 200)]] ∧
      let s := parse 1 thr0 (50, 260) (50, 550) rows lines
      s.align = .left ∧ (indents s).1 = -20 ∧ startFirst s = 0 ∧ startOther s = -20 :=
  ⟨_, [(70, 250), (50, 260), (50, 200)], rfl, by decide +kernel⟩

/-- **C52 is false** for vertical text: the sign of the first line indent is wrong (`f` is missing), so a hanging indent is treated
like an ordinary one. Text runs upwards from y = 500; the first row starts at 500, the others at 480 (20pt further in). -/
theorem C52_refuted_vertical :
    ∃ (rows : List (List Ext)) (lines : List Ext), rows = [[(500, 300)], [(480, 290)], [(480, 350)]] ∧
      let s := parse (-1) thr0 (500, 290) (600, 100) rows lines
      s.align = .left ∧ s.left = 100 ∧ startFirst s = 100 ∧ startOther s = 80 :=
  ⟨_, [(500, 300), (480, 290), (480, 350)], rfl, by decide +kernel⟩

/-! ## C54: tab stops -/

/-- The tab key in Word: the cursor moves to the next stop to the right, if there is one. -/
def pressTab (stops : List ℚ) (x : ℚ) : ℚ := (stops.find? fun t => decide (x < t)).getD x

def pressTabs (stops : List ℚ) : ℕ → ℚ → ℚ
  | 0, x => x
  | n + 1, x => pressTabs stops n (pressTab stops x)

theorem pressTabs_block (P Q R : List ℚ) : ∀ c, (∀ p ∈ P, p ≤ c) → (c :: Q).Pairwise (· < ·) →
    pressTabs (P ++ Q ++ R) Q.length c = Q.getLastD c := by
  induction Q generalizing P with
  | nil => intro c _ _; simp [pressTabs]
  | cons q Q ih =>
    intro c hP hQ
    rw [List.pairwise_cons] at hQ
    have hp : pressTab (P ++ (q :: Q) ++ R) c = q := by
      unfold pressTab
      have h1 : P.find? (fun t => decide (c < t)) = none := by
        rw [List.find?_eq_none]; intro x hx; simpa using hP x hx
      rw [List.append_assoc, List.find?_append, h1]
      simp [hQ.1 q (by simp)]
    rw [List.length_cons, pressTabs, hp]
    have e : P ++ (q :: Q) ++ R = (P ++ [q]) ++ Q ++ R := by simp
    rw [e, ih (P ++ [q]) q ?_ hQ.2]
    · cases Q <;> simp [List.getLastD]
    · intro p hp'
      rcases List.mem_append.1 hp' with h | h
      · exact le_trans (hP p h) (hQ.1 q (by simp)).le
      · simp at h; exact h.le

theorem addStop_split (stops : List ℚ) (pos cur : ℚ) (hs : stops.Pairwise (· < ·)) (hc : cur ∉ stops) :
    ∃ P Q R, stops = P ++ Q ++ R ∧ (∀ p ∈ P, p ≤ cur) ∧ (cur :: Q).Pairwise (· < ·) ∧ (∀ q ∈ Q, q ≤ pos + 1) ∧
      (∀ r ∈ R, pos + 1 < r) ∧ addStop.go pos cur stops = Q.length := by
  have hcond : ∀ t : ℚ, (t < pos ∨ |t - pos| ≤ 1) ↔ t ≤ pos + 1 := by
    intro t
    constructor
    · rintro (h | h)
      · linarith
      · rw [abs_le] at h; linarith [h.2]
    · intro h
      by_cases h2 : t < pos
      · exact Or.inl h2
      · right; rw [abs_le]; constructor <;> linarith
  have step2 : ∀ l : List ℚ, l.Pairwise (· < ·) → (∀ t ∈ l, cur < t) → ∃ Q R, l = Q ++ R ∧ (∀ q ∈ Q, q ≤ pos + 1) ∧
      (∀ r ∈ R, pos + 1 < r) ∧ addStop.go pos cur l = Q.length := by
    intro l
    induction l with
    | nil => intro _ _; exact ⟨[], [], rfl, by simp, by simp, rfl⟩
    | cons t l ih =>
      intro hp hl
      rw [List.pairwise_cons] at hp
      by_cases ht : t ≤ pos + 1
      · obtain ⟨Q, R, e, h1, h2, h3⟩ := ih hp.2 fun x hx => hl x (by simp [hx])
        refine ⟨t :: Q, R, by simp [e], ?_, h2, ?_⟩
        · intro q hq; rcases List.mem_cons.1 hq with rfl | hq
          · exact ht
          · exact h1 q hq
        · rw [addStop.go, if_neg (not_lt.2 (hl t (by simp)).le), if_pos ((hcond t).2 ht), h3, List.length_cons]; omega
      · refine ⟨[], t :: l, rfl, by simp, ?_, ?_⟩
        · intro r hr; rcases List.mem_cons.1 hr with rfl | hr
          · exact not_le.1 ht
          · exact lt_trans (not_le.1 ht) (hp.1 r hr)
        · rw [addStop.go, if_neg (not_lt.2 (hl t (by simp)).le), if_neg (fun h => ht ((hcond t).1 h))]; rfl
  induction stops with
  | nil => exact ⟨[], [], [], rfl, by simp, by simp, by simp, by simp, rfl⟩
  | cons t l ih =>
    rw [List.pairwise_cons] at hs
    by_cases ht : t < cur
    · obtain ⟨P, Q, R, e, h1, h2, h3, h4, h5⟩ := ih hs.2 fun h => hc (by simp [h])
      refine ⟨t :: P, Q, R, by simp [e], ?_, h2, h3, h4, ?_⟩
      · intro p hp; rcases List.mem_cons.1 hp with rfl | hp
        · exact ht.le
        · exact h1 p hp
      · rw [addStop.go, if_pos ht, h5]
    · have ht' : cur < t := lt_of_le_of_ne (not_lt.1 ht) fun h => hc (by simp [h])
      have hall : ∀ x ∈ t :: l, cur < x := by
        intro x hx; rcases List.mem_cons.1 hx with rfl | hx
        · exact ht'
        · exact lt_trans ht' (hs.1 x hx)
      obtain ⟨Q, R, e, h1, h2, h3⟩ := step2 (t :: l) (List.pairwise_cons.2 hs) hall
      have hQ : ∀ q ∈ Q, q ∈ t :: l := fun q hq => by rw [e]; exact List.mem_append_left _ hq
      refine ⟨[], Q, R, by simpa using e, by simp, ?_, h1, h2, h3⟩
      rw [List.pairwise_cons]
      refine ⟨fun q hq => hall q (hQ q hq), ?_⟩
      have := List.pairwise_cons.2 hs
      rw [e, List.pairwise_append] at this
      exact this.1

/-- **C54** (partial): no tab is written before a line that starts within 1pt of the left edge, nor when all tab stops are behind the cursor or more than 1pt to the right of the target. -/
theorem C54_no_needless_tab_partial (stops : List ℚ) (pos cur : ℚ) (h : pos < 1 ∨ ∀ s ∈ stops, s < cur ∨ pos + 1 < s) : addStop stops pos cur = 0 := by
  unfold addStop
  split_ifs with h1
  · rfl
  · replace h := h.resolve_left h1
    clear h1
    induction stops with
    | nil => rfl
    | cons t l ih =>
      rw [addStop.go]
      split_ifs with g1 g2
      · exact ih fun s hs => h s (List.mem_cons_of_mem _ hs)
      · exfalso
        have h2 := (h t List.mem_cons_self).resolve_left g1
        rcases g2 with g2 | g2
        · linarith
        · linarith [le_trans (le_abs_self _) g2]
      · rfl

/-- Both cases occur: a line at the left edge, and stops that are passed or too far. -/
example : addStop [50, 100] (1 / 2) 0 = 0 ∧ addStop [50, 100] 60 55 = 0 ∧ addStop [50, 100] 60 10 = 1 := by decide +kernel

/-- **C54** (partial). If the cursor really is at `cur` and not exactly on a stop, the tabs written move it to within 1pt of the
target of every line that has a stop (up to 1pt) to the right of the cursor. -/
theorem C54_tabs_reach_target_partial (stops : List ℚ) (pos cur : ℚ) (hs : stops.Pairwise (· < ·)) (hc : cur ∉ stops) (hp : 1 ≤ pos)
    (s : ℚ) (hs1 : s ∈ stops) (hs2 : cur < s) (hs3 : |s - pos| ≤ 1) :
    |pressTabs stops (addStop stops pos cur) cur - pos| ≤ 1 := by
  obtain ⟨P, Q, R, rfl, h1, h2, h3, h4, h5⟩ := addStop_split stops pos cur hs hc
  unfold addStop
  rw [if_neg (not_lt.2 hp), h5, pressTabs_block P Q R cur h1 h2]
  rw [abs_le] at hs3
  have hsQ : s ∈ Q := by
    simp only [List.mem_append] at hs1
    rcases hs1 with (h | h) | h
    · exact absurd (h1 s h) (not_le.2 hs2)
    · exact h
    · have := h4 s h; linarith [hs3.2]
  have hne : Q ≠ [] := List.ne_nil_of_mem hsQ
  have hlast : Q.getLastD cur = Q.getLast hne := by
    rw [List.getLastD_eq_getLast?, List.getLast?_eq_getLast_of_ne_nil hne]; rfl
  rw [hlast]
  have hub := h3 _ (List.getLast_mem hne)
  have hge : s ≤ Q.getLast hne := by
    rw [List.pairwise_cons] at h2
    obtain ⟨i, hi, rfl⟩ := List.mem_iff_getElem.1 hsQ
    rw [List.getLast_eq_getElem]
    rcases Nat.lt_or_ge i (Q.length - 1) with h | h
    · exact (List.pairwise_iff_getElem.1 h2.2 i (Q.length - 1) hi (by omega) h).le
    · have : i = Q.length - 1 := by omega
      subst this; exact le_refl _
  rw [abs_le]
  constructor <;> linarith [hs3.1]

/-- Non-vacuity: cursor at 10, stops at 50 and 100, target 100: two tabs. -/
example : addStop [50, 100] 100 10 = 2 ∧ pressTabs [50, 100] 2 10 = 100 := by decide +kernel

/-- **C54 is false** for three columns in a row: after the second line the position is computed as `pos + (end - block start)`
instead of `left + (end - block start)`, so the stop of the third column is skipped and its text follows the second one directly. -/
theorem C54_refuted_third_column :
    ∃ lines : List (Ln ℕ), lines.map (·.ext) = [(0, 10), (50, 60), (100, 110)] ∧
      let s := parse 1 thr0 (0, 110) (0, 500) [[(0, 10), (50, 60), (100, 110)]] (lines.map (·.ext))
      writtenStops s = [50, 100] ∧
      makeLines s.left 0 (writtenStops s) s.left lines = [.content 1, .tab, .content 2, .content 3] :=
  ⟨[⟨(0, 10), 1, false, true⟩, ⟨(50, 60), 2, false, true⟩, ⟨(100, 110), 3, false, false⟩], by decide +kernel, by decide +kernel,
    by decide +kernel⟩

/-- **C54 is false** for vertical text: positions are compared without the direction factor, no tab is ever written. -/
theorem C54_refuted_vertical (α : Type) (left b0 : ℚ) (stops : List ℚ) (cur : ℚ) (lines : List (Ln α))
    (h : ∀ l ∈ lines, l.ext.1 ≤ b0) : Out.tab ∉ makeLines left b0 stops cur lines := by
  induction lines generalizing cur with
  | nil => simp [makeLines]
  | cons l ls ih =>
    have h0 : ¬ left < left + (l.ext.1 - b0) := by have := h l (by simp); linarith
    simp only [makeLines]
    rw [if_neg (fun hh => h0 hh.1)]
    simp only [List.replicate_zero, List.nil_append, List.mem_cons, List.mem_append, reduceCtorEq, false_or]
    rintro (hm | hm)
    · split at hm <;> simp at hm
    · exact ih _ (fun x hx => h x (by simp [hx])) hm

/-! ## C51: content of the paragraph -/

/-- The contents written, without tabs and line breaks. -/
def contents {α : Type} (l : List (Out α)) : List α := l.filterMap fun
  | .content a => some a
  | _ => none

/-- **C51**: the lines of a block are written to its paragraph each once and in order; only tabs and line breaks are added. -/
theorem C51_lines_once_in_order (α : Type) (left b0 : ℚ) (stops : List ℚ) (cur : ℚ) (lines : List (Ln α)) :
    contents (makeLines left b0 stops cur lines) = lines.map (·.content) := by
  have hrep : ∀ n, contents (List.replicate n (Out.tab : Out α)) = [] := by
    intro n; induction n with
    | zero => rfl
    | succ n ih => rw [List.replicate_succ]; exact ih
  have happ : ∀ a b : List (Out α), contents (a ++ b) = contents a ++ contents b := fun a b => by
    unfold contents; rw [List.filterMap_append]
  induction lines generalizing cur with
  | nil => rfl
  | cons l ls ih =>
    have e : ∀ rest : List (Out α), contents (.content l.content :: rest) = l.content :: contents rest := fun rest => rfl
    have eb : contents (if l.brk then [(Out.brk : Out α)] else []) = [] := by split <;> rfl
    simp only [makeLines]
    rw [happ, hrep, e, happ, eb, ih]
    rfl

/-- **C51**: line breaks. There is one flag per line; the last line never ends with a break, nor does a line followed by another one
in the same row. -/
theorem C51_line_breaks (edge delta width ratio : ℚ) (lines : List (ℚ × Bool × Bool)) (flags : List Bool)
    (h : lineBreaks edge delta width ratio lines = .ok flags) :
    flags.length = lines.length ∧ (∀ x ∈ flags.getLast?, x = false) ∧
    ∀ (i : ℕ) (l : ℚ × Bool × Bool), lines[i]? = some l → l.2.1 = true → flags[i]? = some false := by
  induction lines generalizing flags with
  | nil =>
    simp only [lineBreaks, Except.ok.injEq] at h
    subst h; simp
  | cons a ls ih =>
    cases ls with
    | nil =>
      simp only [lineBreaks, Except.ok.injEq] at h
      subst h
      refine ⟨rfl, by simp, ?_⟩
      intro i l hl _
      cases i with
      | zero => rfl
      | succ i => simp at hl
    | cons b ls =>
      obtain ⟨e, same, blank⟩ := a
      obtain ⟨e', same', blank'⟩ := b
      simp only [lineBreaks] at h
      have key : ∀ x rest, lineBreaks edge delta width ratio ((e', same', blank') :: ls) = .ok rest → flags = x :: rest →
          (same = true → x = false) →
          flags.length = ((e, same, blank) :: (e', same', blank') :: ls).length ∧ (∀ x ∈ flags.getLast?, x = false) ∧
          ∀ (i : ℕ) (l : ℚ × Bool × Bool), ((e, same, blank) :: (e', same', blank') :: ls)[i]? = some l → l.2.1 = true → flags[i]? = some false := by
        intro x rest hr hf hx
        obtain ⟨h1, h2, h3⟩ := ih rest hr
        subst hf
        have hne : rest ≠ [] := by intro h0; rw [h0] at h1; simp at h1
        refine ⟨by simp [h1], ?_, ?_⟩
        · obtain ⟨r, rs, rfl⟩ := List.exists_cons_of_ne_nil hne
          intro y hy
          rw [List.getLast?_cons_cons] at hy
          exact h2 y hy
        · intro i l hl hs
          cases i with
          | zero =>
            simp only [List.getElem?_cons_zero, Option.some.injEq] at hl
            subst hl
            simp [hx hs]
          | succ i => exact h3 i l (by simpa using hl) hs
      cases hr : lineBreaks edge delta width ratio ((e', same', blank') :: ls) with
      | error x =>
        rw [hr] at h
        split at h
        · simp [Except.map] at h
        · split at h
          · simp at h
          · simp [Except.map] at h
      | ok rest =>
        rw [hr] at h
        split at h
        · simp only [Except.map, Except.ok.injEq] at h
          exact key _ rest hr h.symm (fun _ => rfl)
        · rename_i hs
          split at h
          · simp at h
          · simp only [Except.map, Except.ok.injEq] at h
            exact key _ rest hr h.symm (fun h' => absurd h' hs)

/-- Non-vacuity: two lines in a row, a short line, a last line. -/
example : lineBreaks 100 0 100 (1/10) [(40, true, false), (100, false, false), (60, false, false), (100, false, false)] =
    .ok [false, false, true, false] := by decide +kernel

end Props
