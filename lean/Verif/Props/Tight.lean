import Verif.Props.Element
import Verif.Props.TextSpan
import Verif.Props.Para
/-! # Further theorems about containment (C25), characters under a shape (C29), boxes of split spans (C72), alignment (C46) and tab stops
(C54); written after wrong programs had passed the first versions. -/

namespace Props
open Geom Py Text Para Spec

/-! ## C25: containment -/

/-- **C25**: what "contains" means: at least the part `threshold` (rounded to two digits) of the area lies inside, and along the longer side the
element is at most 1pt longer. -/
theorem C25_element_contains (a e : El) (threshold : ℚ) :
    a.contains e threshold = true ↔ e.bbox.area ≠ 0 ∧
      threshold ≤ (roundHE (100 * ((a.bbox.inter e.bbox).area / e.bbox.area)) : ℚ) / 100 ∧
      (a.bbox.height ≤ a.bbox.width → e.bbox.width ≤ a.bbox.width + 1) ∧
      (a.bbox.width < a.bbox.height → e.bbox.height ≤ a.bbox.height + 1) := by
  unfold El.contains
  by_cases h1 : e.bbox.area = 0
  · simp [h1]
  · simp only [if_neg h1]
    by_cases h2 : (roundHE (100 * ((a.bbox.inter e.bbox).area / e.bbox.area)) : ℚ) / 100 < threshold
    · simp only [if_pos h2]
      constructor
      · intro h; cases h
      · rintro ⟨_, h, _⟩; exact absurd h2 (not_lt.2 h)
    · simp only [if_neg h2]
      by_cases h3 : a.bbox.height ≤ a.bbox.width
      · simp [h1, not_lt.1 h2, h3, not_lt.2 h3]
      · simp [h1, not_lt.1 h2, h3, not_le.1 h3]

example : El.contains ⟨⟨0, 0, 100, 50⟩, .leftRight⟩ ⟨⟨5, 5, 95, 45⟩, .leftRight⟩ (99 / 100) = true := by decide +kernel

/-- **C25**: `contained_in_bbox` selects exactly the elements covered by the box, in order. -/
theorem C25_contained_in (bbox : Rect) (hb : Proper bbox) (l : List El) (hl : ∀ e ∈ l, Proper e.bbox) :
    (Coll.containedIn bbox l).Sublist l ∧ ∀ e ∈ l, e ∈ Coll.containedIn bbox l ↔ Covers bbox e.bbox := by
  refine ⟨List.filter_sublist, fun e he => ?_⟩
  unfold Coll.containedIn
  rw [List.mem_filter, (C25_contains bbox e.bbox e.bbox).2 hb (hl e he)]
  exact ⟨fun h => h.2, fun h => ⟨he, h⟩⟩

/-! ## C29: which characters are covered -/

/-- **C29**: a character counts as covered by a shape when more than half of it, along the text direction, lies under the shape. -/
theorem C29_char_covered (c : Chr) (r : Rect) (hc : Proper c.bbox) (hr : Proper r) :
    (c.containedIn r true = true ↔ max c.bbox.y0 r.y0 ≤ min c.bbox.y1 r.y1 ∧
      c.bbox.width / 2 < min c.bbox.x1 r.x1 - max c.bbox.x0 r.x0) ∧
    (c.containedIn r false = true ↔ max c.bbox.x0 r.x0 ≤ min c.bbox.x1 r.x1 ∧
      c.bbox.height / 2 < min c.bbox.y1 r.y1 - max c.bbox.y0 r.y0) := by
  obtain ⟨hx, hy⟩ := hc
  have hce : ¬ c.bbox.isEmpty := not_empty_of_proper ⟨hx, hy⟩
  have hre : ¬ r.isEmpty := not_empty_of_proper hr
  have hin : c.bbox.inter r = if min c.bbox.x1 r.x1 < max c.bbox.x0 r.x0 ∨ min c.bbox.y1 r.y1 < max c.bbox.y0 r.y0
      then Rect.zero else ⟨max c.bbox.x0 r.x0, max c.bbox.y0 r.y0, min c.bbox.x1 r.x1, min c.bbox.y1 r.y1⟩ := by
    unfold Rect.inter
    rw [if_neg (by rintro (h | h); exacts [hce h, hre h])]
  have hw : c.bbox.width = c.bbox.x1 - c.bbox.x0 := rfl
  have hh : c.bbox.height = c.bbox.y1 - c.bbox.y0 := rfl
  unfold Chr.containedIn
  by_cases h1 : rectIn c.bbox r = true
  · simp only [if_pos h1, true_iff]
    unfold rectIn at h1
    simp only [decide_eq_true_eq] at h1
    obtain ⟨_, a1, a2, a3, a4⟩ := h1
    rw [max_eq_left a1, max_eq_left a3, min_eq_left a2, min_eq_left a4, hw, hh]
    constructor <;> constructor <;> linarith
  · simp only [if_neg h1]
    by_cases hd : min c.bbox.x1 r.x1 < max c.bbox.x0 r.x0 ∨ min c.bbox.y1 r.y1 < max c.bbox.y0 r.y0
    · rw [hin, if_pos hd]
      have z1 : Rect.zero.width = 0 := by decide +kernel
      have z2 : Rect.zero.height = 0 := by decide +kernel
      simp only [z1, z2, decide_eq_true_eq, Bool.false_eq_true, if_false, if_true]
      constructor
      · constructor
        · intro h; linarith
        · rintro ⟨h2, h3⟩; rcases hd with hd | hd <;> linarith
      · constructor
        · intro h; linarith
        · rintro ⟨h2, h3⟩; rcases hd with hd | hd <;> linarith
    · rw [hin, if_neg hd]
      push Not at hd
      simp only [Rect.width, Rect.height, decide_eq_true_eq, Bool.false_eq_true, if_false, if_true]
      constructor
      · exact ⟨fun h => ⟨hd.2, by linarith [of_decide_eq_true h]⟩, fun h => decide_eq_true (by linarith [h.2])⟩
      · exact ⟨fun h => ⟨hd.1, by linarith [of_decide_eq_true h]⟩, fun h => decide_eq_true (by linarith [h.2])⟩

example : Proper (⟨0, 0, 10, 10⟩ : Rect) ∧ Proper (⟨4, 9, 50, 10⟩ : Rect) ∧ (⟨'a', ⟨0, 0, 10, 10⟩⟩ : Chr).containedIn ⟨4, 9, 50, 10⟩ true = true ∧
    (⟨'a', ⟨0, 0, 10, 10⟩⟩ : Chr).containedIn ⟨5, 9, 50, 10⟩ true = false := by decide +kernel

/-! ## C72: boxes of the parts of a span -/

theorem ite_sublist {α : Type} (c : Prop) [Decidable c] (a : α) : (if c then [a] else []).Sublist [a] := by
  split <;> simp

/-- **C72** (partial): the parts a span is split into by a shape follow each other along the text direction without overlap, and lie inside the
span. *Missing*: that they cover the span, see `C72_refuted_box_cut`. -/
theorem C72_parts_in_order_partial (s : Span) (rect : Shape) (hs : Proper s.bbox) (ht : Tenths s.bbox) (hr : Proper rect.bbox) :
    ((s.split rect true).1.IsChain fun p q => p.bbox.x1 ≤ q.bbox.x0) ∧
    ((s.split rect false).1.IsChain fun p q => q.bbox.y1 ≤ p.bbox.y0) ∧
    ∀ h, ∀ p ∈ (s.split rect h).1, Covers s.bbox p.bbox := by
  have hse : ¬ s.bbox.isEmpty := not_empty_of_proper hs
  have hre : ¬ rect.bbox.isEmpty := not_empty_of_proper hr
  by_cases hm : (rect.bbox.inter s.bbox).truthy = false
  · have : ∀ h, (s.split rect h).1 = [s] := fun h => by unfold Span.split; rw [if_pos hm]
    rw [this, this]
    refine ⟨by simp, by simp, fun h p hp => ?_⟩
    rw [this] at hp
    obtain rfl : p = s := by simpa using hp
    exact covers_refl _
  · -- the common part
    obtain ⟨i, hi⟩ : ∃ i, rect.bbox.inter s.bbox = i := ⟨_, rfl⟩
    have hib : i.x0 ≤ i.x1 ∧ i.y0 ≤ i.y1 ∧ s.bbox.x0 ≤ i.x0 ∧ i.x1 ≤ s.bbox.x1 ∧ s.bbox.y0 ≤ i.y0 ∧ i.y1 ≤ s.bbox.y1 := by
      unfold Rect.inter at hi
      rw [if_neg (by rintro (h | h); exacts [hre h, hse h])] at hi
      dsimp only at hi
      split at hi
      · rename_i hd
        exfalso
        apply hm
        unfold Rect.inter
        rw [if_neg (by rintro (h | h); exacts [hre h, hse h])]
        dsimp only
        rw [if_pos hd]
        decide +kernel
      · rename_i hd
        push Not at hd
        rw [← hi]
        exact ⟨hd.1, hd.2, le_max_right _ _, min_le_right _ _, le_max_right _ _, min_le_right _ _⟩
    obtain ⟨b1, b2, b3, b4, b5, b6⟩ := hib
    have hround := (tenths_iff _).1 ht
    have e0 : round1 s.bbox.x0 = s.bbox.x0 := congrArg Rect.x0 hround
    have e1 : round1 s.bbox.y0 = s.bbox.y0 := congrArg Rect.y0 hround
    have e2 : round1 s.bbox.x1 = s.bbox.x1 := congrArg Rect.x1 hround
    have e3 : round1 s.bbox.y1 = s.bbox.y1 := congrArg Rect.y1 hround
    have r0 := round1_mono b1
    have r1 := round1_mono b2
    have r2 := round1_mono b3
    have r3 := round1_mono b4
    have r4 := round1_mono b5
    have r5 := round1_mono b6
    rw [e0] at r2; rw [e2] at r3; rw [e1] at r4; rw [e3] at r5
    have sub : ∀ h, ∃ L M R : Span, (s.split rect h).1.Sublist [L, M, R] ∧ L.bbox = (partBoxes s.bbox rect.bbox h).1.round ∧
        M.bbox = (partBoxes s.bbox rect.bbox h).2.1.round ∧ R.bbox = (partBoxes s.bbox rect.bbox h).2.2.round := by
      intro h
      unfold Span.split
      rw [if_neg hm]
      obtain ⟨bl, bm, br⟩ := partBoxes s.bbox rect.bbox h
      dsimp only
      refine ⟨_, _, _, List.Sublist.append (l₂ := [_, _]) (r₁ := _) (r₂ := [_]) (List.Sublist.append (l₂ := [_]) (r₂ := [_])
        (ite_sublist _ _) (ite_sublist _ _)) (ite_sublist _ _), rfl, rfl, rfl⟩
    refine ⟨?_, ?_, ?_⟩
    · obtain ⟨L, M, R, h1, h2, h3, h4⟩ := sub true
      simp only [partBoxes, hi, if_true, Rect.round] at h2 h3 h4
      refine List.Pairwise.isChain (List.Pairwise.sublist h1 ?_)
      simp only [List.pairwise_cons, List.mem_cons, List.not_mem_nil, or_false, h2, h3, h4, forall_eq_or_imp, forall_eq, List.Pairwise.nil,
        false_imp_iff, implies_true, and_true]
      exact ⟨⟨le_refl _, r0⟩, le_refl _⟩
    · obtain ⟨L, M, R, h1, h2, h3, h4⟩ := sub false
      simp only [partBoxes, hi, Bool.false_eq_true, if_false, Rect.round] at h2 h3 h4
      refine List.Pairwise.isChain (List.Pairwise.sublist h1 ?_)
      simp only [List.pairwise_cons, List.mem_cons, List.not_mem_nil, or_false, h2, h3, h4, forall_eq_or_imp, forall_eq, List.Pairwise.nil,
        false_imp_iff, implies_true, and_true]
      exact ⟨⟨le_refl _, r1⟩, le_refl _⟩
    · intro h p hp
      obtain ⟨L, M, R, h1, h2, h3, h4⟩ := sub h
      have hp' := h1.subset hp
      simp only [List.mem_cons, List.not_mem_nil, or_false] at hp'
      clear hp h1
      cases h with
      | true =>
        simp only [partBoxes, hi, if_true, Rect.round, e0, e1, e2, e3] at h2 h3 h4
        rcases hp' with rfl | rfl | rfl
        · rw [h2]; exact ⟨le_refl _, le_refl _, r0.trans r3, le_refl _⟩
        · rw [h3]; exact ⟨r2, le_refl _, r3, le_refl _⟩
        · rw [h4]; exact ⟨r2.trans r0, le_refl _, le_refl _, le_refl _⟩
      | false =>
        simp only [partBoxes, hi, Bool.false_eq_true, if_false, Rect.round, e0, e1, e2, e3] at h2 h3 h4
        rcases hp' with rfl | rfl | rfl
        · rw [h2]; exact ⟨le_refl _, r4.trans r1, le_refl _, le_refl _⟩
        · rw [h3]; exact ⟨le_refl _, r4, le_refl _, r5⟩
        · rw [h4]; exact ⟨le_refl _, le_refl _, le_refl _, r1.trans r5⟩

example : Proper (⟨0, 0, 30, 10⟩ : Rect) ∧ Tenths ⟨0, 0, 30, 10⟩ ∧ Proper (⟨10, 9, 20, 10⟩ : Rect) ∧
    ((⟨abc, ⟨0, 0, 30, 10⟩, [], 0, "", 12, 0⟩ : Span).split ⟨⟨10, 9, 20, 10⟩, 0, .undefined, ""⟩ true).1.map Span.bbox =
      [⟨0, 0, 10, 10⟩, ⟨10, 0, 20, 10⟩, ⟨20, 0, 30, 10⟩] :=
  ⟨by decide +kernel, ⟨0, 0, 300, 100, by norm_num⟩, by decide +kernel, by decide +kernel⟩

/-- **C72 is false** for the cover: a shape over less than half of the first character leaves the text and its style alone, but the box of the
span is cut: it now starts where the shape ends. -/
theorem C72_refuted_box_cut :
    ∃ (s : Span) (rect : Shape), (s.split rect true).1.map (fun p => (p.text, p.style, p.bbox)) = [("abc".toList, [], ⟨4, 0, 30, 10⟩)] ∧
      s.bbox = ⟨0, 0, 30, 10⟩ :=
  ⟨⟨abc, ⟨0, 0, 30, 10⟩, [], 0, "", 12, 0⟩, ⟨⟨-10, 9, 4, 10⟩, 0, .undefined, ""⟩, by decide +kernel, rfl⟩

/-! ## C46: which alignment -/

/-- All numbers of the list are within `t` of each other. -/
def Near1 (t : ℚ) (l : List ℚ) : Prop := ∀ x ∈ l, ∀ y ∈ l, |x - y| ≤ t

theorem foldl_max_mem (l : List ℚ) (x : ℚ) : l.foldl max x ∈ x :: l := by
  induction l generalizing x with
  | nil => simp
  | cons a l ih =>
    rw [List.foldl_cons]
    rcases List.mem_cons.1 (ih (max x a)) with h | h
    · rw [h]
      rcases max_choice x a with h' | h' <;> simp [h']
    · simp [h]

theorem foldl_min_mem (l : List ℚ) (x : ℚ) : l.foldl min x ∈ x :: l := by
  induction l generalizing x with
  | nil => simp
  | cons a l ih =>
    rw [List.foldl_cons]
    rcases List.mem_cons.1 (ih (min x a)) with h | h
    · rw [h]
      rcases min_choice x a with h' | h' <;> simp [h']
    · simp [h]

theorem spread_le_iff (t : ℚ) (l : List ℚ) (h : l ≠ []) : |spread l| ≤ t ↔ Near1 t l := by
  constructor
  · intro hs x hx y hy
    exact (spread_bound l x y hx hy).trans hs
  · intro hn
    cases l with
    | nil => exact absurd rfl h
    | cons a l => exact hn _ (foldl_max_mem l a) _ (foldl_min_mem l a)

/-- Two neighbouring lines of a row are further apart than allowed. -/
def WideGap (f sep : ℚ) (row : List Ext) : Prop := ∃ (i : ℕ) (a b : Ext), row[i]? = some a ∧ row[i + 1]? = some b ∧ sep ≤ (b.1 - a.2) * f

theorem hasGap_iff (f sep : ℚ) (row : List Ext) : hasGap f sep row = true ↔ WideGap f sep row := by
  induction row with
  | nil => simp [hasGap, WideGap]
  | cons a row ih =>
    cases row with
    | nil => simp [hasGap, WideGap]
    | cons b row =>
      simp only [hasGap, Bool.or_eq_true, decide_eq_true_eq, ih]
      constructor
      · rintro (h | ⟨i, x, y, h1, h2, h3⟩)
        · exact ⟨0, a, b, by simp, by simp, h⟩
        · exact ⟨i + 1, x, y, by simpa using h1, by simpa using h2, h3⟩
      · rintro ⟨i, x, y, h1, h2, h3⟩
        cases i with
        | zero =>
          simp only [List.getElem?_cons_zero, Option.some.injEq, Nat.zero_add, List.getElem?_cons_succ] at h1 h2
          subst h1; subst h2
          exact Or.inl h3
        | succ i => exact Or.inr ⟨i, x, y, by simpa using h1, by simpa using h2, h3⟩

/-- Start of a row, end of a row. -/
def rowStart (r : List Ext) : ℚ := (r.headD (0, 0)).1
def rowEnd (r : List Ext) : ℚ := (r.getLastD (0, 0)).2

/-- **C46**: a paragraph is justified exactly when it has at least three rows, no wide gap inside a row, the rows but the first start at the same
position and the rows but the last end at the same position (up to the thresholds). -/
theorem C46_justify_iff (f : ℚ) (t : Thr) (b c : Ext) (rows : List (List Ext)) (lines : List Ext) :
    (parse f t b c rows lines).align = .justify ↔
      (∀ r ∈ rows, ¬ WideGap f t.separate r) ∧ 3 ≤ rows.length ∧ Near1 t.left ((rows.drop 1).map rowStart) ∧
        Near1 t.right (rows.dropLast.map rowEnd) := by
  have hpa : (parse f t b c rows lines).align = .justify ↔ (internal f t rows).1 = .justify := by
    have he := external_align f t b c
    unfold parse
    dsimp only
    generalize (internal f t rows).1 = i
    generalize (external f t b c).1 = e at *
    cases i <;> cases e <;> simp_all
  rw [hpa]
  unfold internal
  by_cases hg : rows.any (hasGap f t.separate) = true
  · rw [if_pos hg]
    constructor
    · intro h; cases h
    · rintro ⟨h, _⟩
      obtain ⟨r, hr, hr'⟩ := List.any_eq_true.1 hg
      exact absurd ((hasGap_iff _ _ _).1 hr') (h r hr)
  · rw [if_neg hg]
    have hg' : ∀ r ∈ rows, ¬ WideGap f t.separate r := by
      intro r hr hw
      exact hg (List.any_eq_true.2 ⟨r, hr, (hasGap_iff _ _ _).2 hw⟩)
    by_cases h2 : rows.length < 2
    · rw [if_pos h2]
      constructor
      · intro h; cases h
      · rintro ⟨_, h, _⟩; omega
    · rw [if_neg h2]
      dsimp only
      have key : ∀ (n : ℕ) (l r c : Bool) (fl : ℚ), (decideAlign n l r c fl).1 = .justify ↔ 3 ≤ n ∧ l = true ∧ r = true := by
        intro n l r c fl
        unfold decideAlign
        by_cases hn : 3 ≤ n <;> cases l <;> cases r <;> cases c <;> simp [hn]
      rw [key]
      rw [and_iff_right hg']
      simp only [decide_eq_true_eq]
      refine and_congr_right fun h3 => ?_
      rw [if_pos h3, if_pos h3, spread_le_iff _ _ (by
        intro h
        have := congrArg List.length h
        simp at this; omega), spread_le_iff _ _ (by
        intro h
        have := congrArg List.length h
        simp at this; omega), ← List.map_drop, ← List.map_dropLast]
      rfl

example : (parse 1 thr0 (50, 260) (50, 550) [[(50, 260)], [(50, 260)], [(50, 200)]] []).align = .justify := by decide +kernel

/-- **C46**: a paragraph of one row without wide gap is aligned by the free space: centred if both sides differ by less than the
threshold, otherwise to the narrower side. -/
theorem C46_single_row (f : ℚ) (t : Thr) (b c : Ext) (row : List Ext) (lines : List Ext) (hg : ¬ WideGap f t.separate row) :
    let dl := round1 ((b.1 - c.1) * f)
    let dr := round1 ((c.2 - b.2) * f)
    ((parse f t b c [row] lines).align = .center ↔ |round1 ((dl - dr) / 2)| < t.center) ∧
    (t.center ≤ |round1 ((dl - dr) / 2)| → ((parse f t b c [row] lines).align = .left ↔ max dl 0 ≤ max dr 0)) ∧
    (parse f t b c [row] lines).tabStops = [] := by
  have hi : internal f t [row] = (.unknown, Option.none) := by
    have : hasGap f t.separate row = false := by
      cases h : hasGap f t.separate row with
      | false => rfl
      | true => exact absurd ((hasGap_iff _ _ _).1 h) hg
    unfold internal
    simp [this]
  intro dl dr
  have he : (external f t b c).1 = if |round1 ((dl - dr) / 2)| < t.center then .center else if |max dl 0| ≤ |max dr 0| then .left else .right := rfl
  rw [abs_of_nonneg (le_max_right dl 0), abs_of_nonneg (le_max_right dr 0)] at he
  have ha : (parse f t b c [row] lines).align = (external f t b c).1 ∧ (parse f t b c [row] lines).tabStops = [] := by
    have hne := external_align f t b c
    unfold parse
    rw [hi]
    dsimp only
    generalize (external f t b c).1 = e at hne
    clear he
    cases e <;> simp at hne ⊢
  rw [ha.1, he]
  refine ⟨?_, ?_, ha.2⟩
  · by_cases h1 : |round1 ((dl - dr) / 2)| < t.center
    · simp [h1]
    · rw [if_neg h1]
      by_cases h2 : max dl 0 ≤ max dr 0
      · simp [h1, h2]
      · simp [h1, h2]
  · intro h
    rw [if_neg (not_lt.2 h)]
    by_cases h2 : max dl 0 ≤ max dr 0 <;> simp [h2]

example : ¬ WideGap 1 5 [(100, 200)] := by
  rintro ⟨i, a, b, h1, h2, _⟩
  cases i <;> simp at h2

/-! ## C54: which tab stops -/

/-- **C54**: when a row has a wide gap, the paragraph is left-aligned and every line that starts at least 1pt right of the paragraph's start has
a tab stop at its position, up to 0.05pt; there are no other stops. -/
theorem C54_stops (t : Thr) (b c : Ext) (rows : List (List Ext)) (lines : List Ext) (r : List Ext) (hr : r ∈ rows)
    (hg : WideGap 1 t.separate r) :
    let s := parse 1 t b c rows lines
    s.align = .left ∧ (∀ x, x ∈ writtenStops s ↔ ∃ l ∈ lines, 1 ≤ round1 (l.1 - b.1) ∧ x = s.left + round1 (l.1 - b.1)) ∧
      ∀ l ∈ lines, b.1 + 1 ≤ l.1 → ∃ x ∈ writtenStops s, |x - (s.left + (l.1 - b.1))| ≤ 1 / 20 := by
  have hi : internal 1 t rows = (.none, Option.none) := by
    unfold internal
    rw [if_pos (List.any_eq_true.2 ⟨r, hr, (hasGap_iff _ _ _).2 hg⟩)]
  have ha : (parse 1 t b c rows lines).align = .left ∧ (parse 1 t b c rows lines).tabStops =
      ((lines.map fun l => round1 ((l.1 - b.1) * 1)).dedup).filter (fun p => decide (1 ≤ p)) := by
    unfold parse
    rw [hi]
    simp
  intro s
  have hm : ∀ x, x ∈ writtenStops s ↔ ∃ l ∈ lines, 1 ≤ round1 (l.1 - b.1) ∧ x = s.left + round1 (l.1 - b.1) := by
    intro x
    unfold writtenStops
    rw [if_pos ha.1, mem_sortBy, ha.2]
    simp only [mul_one, List.mem_map, List.mem_filter, List.mem_dedup, decide_eq_true_eq]
    constructor
    · rintro ⟨p, ⟨⟨l, hl, rfl⟩, hp⟩, rfl⟩
      exact ⟨l, hl, hp, rfl⟩
    · rintro ⟨l, hl, hp, rfl⟩
      exact ⟨_, ⟨⟨l, hl, rfl⟩, hp⟩, rfl⟩
  refine ⟨ha.1, hm, ?_⟩
  intro l hl h1
  have h1' : (1 : ℚ) ≤ round1 (l.1 - b.1) := by
    have h2 : round1 1 ≤ round1 (l.1 - b.1) := round1_mono (by linarith)
    have h3 : round1 1 = 1 := by decide +kernel
    rw [h3] at h2; exact h2
  refine ⟨_, (hm _).2 ⟨l, hl, h1', rfl⟩, ?_⟩
  have := abs_round1_sub (l.1 - b.1)
  rw [show s.left + round1 (l.1 - b.1) - (s.left + (l.1 - b.1)) = round1 (l.1 - b.1) - (l.1 - b.1) by ring]
  exact this

example : WideGap 1 5 [(0, 10), (50, 60)] ∧
    writtenStops (parse 1 thr0 (0, 60) (0, 500) [[(0, 10), (50, 60)]] [(0, 10), (50, 60)]) = [50] :=
  ⟨⟨0, (0, 10), (50, 60), rfl, rfl, by norm_num⟩, by decide +kernel⟩

end Props
