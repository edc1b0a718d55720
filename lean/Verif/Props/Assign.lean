import Verif.Assign
import Verif.Props.Table
import Verif.Props.Shapes
/-! # Properties of the distribution of content to tables and cells (C43, C44) -/

namespace Props
open Py Geom Spec Assign

/-! ## Boxes -/

theorem proper_nonempty (r : Rect) (h : Proper r) : ¬ r.isEmpty := by
  rintro (h' | h')
  · exact absurd h.1 (by rw [h']; exact lt_irrefl _)
  · exact absurd h.2 (by rw [h']; exact lt_irrefl _)

theorem contains_iff (a b : Rect) (ha : Proper a) (hb : Proper b) : a.contains b = true ↔ Covers a b := by
  unfold Rect.contains Covers
  rw [if_neg (proper_nonempty a ha), if_neg (proper_nonempty b hb), decide_eq_true_eq]

/-- Proper boxes intersect iff they share an interior point. -/
theorem intersects_iff (a b : Rect) (ha : Proper a) (hb : Proper b) :
    a.intersects b = true ↔ max a.x0 b.x0 < min a.x1 b.x1 ∧ max a.y0 b.y0 < min a.y1 b.y1 := by
  have hne : ¬ (a.isEmpty ∨ b.isEmpty) := by
    rintro (h | h)
    · exact proper_nonempty a ha h
    · exact proper_nonempty b hb h
  have he : a.inter b = if min a.x1 b.x1 < max a.x0 b.x0 ∨ min a.y1 b.y1 < max a.y0 b.y0 then Rect.zero
      else ⟨max a.x0 b.x0, max a.y0 b.y0, min a.x1 b.x1, min a.y1 b.y1⟩ := by
    unfold Rect.inter
    rw [if_neg hne]
  unfold Rect.intersects
  rw [if_neg hne, he]
  by_cases h1 : min a.x1 b.x1 < max a.x0 b.x0 ∨ min a.y1 b.y1 < max a.y0 b.y0
  · rw [if_pos h1, if_pos (show Rect.zero.isEmpty from Or.inl rfl)]
    refine iff_of_false (by simp) ?_
    rintro ⟨h3, h4⟩
    rcases h1 with h1 | h1
    · exact absurd h1 (not_lt.mpr (le_of_lt h3))
    · exact absurd h1 (not_lt.mpr (le_of_lt h4))
  · rw [if_neg h1]
    rw [not_or, not_lt, not_lt] at h1
    split_ifs with h2
    · refine iff_of_false (by simp) ?_
      rintro ⟨h3, h4⟩
      rcases h2 with h2 | h2
      · exact absurd h2 (ne_of_lt h3)
      · exact absurd h2 (ne_of_lt h4)
    · refine iff_of_true rfl ?_
      exact ⟨lt_of_le_of_ne h1.1 fun h => h2 (Or.inl h), lt_of_le_of_ne h1.2 fun h => h2 (Or.inr h)⟩

/-- A box intersecting a covered one intersects the covering one. -/
theorem intersects_mono (a b c : Rect) (ha : Proper a) (hb : Proper b) (hc : Proper c) (hcov : Covers b c)
    (h : a.intersects c = true) : a.intersects b = true := by
  rw [intersects_iff a c ha hc] at h
  rw [intersects_iff a b ha hb]
  obtain ⟨h1, h2, h3, h4⟩ := hcov
  constructor
  · refine lt_of_le_of_lt (max_le_max (le_refl _) h1) (lt_of_lt_of_le h.1 (min_le_min (le_refl _) h3))
  · refine lt_of_le_of_lt (max_le_max (le_refl _) h2) (lt_of_lt_of_le h.2 (min_le_min (le_refl _) h4))

/-! ## C43: lines and tables -/

section Lines
variable {β : Type} [HasBox β]

theorem splitLines_perm (t : Rect) (th : ℚ) (l : List β) (r : List β × List β) (h : splitLines t th l = .ok r) :
    (r.1 ++ r.2).Perm l := by
  induction l generalizing r with
  | nil => simp only [splitLines, Except.ok.injEq] at h; rw [← h]; exact List.Perm.refl _
  | cons e l ih =>
    unfold splitLines at h
    by_cases h0 : (box e).area = 0
    · rw [if_pos h0] at h; cases h
    rw [if_neg h0] at h
    cases hs : splitLines t th l with
    | error x => rw [hs] at h; cases h
    | ok q =>
      rw [hs] at h
      simp only [] at h
      have := ih q hs
      split_ifs at h <;> (simp only [Except.ok.injEq] at h; rw [← h])
      · exact List.Perm.cons e this
      · exact (List.perm_middle).trans (List.Perm.cons e this)

theorem flatten_map_nil {δ γ : Type} (ts : List δ) : (ts.map fun _ => ([] : List γ)).flatten = [] := by
  induction ts with
  | nil => rfl
  | cons _ ts ih => simpa using ih

/-- Distribution over tables, none of which contains the block once a table intersecting it was passed. -/
theorem assignText_perm (b : Rect) (all : List β) (ts : List Rect) (lines : List β)
    (hts : lines.Perm all ∨ ∀ t ∈ ts, t.contains b = false)
    (hdis : ts.Pairwise fun t u => t.intersects b = true → u.contains b = false)
    (r : List (List β) × List β) (h : assignText b all ts lines = .ok r) :
    (r.1.flatten ++ r.2).Perm lines := by
  induction ts generalizing lines r with
  | nil => simp only [assignText, Except.ok.injEq] at h; rw [← h]; simp
  | cons t ts ih =>
    rw [List.pairwise_cons] at hdis
    unfold assignText at h
    split_ifs at h with h1 h2
    · simp only [Except.ok.injEq] at h
      rw [← h]
      simp only [List.flatten_cons, flatten_map_nil, List.append_nil]
      rcases hts with hp | hn
      · exact hp.symm
      · rw [hn t (by simp)] at h1; cases h1
    · cases hr : assignText b all ts lines with
      | error x => rw [hr] at h; cases h
      | ok q =>
        rw [hr] at h
        simp only [Except.map, Except.ok.injEq] at h
        rw [← h]
        have := ih lines (hts.imp id fun hn t ht => hn t (by simp [ht])) hdis.2 q hr
        simpa using this
    · cases hs : splitLines t (9 / 10) lines with
      | error x => rw [hs] at h; cases h
      | ok q =>
        obtain ⟨inT, out⟩ := q
        rw [hs] at h
        simp only [] at h
        have hp := splitLines_perm t _ lines _ hs
        split_ifs at h with h3
        · simp only [Except.ok.injEq] at h
          rw [← h]
          simp only [List.flatten_cons, flatten_map_nil, List.append_nil]
          rw [List.isEmpty_iff] at h3
          rw [h3] at hp
          simpa using hp
        · cases hr : assignText b all ts out with
          | error x => rw [hr] at h; cases h
          | ok q' =>
            rw [hr] at h
            simp only [Except.map, Except.ok.injEq] at h
            rw [← h]
            have hi : t.intersects b = true := by simpa using h2
            have := ih out (Or.inr fun u hu => hdis.1 u hu hi) hdis.2 q' hr
            simp only [List.flatten_cons, List.append_assoc]
            exact (List.Perm.append_left inT this).trans hp

/-- C43 (partial): with tables that do not overlap, every line (more generally, everything with a box) of a text block ends up in exactly one table or stays on the page. -/
theorem C43_disjoint_partial (ts : List Rect) (hp : ∀ t ∈ ts, Proper t) (hd : ts.Pairwise fun t u => t.intersects u = false)
    (b : Rect) (hb : Proper b) (lines : List β) (r : List (List β) × List β)
    (h : assignText b lines ts lines = .ok r) : r.1.length = ts.length ∧ (r.1.flatten ++ r.2).Perm lines := by
  constructor
  · suffices ∀ (ts : List Rect) (ls : List β) r, assignText b lines ts ls = .ok r → r.1.length = ts.length from this ts lines r h
    intro ts
    induction ts with
    | nil => intro ls r h; simp only [assignText, Except.ok.injEq] at h; rw [← h]; rfl
    | cons t ts ih =>
      intro ls r h
      unfold assignText at h
      split_ifs at h with h1 h2
      · simp only [Except.ok.injEq] at h; rw [← h]; simp
      · cases hr : assignText b lines ts ls with
        | error x => rw [hr] at h; cases h
        | ok q =>
          rw [hr] at h
          simp only [Except.map, Except.ok.injEq] at h
          rw [← h]; simp [ih ls q hr]
      · cases hs : splitLines t (9 / 10) ls with
        | error x => rw [hs] at h; cases h
        | ok q =>
          rw [hs] at h
          simp only [] at h
          split_ifs at h
          · simp only [Except.ok.injEq] at h; rw [← h]; simp
          · cases hr : assignText b lines ts q.2 with
            | error x => rw [hr] at h; cases h
            | ok q' =>
              rw [hr] at h
              simp only [Except.map, Except.ok.injEq] at h
              rw [← h]; simp [ih q.2 q' hr]
  · refine assignText_perm b lines ts lines (Or.inl (List.Perm.refl _)) ?_ r h
    refine (List.Pairwise.and_mem.mp hd).imp fun {t u} ⟨ht, hu, htu⟩ hi => ?_
    by_contra hc
    rw [Bool.not_eq_false, contains_iff u b (hp u hu) hb] at hc
    rw [intersects_mono t u b (hp t ht) (hp u hu) hb hc hi] at htu
    cases htu

/-- A line with a number as its content. -/
def tline (r : Rect) (n : ℕ) : Line ℕ := ⟨r, [.image r n]⟩

/-- Non-vacuity: two tables side by side, one line in each, one below both. -/
example : let ts : List Rect := [⟨0, 0, 100, 100⟩, ⟨150, 0, 250, 100⟩]
    (∀ t ∈ ts, Proper t) ∧ (ts.Pairwise fun t u => t.intersects u = false) ∧ Proper ⟨10, 10, 200, 200⟩ ∧
    ∃ r, assignText ⟨10, 10, 200, 200⟩ [tline ⟨10, 10, 90, 20⟩ 1, tline ⟨160, 10, 200, 20⟩ 2, tline ⟨10, 190, 90, 200⟩ 3] ts
      [tline ⟨10, 10, 90, 20⟩ 1, tline ⟨160, 10, 200, 20⟩ 2, tline ⟨10, 190, 90, 200⟩ 3] = .ok r ∧
      r.1.map (fun l => l.map Line.items) = [[[1]], [[2]]] ∧ r.2.map Line.items = [[3]] := by
  refine ⟨by decide +kernel, by decide +kernel, by decide +kernel,
    ([[tline ⟨10, 10, 90, 20⟩ 1], [tline ⟨160, 10, 200, 20⟩ 2]], [tline ⟨10, 190, 90, 200⟩ 3]), by decide +kernel, rfl, rfl⟩

/-- C43 (refuted): with overlapping tables, the lines given to the first table are repeated when the second one contains the block. -/
theorem C43_refuted_duplicate : ∃ (ts : List Rect) (b : Rect) (lines : List (Line ℕ)) (r : List (List (Line ℕ)) × List (Line ℕ)),
    assignText b lines ts lines = .ok r ∧ (r.1.flatten ++ r.2).flatMap Line.items = [1, 1, 2] ∧ lines.flatMap Line.items = [1, 2] := by
  refine ⟨[⟨0, 0, 100, 100⟩, ⟨50, 0, 300, 100⟩], ⟨60, 10, 200, 20⟩, [tline ⟨60, 10, 90, 15⟩ 1, tline ⟨60, 15, 200, 20⟩ 2],
    ([[tline ⟨60, 10, 90, 15⟩ 1], [tline ⟨60, 10, 90, 15⟩ 1, tline ⟨60, 15, 200, 20⟩ 2]], []), by decide +kernel, rfl, rfl⟩

/-- C43 (refuted): a line without area in a block reaching over the border of a table: `ZeroDivisionError`, the page is lost. -/
theorem C43_refuted_raises : ∃ (ts : List Rect) (b : Rect) (lines : List (Line ℕ)), assignText b lines ts lines = .error .zeroDiv :=
  ⟨[⟨0, 0, 100, 100⟩], ⟨60, 10, 200, 20⟩, [tline ⟨60, 10, 60, 15⟩ 1, tline ⟨60, 15, 200, 20⟩ 2], by decide +kernel⟩

/-- Splitting raises iff some line has no area. -/
theorem splitLines_ok (t : Rect) (th : ℚ) (l : List β) (h : ∀ e ∈ l, (box e).area ≠ 0) : ∃ r, splitLines t th l = .ok r := by
  induction l with
  | nil => exact ⟨_, rfl⟩
  | cons e l ih =>
    obtain ⟨r, hr⟩ := ih fun x hx => h x (by simp [hx])
    unfold splitLines
    rw [if_neg (h e (by simp)), hr]
    simp only []
    split_ifs
    · exact ⟨_, rfl⟩
    · exact ⟨_, rfl⟩

/-- C43 (partial): with lines of positive area the distribution raises no exception. -/
theorem C43_no_exception_partial (b : Rect) (all : List β) (ts : List Rect) (lines : List β)
    (h : ∀ e ∈ lines, (box e).area ≠ 0) : ∃ r, assignText b all ts lines = .ok r := by
  induction ts generalizing lines with
  | nil => exact ⟨_, rfl⟩
  | cons t ts ih =>
    unfold assignText
    split_ifs
    · exact ⟨_, rfl⟩
    · obtain ⟨r, hr⟩ := ih lines h
      rw [hr]; exact ⟨_, rfl⟩
    · obtain ⟨r, hr⟩ := splitLines_ok t (9 / 10) lines h
      rw [hr]
      simp only []
      split_ifs
      · exact ⟨_, rfl⟩
      · obtain ⟨q, hq⟩ := ih r.2 fun e he => h e ((splitLines_perm t _ lines r hr).mem_iff.mp (List.mem_append_right _ he))
        rw [hq]; exact ⟨_, rfl⟩

end Lines

/-! ## C44: characters and cells -/

theorem inter_covered (c r : Rect) (hc : Proper c) (hr : Proper r) (h : Covers r c) : c.inter r = c := by
  unfold Rect.inter
  rw [if_neg (by rintro (h | h); exact proper_nonempty c hc h; exact proper_nonempty r hr h)]
  obtain ⟨h1, h2, h3, h4⟩ := h
  simp only [max_eq_left h1, max_eq_left h2, min_eq_left h3, min_eq_left h4]
  rw [if_neg]
  rintro (h | h)
  · exact absurd hc.1 (not_lt.mpr (le_of_lt h))
  · exact absurd hc.2 (not_lt.mpr (le_of_lt h))

theorem area_pos (r : Rect) (h : Proper r) : 0 < r.area := by
  unfold Rect.area Rect.width Rect.height
  exact mul_pos (by linarith [h.1]) (by linarith [h.2])

theorem area_mono (r c : Rect) (hc : Proper c) (h : Covers r c) : c.area ≤ r.area := by
  unfold Rect.area Rect.width Rect.height
  obtain ⟨h1, h2, h3, h4⟩ := h
  exact mul_le_mul (by linarith) (by linarith) (by linarith [hc.2]) (by linarith [hc.1])

/-- A covered box mainly belongs to the covering one. -/
theorem mainIn_covered (th : ℚ) (hth : th ≤ 1) (c r : Rect) (hc : Proper c) (hr : Proper r) (h : Covers r c) : mainIn th c r = true := by
  unfold mainIn El.mainBbox
  have ha := area_pos c hc
  simp only [inter_covered c r hc hr h, proper_truthy hc]
  rw [if_neg (by simp), if_pos (ne_of_gt ha), min_eq_left (area_mono r c hc h), div_self (ne_of_gt ha), if_pos hth]
  exact proper_truthy (union_proper_left _ _ hc)

/-- A box in one that does not intersect `r` does not mainly belong to `r`. -/
theorem mainIn_apart (th : ℚ) (hth : 1 / 1000000 < th) (c s r : Rect) (hc : Proper c) (hs : Proper s) (hr : Proper r) (h : Covers s c)
    (hi : r.intersects s = false) : mainIn th c r = false := by
  have hic : r.intersects c = false := by
    by_contra hcon
    rw [Bool.not_eq_false] at hcon
    rw [intersects_mono r s c hr hs hc h hcon] at hi
    cases hi
  unfold mainIn El.mainBbox
  simp only []
  by_cases ht : (c.inter r).truthy = false
  · rw [if_pos ht]; rfl
  · rw [if_neg ht]
    by_cases ha : (c.inter r).area ≠ 0
    · exfalso
      unfold Rect.inter at ht ha
      rw [if_neg (by rintro (h | h); exact proper_nonempty c hc h; exact proper_nonempty r hr h)] at ht ha
      simp only [] at ht ha
      split_ifs at ht ha with hx
      · exact ha (by simp [Rect.area, Rect.width, Rect.height, Rect.zero])
      · unfold Rect.area Rect.width Rect.height at ha
        simp only [] at ha
        rw [not_or, not_lt, not_lt] at hx
        have := (intersects_iff r c hr hc).mpr ⟨by
          rw [max_comm, min_comm]
          exact lt_of_le_of_ne hx.1 fun he => ha (by rw [he]; ring), by
          rw [max_comm, min_comm]
          exact lt_of_le_of_ne hx.2 fun he => ha (by rw [he]; ring)⟩
        rw [this] at hic
        cases hic
    · rw [if_neg ha, if_neg (not_le.mpr hth)]
      rfl

section Cells
variable {α : Type}

/-- Boxes of a block: all of positive size, each part inside the whole. -/
def NestedSpan : Span α → Prop
  | .text b cs => Proper b ∧ ∀ c ∈ cs, Proper c.1 ∧ Covers b c.1
  | .image b _ => Proper b

def NestedLine (l : Line α) : Prop := Proper l.bbox ∧ ∀ s ∈ l.spans, NestedSpan s ∧ Covers l.bbox s.bbox

def NestedBlock (b : Rect) (ls : List (Line α)) : Prop := Proper b ∧ ∀ l ∈ ls, NestedLine l ∧ Covers b l.bbox

/-- Boxes of the characters (threshold 1/2) and images (threshold 3/4) of a span. -/
def _root_.Assign.Span.boxed : Span α → List ((Rect × ℚ) × α)
  | .text _ cs => cs.map fun c => ((c.1, 1 / 2), c.2)
  | .image b a => [((b, 3 / 4), a)]

def boxedItems (ls : List (Line α)) : List ((Rect × ℚ) × α) := ls.flatMap fun l => l.spans.flatMap Span.boxed

/-- An item mainly belongs to a cell: the intersection makes up at least the threshold (1/2, 3/4 for images) of the smaller of both
boxes. -/
def mainly (cell : Rect) (x : (Rect × ℚ) × α) : Bool := mainIn x.1.2 x.1.1 cell

theorem _root_.Assign.Span.boxed_items (s : Span α) : s.boxed.map Prod.snd = s.items := by
  cases s <;> simp [Span.boxed, Span.items]

theorem _root_.Assign.Span.boxed_covers (s : Span α) (hs : NestedSpan s) (x : (Rect × ℚ) × α) (hx : x ∈ s.boxed) :
    Proper x.1.1 ∧ Covers s.bbox x.1.1 ∧ 1 / 1000000 < x.1.2 ∧ x.1.2 ≤ 1 := by
  cases s with
  | text b cs =>
    obtain ⟨c, hc, rfl⟩ := List.mem_map.mp hx
    exact ⟨(hs.2 c hc).1, (hs.2 c hc).2, by norm_num, by norm_num⟩
  | image b a =>
    rw [Span.boxed, List.mem_singleton] at hx
    subst hx
    exact ⟨hs, ⟨le_refl _, le_refl _, le_refl _, le_refl _⟩, by norm_num, by norm_num⟩

theorem span_proper (s : Span α) (hs : NestedSpan s) : Proper s.bbox := by
  cases s with
  | text b cs => exact hs.1
  | image b a => exact hs

theorem filter_all (p : (Rect × ℚ) × α → Bool) (l : List ((Rect × ℚ) × α)) (h : ∀ x ∈ l, p x = true) : l.filter p = l :=
  List.filter_eq_self.mpr h

theorem spanIn_eq (cell : Rect) (hcell : Proper cell) (s : Span α) (hs : NestedSpan s) :
    spanIn cell s = (s.boxed.filter (mainly cell)).map Prod.snd := by
  cases s with
  | text b cs =>
    have hb := hs.1
    simp only [spanIn]
    split_ifs with h1 h2
    · rw [filter_all]
      · simp [Span.boxed]
      · intro x hx
        obtain ⟨hx1, hx2, _, hx4⟩ := Span.boxed_covers _ hs x hx
        exact mainIn_covered _ hx4 _ _ hx1 hcell (covers_trans ((contains_iff cell b hcell hb).mp h1) hx2)
    · rw [List.filter_eq_nil_iff.mpr]
      · rfl
      · intro x hx
        obtain ⟨hx1, hx2, hx3, _⟩ := Span.boxed_covers _ hs x hx
        unfold mainly
        rw [mainIn_apart _ hx3 _ b _ hx1 hb hcell hx2 (by simpa using h2)]
        simp
    · simp only [Span.boxed, List.filter_map, List.map_map]
      rfl
  | image b a =>
    simp only [spanIn, Span.boxed]
    split_ifs with h
    · rw [List.filter_cons_of_pos (by exact h)]; rfl
    · rw [List.filter_cons_of_neg (by exact h)]; rfl

theorem flatMap_filter_map {β : Type} (l : List β) (f : β → List ((Rect × ℚ) × α)) (p : (Rect × ℚ) × α → Bool) :
    ((l.flatMap f).filter p).map Prod.snd = l.flatMap fun b => ((f b).filter p).map Prod.snd := by
  induction l with
  | nil => rfl
  | cons b l ih => simp only [List.flatMap_cons, List.filter_append, List.map_append, ih]

theorem lineIn_eq (cell : Rect) (hcell : Proper cell) (l : Line α) (hl : NestedLine l) :
    lineIn cell l = ((l.spans.flatMap Span.boxed).filter (mainly cell)).map Prod.snd := by
  rw [flatMap_filter_map]
  unfold lineIn Line.items
  split_ifs with h
  · refine List.flatMap_congr fun s hs => ?_
    have hcov := covers_trans ((contains_iff cell l.bbox hcell hl.1).mp h) (hl.2 s hs).2
    rw [filter_all]
    · exact (Span.boxed_items s).symm
    · intro x hx
      obtain ⟨hx1, hx2, _, hx4⟩ := Span.boxed_covers s (hl.2 s hs).1 x hx
      exact mainIn_covered _ hx4 _ _ hx1 hcell (covers_trans hcov hx2)
  · exact List.flatMap_congr fun s hs => spanIn_eq cell hcell s (hl.2 s hs).1

/-- C44 (partial, what a cell gets): a cell gets, in order, exactly the characters and images of a text block that mainly belong to it,
provided the cell, if it holds at least 95% of the block, holds all of it. -/
theorem C44_cell_content_partial (cell b : Rect) (hcell : Proper cell) (ls : List (Line α)) (hn : NestedBlock b ls)
    (hc : El.contains ⟨cell, .leftRight⟩ ⟨b, .leftRight⟩ (19 / 20) = true → Covers cell b) :
    cellIn cell (.text b ls) = ((boxedItems ls).filter (mainly cell)).map Prod.snd := by
  unfold boxedItems
  rw [flatMap_filter_map]
  have e : cellIn cell (.text b ls) = if El.contains ⟨cell, .leftRight⟩ ⟨b, .leftRight⟩ (19 / 20) then ls.flatMap Line.items
      else if !(cell.inter b).truthy then [] else ls.flatMap (lineIn cell) := rfl
  rw [e]
  split_ifs with h1 h2
  · show ls.flatMap Line.items = _
    refine List.flatMap_congr fun l hl => ?_
    have hnl := hn.2 l hl
    rw [← lineIn_eq cell hcell l hnl.1]
    unfold lineIn
    rw [if_pos ((contains_iff cell l.bbox hcell hnl.1.1).mpr (covers_trans (hc h1) hnl.2))]
  · have hi : cell.intersects b = false := by
      have hz : cell.inter b = Rect.zero := by
        unfold Rect.truthy at h2
        simpa using h2
      unfold Rect.intersects
      rw [if_neg (by rintro (h | h); exact proper_nonempty _ hcell h; exact proper_nonempty _ hn.1 h), hz]
      rw [if_pos (show Rect.zero.isEmpty from Or.inl rfl)]
    symm
    rw [List.flatMap_eq_nil_iff]
    intro l hl
    rw [List.map_eq_nil_iff, List.filter_eq_nil_iff]
    intro x hx
    obtain ⟨s, hs, hx⟩ := List.mem_flatMap.mp hx
    have hnl := hn.2 l hl
    obtain ⟨hx1, hx2, hx3, _⟩ := Span.boxed_covers s (hnl.1.2 s hs).1 x hx
    unfold mainly
    rw [mainIn_apart _ hx3 _ b _ hx1 hn.1 hcell (covers_trans hnl.2 (covers_trans (hnl.1.2 s hs).2 hx2)) hi]
    simp
  · exact List.flatMap_congr fun l hl => by rw [lineIn_eq cell hcell l (hn.2 l hl).1]

/-- Distribution by predicates of which each element satisfies exactly one. -/
theorem partition_perm {β γ : Type} (cells : List β) (l : List γ) (p : β → γ → Bool)
    (h : ∀ x ∈ l, ∃ l₁ c l₂, cells = l₁ ++ c :: l₂ ∧ p c x = true ∧ ∀ c' ∈ l₁ ++ l₂, p c' x = false) :
    (cells.flatMap fun c => l.filter (p c)).Perm l := by
  induction l with
  | nil => simp
  | cons x l ih =>
    have ih := ih fun y hy => h y (by simp [hy])
    obtain ⟨l₁, c, l₂, rfl, hc, hn⟩ := h x (by simp)
    have e : ∀ l' : List β, (∀ c' ∈ l', p c' x = false) → (l'.flatMap fun c => (x :: l).filter (p c)) = l'.flatMap fun c => l.filter (p c) := by
      intro l' hl'
      exact List.flatMap_congr fun c' hc' => List.filter_cons_of_neg (by simp [hl' c' hc'])
    rw [List.flatMap_append, List.flatMap_cons] at ih ⊢
    rw [e l₁ fun c' h' => hn c' (List.mem_append_left _ h'), e l₂ fun c' h' => hn c' (List.mem_append_right _ h'),
      List.filter_cons_of_pos hc, List.cons_append]
    exact List.perm_middle.trans (List.Perm.cons x ih)

/-- C44 (partial): if the cells of a table do not overlap, every character and image of a text block lies inside a cell, and no cell holds
95% of the block without holding all of it, then each character and image ends up in exactly one cell. -/
theorem C44_exactly_once_partial (cells : List Rect) (hp : ∀ c ∈ cells, Proper c) (hd : cells.Pairwise fun c d => c.intersects d = false)
    (b : Rect) (ls : List (Line α)) (hn : NestedBlock b ls)
    (hc : ∀ c ∈ cells, El.contains ⟨c, .leftRight⟩ ⟨b, .leftRight⟩ (19 / 20) = true → Covers c b)
    (hin : ∀ x ∈ boxedItems ls, ∃ c ∈ cells, Covers c x.1.1) :
    ((cellsIn cells (.text b ls)).flatten).Perm (Block.items (.text b ls)) := by
  have hitems : Block.items (.text b ls) = (boxedItems ls).map Prod.snd := by
    unfold Block.items boxedItems
    rw [List.map_flatMap]
    refine List.flatMap_congr fun l _ => ?_
    unfold Line.items
    rw [List.map_flatMap]
    exact List.flatMap_congr fun s _ => (Span.boxed_items s).symm
  have hcells : (cellsIn cells (.text b ls)).flatten = (cells.flatMap fun c => (boxedItems ls).filter (mainly c)).map Prod.snd := by
    unfold cellsIn
    rw [← List.flatMap_def, List.map_flatMap]
    exact List.flatMap_congr fun c hcc => C44_cell_content_partial c b (hp c hcc) ls hn (hc c hcc)
  rw [hitems, hcells]
  refine List.Perm.map _ (partition_perm cells _ _ fun x hx => ?_)
  obtain ⟨c, hcc, hcov⟩ := hin x hx
  obtain ⟨l₁, l₂, rfl⟩ := List.append_of_mem hcc
  obtain ⟨l, hl, hx⟩ := List.mem_flatMap.mp hx
  obtain ⟨s, hs, hx⟩ := List.mem_flatMap.mp hx
  obtain ⟨hx1, _, hx3, hx4⟩ := Span.boxed_covers s ((hn.2 l hl).1.2 s hs).1 x hx
  refine ⟨l₁, c, l₂, rfl, mainIn_covered _ hx4 _ _ hx1 (hp c hcc) hcov, ?_⟩
  intro c' hc'
  rw [List.pairwise_append, List.pairwise_cons] at hd
  have hint : c'.intersects c = false := by
    rcases List.mem_append.mp hc' with h | h
    · exact hd.2.2 c' h c (by simp)
    · have := hd.2.1.1 c' h
      by_contra hcon
      rw [Bool.not_eq_false] at hcon
      have hc'p : Proper c' := hp c' (by simp [h])
      rw [intersects_iff _ _ hc'p (hp c hcc), max_comm, min_comm, max_comm c'.y0, min_comm c'.y1,
        ← intersects_iff _ _ (hp c hcc) hc'p] at hcon
      rw [hcon] at this
      cases this
  have hc'p : Proper c' := by
    rcases List.mem_append.mp hc' with h | h <;> exact hp c' (by simp [h])
  exact mainIn_apart _ hx3 _ c _ hx1 (hp c hcc) hc'p hcov hint

end Cells

/-- Non-vacuity: a line over two cells with three characters. -/
example : let cells : List Rect := [⟨0, 0, 50, 20⟩, ⟨50, 0, 100, 20⟩]
    let ls : List (Line ℕ) := [⟨⟨30, 5, 75, 15⟩, [.text ⟨30, 5, 75, 15⟩ [(⟨30, 5, 45, 15⟩, 1), (⟨50, 5, 60, 15⟩, 2), (⟨60, 5, 75, 15⟩, 3)]]⟩]
    cellsIn cells (.text ⟨30, 5, 75, 15⟩ ls) = [[1], [2, 3]] ∧ (∀ c ∈ cells, Proper c) ∧
    (cells.Pairwise fun c d => c.intersects d = false) ∧ NestedBlock ⟨30, 5, 75, 15⟩ ls ∧
    (∀ c ∈ cells, El.contains ⟨c, .leftRight⟩ ⟨⟨30, 5, 75, 15⟩, .leftRight⟩ (19 / 20) = true → Covers c ⟨30, 5, 75, 15⟩) ∧
    ∀ x ∈ boxedItems ls, ∃ c ∈ cells, Covers c x.1.1 := by
  refine ⟨by decide +kernel, by decide +kernel, by decide +kernel, ?_, by decide +kernel, by decide +kernel⟩
  refine ⟨by decide +kernel, ?_⟩
  intro l hl
  rw [List.mem_singleton] at hl
  subst hl
  refine ⟨⟨by decide +kernel, ?_⟩, by decide +kernel⟩
  intro s hs
  rw [List.mem_singleton] at hs
  subst hs
  exact ⟨⟨by decide +kernel, by decide +kernel⟩, by decide +kernel⟩

/-- A block of one line with one span of the given characters. -/
def oneLine (b : Rect) (cs : List (Rect × ℕ)) : Block ℕ := .text b [⟨b, [.text b cs]⟩]

/-- C44 (refuted): a character half in one and half in the other cell is put into both. -/
theorem C44_refuted_both : cellsIn [⟨0, 0, 50, 20⟩, ⟨50, 0, 100, 20⟩]
    (oneLine ⟨20, 5, 80, 15⟩ [(⟨20, 5, 40, 15⟩, 1), (⟨40, 5, 60, 15⟩, 2), (⟨60, 5, 80, 15⟩, 3)]) = [[1, 2], [2, 3]] := by
  decide +kernel

/-- C44 (refuted): a block with 95% of its area in a cell is put there completely, its last character also into the next cell. -/
theorem C44_refuted_almost_contained : cellsIn [⟨0, 0, 100, 20⟩, ⟨100, 0, 200, 20⟩]
    (oneLine ⟨4, 5, 101, 15⟩ [(⟨4, 5, 100, 15⟩, 1), (⟨100, 5, 101, 15⟩, 2)]) = [[1, 2], [2]] := by
  decide +kernel

/-- C44 (refuted): a character over the corner of four cells belongs to none of them and is lost. -/
theorem C44_refuted_lost : cellsIn [⟨0, 0, 50, 50⟩, ⟨50, 0, 100, 50⟩, ⟨0, 50, 50, 100⟩, ⟨50, 50, 100, 100⟩]
    (oneLine ⟨40, 40, 60, 60⟩ [(⟨40, 40, 60, 60⟩, 1)]) = [[], [], [], []] := by
  decide +kernel

/-- C44 (refuted): an image over the border of two cells (less than 3/4 in each) is lost. -/
theorem C44_refuted_image_lost : cellsIn [⟨0, 0, 50, 50⟩, ⟨50, 0, 100, 50⟩]
    (.text ⟨20, 10, 70, 40⟩ [⟨⟨20, 10, 70, 40⟩, [.image ⟨20, 10, 70, 40⟩ 1]⟩]) = [[], ([] : List ℕ)] := by
  decide +kernel

/-- C44 (refuted): a table inside the region of a table, with less than 95% in any one cell, is lost. -/
theorem C44_refuted_table_lost : cellsIn [⟨0, 0, 50, 50⟩, ⟨50, 0, 100, 50⟩] (.table ⟨20, 10, 70, 40⟩ 1) = [[], ([] : List ℕ)] := by
  decide +kernel

end Props
