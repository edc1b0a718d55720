import Verif.Props.Border
import Verif.Spec.Path
/-! # Further theorems about the borders of stream tables (C63, C64); written after wrong programs had passed the first versions. -/

namespace Props
open Py Geom Border

theorem byValue_get (st : State) (i j : ℕ) (v : ℚ) : (byValue st j v)[i]? = (st[i]?).map fun b => if j = i then b.finalize v else b := by
  unfold byValue
  rw [List.getElem?_modify]
  cases st[i]? <;> simp

theorem finalize_open (b : Bd) (v : ℚ) (hn : b.value = none) (h1 : b.lo - 1 ≤ v) (h2 : v ≤ b.hi + 1) :
    b.finalize v = { b with value := some v, reference := false } := by
  unfold Bd.finalize
  have : b.isValid v = true := by unfold Bd.isValid; exact decide_eq_true ⟨h1, h2⟩
  rw [if_neg (by simp [hn, this])]

theorem finalize_decided (b : Bd) (v w : ℚ) (hv : b.value = some w) : b.finalize v = b := by
  unfold Bd.finalize
  rw [if_pos (by simp [hv])]

/-- **C63**: a stroke decides an open border if its position is in the border's range (1pt tolerance) and it reaches at least one of the ranges of
the two bounding borders: the border takes position, width and colour of the stroke, and the bounding borders, if still open, are placed at the
ends of the stroke where their range allows it. -/
theorem C63_stroke_decides (st : State) (i : ℕ) (s : Line) (b : Bd) (hb : st[i]? = some b) (hn : b.value = none) (hl : b.lb ≠ i) (hu : b.ub ≠ i)
    (hlu : b.lb ≠ b.ub) (hval : b.lo - 1 ≤ s.value ∧ s.value ≤ b.hi + 1) (l u : Bd) (hbl : st[b.lb]? = some l) (hbu : st[b.ub]? = some u)
    (hreach : s.low ≤ l.hi ∨ u.lo ≤ s.up) :
    (∃ b', (byStroke st i s)[i]? = some b' ∧ b'.value = some s.value ∧ b'.width = s.width ∧ b'.color = s.color ∧ b'.reference = false) ∧
    (l.value = none → l.lo - 1 ≤ s.low → s.low ≤ l.hi + 1 → ∃ l', (byStroke st i s)[b.lb]? = some l' ∧ l'.value = some s.low) ∧
    (u.value = none → u.lo - 1 ≤ s.up → s.up ≤ u.hi + 1 → ∃ u', (byStroke st i s)[b.ub]? = some u' ∧ u'.value = some s.up) := by
  have gb : st.getD i dummy = b := by rw [List.getD_eq_getElem?_getD, hb]; rfl
  have gl : st.getD b.lb dummy = l := by rw [List.getD_eq_getElem?_getD, hbl]; rfl
  have gu : st.getD b.ub dummy = u := by rw [List.getD_eq_getElem?_getD, hbu]; rfl
  have hv : b.isValid s.value = true := by unfold Bd.isValid; exact decide_eq_true hval
  have hr : ¬ (l.hi < s.low ∧ s.up < u.lo) := by
    rintro ⟨h1, h2⟩; rcases hreach with h | h <;> linarith
  have hst : byStroke st i s = byValue (byValue (st.modify i fun b => { b.finalize s.value with color := s.color, width := s.width })
      b.lb s.low) b.ub s.up := by
    unfold byStroke
    simp only [gb, gl, gu, hv, hn, Bool.not_true, Bool.false_eq_true, if_false, if_neg hr, Option.isSome_none]
  rw [hst]
  simp only [byValue_get, List.getElem?_modify, hb, hbl, hbu, finalize_open b s.value hn hval.1 hval.2, hl, hu, hlu, hlu.symm, hl.symm, hu.symm, if_true,
    if_false, Option.map_some, Option.map_eq_map, Option.some.injEq, exists_eq_left', id_eq, and_self, true_and]
  refine ⟨fun h1 h2 h3 => ?_, fun h1 h2 h3 => ?_⟩
  · rw [finalize_open l _ h1 h2 h3]
  · rw [finalize_open u _ h1 h2 h3]

/-- Non-vacuity: the left border 0-10 of a table (borders: top, bottom, left, right), a stroke at 5. -/
example : let st := box4 (0, 10) (90, 100) (0, 10) (90, 100)
    (byStroke st 2 ⟨false, 4, 95, 5, 2, 7, false⟩).map (fun b => (b.value, b.width, b.color)) =
      [(some 4, 0, 0), (some 95, 0, 0), (some 5, 2, 7), (none, 0, 0)] ∧ (st.map fun b => (b.horizontal, b.lb, b.ub)) =
      [(true, 2, 3), (true, 2, 3), (false, 0, 1), (false, 0, 1)] := by decide +kernel

/-- **C63**: a stroke out of the range of a border, or falling short of both bounding borders, changes nothing. -/
theorem C63_stroke_ignored (st : State) (i : ℕ) (s : Line) (b l u : Bd) (hb : st[i]? = some b) (hbl : st[b.lb]? = some l) (hbu : st[b.ub]? = some u)
    (h : s.value < b.lo - 1 ∨ b.hi + 1 < s.value ∨ (l.hi < s.low ∧ s.up < u.lo)) : byStroke st i s = st := by
  have gb : st.getD i dummy = b := by rw [List.getD_eq_getElem?_getD, hb]; rfl
  have gl : st.getD b.lb dummy = l := by rw [List.getD_eq_getElem?_getD, hbl]; rfl
  have gu : st.getD b.ub dummy = u := by rw [List.getD_eq_getElem?_getD, hbu]; rfl
  unfold byStroke
  simp only [gb, gl, gu]
  by_cases hv : b.isValid s.value = true
  · have hv' := of_decide_eq_true hv
    rw [if_neg (by simp [hv]), if_pos]
    rcases h with h | h | h
    · linarith [hv'.1]
    · linarith [hv'.2]
    · exact h
  · rw [if_pos (by simp [hv])]

/-- **C63**: each border is drawn in its own direction, at its position, from its lower to its upper bounding border, with its width and colour;
a reference border is not drawn. -/
theorem C63_drawn (st : State) (b l u : Bd) (hbl : st[b.lb]? = some l) (hbu : st[b.ub]? = some u) :
    (b.reference = true → toStroke st b = none) ∧
    (b.reference = false → b.horizontal = true → toStroke st b = some ((l.pos, b.pos, u.pos, b.pos), b.width, b.color)) ∧
    (b.reference = false → b.horizontal = false → toStroke st b = some ((b.pos, l.pos, b.pos, u.pos), b.width, b.color)) := by
  have gl : st.getD b.lb dummy = l := by rw [List.getD_eq_getElem?_getD, hbl]; rfl
  have gu : st.getD b.ub dummy = u := by rw [List.getD_eq_getElem?_getD, hbu]; rfl
  refine ⟨fun h => by unfold toStroke; rw [h]; rfl, fun h h' => ?_, fun h h' => ?_⟩ <;> unfold toStroke <;> rw [h] <;> simp only [gl, gu, if_true, if_false, Bool.false_eq_true] <;> rw [h'] <;> rfl

example : let st := box4 (0, 10) (90, 100) (0, 10) (90, 100)
    st.map (toStroke st) = [some ((5, 5, 95, 5), 0, 0), some ((5, 95, 95, 95), 0, 0), some ((5, 5, 5, 95), 0, 0), some ((95, 5, 95, 95), 0, 0)] := by
  decide +kernel

/-- A point on a line. -/
def OnLine (s : Line) (p : Path.Pt) : Prop :=
  if s.horizontal then p.y = s.value ∧ s.low ≤ p.x ∧ p.x ≤ s.up else p.x = s.value ∧ s.low ≤ p.y ∧ p.y ≤ s.up

/-- **C63**: a filling acts as the four lines of its outline, without width and colour. -/
theorem C63_fill_sides (r : Rect) (hr : r.x0 ≤ r.x1 ∧ r.y0 ≤ r.y1) :
    (∀ p, Spec.OnOutline r p ↔ ∃ s ∈ sides r, OnLine s p) ∧ (∀ s ∈ sides r, s.width = 0 ∧ s.color = 0 ∧ s.determined = false) := by
  constructor
  · intro p
    unfold sides OnLine Spec.OnOutline
    simp only [List.mem_cons, List.not_mem_nil, or_false, exists_eq_or_imp, exists_eq_left, if_true, Bool.false_eq_true, if_false]
    constructor
    · rintro ⟨⟨h1, h2, h3, h4⟩, h | h | h | h⟩
      · exact Or.inr (Or.inr (Or.inl ⟨h, h3, h4⟩))
      · exact Or.inr (Or.inr (Or.inr ⟨h, h3, h4⟩))
      · exact Or.inl ⟨h, h1, h2⟩
      · exact Or.inr (Or.inl ⟨h, h1, h2⟩)
    · rintro (⟨h1, h2, h3⟩ | ⟨h1, h2, h3⟩ | ⟨h1, h2, h3⟩ | ⟨h1, h2, h3⟩)
      · exact ⟨⟨h2, h3, h1.symm.le, h1.le.trans hr.2⟩, Or.inr (Or.inr (Or.inl h1))⟩
      · exact ⟨⟨h2, h3, hr.2.trans h1.symm.le, h1.le⟩, Or.inr (Or.inr (Or.inr h1))⟩
      · exact ⟨⟨h1.symm.le, h1.le.trans hr.1, h2, h3⟩, Or.inl h1⟩
      · exact ⟨⟨hr.1.trans h1.symm.le, h1.le, h2, h3⟩, Or.inr (Or.inl h1)⟩
  · intro s hs
    simp only [sides, List.mem_cons, List.not_mem_nil, or_false] at hs
    rcases hs with rfl | rfl | rfl | rfl <;> exact ⟨rfl, rfl, rfl⟩

/-- **C63**: reference borders are complete: the vertical borders can be ordered by position such that between any two consecutive ones that share
a bounding border, there is for each range of a horizontal border reaching into their common height a horizontal reference border with this
range. For every iteration order of the set of ranges. -/
theorem C63_references_complete (order : List (ℚ × ℚ) → List (ℚ × ℚ)) (ho : ∀ l, (order l).Perm l) (st : State) :
    ∃ vs : List ℕ, (vs.Perm ((List.range st.length).filter fun i => !(st.getD i dummy).horizontal)) ∧
      (vs.Pairwise fun i j => (st.getD i dummy).pos ≤ (st.getD j dummy).pos) ∧
      ∀ (k i j : ℕ) (l r h lb ub lb' ub' : Bd), vs[k]? = some i → vs[k + 1]? = some j → st[i]? = some l → st[j]? = some r →
        (l.lb = r.lb ∨ l.ub = r.ub) → st[l.lb]? = some lb → st[r.lb]? = some lb' → st[l.ub]? = some ub → st[r.ub]? = some ub' →
        h ∈ st → h.horizontal = true → max lb.lo lb'.lo ≤ h.hi → h.lo ≤ min ub.hi ub'.hi →
        ∃ d ∈ (addDummies order st).drop st.length, d.horizontal = true ∧ d.reference = true ∧ d.value = none ∧ d.lo = h.lo ∧ d.hi = h.hi ∧
          d.lb = i ∧ d.ub = j := by
  refine ⟨_, sortBy_perm (fun i => (st.getD i dummy).pos) _, sortBy_pairwise _ _, ?_⟩
  intro k i j l r h lb ub lb' ub' hi hj hl hr hsh hlb hlb' hub hub' hh hhor h1 h2
  have gd : ∀ (n : ℕ) (b : Bd), st[n]? = some b → st.getD n dummy = b := by
    intro n b hb; rw [List.getD_eq_getElem?_getD, hb]; rfl
  have hpair : ∀ (vs : List ℕ) (k : ℕ), vs[k]? = some i → vs[k + 1]? = some j → (i, j) ∈ pairs vs := by
    intro vs
    induction vs with
    | nil => intro k h; simp at h
    | cons a t ih =>
      intro k h3 h4
      cases t with
      | nil => simp at h4
      | cons b t =>
        unfold pairs
        cases k with
        | zero =>
          simp only [List.getElem?_cons_zero, List.getElem?_cons_succ, Option.some.injEq, Nat.zero_add] at h3 h4
          rw [h3, h4]; simp
        | succ k =>
          simp only [List.getElem?_cons_succ] at h3 h4
          exact List.mem_cons_of_mem _ (ih k h3 (by simpa using h4))
  unfold addDummies
  dsimp only
  rw [List.drop_left]
  refine ⟨{ horizontal := true, lo := h.lo, hi := h.hi, lb := i, ub := j, reference := true }, ?_, rfl, rfl, rfl, rfl, rfl, rfl, rfl⟩
  rw [List.mem_flatMap]
  refine ⟨(i, j), hpair _ k hi hj, ?_⟩
  dsimp only
  rw [gd i l hl, gd j r hr, if_neg (by rintro ⟨h3, h4⟩; rcases hsh with h | h; exacts [h3 h, h4 h])]
  rw [List.mem_filterMap]
  refine ⟨(h.lo, h.hi), ?_, ?_⟩
  · rw [(ho _).mem_iff, List.mem_dedup]
    exact List.mem_map.2 ⟨h, List.mem_filter.2 ⟨hh, hhor⟩, rfl⟩
  · rw [gd _ _ hlb, gd _ _ hlb', gd _ _ hub, gd _ _ hub', if_neg]
    push Not
    exact ⟨h2, h1⟩

/-- Non-vacuity: a table with a middle column line; the inner horizontal border is only in the left column. -/
example : let st := box4 (40, 50) (100, 120) (10, 20) (200, 210) ++
      [⟨false, 100, 110, 0, 1, false, none, 0, 0⟩, ⟨true, 70, 80, 2, 4, false, none, 0, 0⟩]
    ((addDummies id st).drop st.length).any (fun d => decide (d.lo = 70 ∧ d.hi = 80 ∧ d.lb = 4 ∧ d.ub = 3)) = true := by decide +kernel

/-! ## C64 for the whole placement -/

theorem layoutLoop_other (idx : List ℕ) (l : List (ℚ × List Bool)) (i : ℕ) (hi : i ∉ idx) (cur : List Bool) (st : State) :
    (layoutLoop idx cur l st)[i]? = st[i]? := by
  have fold : ∀ (z : List (ℕ × Bool)) (x : ℚ) (st : State), (∀ p ∈ z, p.1 ≠ i) →
      (z.foldl (fun st p => if p.2 then byValue st p.1 x else st) st)[i]? = st[i]? := by
    intro z x
    induction z with
    | nil => intro st _; rfl
    | cons p z ih =>
      intro st hz
      rw [List.foldl_cons, ih _ fun q hq => hz q (List.mem_cons_of_mem _ hq)]
      split_ifs
      · rw [byValue_get, show (st[i]?).map (fun b => if p.1 = i then b.finalize x else b) = st[i]? from by simp [hz p (by simp)]]
      · rfl
  induction l generalizing cur st with
  | nil => rfl
  | cons e l ih =>
    obtain ⟨x, s⟩ := e
    unfold layoutLoop
    split_ifs
    · rfl
    · exact ih cur st
    · rw [ih, fold]
      intro p hp h
      exact hi (h ▸ (List.of_mem_zip hp).1)

/-- A border to be placed by layout. -/
def OpenBd (h : Bool) (b : Bd) : Prop := b.horizontal = h ∧ b.reference = false ∧ b.value = none

/-- **C64** (partial): in a table without strokes and fillings, if the ranges of the open horizontal borders have a common interval, all of them are
placed on one line; the same for the vertical borders. *Missing*: see `C64_refuted_left_open`. -/
theorem C64_without_strokes_partial (order : List (ℚ × ℚ) → List (ℚ × ℚ)) (st : State) (dir : Bool)
    (hc : ∀ a ∈ st, ∀ b ∈ st, OpenBd dir a → OpenBd dir b → a.lo < b.hi) :
    ∃ x, ∀ (i : ℕ) (b : Bd), st[i]? = some b → OpenBd dir b → ∃ b', (finalize order [] [] st)[i]? = some b' ∧ b'.value = some x := by
  obtain ⟨ds, hds, hd⟩ := addDummies_append order st
  have hfin : finalize order [] [] st = byLayout (byLayout (st ++ ds) (open_ true (st ++ ds))) (open_ false (st ++ ds)) := by
    unfold finalize
    rw [hds]
    rfl
  have hopen : ∀ (h : Bool) (i : ℕ), i ∈ open_ h (st ++ ds) ↔ ∃ b, st[i]? = some b ∧ OpenBd h b := by
    intro h i
    unfold open_ OpenBd
    dsimp only
    rw [List.mem_filter, List.mem_range]
    constructor
    · rintro ⟨h1, h2⟩
      rw [List.getD_eq_getElem?_getD, List.getElem?_eq_getElem h1, Option.getD_some] at h2
      simp only [Bool.and_eq_true, Bool.not_eq_true', Bool.or_eq_false_iff, beq_iff_eq] at h2
      by_cases hlt : i < st.length
      · rw [List.getElem_append_left hlt] at h2
        exact ⟨st[i], List.getElem?_eq_getElem hlt, h2.2, h2.1.2, by simpa using h2.1.1⟩
      · rw [List.getElem_append_right (not_lt.1 hlt)] at h2
        have hlen : i - st.length < ds.length := by have := List.length_append (as := st) (bs := ds); omega
        have := (hd _ (List.getElem_mem hlen)).2.1
        rw [this] at h2
        simp at h2
    · rintro ⟨b, hb, h1, h2, h3⟩
      obtain ⟨hlt, rfl⟩ := List.getElem?_eq_some_iff.1 hb
      refine ⟨by rw [List.length_append]; omega, ?_⟩
      rw [List.getD_eq_getElem?_getD, List.getElem?_append_left hlt, hb]
      simp [h1, h2, h3]
  by_cases hne : open_ dir (st ++ ds) = []
  · refine ⟨0, fun i b hb hob => ?_⟩
    have := (hopen dir i).2 ⟨b, hb, hob⟩
    rw [hne] at this
    simp at this
  have apply_ : ∀ S : State, (∀ i ∈ open_ dir (st ++ ds), S[i]? = st[i]?) →
      ∃ x, ∀ i ∈ open_ dir (st ++ ds), ((byLayout S (open_ dir (st ++ ds))).getD i dummy).value = some x := by
    intro S hS
    refine C64_aligned_partial S _ hne ?_ ?_
    · intro i hi
      obtain ⟨b, hb, h1, h2, h3⟩ := (hopen dir i).1 hi
      exact ⟨b, by rw [hS i hi]; exact hb, h3⟩
    · intro i hi j hj
      obtain ⟨b, hb, hob⟩ := (hopen dir i).1 hi
      obtain ⟨b', hb', hob'⟩ := (hopen dir j).1 hj
      rw [List.getD_eq_getElem?_getD, List.getD_eq_getElem?_getD, hS i hi, hS j hj, hb, hb']
      exact hc b (List.mem_of_getElem? hb) b' (List.mem_of_getElem? hb') hob hob'
  have left : ∀ i ∈ open_ dir (st ++ ds), (st ++ ds)[i]? = st[i]? := by
    intro i hi
    obtain ⟨b, hb, _⟩ := (hopen dir i).1 hi
    obtain ⟨hlt, _⟩ := List.getElem?_eq_some_iff.1 hb
    exact List.getElem?_append_left hlt
  have disj : ∀ i, ¬ (i ∈ open_ true (st ++ ds) ∧ i ∈ open_ false (st ++ ds)) := by
    rintro i ⟨h1, h2⟩
    obtain ⟨b, hb, h3, _⟩ := (hopen true i).1 h1
    obtain ⟨b', hb', h4, _⟩ := (hopen false i).1 h2
    rw [hb] at hb'
    cases hb'
    rw [h3] at h4
    cases h4
  have fin : ∀ (S : State) (i : ℕ) (x : ℚ) , (S.getD i dummy).value = some x → ∃ b', S[i]? = some b' ∧ b'.value = some x := by
    intro S i x h
    rw [List.getD_eq_getElem?_getD] at h
    cases hS : S[i]? with
    | none => rw [hS] at h; cases h
    | some b => rw [hS] at h; exact ⟨b, rfl, h⟩
  rw [hfin]
  cases dir with
  | true =>
    obtain ⟨x, hx⟩ := apply_ _ left
    refine ⟨x, fun i b hb hob => ?_⟩
    have hi := (hopen true i).2 ⟨b, hb, hob⟩
    unfold byLayout at hx ⊢
    rw [layoutLoop_other _ _ i fun h => disj i ⟨hi, h⟩]
    exact fin _ _ _ (hx i hi)
  | false =>
    obtain ⟨x, hx⟩ := apply_ (byLayout (st ++ ds) (open_ true (st ++ ds))) (by
      intro i hi
      unfold byLayout
      rw [layoutLoop_other _ _ i fun h => disj i ⟨h, hi⟩]
      exact left i hi)
    exact ⟨x, fun i b hb hob => fin _ _ _ (hx i ((hopen false i).2 ⟨b, hb, hob⟩))⟩

/-- Non-vacuity: a table with a column line given in two pieces whose ranges overlap. -/
example : let st := box4 (0, 0) (100, 100) (0, 0) (100, 100) ++ [⟨true, 40, 60, 2, 3, false, none, 0, 0⟩,
      ⟨false, 40, 60, 0, 4, false, none, 0, 0⟩, ⟨false, 50, 80, 4, 1, false, none, 0, 0⟩]
    ((finalize id [] [] (st.map fun b => if b.lo = b.hi then { b with value := some b.lo } else b)).map fun b => b.value).take 7 =
      [some 0, some 100, some 0, some 100, some 50, some 55, some 55] := by decide +kernel

end Props
