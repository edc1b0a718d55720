import Verif.Props.Positions
import Verif.Props.Para
import Verif.Props.Tight
import Verif.Spec.RowPlaces
/-! # C122: where the rows of paragraphs start -/

namespace Props
open Para Py

section Singles

theorem hz_bfs (n i : ℕ) (hi : i < n) : Graph.bfsFrom (List.replicate n []) i = .ok [i] := by
  unfold Graph.bfsFrom
  rw [Graph.bfs, dif_neg (by simp), dif_pos (by simpa using hi), List.getElem_replicate]
  rw [List.append_nil, Graph.bfs, List.nil_append]

theorem hz_loop (n : ℕ) (is : List ℕ) (hi : ∀ i ∈ is, i < n) (groups : List (List ℕ)) (counted : List ℕ) (hnd : is.Nodup) (hd : ∀ i ∈ is, i ∉ counted) :
    Graph.bfsLoop (List.replicate n []) is groups counted = .ok (groups ++ is.map fun i => [i]) := by
  induction is generalizing groups counted with
  | nil => simp [Graph.bfsLoop]
  | cons i is ih =>
    rw [List.nodup_cons] at hnd
    rw [Graph.bfsLoop, if_neg (hd i (by simp)), hz_bfs n i (hi i (by simp))]
    dsimp only
    rw [ih (fun j hj => hi j (by simp [hj])) _ _ hnd.2 ?_]
    · simp
    · intro j hj
      rw [List.mem_append]
      rintro (h | h)
      · exact hd j (by simp [hj]) h
      · rw [List.mem_singleton] at h
        subst h
        exact hnd.1 hj

/-- Groups of a relation that never holds. -/
theorem hz_groups {α : Type} (iter : List ℕ → List ℕ) (hi : ∀ l, (iter l).Perm l) (f : α → α → Bool) (xs : List α) (h : xs.Pairwise fun a b => f a b = false) :
    Graph.group iter f xs = .ok (xs.map fun x => [x]) := by
  have hp : Graph.relatedPairs f xs = [] := by
    rw [List.eq_nil_iff_forall_not_mem]
    rintro ⟨i, j⟩ hm
    rw [Graph.mem_relatedPairs] at hm
    obtain ⟨hlt, a, b, ha, hb, hf⟩ := hm
    obtain ⟨h1, rfl⟩ := List.getElem?_eq_some_iff.1 ha
    obtain ⟨h2, rfl⟩ := List.getElem?_eq_some_iff.1 hb
    rw [List.pairwise_iff_getElem] at h
    rw [h i j h1 h2 hlt] at hf
    cases hf
  have hb : Graph.build xs.length (Graph.relatedPairs f xs) = List.replicate xs.length [] := by
    rw [hp]; rfl
  unfold Graph.group Graph.graphBfs
  rw [hb, List.length_replicate, hz_loop _ _ (fun i hi => List.mem_range.1 hi) _ _ List.nodup_range (by simp)]
  dsimp only
  rw [List.nil_append, List.map_map]
  congr 1
  refine List.ext_getElem (by simp) ?_
  intro i h1 h2
  have : iter [i] = [i] := List.perm_singleton.1 (hi [i])
  simp only [List.length_map] at h2
  simp only [List.getElem_map, List.getElem_range, Function.comp_apply, this]
  simp [List.getElem?_eq_getElem h2]

end Singles

section Rows

/-- Start and end of rows that are single lines; the rows compared. -/
def hz_later (xs : List ℚ) : List ℚ := if 3 ≤ xs.length then xs.drop 1 else xs
def hz_butLast (xs : List ℚ) : List ℚ := if 3 ≤ xs.length then xs.dropLast else xs

theorem hz_internal (t : Thr) (es : List Para.Ext) :
    internal 1 t (es.map fun e => [e]) = if es.length < 2 then (.unknown, none) else
      decideAlign es.length (decide (|spread (hz_later (es.map Prod.fst))| ≤ t.left)) (decide (|spread (hz_butLast (es.map Prod.snd))| ≤ t.right))
        (decide (|spread (es.map fun e => (e.1 + e.2) / 2)| ≤ t.center)) ((es.map Prod.fst).getD 0 0 - (es.map Prod.fst).getD 1 0) := by
  have g : (es.map fun e => [e]).any (hasGap 1 t.separate) = false := by
    rw [List.any_eq_false]
    intro r hr
    obtain ⟨e, -, rfl⟩ := List.mem_map.1 hr
    simp [hasGap]
  have h0 : (es.map fun e => [e]).map (fun r => (r.headD (0, 0)).1) = es.map Prod.fst := by rw [List.map_map]; rfl
  have h1 : (es.map fun e => [e]).map (fun r => (r.getLastD (0, 0)).2) = es.map Prod.snd := by rw [List.map_map]; rfl
  have h2 : List.zipWith (fun a b : ℚ => (a + b) / 2) (es.map Prod.fst) (es.map Prod.snd) = es.map fun e => (e.1 + e.2) / 2 := by
    rw [List.zipWith_map, List.zipWith_self]
  unfold internal
  rw [g, if_neg (by simp)]
  dsimp only
  rw [h0, h1, h2, List.length_map]
  unfold hz_later hz_butLast
  rw [List.length_map, List.length_map]

/-- Where a row starts, given the horizontal spacing. -/
def hz_place (s : HSp) (a b : ℚ) (first : Bool) (tabs : ℕ) (w : ℚ) : ℚ :=
  match s.align with
  | .right => b - s.right - w
  | .center => (a + (s.left - s.firstLine) + (b - s.right) - w) / 2
  | _ => a + Spec.afterTabs (writtenStops s) tabs (s.left - s.firstLine + if first then s.firstLine else 0)

/-- The tabs before a line that is a row of its own. -/
def hz_tabs (s : HSp) (b0 x : ℚ) : ℕ := if s.left < s.left + (x - b0) ∧ writtenStops s ≠ [] then addStop (writtenStops s) (s.left + (x - b0)) s.left else 0

/-- The box around rows, and the text area around it. -/
structure hz_Hull (es : List Para.Ext) (b c : Para.Ext) : Prop where
  within : ∀ e ∈ es, b.1 ≤ e.1 ∧ e.2 ≤ b.2
  first : ∃ e ∈ es, b.1 = e.1
  last : ∃ e ∈ es, b.2 = e.2
  left : c.1 ≤ b.1
  right : b.2 ≤ c.2

variable {t : Thr} {es : List Para.Ext} {b c : Para.Ext}

theorem hz_left_total (h : hz_Hull es b c) : |max (round1 ((b.1 - c.1) * 1)) 0 - (b.1 - c.1)| ≤ 1 / 20 := by
  rw [mul_one, max_eq_left (round1_nonneg (by linarith [h.left]))]
  exact abs_round1_sub _

theorem hz_right_total (h : hz_Hull es b c) : |max (round1 ((c.2 - b.2) * 1)) 0 - (c.2 - b.2)| ≤ 1 / 20 := by
  rw [mul_one, max_eq_left (round1_nonneg (by linarith [h.right]))]
  exact abs_round1_sub _

/-- Alignment left or justified without tab stops. -/
theorem hz_start_left (s : HSp) (a b' : ℚ) (first : Bool) (n : ℕ) (w : ℚ) (hs : s.align = .left ∨ s.align = .justify) (hn : writtenStops s = []) :
    hz_place s a b' first n w = a + (s.left - s.firstLine + if first then s.firstLine else 0) := by
  have e : ∀ n x, Spec.afterTabs [] n x = x := by
    intro n
    induction n with
    | zero => intro x; rfl
    | succ n ih => intro x; rw [Spec.afterTabs]; simp [ih]
  unfold hz_place
  rcases hs with h | h <;> rw [h] <;> dsimp only <;> rw [hn, e]

/-- What `parse` sets for rows that are single lines: by the internal alignment. -/
theorem hz_parse (t : Thr) (b c : Para.Ext) (rows : List (List Para.Ext)) (lines : List Para.Ext) :
    let s := parse 1 t b c rows lines
    let dl := (external 1 t b c).2.1
    let dr := (external 1 t b c).2.2
    (s.firstLine = (internal 1 t rows).2.getD 0) ∧
    (s.align = .left → s.left = dl) ∧ (s.align = .justify → s.left = dl) ∧ (s.align = .right → s.right = dr) ∧ (s.align = .center → s.left = 0 ∧ s.right = 0) ∧
    ((internal 1 t rows).1 ≠ .none → writtenStops s = []) ∧
    ((internal 1 t rows).1 = .unknown → s.align = (external 1 t b c).1) ∧
    ((internal 1 t rows).1 ≠ .unknown → (internal 1 t rows).1 ≠ .none → s.align = (internal 1 t rows).1) ∧
    ((internal 1 t rows).1 = .none → s.align = .left ∧ writtenStops s = sortBy (fun x => x) ((((lines.map fun l => round1 ((l.1 - b.1) * 1)).dedup).filter (fun p => decide (1 ≤ p))).map (s.left + ·))) := by
  have hd := external_align 1 t b c
  have hI := internal_align 1 t rows
  unfold parse writtenStops
  dsimp only
  generalize (internal 1 t rows) = I at *
  generalize (external 1 t b c) = E at *
  obtain ⟨e, dl, dr⟩ := E
  generalize ((lines.map fun l => round1 ((l.1 - b.1) * 1)).dedup).filter (fun p => decide (1 ≤ p)) = stops
  obtain ⟨i, f⟩ := I
  cases i <;> cases e <;> simp_all [sortBy]

/-- Centred by the page: the box is in the middle. -/
theorem hz_external_center (he : (external 1 t b c).1 = .center) : |(b.1 + b.2) / 2 - (c.1 + c.2) / 2| ≤ t.center + 1 / 10 := by
  have h1 : |round1 ((round1 ((b.1 - c.1) * 1) - round1 ((c.2 - b.2) * 1)) / 2)| < t.center := by
    unfold external at he
    dsimp only at he
    by_contra hc
    rw [if_neg hc] at he
    split_ifs at he
  have a1 := abs_round1_sub ((b.1 - c.1) * 1)
  have a2 := abs_round1_sub ((c.2 - b.2) * 1)
  have a3 := abs_round1_sub ((round1 ((b.1 - c.1) * 1) - round1 ((c.2 - b.2) * 1)) / 2)
  rw [abs_lt] at h1
  rw [abs_le] at a1 a2 a3 ⊢
  constructor <;> linarith [h1.1, h1.2, a1.1, a1.2, a2.1, a2.2, a3.1, a3.2]

theorem hz_near (t : ℚ) (xs : List ℚ) (h : xs ≠ []) : decide (|spread xs| ≤ t) = true ↔ Near1 t xs := by
  rw [decide_eq_true_eq, spread_le_iff t xs h]

theorem hz_getD (i : ℕ) (e : Para.Ext) (he : es[i]? = some e) : (es.map Prod.fst).getD i 0 = e.1 := by
  rw [List.getD_eq_getElem?_getD, List.getElem?_map, he]
  rfl

/-- Rows that all start at the same position. -/
theorem hz_flush_left (h : hz_Hull es b c) (hl : 0 ≤ t.left) (hr : 0 ≤ t.right) (hf : Near1 t.left (es.map Prod.fst)) (i : ℕ) (e : Para.Ext) (he : es[i]? = some e)
    (n : ℕ) (first : Bool) (hi : first = decide (i = 0)) :
    |hz_place (parse 1 t b c (es.map fun e => [e]) es) c.1 c.2 first n (e.2 - e.1) - e.1| ≤ max (2 * t.left) (max t.right ((t.left + t.right) / 2 + t.center)) + 1 / 10 := by
  set T := max (2 * t.left) (max t.right ((t.left + t.right) / 2 + t.center)) with hT
  have T1 : 2 * t.left ≤ T := le_max_left _ _
  have T2 : t.right ≤ T := (le_max_left _ _).trans (le_max_right _ _)
  have T3 : (t.left + t.right) / 2 + t.center ≤ T := (le_max_right _ _).trans (le_max_right _ _)
  obtain ⟨p1, p2, p3, p4, p5, p6, p7, p8, p9⟩ := hz_parse t b c (es.map fun e => [e]) es
  have hI := hz_internal t es
  have d1 := hz_left_total h
  have d2 := hz_right_total h
  have hmem := List.mem_of_getElem? he
  have hil : i < es.length := (List.getElem?_eq_some_iff.1 he).1
  have hne : es ≠ [] := List.ne_nil_of_mem hmem
  obtain ⟨f, f1, f2⟩ := h.first
  obtain ⟨g, g1, g2⟩ := h.last
  have hw := h.within e hmem
  have kf := hf e.1 (List.mem_map_of_mem hmem) f.1 (List.mem_map_of_mem f1)
  rw [← f2, abs_le] at kf
  have hlater : hz_later (es.map Prod.fst) ≠ [] := by
    unfold hz_later
    split_ifs with h3
    · intro h0
      have := congrArg List.length h0
      simp at this h3
      omega
    · simpa using hne
  have hla : decide (|spread (hz_later (es.map Prod.fst))| ≤ t.left) = true := by
    rw [hz_near _ _ hlater]
    intro x hx y hy
    have hs : ∀ x ∈ hz_later (es.map Prod.fst), x ∈ es.map Prod.fst := by
      intro x hx
      unfold hz_later at hx
      split_ifs at hx
      · exact List.mem_of_mem_drop hx
      · exact hx
    exact hf x (hs x hx) y (hs y hy)
  rw [hla] at hI
  generalize hS : parse 1 t b c (es.map fun e => [e]) es = S at *
  change |(external 1 t b c).2.1 - (b.1 - c.1)| ≤ 1 / 20 at d1
  change |(external 1 t b c).2.2 - (c.2 - b.2)| ≤ 1 / 20 at d2
  rw [abs_le] at d1 d2
  -- which alignment
  have hfirst : S.align = .left ∨ S.align = .justify → writtenStops S = [] → (S.firstLine = 0 ∨ (2 ≤ es.length ∧ S.firstLine = (es.map Prod.fst).getD 0 0 - (es.map Prod.fst).getD 1 0)) → S.left = (external 1 t b c).2.1 →
      |hz_place S c.1 c.2 first n (e.2 - e.1) - e.1| ≤ T + 1 / 10 := by
    intro q1 q2 q3 q4
    rw [hz_start_left S c.1 c.2 first n _ q1 q2, q4, hi]
    by_cases h0 : i = 0
    · rw [decide_eq_true h0, if_pos rfl, abs_le]
      constructor <;> linarith [d1.1, d1.2, kf.1, kf.2]
    · rw [decide_eq_false h0, if_neg (by simp)]
      rcases q3 with q3 | ⟨q5, q3⟩
      · rw [q3, abs_le]
        constructor <;> linarith [d1.1, d1.2, kf.1, kf.2]
      · have e0 : es[0]? = some es[0] := List.getElem?_eq_getElem (by omega)
        have e1 : es[1]? = some es[1] := List.getElem?_eq_getElem (by omega)
        rw [hz_getD 0 _ e0, hz_getD 1 _ e1] at q3
        have := hf es[0].1 (List.mem_map_of_mem (List.getElem_mem _)) es[1].1 (List.mem_map_of_mem (List.getElem_mem _))
        rw [← q3, abs_le] at this
        rw [abs_le]
        constructor <;> linarith [d1.1, d1.2, kf.1, kf.2, this.1, this.2]
  have hunk : (internal 1 t (es.map fun e => [e])).1 = .unknown → (internal 1 t (es.map fun e => [e])).2 = none → (es.length = 1 ∨ Near1 t.right (es.map Prod.snd)) →
      |hz_place S c.1 c.2 first n (e.2 - e.1) - e.1| ≤ T + 1 / 10 := by
    intro q1 q2 q3
    have a := p7 q1
    have fl : S.firstLine = 0 := by rw [p1, q2]; rfl
    have wr : writtenStops S = [] := p6 (by rw [q1]; simp)
    have kg : |e.2 - b.2| ≤ t.right := by
      rw [g2]
      rcases q3 with q3 | q3
      · obtain ⟨x, hx⟩ := List.length_eq_one_iff.1 q3
        rw [hx] at hmem g1
        rw [List.mem_singleton] at hmem g1
        subst hmem; subst g1
        simpa using hr
      · exact q3 e.2 (List.mem_map_of_mem hmem) g.2 (List.mem_map_of_mem g1)
    rw [abs_le] at kg
    have hd := external_align 1 t b c
    simp only [List.mem_cons, List.not_mem_nil, or_false] at hd
    rcases hd with hd | hd | hd
    · exact hfirst (Or.inl (a.trans hd)) wr (Or.inl fl) (p2 (a.trans hd))
    · unfold hz_place
      rw [a.trans hd]
      dsimp only
      rw [p4 (a.trans hd), abs_le]
      constructor <;> linarith [d2.1, d2.2, kg.1, kg.2]
    · unfold hz_place
      rw [a.trans hd]
      dsimp only
      obtain ⟨l0, r0⟩ := p5 (a.trans hd)
      have hm := hz_external_center hd
      rw [l0, r0, fl]
      rw [abs_le] at hm ⊢
      constructor <;> linarith [hm.1, hm.2, kg.1, kg.2, kf.1, kf.2]
  by_cases h2 : es.length < 2
  · rw [if_pos h2] at hI
    exact hunk (by rw [hI]) (by rw [hI]) (Or.inl (by have := List.length_pos_iff.2 hne; omega))
  · rw [if_neg h2] at hI
    cases hra : decide (|spread (hz_butLast (es.map Prod.snd))| ≤ t.right) with
    | false =>
      rw [hra] at hI
      have hI' : internal 1 t (es.map fun e => [e]) = (.left, some ((es.map Prod.fst).getD 0 0 - (es.map Prod.fst).getD 1 0)) := by rw [hI]; rfl
      have a := p8 (by rw [hI']; simp) (by rw [hI']; simp)
      rw [hI'] at a p1 p6
      exact hfirst (Or.inl a) (p6 (by simp)) (Or.inr ⟨by omega, p1⟩) (p2 a)
    | true =>
      rw [hra] at hI
      by_cases h3 : 3 ≤ es.length
      · have hI' : internal 1 t (es.map fun e => [e]) = (.justify, none) := by rw [hI]; simp [decideAlign, h3]
        have a := p8 (by rw [hI']; simp) (by rw [hI']; simp)
        rw [hI'] at a p1 p6
        exact hfirst (Or.inr a) (p6 (by simp)) (Or.inl p1) (p3 a)
      · have hI' : internal 1 t (es.map fun e => [e]) = (.unknown, none) := by rw [hI]; simp [decideAlign, h3]
        refine hunk (by rw [hI']) (by rw [hI']) (Or.inr ?_)
        have hb : hz_butLast (es.map Prod.snd) = es.map Prod.snd := by unfold hz_butLast; rw [if_neg (by simpa using h3)]
        rw [hb, hz_near _ _ (by simpa using hne)] at hra
        exact hra

theorem hz_later_ne (xs : List ℚ) (h : xs ≠ []) : hz_later xs ≠ [] := by
  unfold hz_later
  split_ifs with h3
  · intro h0
    have := congrArg List.length h0
    simp at this
    omega
  · exact h

theorem hz_butLast_ne (xs : List ℚ) (h : xs ≠ []) : hz_butLast xs ≠ [] := by
  unfold hz_butLast
  split_ifs with h3
  · intro h0
    have := congrArg List.length h0
    simp at this
    omega
  · exact h

theorem hz_false {x : Bool} {p : Prop} (h : x = true ↔ p) (hp : ¬ p) : x = false := by
  cases x
  · rfl
  · exact absurd (h.1 rfl) hp

/-- Rows that all end at the same position, not flush on the left. -/
theorem hz_flush_right (h : hz_Hull es b c) (hn : 2 ≤ es.length) (hf : Near1 t.right (es.map Prod.snd)) (hl : ¬ Near1 t.left (hz_later (es.map Prod.fst))) (i : ℕ) (e : Para.Ext)
    (he : es[i]? = some e) (n : ℕ) (first : Bool) :
    |hz_place (parse 1 t b c (es.map fun e => [e]) es) c.1 c.2 first n (e.2 - e.1) - e.1| ≤ t.right + 1 / 20 := by
  obtain ⟨p1, p2, p3, p4, p5, p6, p7, p8, p9⟩ := hz_parse t b c (es.map fun e => [e]) es
  have hI := hz_internal t es
  have d2 := hz_right_total h
  have hmem := List.mem_of_getElem? he
  have hne : es ≠ [] := List.ne_nil_of_mem hmem
  obtain ⟨g, g1, g2⟩ := h.last
  have kg := hf e.2 (List.mem_map_of_mem hmem) g.2 (List.mem_map_of_mem g1)
  rw [← g2, abs_le] at kg
  have hra : decide (|spread (hz_butLast (es.map Prod.snd))| ≤ t.right) = true := by
    rw [hz_near _ _ (hz_butLast_ne _ (by simpa using hne))]
    have hs : ∀ x ∈ hz_butLast (es.map Prod.snd), x ∈ es.map Prod.snd := by
      intro x hx
      unfold hz_butLast at hx
      split_ifs at hx
      · exact List.mem_of_mem_dropLast hx
      · exact hx
    exact fun x hx y hy => hf x (hs x hx) y (hs y hy)
  rw [if_neg (by omega), hra, hz_false (hz_near t.left _ (hz_later_ne _ (by simpa using hne))) hl] at hI
  have hI' : internal 1 t (es.map fun e => [e]) = (.right, none) := by rw [hI]; rfl
  generalize hS : parse 1 t b c (es.map fun e => [e]) es = S at *
  change |(external 1 t b c).2.2 - (c.2 - b.2)| ≤ 1 / 20 at d2
  rw [hI'] at p8
  have a := p8 (by simp) (by simp)
  unfold hz_place
  rw [a]
  dsimp only
  rw [p4 a]
  rw [abs_le] at d2 ⊢
  constructor <;> linarith [d2.1, d2.2, kg.1, kg.2]

/-- A hanging indent: the first row starts left of the others, which are flush on the left; the right edge is ragged. -/
theorem hz_hanging (h : hz_Hull es b c) (hn : 3 ≤ es.length) (hf : Near1 t.left ((es.map Prod.fst).drop 1)) (hh : (es.map Prod.fst).getD 0 0 ≤ (es.map Prod.fst).getD 1 0)
    (hr : ¬ Near1 t.right (hz_butLast (es.map Prod.snd))) (i : ℕ) (e : Para.Ext) (he : es[i]? = some e) (n : ℕ) (first : Bool) (hi : first = decide (i = 0)) :
    |hz_place (parse 1 t b c (es.map fun e => [e]) es) c.1 c.2 first n (e.2 - e.1) - e.1| ≤ 2 * t.left + 1 / 20 := by
  obtain ⟨p1, p2, p3, p4, p5, p6, p7, p8, p9⟩ := hz_parse t b c (es.map fun e => [e]) es
  have hI := hz_internal t es
  have d1 := hz_left_total h
  have hmem := List.mem_of_getElem? he
  have hil : i < es.length := (List.getElem?_eq_some_iff.1 he).1
  have hne : es ≠ [] := List.ne_nil_of_mem hmem
  have hlat : hz_later (es.map Prod.fst) = (es.map Prod.fst).drop 1 := by unfold hz_later; rw [if_pos (by simpa using hn)]
  have hla : decide (|spread (hz_later (es.map Prod.fst))| ≤ t.left) = true := by
    rw [hz_near _ _ (hz_later_ne _ (by simpa using hne)), hlat]
    exact hf
  rw [if_neg (by omega), hla, hz_false (hz_near t.right _ (hz_butLast_ne _ (by simpa using hne))) hr] at hI
  have hI' : internal 1 t (es.map fun e => [e]) = (.left, some ((es.map Prod.fst).getD 0 0 - (es.map Prod.fst).getD 1 0)) := by rw [hI]; rfl
  generalize hS : parse 1 t b c (es.map fun e => [e]) es = S at *
  change |(external 1 t b c).2.1 - (b.1 - c.1)| ≤ 1 / 20 at d1
  rw [hI'] at p8 p1 p6
  have a := p8 (by simp) (by simp)
  rw [hz_start_left S c.1 c.2 first n _ (Or.inl a) (p6 (by simp)), p2 a, p1, hi]
  have get : ∀ k (hk : k < es.length), (es.map Prod.fst).getD k 0 = es[k].1 := fun k hk => hz_getD k _ (List.getElem?_eq_getElem hk)
  rw [get 0 (by omega), get 1 (by omega)] at *
  have close : ∀ j k (hj : j < es.length) (hk : k < es.length), 1 ≤ j → 1 ≤ k → |es[j].1 - es[k].1| ≤ t.left := by
    intro j k hj hk j1 k1
    have m : ∀ k (hk : k < es.length), 1 ≤ k → es[k].1 ∈ (es.map Prod.fst).drop 1 := by
      intro k hk k1
      rw [List.mem_iff_getElem]
      refine ⟨k - 1, by simp; omega, ?_⟩
      simp only [List.getElem_drop, List.getElem_map, show 1 + (k - 1) = k by omega]
    exact hf _ (m j hj j1) _ (m k hk k1)
  have ht : 0 ≤ t.left := (abs_nonneg _).trans (close 1 1 (by omega) (by omega) (by omega) (by omega))
  -- the left edge of the box
  have hb0 : b.1 ≤ es[0].1 := (h.within _ (List.getElem_mem _)).1
  have hb1 : es[0].1 ≤ b.1 + t.left := by
    obtain ⟨f, f1, f2⟩ := h.first
    obtain ⟨k, hk, rfl⟩ := List.mem_iff_getElem.1 f1
    rcases Nat.eq_zero_or_pos k with rfl | k1
    · linarith
    · have := close 1 k (by omega) hk (by omega) k1
      rw [abs_le] at this
      linarith [this.2]
  have hei : es[i].1 = e.1 := by rw [List.getElem?_eq_getElem hil] at he; rw [Option.some.inj he]
  simp only [Option.getD_some]
  rw [abs_le] at d1
  by_cases h0 : i = 0
  · subst h0
    rw [decide_eq_true rfl, if_pos rfl, ← hei, abs_le]
    constructor <;> linarith [d1.1, d1.2]
  · rw [decide_eq_false h0, if_neg (by simp), ← hei]
    have := close 1 i (by omega) hil (by omega) (by omega)
    rw [abs_le] at this ⊢
    constructor <;> linarith [d1.1, d1.2, this.1, this.2]

theorem hz_afterTabs (stops : List ℚ) (n : ℕ) (x : ℚ) : Spec.afterTabs stops n x = pressTabs stops n x := by
  induction n generalizing x with
  | zero => rfl
  | succ n ih => rw [Spec.afterTabs, ih]; rfl

/-- Rows positioned by tab stops. -/
theorem hz_tabbed (h : hz_Hull es b c) (hI : internal 1 t (es.map fun e => [e]) = (.none, none)) (i : ℕ) (e : Para.Ext) (he : es[i]? = some e) (first : Bool) :
    |hz_place (parse 1 t b c (es.map fun e => [e]) es) c.1 c.2 first (hz_tabs (parse 1 t b c (es.map fun e => [e]) es) b.1 e.1) (e.2 - e.1) - e.1| ≤ 1 + 1 / 20 := by
  obtain ⟨p1, p2, p3, p4, p5, p6, p7, p8, p9⟩ := hz_parse t b c (es.map fun e => [e]) es
  have d1 := hz_left_total h
  have hmem := List.mem_of_getElem? he
  have hw := (h.within e hmem).1
  rw [hI] at p1 p9
  obtain ⟨a, st⟩ := p9 rfl
  have hleft := p2 a
  generalize hS : parse 1 t b c (es.map fun e => [e]) es = S at *
  change |(external 1 t b c).2.1 - (b.1 - c.1)| ≤ 1 / 20 at d1
  rw [← hleft, abs_le] at d1
  replace p1 : S.firstLine = 0 := p1
  have hplace : ∀ n, hz_place S c.1 c.2 first n (e.2 - e.1) = c.1 + pressTabs (writtenStops S) n S.left := by
    intro n
    unfold hz_place
    rw [a]
    dsimp only
    rw [p1, hz_afterTabs, sub_zero]
    congr 2
    split_ifs <;> simp
  rw [hplace]
  have hm : ∀ x, x ∈ writtenStops S ↔ ∃ l ∈ es, 1 ≤ round1 (l.1 - b.1) ∧ x = S.left + round1 (l.1 - b.1) := by
    intro x
    rw [st, mem_sortBy]
    simp only [mul_one, List.mem_map, List.mem_filter, List.mem_dedup, decide_eq_true_eq]
    constructor
    · rintro ⟨p, ⟨⟨l, hl, rfl⟩, hp⟩, rfl⟩
      exact ⟨l, hl, hp, rfl⟩
    · rintro ⟨l, hl, hp, rfl⟩
      exact ⟨_, ⟨⟨l, hl, rfl⟩, hp⟩, rfl⟩
  have hnot : S.left ∉ writtenStops S := by
    rw [hm]
    rintro ⟨l, -, h1, h2⟩
    linarith
  have hsort : (writtenStops S).Pairwise (· < ·) := by
    have nd : (writtenStops S).Nodup := by
      rw [st]
      refine (sortBy_perm _ _).nodup_iff.2 ?_
      exact ((List.nodup_dedup _).filter _).map fun x y hxy => by simpa using hxy
    have pw : (writtenStops S).Pairwise (· ≤ ·) := by
      rw [st]
      exact sortBy_pairwise (fun x : ℚ => x) _
    exact (pw.and nd).imp fun h => lt_of_le_of_ne h.1 h.2
  have key : |pressTabs (writtenStops S) (hz_tabs S b.1 e.1) S.left - (S.left + (e.1 - b.1))| ≤ 1 := by
    by_cases hcond : S.left < S.left + (e.1 - b.1) ∧ writtenStops S ≠ []
    · unfold hz_tabs
      rw [if_pos hcond]
      by_cases hbig : 1 ≤ round1 (e.1 - b.1)
      · have hs1 : S.left + round1 (e.1 - b.1) ∈ writtenStops S := (hm _).2 ⟨e, hmem, hbig, rfl⟩
        have r1 := abs_round1_sub (e.1 - b.1)
        rw [abs_le] at r1
        by_cases hp : 1 ≤ S.left + (e.1 - b.1)
        · refine C54_tabs_reach_target_partial _ _ _ hsort hnot hp _ hs1 (by linarith) ?_
          rw [abs_le]
          constructor <;> linarith [r1.1, r1.2]
        · have : addStop (writtenStops S) (S.left + (e.1 - b.1)) S.left = 0 := C54_no_needless_tab_partial _ _ _ (Or.inl (by linarith))
          rw [this]
          have l0 : 0 ≤ S.left := by rw [hleft]; exact le_max_right _ _
          show |S.left - _| ≤ 1
          rw [abs_le]
          constructor <;> linarith
      · have hsmall : e.1 - b.1 < 1 := by
          by_contra hcon
          apply hbig
          have h2 : round1 1 ≤ round1 (e.1 - b.1) := round1_mono (by linarith)
          have h3 : round1 1 = 1 := by decide +kernel
          rwa [h3] at h2
        by_cases hp : S.left + (e.1 - b.1) < 1
        · rw [C54_no_needless_tab_partial _ _ _ (Or.inl hp)]
          show |S.left - _| ≤ 1
          rw [abs_le]
          constructor <;> linarith
        · obtain ⟨P, Q, R, e0, h1, h2, h3, h4, h5⟩ := addStop_split (writtenStops S) (S.left + (e.1 - b.1)) S.left hsort hnot
          unfold addStop
          rw [if_neg hp, h5]
          conv_lhs => rw [e0]
          rw [pressTabs_block P Q R S.left h1 h2]
          cases Q with
          | nil =>
            show |S.left - _| ≤ 1
            rw [abs_le]
            constructor <;> linarith
          | cons q Q =>
            have hlast : (q :: Q).getLastD S.left ∈ q :: Q := by
              rw [List.getLastD_cons]
              cases Q with
              | nil => simp
              | cons r Q => simp [List.getLastD]
            have := h3 _ hlast
            have g1 : S.left < (q :: Q).getLastD S.left := (List.pairwise_cons.1 h2).1 _ hlast
            have hstop : (q :: Q).getLastD S.left ∈ writtenStops S := by rw [e0]; simp only [List.mem_append]; exact Or.inl (Or.inr hlast)
            obtain ⟨l, -, l1, l2⟩ := (hm _).1 hstop
            rw [abs_le]
            constructor <;> linarith
    · unfold hz_tabs
      rw [if_neg hcond]
      show |S.left - _| ≤ 1
      rw [not_and_or] at hcond
      rcases hcond with hc | hc
      · rw [show S.left - (S.left + (e.1 - b.1)) = 0 by linarith]
        norm_num
      · rw [not_ne_iff] at hc
        have : ¬ 1 ≤ round1 (e.1 - b.1) := by
          intro h1
          have := (hm _).2 ⟨e, hmem, h1, rfl⟩
          rw [hc] at this
          cases this
        have hsmall : e.1 - b.1 < 1 := by
          by_contra hcon
          apply this
          have h2 : round1 1 ≤ round1 (e.1 - b.1) := round1_mono (by linarith)
          have h3 : round1 1 = 1 := by decide +kernel
          rwa [h3] at h2
        rw [abs_le]
        constructor <;> linarith
  rw [abs_le] at key ⊢
  constructor <;> linarith [key.1, key.2, d1.1, d1.2]

/-- Rows flush neither on the left nor on the right. -/
theorem hz_ragged (h : hz_Hull es b c) (hn : 2 ≤ es.length) (hl : ¬ Near1 t.left (hz_later (es.map Prod.fst))) (hr : ¬ Near1 t.right (hz_butLast (es.map Prod.snd))) (ε : ℚ)
    (hm : Near1 t.center (es.map fun e => (e.1 + e.2) / 2) → ∀ e ∈ es, |(e.1 + e.2) / 2 - (c.1 + c.2) / 2| ≤ ε) (i : ℕ) (e : Para.Ext) (he : es[i]? = some e) (first : Bool) :
    |hz_place (parse 1 t b c (es.map fun e => [e]) es) c.1 c.2 first (hz_tabs (parse 1 t b c (es.map fun e => [e]) es) b.1 e.1) (e.2 - e.1) - e.1| ≤ max ε (21 / 20) := by
  have hmem := List.mem_of_getElem? he
  have hne : es ≠ [] := List.ne_nil_of_mem hmem
  have hI := hz_internal t es
  rw [if_neg (by omega), hz_false (hz_near t.left _ (hz_later_ne _ (by simpa using hne))) hl, hz_false (hz_near t.right _ (hz_butLast_ne _ (by simpa using hne))) hr] at hI
  by_cases hcen : Near1 t.center (es.map fun e => (e.1 + e.2) / 2)
  · rw [(hz_near t.center _ (by simpa using hne)).2 hcen] at hI
    have hI' : internal 1 t (es.map fun e => [e]) = (.center, none) := by rw [hI]; rfl
    obtain ⟨p1, p2, p3, p4, p5, p6, p7, p8, p9⟩ := hz_parse t b c (es.map fun e => [e]) es
    generalize hS : parse 1 t b c (es.map fun e => [e]) es = S at *
    rw [hI'] at p8 p1
    have a := p8 (by simp) (by simp)
    obtain ⟨l0, r0⟩ := p5 a
    replace p1 : S.firstLine = 0 := p1
    refine le_trans ?_ (le_max_left _ _)
    have := hm hcen e hmem
    unfold hz_place
    rw [a]
    dsimp only
    rw [l0, r0, p1]
    rw [abs_le] at this ⊢
    constructor <;> linarith [this.1, this.2]
  · rw [hz_false (hz_near t.center _ (by simpa using hne)) hcen] at hI
    have hI' : internal 1 t (es.map fun e => [e]) = (.none, none) := by rw [hI]; rfl
    refine (hz_tabbed h hI' i e he first).trans ?_
    refine le_trans ?_ (le_max_right _ _)
    norm_num

end Rows
end Props

namespace Props
open Geom Py Pipe Spec

section Paragraphs122

theorem hz_min {α : Type} (f : α → ℚ) (xs : List α) (h : xs ≠ []) : ∃ x ∈ xs, ∀ y ∈ xs, f x ≤ f y := by
  induction xs with
  | nil => exact absurd rfl h
  | cons a xs ih =>
    by_cases hx : xs = []
    · subst hx
      exact ⟨a, by simp, by simp⟩
    · obtain ⟨x, h1, h2⟩ := ih hx
      rcases le_total (f a) (f x) with hax | hax
      · exact ⟨a, by simp, fun y hy => by
          rcases List.mem_cons.1 hy with rfl | hy
          · exact le_refl _
          · exact hax.trans (h2 y hy)⟩
      · exact ⟨x, by simp [h1], fun y hy => by
          rcases List.mem_cons.1 hy with rfl | hy
          · exact hax
          · exact h2 y hy⟩

/-- Extents of lines along the text. -/
def hz_ext (l : Lay.Ln Tok) : Para.Ext := (l.bbox.x0, l.bbox.x1)

theorem hz_hull {t : TextTriple} (h : Laid t) (a b : ℚ) (hin : ∀ l ∈ t.2.1, a ≤ l.bbox.x0 ∧ l.bbox.x1 ≤ b) : hz_Hull (t.2.1.map hz_ext) (t.1.x0, t.1.x1) (a, b) := by
  have hne : t.2.1 ≠ [] := h.line.nonempty
  have hh := h.line.hull
  simp only [Full.Blk.lines, Full.Blk.bbox] at hh
  obtain ⟨l0, m1, m2⟩ := hz_min (fun l : Lay.Ln Tok => l.bbox.x0) t.2.1 hne
  obtain ⟨l1, n1, n2⟩ := hz_min (fun l : Lay.Ln Tok => -l.bbox.x1) t.2.1 hne
  have c0 := hh.1 _ (List.mem_map_of_mem m1)
  have c1 := hh.1 _ (List.mem_map_of_mem n1)
  have hb := hh.2 ⟨l0.bbox.x0, t.1.y0, l1.bbox.x1, t.1.y1⟩ (by
    intro r hr
    obtain ⟨l, hl, rfl⟩ := List.mem_map.1 hr
    have := hh.1 _ (List.mem_map_of_mem hl)
    exact ⟨m2 l hl, this.2.1, by have := n2 l hl; linarith, this.2.2.2⟩)
  have e0 : t.1.x0 = l0.bbox.x0 := le_antisymm c0.1 hb.1
  have e1 : t.1.x1 = l1.bbox.x1 := le_antisymm hb.2.2.1 c1.2.2.1
  refine ⟨?_, ⟨hz_ext l0, List.mem_map_of_mem m1, e0⟩, ⟨hz_ext l1, List.mem_map_of_mem n1, e1⟩, ?_, ?_⟩
  · intro e he
    obtain ⟨l, hl, rfl⟩ := List.mem_map.1 he
    have := hh.1 _ (List.mem_map_of_mem hl)
    exact ⟨this.1, this.2.2.1⟩
  · dsimp only
    rw [e0]
    exact (hin _ m1).1
  · dsimp only
    rw [e1]
    exact (hin _ n1).2

/-- Lines of a column are not in the same row. -/
theorem hz_rows {t : TextTriple} (h : Laid t) : (Pose.tlines t.2.1 t.2.2).Pairwise fun x y => x.1.inSameRow y.1 = false := by
  have e := ps_tlines h
  have : ((Pose.tlines t.2.1 t.2.2).map Prod.fst).Pairwise fun x y => x.inSameRow y = false := by
    rw [e, List.pairwise_map]
    refine h.above.imp_of_mem ?_
    intro l m hl hm hlm
    exact ps_apart (h.line.boxes.2 l hl).1.1.1 (h.line.boxes.2 m hm).1.1.1 (h.line.horizontal l hl) (Or.inl hlm)
  exact List.pairwise_map.1 this

theorem hz_exts {t : TextTriple} (h : Laid t) : ((Pose.tlines t.2.1 t.2.2).map fun l => Pose.along true l.1.bbox) = t.2.1.map hz_ext := by
  have e := congrArg (List.map fun x : El => Pose.along true x.bbox) (ps_tlines h)
  rw [List.map_map, List.map_map] at e
  exact e

/-- The horizontal spacing of a paragraph. -/
theorem hz_spacing (c : Pose.Cfg) (hi : ∀ l, (c.whole.full.base.lay.iter l).Perm l) (box : Rect) {t : TextTriple} (h : Laid t) (f : Pose.Form)
    (hf : Pose.horizontalSpacing c box true t.1 (Pose.tlines t.2.1 t.2.2) = .ok f) :
    f.horizontal = true ∧ f.hsp = Para.parse 1 c.thr (t.1.x0, t.1.x1) (box.x0, box.x1) ((t.2.1.map hz_ext).map fun e => [e]) (t.2.1.map hz_ext) := by
  unfold Pose.horizontalSpacing at hf
  rw [hz_groups _ hi _ _ (hz_rows h)] at hf
  dsimp only at hf
  split at hf
  · cases hf
  · obtain rfl := Except.ok.inj hf
    refine ⟨rfl, ?_⟩
    dsimp only
    rw [hz_exts h, List.map_map, ← hz_exts h, List.map_map]
    rfl

theorem hz_tabs_replicate {α : Type} (m k : ℕ) (a : α) (r : List (Para.Out α)) : tabsBefore m (List.replicate k .tab ++ .content a :: r) = (m + k) :: tabsBefore 0 r := by
  induction k generalizing m with
  | zero => rfl
  | succ k ih =>
    rw [List.replicate_succ, List.cons_append, tabsBefore, ih]
    congr 1
    omega

theorem hz_makeLines {α : Type} (left b0 : ℚ) (stops : List ℚ) (ls : List (Para.Ln α)) (h : ∀ l ∈ ls, l.sameRow = false) :
    tabsBefore 0 (Para.makeLines left b0 stops left ls) = ls.map fun l => if left < left + (l.ext.1 - b0) ∧ stops ≠ [] then Para.addStop stops (left + (l.ext.1 - b0)) left else 0 := by
  induction ls with
  | nil => rfl
  | cons l ls ih =>
    simp only [Para.makeLines]
    rw [hz_tabs_replicate, h l (by simp)]
    simp only [Bool.false_eq_true, if_false, zero_add, List.map_cons]
    rw [← ih fun x hx => h x (by simp [hx])]
    cases l.brk <;> rfl

theorem hz_lns (ls : List Pose.TL) (brk : List Bool) (h : ls.Pairwise fun x y => x.1.inSameRow y.1 = false) :
    (∀ l ∈ Pose.lns true ls brk, l.sameRow = false) ∧ (Pose.lns true ls brk).map (fun l => l.ext) = ls.map fun l => Pose.along true l.1.bbox := by
  induction ls generalizing brk with
  | nil => exact ⟨by simp [Pose.lns], rfl⟩
  | cons l ls ih =>
    rw [List.pairwise_cons] at h
    obtain ⟨i1, i2⟩ := ih brk.tail h.2
    refine ⟨?_, ?_⟩
    · intro x hx
      rw [Pose.lns, List.mem_cons] at hx
      rcases hx with rfl | hx
      · cases ls with
        | nil => rfl
        | cons n ls => exact h.1 n (by simp)
      · exact i1 x hx
    · rw [Pose.lns, List.map_cons, List.map_cons, i2]

/-- The tabs of a paragraph. -/
theorem hz_paragraph_tabs {t : TextTriple} (h : Laid t) (sp : Spacing.Sp) (f : Pose.Form) (hf : f.horizontal = true) :
    tabsBefore 0 (Pose.paragraph t.1 (Pose.tlines t.2.1 t.2.2) sp f).content = (t.2.1.map hz_ext).map fun e => hz_tabs f.hsp t.1.x0 e.1 := by
  obtain ⟨i1, i2⟩ := hz_lns (Pose.tlines t.2.1 t.2.2) f.breaks (hz_rows h)
  unfold Pose.paragraph
  dsimp only
  rw [hf, hz_makeLines _ _ _ _ i1, ← hz_exts h, ← i2, List.map_map]
  rfl

/-- Where its rows start. -/
theorem hz_row_starts {t : TextTriple} (h : Laid t) (sp : Spacing.Sp) (f : Pose.Form) (hf : f.horizontal = true) (a b : ℚ) (i : ℕ) (y : ℚ)
    (hy : (rowStarts a b (Pose.paragraph t.1 (Pose.tlines t.2.1 t.2.2) sp f) t.2.1)[i]? = some y) :
    ∃ l, t.2.1[i]? = some l ∧ y = hz_place f.hsp a b (decide (i = 0)) (hz_tabs f.hsp t.1.x0 (hz_ext l).1) ((hz_ext l).2 - (hz_ext l).1) := by
  unfold rowStarts at hy
  rw [hz_paragraph_tabs h sp f hf, List.getElem?_map] at hy
  obtain ⟨x, hx, rfl⟩ := Option.map_eq_some_iff.1 hy
  rw [List.getElem?_zipIdx] at hx
  obtain ⟨z, hz, rfl⟩ := Option.map_eq_some_iff.1 hx
  rw [List.getElem?_zip_eq_some] at hz
  obtain ⟨h1, h2⟩ := hz
  rw [List.getElem?_map, List.getElem?_map] at h1
  rw [h2] at h1
  refine ⟨z.2, h2, ?_⟩
  simp only [Option.map_some, Option.some.injEq] at h1
  rw [← h1]
  simp only [zero_add]
  rfl

end Paragraphs122
end Props

namespace Props
open Geom Py Pipe Spec

section Page122

theorem hz_later_edges (ls : List (Lay.Ln Tok)) : hz_later ((ls.map hz_ext).map Prod.fst) = leftEdges ls := by
  unfold hz_later leftEdges
  simp only [List.length_map, List.map_map]
  split_ifs
  · rw [List.map_drop]; rfl
  · rfl

theorem hz_right_edges (ls : List (Lay.Ln Tok)) : hz_butLast ((ls.map hz_ext).map Prod.snd) = rightEdges ls := by
  unfold hz_butLast rightEdges
  simp only [List.length_map, List.map_map]
  split_ifs
  · rw [List.map_dropLast]; rfl
  · rfl

/-- A paragraph of a column. -/
theorem hz_paragraph (c : Pose.Cfg) (hi : ∀ l, (c.whole.full.base.lay.iter l).Perm l) (hl0 : 0 ≤ c.left) (hr0 : 0 ≤ c.right) (box : Rect) {t : TextTriple} (h : Laid t)
    (hin : ∀ l ∈ t.2.1, box.x0 ≤ l.bbox.x0 ∧ l.bbox.x1 ≤ box.x1) (sp : Spacing.Sp) (f : Pose.Form)
    (hf : Pose.horizontalSpacing c box true t.1 (Pose.tlines t.2.1 t.2.2) = .ok f) (i : ℕ) (y : ℚ) (l : Lay.Ln Tok)
    (hy : (rowStarts box.x0 box.x1 (Pose.paragraph t.1 (Pose.tlines t.2.1 t.2.2) sp f) t.2.1)[i]? = some y) (hl : t.2.1[i]? = some l) :
    RowsInPlace c.left c.right c.center box.x0 box.x1 t.2.1 y l := by
  obtain ⟨f1, f2⟩ := hz_spacing c hi box h f hf
  obtain ⟨l', hl', rfl⟩ := hz_row_starts h sp f f1 _ _ i y hy
  obtain rfl := Option.some.inj (hl.symm.trans hl')
  rw [f2]
  have hH := hz_hull h box.x0 box.x1 hin
  have he : (t.2.1.map hz_ext)[i]? = some (hz_ext l) := by rw [List.getElem?_map, hl]; rfl
  have e0 : (t.2.1.map hz_ext).map Prod.fst = t.2.1.map fun l => l.bbox.x0 := by rw [List.map_map]; rfl
  have e1 : (t.2.1.map hz_ext).map Prod.snd = t.2.1.map fun l => l.bbox.x1 := by rw [List.map_map]; rfl
  have e2 : (t.2.1.map hz_ext).map (fun e => (e.1 + e.2) / 2) = t.2.1.map middle := by rw [List.map_map]; rfl
  have el := hz_later_edges t.2.1
  have er := hz_right_edges t.2.1
  have hlen : (t.2.1.map hz_ext).length = t.2.1.length := List.length_map _
  refine ⟨?_, ?_, ?_, ?_⟩
  · intro k
    exact hz_flush_left (t := c.thr) hH hl0 hr0 (by rw [e0]; exact k) i _ he _ _ rfl
  · intro n k1 k2
    exact hz_flush_right (t := c.thr) hH (by omega) (by rw [e1]; exact k1) (by rw [el]; exact k2) i _ he _ _
  · intro n k1 k2 k3
    refine hz_hanging (t := c.thr) hH (by omega) ?_ ?_ (by rw [er]; exact k3) i _ he _ _ rfl
    · unfold leftEdges at k1
      rw [if_pos n, List.map_drop] at k1
      rw [e0]
      exact k1
    · have a0 : t.2.1[0]? = some t.2.1[0] := List.getElem?_eq_getElem (by omega)
      have a1 : t.2.1[1]? = some t.2.1[1] := List.getElem?_eq_getElem (by omega)
      rw [hz_getD 0 (hz_ext t.2.1[0]) (by rw [List.getElem?_map, a0]; rfl), hz_getD 1 (hz_ext t.2.1[1]) (by rw [List.getElem?_map, a1]; rfl)]
      exact k2 _ _ a0 a1
  · intro n k1 k2 ε k3
    refine hz_ragged (t := c.thr) hH (by omega) (by rw [el]; exact k1) (by rw [er]; exact k2) ε ?_ i _ he _
    rw [e2]
    intro k e he
    obtain ⟨m, hm, rfl⟩ := List.mem_map.1 he
    exact k3 k m hm

theorem hz_count {t : TextTriple} (h : Laid t) (sp : Spacing.Sp) (f : Pose.Form) (hf : f.horizontal = true) (a b : ℚ) :
    (rowStarts a b (Pose.paragraph t.1 (Pose.tlines t.2.1 t.2.2) sp f) t.2.1).length = t.2.1.length := by
  unfold rowStarts
  rw [hz_paragraph_tabs h sp f hf]
  simp

/-- **C122** (partial: pages of text in one column, one line in each row, as C111; not the paragraphs of the refutations below). Each paragraph of the section of such a page shows a group of lines; if a word
processor sets it between the margins of the section, each line in a row of its own, as wide as on the page, with the written alignment, indents, tab stops and tabs, the rows start where the lines do on the
page, up to the thresholds: if the lines are flush left or flush right, hang under the first one, or are flush neither left nor right - unless their middles are the same, but not that of the page. -/
theorem C122_horizontal_partial (c : Pose.Cfg) (hc : Sane c.whole) (hl0 : 0 ≤ c.left) (hr0 : 0 ≤ c.right) (f : Fmt) (depth : ℕ) (s0 : Pose.Sect) (pages : List Pose.Page)
    (d : Docx.Doc Pose.Par Sp Pose.Sect) (h : Pose.convert c (depth + 1) s0 pages = .ok d) (i : ℕ) (p : Pose.Page) (s : Pose.Sect × List (Docx.Item Pose.Par Sp Pose.Sect))
    (hp : pages[i]? = some p) (hs : (sectionsOf d)[i]? = some s) (htp : TextPage c.whole (withFormats c f p).whole) :
    ∃ (qs : List Pose.Par) (L : List (List (Lay.Ln Tok))), ofItems s.2 = qs.map Tree.text ∧ List.Forall₂ ShowsRows qs L ∧
      L.flatten.Perm (linesOn c.whole.ws (withFormats c f p)) ∧ L.flatten.Pairwise (fun l m => Above l.bbox m.bbox) ∧
      List.Forall₂ (fun (q : Pose.Par) (ls : List (Lay.Ln Tok)) => (rowStarts s.1.margin.left (s.1.width - s.1.margin.right) q ls).length = ls.length ∧
        ∀ (i : ℕ) (y : ℚ) (l : Lay.Ln Tok), (rowStarts s.1.margin.left (s.1.width - s.1.margin.right) q ls)[i]? = some y → ls[i]? = some l →
          RowsInPlace c.left c.right c.center s.1.margin.left (s.1.width - s.1.margin.right) ls y l) qs L := by
  obtain ⟨dd, h1, h2, h3⟩ := ps_section c (depth + 1) s0 pages d h i p s hp hs
  obtain ⟨bs, k1, k2, k3, k5, xs, k4, rfl⟩ := ps_page c hc f depth p htp dd h1
  obtain ⟨qs, e1, e2, e3⟩ := ps_column c _ bs k1 xs k4
  have ex0 : s.1.margin.left = (p.workOf c (cleaned c p)).x0 := by
    rw [h2]
    show (p.margin c (cleaned c p)).left = 0 + (p.margin c (cleaned c p)).left
    rw [zero_add]
  have ex1 : s.1.width - s.1.margin.right = (p.workOf c (cleaned c p)).x1 := by
    rw [h2]
    rfl
  refine ⟨qs, bs.map fun t => t.2.1, ?_, ?_, ?_, ?_, ?_⟩
  · rw [h3]
    dsimp only
    rw [e1, ps_leaves]
  · rw [List.forall₂_map_right_iff]
    exact e2.imp fun _ _ h => h.1
  · rw [← List.flatMap_def]; exact k2
  · rw [← List.flatMap_def]; exact k3
  · rw [List.forall₂_map_right_iff, ex0, ex1]
    clear h3 h2 h1 e3 e1 k4 k3 k2
    have hall : ∀ (qs : List Pose.Par) (bs : List TextTriple), (∀ t ∈ bs, Laid t) →
        (∀ l ∈ bs.flatMap fun t => t.2.1, (p.workOf c (cleaned c p)).x0 ≤ l.bbox.x0 ∧ l.bbox.x1 ≤ (p.workOf c (cleaned c p)).x1) →
        List.Forall₂ (fun q (t : TextTriple) => ShowsRows q t.2.1 ∧ ∃ f sp, Pose.horizontalSpacing c (p.workOf c (cleaned c p)) true t.1 (Pose.tlines t.2.1 t.2.2) = .ok f ∧
          q = Pose.paragraph t.1 (Pose.tlines t.2.1 t.2.2) sp f) qs bs →
        List.Forall₂ (fun q (t : TextTriple) => (rowStarts (p.workOf c (cleaned c p)).x0 (p.workOf c (cleaned c p)).x1 q t.2.1).length = t.2.1.length ∧
          ∀ (i : ℕ) (y : ℚ) (l : Lay.Ln Tok), (rowStarts (p.workOf c (cleaned c p)).x0 (p.workOf c (cleaned c p)).x1 q t.2.1)[i]? = some y → t.2.1[i]? = some l →
            RowsInPlace c.left c.right c.center (p.workOf c (cleaned c p)).x0 (p.workOf c (cleaned c p)).x1 t.2.1 y l) qs bs := by
      intro qs bs k1 k5 e2
      induction e2 with
      | nil => exact .nil
      | @cons q t qs bs hq _ ih =>
        obtain ⟨-, g, sp, g1, rfl⟩ := hq
        refine .cons ⟨?_, ?_⟩ (ih (fun t h => k1 t (by simp [h])) (fun l h => k5 l (by rw [List.flatMap_cons]; exact List.mem_append_right _ h)))
        · exact hz_count (k1 t (by simp)) sp g (hz_spacing c hc.order _ (k1 t (by simp)) g g1).1 _ _
        · intro i y l hy hl
          exact hz_paragraph c hc.order hl0 hr0 _ (k1 t (by simp)) (fun l h => k5 l (by rw [List.flatMap_cons]; exact List.mem_append_left _ h)) sp g g1 i y l hy hl
    exact hall qs bs k1 k5 e2

/-! ## Examples -/

set_option synthInstance.maxSize 1024

/-- A page with one paragraph of lines with the given left and right edges. -/
def hzRaw (xs : List (ℚ × ℚ)) : Raw :=
  plText 1 ⟨(xs.map Prod.fst).foldl min 1000, 100, (xs.map Prod.snd).foldl max 0, 90 + 20 * xs.length⟩
    (xs.zipIdx.map fun x => (⟨x.1.1, 100 + 20 * x.2, x.1.2, 110 + 20 * x.2⟩, [(⟨x.1.1, 100 + 20 * x.2, x.1.2, 110 + 20 * x.2⟩, 'a')]))
def hzPage (xs : List (ℚ × ℚ)) : Pose.Page := ⟨⟨0, 0, 400, 600⟩, [hzRaw xs], [], fun _ => "", fun _ _ _ _ _ => 0⟩

/-- The margins of the section, and for its paragraphs the alignment and where the rows start, the lines of the page (in order) being its rows. -/
def hzStarts (p : Pose.Page) : Option (List (ℚ × ℚ × List (Para.Align × List ℚ))) :=
  (Pose.convert poCfg 3 ⟨0, 0, ⟨0, 0, 0, 0⟩⟩ [p]).toOption.map fun d => (sectionsOf d).map fun s => (s.1.margin.left, s.1.width - s.1.margin.right,
    (leaves (ofItems s.2)).map fun q => (q.align, rowStarts s.1.margin.left (s.1.width - s.1.margin.right) q (linesOn poCfg.whole.ws (withFormats poCfg ppFmt p))))

/-- Non-vacuity: the text page of C120 meets the hypotheses (its paragraphs are flush left at 20, with one and with two lines). -/
example : Sane poCfg.whole ∧ 0 ≤ poCfg.left ∧ 0 ≤ poCfg.right ∧ TextPage poCfg.whole (withFormats poCfg ppFmt poText).whole ∧
    (hzStarts poText).map (fun ss => ss.map fun s => s.2.2.map fun x => (x.1, x.2)) = some [[(.left, [20]), (.left, [20, 20])]] ∧
    (linesOn poCfg.whole.ws (withFormats poCfg ppFmt poText)).map (fun l => l.bbox.x0) = [20, 20, 20] := by
  refine ⟨wh_ex_sane, by decide +kernel, by decide +kernel, po_ex_text, by decide +kernel, by decide +kernel⟩

/-- Paragraphs as in the four cases: flush left, flush right, hanging, ragged (with tab stops). -/
example : hzStarts (hzPage [(50, 260), (50, 240), (50, 220)]) = some [(50, 328, [(.left, [50, 50, 50])])] ∧
    hzStarts (hzPage [(100, 260), (150, 260), (60, 260)]) = some [(60, 328, [(.right, [100, 150, 60])])] ∧
    hzStarts (hzPage [(50, 260), (70, 240), (70, 220)]) = some [(50, 328, [(.left, [50, 70, 70])])] ∧
    hzStarts (hzPage [(100, 260), (50, 250), (60, 220)]) = some [(50, 328, [(.left, [100, 50, 60])])] := by
  refine ⟨by decide +kernel, by decide +kernel, by decide +kernel, by decide +kernel⟩

/-- **C122 is false** for a justified paragraph with a first line indent (or a hanging one): the indent is lost, all rows start at the left edge of the paragraph. -/
theorem C122_refuted_justified :
    hzStarts (hzPage [(70, 260), (50, 260), (50, 200)]) = some [(50, 328, [(.justify, [50, 50, 50])])] ∧
    hzStarts (hzPage [(50, 260), (70, 260), (70, 200)]) = some [(50, 328, [(.justify, [50, 50, 50])])] := by
  refine ⟨by decide +kernel, by decide +kernel⟩

/-- **C122 is false** for a paragraph whose lines are centred, but not on the page: it is moved to the middle of the text area (here by 80pt). -/
theorem C122_refuted_centred : hzStarts (hzPage [(100, 140), (90, 150), (95, 145)]) = some [(72, 328, [(.center, [180, 170, 175])])] := by
  decide +kernel

/-- **C122 is false** for a paragraph of three or more lines that are flush right except for the last: the last one is set flush right too (here 40pt off). -/
theorem C122_refuted_last_row : hzStarts (hzPage [(100, 260), (150, 260), (60, 220)]) = some [(60, 328, [(.right, [100, 150, 100])])] := by
  decide +kernel

/-- **C122 is false** for a left-aligned paragraph with a first line indent (see C52): all rows move to the left by the indent. -/
theorem C122_refuted_first_line : hzStarts (hzPage [(70, 260), (50, 230), (50, 200)]) = some [(50, 328, [(.left, [50, 30, 30])])] := by
  decide +kernel

end Page122
end Props
