import Verif.Sweep
/-! # Lemmas on the plane sweep -/

namespace Sweep
open Geom Py

theorem mem_takeWhile_of_sorted (l : List Edge) (hs : l.Pairwise fun a b => a.r.y0 ≤ b.r.y0) (t : ℚ) (e : Edge)
    (he : e ∈ l) (ht : e.r.y0 < t) : e ∈ l.takeWhile fun e => decide (e.r.y0 < t) := by
  induction l with
  | nil => simp at he
  | cons a l ih =>
    rw [List.pairwise_cons] at hs
    have ha : a.r.y0 < t := by
      rcases List.mem_cons.1 he with rfl | he
      · exact ht
      · exact lt_of_le_of_lt (hs.1 e he) ht
    rw [List.takeWhile_cons]
    simp only [ha, decide_true, if_true]
    rcases List.mem_cons.1 he with rfl | he
    · simp
    · exact List.mem_cons_of_mem _ (ih hs.2 he)

theorem of_mem_takeWhile (l : List Edge) (t : ℚ) (e : Edge) (h : e ∈ l.takeWhile fun e => decide (e.r.y0 < t)) :
    e ∈ l ∧ e.r.y0 < t := by
  refine ⟨(List.takeWhile_sublist _).subset h, ?_⟩
  have := List.all_takeWhile (p := fun e : Edge => decide (e.r.y0 < t)) (l := l)
  simpa using List.all_eq_true.1 this e h

/-- What `_stab` reports. -/
theorem stabLoop_sound (A B : List Edge) (hA : A.Pairwise fun a b => a.r.y0 ≤ b.r.y0)
    (hB : B.Pairwise fun a b => a.r.y0 ≤ b.r.y0) (p : ℕ × ℕ) (h : p ∈ stabLoop A B) :
    ∃ a ∈ A, ∃ b ∈ B, p = (a.idx / 2, b.idx / 2) ∧
      (a.r.y0 < b.r.y0 ∧ b.r.y0 < a.r.y1 ∨ b.r.y0 ≤ a.r.y0 ∧ a.r.y0 < b.r.y1) := by
  fun_induction stabLoop A B with
  | case1 a A b B hlt ih =>
    rw [List.pairwise_cons] at hA
    rcases List.mem_append.1 h with h | h
    · obtain ⟨e, he, rfl⟩ := List.mem_map.1 h
      obtain ⟨h1, h2⟩ := of_mem_takeWhile _ _ _ he
      refine ⟨a, by simp, e, h1, rfl, Or.inl ⟨?_, h2⟩⟩
      rcases List.mem_cons.1 h1 with rfl | h1
      · exact hlt
      · exact lt_of_lt_of_le hlt ((List.pairwise_cons.1 hB).1 e h1)
    · obtain ⟨a', ha', b', hb', h1⟩ := ih hA.2 hB h
      exact ⟨a', by simp [ha'], b', hb', h1⟩
  | case2 a A b B hlt ih =>
    rw [List.pairwise_cons] at hB
    rcases List.mem_append.1 h with h | h
    · obtain ⟨e, he, rfl⟩ := List.mem_map.1 h
      obtain ⟨h1, h2⟩ := of_mem_takeWhile _ _ _ he
      refine ⟨e, h1, b, by simp, rfl, Or.inr ⟨?_, h2⟩⟩
      rcases List.mem_cons.1 h1 with rfl | h1
      · exact not_lt.1 hlt
      · exact le_trans (not_lt.1 hlt) ((List.pairwise_cons.1 hA).1 e h1)
    · obtain ⟨a', ha', b', hb', h1⟩ := ih hA hB.2 h
      exact ⟨a', ha', b', by simp [hb'], h1⟩
  | case3 => simp at h

theorem stabLoop_complete (A B : List Edge) (hA : A.Pairwise fun a b => a.r.y0 ≤ b.r.y0)
    (hB : B.Pairwise fun a b => a.r.y0 ≤ b.r.y0) (a b : Edge) (ha : a ∈ A) (hb : b ∈ B)
    (h1 : a.r.y0 < b.r.y1) (h2 : b.r.y0 < a.r.y1) : (a.idx / 2, b.idx / 2) ∈ stabLoop A B := by
  fun_induction stabLoop A B with
  | case1 a0 A b0 B hlt ih =>
    rw [List.mem_append]
    rcases List.mem_cons.1 ha with rfl | ha
    · left
      rw [List.mem_map]
      exact ⟨b, mem_takeWhile_of_sorted _ hB _ _ hb h2, rfl⟩
    · right
      exact ih (List.pairwise_cons.1 hA).2 hB ha hb
  | case2 a0 A b0 B hlt ih =>
    rw [List.mem_append]
    rcases List.mem_cons.1 hb with rfl | hb
    · left
      rw [List.mem_map]
      exact ⟨a, mem_takeWhile_of_sorted _ hA _ _ ha h1, rfl⟩
    · right
      exact ih hA (List.pairwise_cons.1 hB).2 ha hb
  | case3 A B h =>
    exfalso
    cases A with
    | nil => simp at ha
    | cons x A =>
      cases B with
      | nil => simp at hb
      | cons y B => exact h x A y B rfl rfl

theorem stab_sound (S1 S2 : List Edge) (p : ℕ × ℕ) (h : p ∈ stab S1 S2) :
    ∃ a ∈ S1, ∃ b ∈ S2, p = (a.idx / 2, b.idx / 2) ∧
      (a.r.y0 < b.r.y0 ∧ b.r.y0 < a.r.y1 ∨ b.r.y0 ≤ a.r.y0 ∧ a.r.y0 < b.r.y1) := by
  obtain ⟨a, ha, b, hb, h⟩ := stabLoop_sound _ _ (sortBy_pairwise _ _) (sortBy_pairwise _ _) p h
  exact ⟨a, (mem_sortBy _ _ _).1 ha, b, (mem_sortBy _ _ _).1 hb, h⟩

theorem stab_complete (S1 S2 : List Edge) (a b : Edge) (ha : a ∈ S1) (hb : b ∈ S2)
    (h1 : a.r.y0 < b.r.y1) (h2 : b.r.y0 < a.r.y1) : (a.idx / 2, b.idx / 2) ∈ stab S1 S2 :=
  stabLoop_complete _ _ (sortBy_pairwise _ _) (sortBy_pairwise _ _) a b ((mem_sortBy _ _ _).2 ha)
    ((mem_sortBy _ _ _).2 hb) h1 h2

/-- Well-formed edge: the coordinate is one of the two x-coordinates of a normalised rectangle. -/
def WfEdge (e : Edge) : Prop := e.r.Valid ∧ (e.x = e.r.x0 ∨ e.x = e.r.x1)

theorem WfEdge.bounds {e : Edge} (h : WfEdge e) : e.r.x0 ≤ e.x ∧ e.x ≤ e.r.x1 := by
  obtain ⟨⟨h1, _⟩, h2 | h2⟩ := h
  · rw [h2]; exact ⟨le_refl _, h1⟩
  · rw [h2]; exact ⟨h1, le_refl _⟩

/-- Sorted list: elements up to position `c-1` are at most that one, those from `c-1` on are at least that one. -/
theorem sorted_split (V : List Edge) (hs : V.Pairwise fun a b => a.x ≤ b.x) (c : ℕ) (hc : 0 < c) (hcl : c ≤ V.length) :
    (∀ e ∈ V.take c, e.x ≤ (V[c - 1]'(by omega)).x) ∧ (∀ e ∈ V.drop c, (V[c - 1]'(by omega)).x ≤ e.x) ∧
    (∀ e ∈ V, (V[0]'(by omega)).x ≤ e.x) ∧ (∀ e ∈ V, e.x ≤ (V[V.length - 1]'(by omega)).x) := by
  have key : ∀ (i j : ℕ) (hi : i < V.length) (hj : j < V.length), i ≤ j → V[i].x ≤ V[j].x := by
    intro i j hi hj hij
    rcases Nat.lt_or_eq_of_le hij with h | h
    · exact List.pairwise_iff_getElem.1 hs i j hi hj h
    · subst h; exact le_refl _
  refine ⟨?_, ?_, ?_, ?_⟩
  · intro e he
    obtain ⟨i, hi, rfl⟩ := List.getElem_of_mem he
    rw [List.length_take] at hi
    rw [List.getElem_take]
    exact key _ _ _ _ (by omega)
  · intro e he
    obtain ⟨i, hi, rfl⟩ := List.getElem_of_mem he
    rw [List.length_drop] at hi
    rw [List.getElem_drop]
    exact key _ _ _ _ (by omega)
  · intro e he
    obtain ⟨i, hi, rfl⟩ := List.getElem_of_mem he
    exact key _ _ _ _ (by omega)
  · intro e he
    obtain ⟨i, hi, rfl⟩ := List.getElem_of_mem he
    exact key _ _ _ _ (by omega)

/-- What the sweep reports: the rectangles meet in x (touching allowed) and their y-ranges overlap as `_stab` tests. -/
theorem solve_sound (V : List Edge) (hs : V.Pairwise fun a b => a.x ≤ b.x) (hw : ∀ e ∈ V, WfEdge e) (p : ℕ × ℕ)
    (h : p ∈ solve V) :
    ∃ a ∈ V, ∃ b ∈ V, p = (a.idx / 2, b.idx / 2) ∧ a.r.x0 ≤ b.r.x1 ∧ b.r.x0 ≤ a.r.x1 ∧
      (a.r.y0 < b.r.y0 ∧ b.r.y0 < a.r.y1 ∨ b.r.y0 ≤ a.r.y0 ∧ a.r.y0 < b.r.y1) := by
  fun_induction solve V with
  | case1 => simp at h
  | case2 V hl c left right X0 X X1 S11 S12 S22 S21 ih2 ih1 =>
    have hc : 0 < c := by simp only [c]; omega
    have hcl : c ≤ V.length := by simp only [c]; omega
    obtain ⟨hL, hR, h0, h1⟩ := sorted_split V hs c hc hcl
    have mL : ∀ e ∈ left, e ∈ V := fun e he => List.mem_of_mem_take he
    have mR : ∀ e ∈ right, e ∈ V := fun e he => List.mem_of_mem_drop he
    have hX0 : X0 ≤ X1 := h0 _ (List.getElem_mem _)
    simp only [List.mem_append] at h
    rcases h with (((h | h) | h) | h) | h
    · obtain ⟨a, ha, b, hb, hp, hy⟩ := stab_sound _ _ _ h
      simp only [S12, S22, List.mem_filter, decide_eq_true_eq] at ha hb
      have wa := (hw a (mL a ha.1)).bounds
      have wb := (hw b (mR b hb.1)).bounds
      have ea : a.x ≤ X := hL a ha.1
      have eb : X ≤ b.x := hR b hb.1
      have eb1 : b.x ≤ X1 := h1 b (mR b hb.1)
      exact ⟨a, mL a ha.1, b, mR b hb.1, hp, by linarith, by linarith [ha.2, hb.2], hy⟩
    · obtain ⟨a, ha, b, hb, hp, hy⟩ := stab_sound _ _ _ h
      simp only [S21, S11, List.mem_filter, decide_eq_true_eq] at ha hb
      have wa := (hw a (mR a ha.1)).bounds
      have wb := (hw b (mL b hb.1)).bounds
      have ea : X ≤ a.x := hR a ha.1
      have eb : b.x ≤ X := hL b hb.1
      have eb1 : X0 ≤ b.x := h0 b (mL b hb.1)
      exact ⟨a, mR a ha.1, b, mL b hb.1, hp, by linarith [ha.2, hb.2], by linarith [ha.2, hb.2], hy⟩
    · obtain ⟨a, ha, b, hb, hp, hy⟩ := stab_sound _ _ _ h
      simp only [S21, S12, List.mem_filter, decide_eq_true_eq] at ha hb
      have wa := (hw a (mL a ha.1)).bounds
      have wb := (hw b (mR b hb.1)).bounds
      have ea : a.x ≤ X := hL a ha.1
      have eb : X ≤ b.x := hR b hb.1
      exact ⟨a, mL a ha.1, b, mR b hb.1, hp, by linarith [ha.2, hb.2], by linarith [ha.2, hb.2], hy⟩
    · obtain ⟨a, ha, b, hb, h⟩ := ih2 (hs.sublist (List.take_sublist _ _)) (fun e he => hw e (mL e he)) h
      exact ⟨a, mL a ha, b, mL b hb, h⟩
    · obtain ⟨a, ha, b, hb, h⟩ := ih1 (hs.sublist (List.drop_sublist _ _)) (fun e he => hw e (mR e he)) h
      exact ⟨a, mR a ha, b, mR b hb, h⟩

/-- The decision at one split: rectangle `i` has edges in `L` only, rectangle `j` in `R` only. -/
theorem split_cases (pre L R post : List Edge) (X0 X X1 : ℚ) (hpre : ∀ e ∈ pre, e.x ≤ X0) (hL : ∀ e ∈ L, e.x ≤ X)
    (h0X : X0 ≤ X) (hpost : ∀ e ∈ post, X1 ≤ e.x)
    (i j : ℕ) (ri rj : Rect) (hxj : rj.x0 < ri.x1)
    (hi1 : ⟨2 * i + 1, ri, ri.x1⟩ ∈ pre ++ (L ++ R) ++ post)
    (hj : rj.x0 ≤ X0 ∨ X < rj.x0)
    (hiR : ∀ e ∈ R, e.idx / 2 ≠ i) :
    (X1 ≤ ri.x1 ∧ X < rj.x0) ∨ (rj.x0 ≤ X0 ∧ ri.x1 ≤ X) ∨ (X1 ≤ ri.x1 ∧ rj.x0 ≤ X0) := by
  have hi : ri.x1 ≤ X ∨ X1 ≤ ri.x1 := by
    simp only [List.mem_append] at hi1
    rcases hi1 with (h | h | h) | h
    · exact Or.inl (le_trans (hpre _ h) h0X)
    · exact Or.inl (hL _ h)
    · exact absurd (by simp only; omega) (hiR _ h)
    · exact Or.inr (hpost _ h)
  rcases hi with hi | hi <;> rcases hj with hj | hj
  · exact Or.inr (Or.inl ⟨hj, hi⟩)
  · linarith
  · exact Or.inr (Or.inr ⟨hi, hj⟩)
  · exact Or.inl ⟨hi, hj⟩

/-- What completeness needs to know about rectangle `i` with box `ri` in the full edge list `W`: its edges are exactly
the two expected ones. -/
structure Has (W : List Edge) (i : ℕ) (ri : Rect) : Prop where
  only : ∀ e ∈ W, e.idx / 2 = i → e.r = ri
  side : ∀ e ∈ W, e.idx / 2 = i → e.x = ri.x0 ∨ e.x = ri.x1
  left : ⟨2 * i, ri, ri.x0⟩ ∈ W
  right : ⟨2 * i + 1, ri, ri.x1⟩ ∈ W

/-- Completeness of the sweep on a segment `V` of the full list `pre ++ V ++ post`: the left edge of rectangle `j` is right of the one of rectangle `i` and
the first edge with its coordinate. -/
theorem solve_complete (V pre post : List Edge) (hs : (pre ++ V ++ post).Pairwise fun a b => a.x ≤ b.x)
    (i j : ℕ) (hij : i ≠ j) (ri rj : Rect)
    (hxi : ri.x0 < rj.x1) (hxj : rj.x0 < ri.x1) (hyi : ri.y0 < rj.y1) (hyj : rj.y0 < ri.y1) (hlt : ri.x0 < rj.x0)
    (hi : Has (pre ++ V ++ post) i ri) (hj : Has (pre ++ V ++ post) j rj)
    (hf : (pre ++ V ++ post).Pairwise fun e f => f = ⟨2 * j, rj, rj.x0⟩ → e.x < rj.x0)
    (a b : Edge) (ha : a ∈ V) (hb : b ∈ V) (hai : a.idx / 2 = i) (hbj : b.idx / 2 = j) :
    (i, j) ∈ solve V ∨ (j, i) ∈ solve V := by
  have har : a.r = ri := hi.only a (by simp [ha]) hai
  have hbr : b.r = rj := hj.only b (by simp [hb]) hbj
  fun_induction solve V generalizing pre post a b with
  | case1 V hl =>
    exfalso
    cases V with
    | nil => simp at ha
    | cons x V =>
      cases V with
      | nil =>
        simp only [List.mem_singleton] at ha hb
        subst ha; subst hb; exact hij (hai.symm.trans hbj)
      | cons y V => simp only [List.length_cons] at hl; omega
  | case2 V hl c left right X0 X X1 S11 S12 S22 S21 ih2 ih1 =>
    have hc : 0 < c := by simp only [c]; omega
    have hcl : c ≤ V.length := by simp only [c]; omega
    have hVs : V.Pairwise fun a b => a.x ≤ b.x :=
      (List.pairwise_append.1 (List.pairwise_append.1 hs).1).2.1
    obtain ⟨hL, hR, h0, h1⟩ := sorted_split V hVs c hc hcl
    have hV : V = left ++ right := (List.take_append_drop c V).symm
    have hpre : ∀ e ∈ pre, e.x ≤ X0 := fun e he =>
      (List.pairwise_append.1 (List.pairwise_append.1 hs).1).2.2 e he _ (List.getElem_mem _)
    have hpost : ∀ e ∈ post, X1 ≤ e.x := fun e he =>
      (List.pairwise_append.1 hs).2.2 _ (List.mem_append_right _ (List.getElem_mem _)) e he
    have h0X : X0 ≤ X := h0 _ (List.getElem_mem _)
    have hXX1 : X ≤ X1 := h1 _ (List.getElem_mem _)
    have hm : V[c - 1] ∈ left := by
      rw [List.mem_take_iff_getElem]
      exact ⟨c - 1, by omega, rfl⟩
    have mem : ∀ q : ℕ × ℕ, (q ∈ stab S12 S22 ∨ q ∈ stab S21 S11 ∨ q ∈ stab S12 S21 ∨ q ∈ solve left ∨ q ∈ solve right) →
        q ∈ stab S12 S22 ++ stab S21 S11 ++ stab S12 S21 ++ solve left ++ solve right := by
      intro q hq
      simp only [List.mem_append]
      tauto
    by_cases hLL : (∃ a' ∈ left, a'.idx / 2 = i) ∧ ∃ b' ∈ left, b'.idx / 2 = j
    · obtain ⟨⟨a', ha', hai'⟩, b', hb', hbj'⟩ := hLL
      have e : pre ++ left ++ (right ++ post) = pre ++ V ++ post := by rw [hV]; simp
      rcases ih2 pre (right ++ post) (by rw [e]; exact hs) (by rw [e]; exact hi) (by rw [e]; exact hj) (by rw [e]; exact hf) a' b' ha' hb'
        hai' hbj' (hi.only a' (by simp [hV, ha']) hai') (hj.only b' (by simp [hV, hb']) hbj') with h | h
      · exact Or.inl (mem _ (by tauto))
      · exact Or.inr (mem _ (by tauto))
    · by_cases hRR : (∃ a' ∈ right, a'.idx / 2 = i) ∧ ∃ b' ∈ right, b'.idx / 2 = j
      · obtain ⟨⟨a', ha', hai'⟩, b', hb', hbj'⟩ := hRR
        have e : (pre ++ left) ++ right ++ post = pre ++ V ++ post := by rw [hV]; simp
        rcases ih1 (pre ++ left) post (by rw [e]; exact hs) (by rw [e]; exact hi) (by rw [e]; exact hj) (by rw [e]; exact hf) a' b' ha' hb'
          hai' hbj' (hi.only a' (by simp [hV, ha']) hai') (hj.only b' (by simp [hV, hb']) hbj') with h | h
        · exact Or.inl (mem _ (by tauto))
        · exact Or.inr (mem _ (by tauto))
      · clear ih1 ih2
        rw [hV] at ha hb hi hj hf
        rcases List.mem_append.1 ha with ha | ha
        · have hb' : b ∈ right := by
            rcases List.mem_append.1 hb with h | h
            · exact absurd ⟨⟨a, ha, hai⟩, b, h, hbj⟩ hLL
            · exact h
          have hiR : ∀ e ∈ right, e.idx / 2 ≠ i := fun e he h => hRR ⟨⟨e, he, h⟩, b, hb', hbj⟩
          have hjL : ∀ e ∈ left, e.idx / 2 ≠ j := fun e he h => hLL ⟨⟨a, ha, hai⟩, e, he, h⟩
          have hne : rj.x0 ≤ X0 ∨ X < rj.x0 := by
            have hj0 := hj.left
            have key : ∀ f ∈ right ++ post, f = ⟨2 * j, rj, rj.x0⟩ → X < rj.x0 := by
              intro f hff h
              have := hf
              rw [List.append_assoc, List.append_assoc] at this
              exact (List.pairwise_append.1 (List.pairwise_append.1 this).2.1).2.2 _ hm f hff h
            simp only [List.mem_append] at hj0 key
            rcases hj0 with (h | h | h) | h
            · exact Or.inl (hpre _ h)
            · exact absurd (by simp only; omega) (hjL _ h)
            · exact Or.inr (key _ (Or.inl h) rfl)
            · exact Or.inr (key _ (Or.inr h) rfl)
          have := split_cases pre left right post X0 X X1 hpre hL h0X hpost i j ri rj hxj hi.right hne hiR
          rcases this with ⟨u, v⟩ | ⟨u, v⟩ | ⟨u, v⟩
          · left
            apply mem
            left
            have := stab_complete S12 S22 a b (by simp only [S12, List.mem_filter, decide_eq_true_eq, har]; exact ⟨ha, u⟩)
              (by simp only [S22, List.mem_filter, decide_eq_true_eq, hbr]; exact ⟨hb', v⟩) (by rw [har, hbr]; exact hyi)
              (by rw [har, hbr]; exact hyj)
            rwa [hai, hbj] at this
          · right
            apply mem
            right; left
            have := stab_complete S21 S11 b a (by simp only [S21, List.mem_filter, decide_eq_true_eq, hbr]; exact ⟨hb', u⟩)
              (by simp only [S11, List.mem_filter, decide_eq_true_eq, har]; exact ⟨ha, v⟩) (by rw [har, hbr]; exact hyj)
              (by rw [har, hbr]; exact hyi)
            rwa [hai, hbj] at this
          · left
            apply mem
            right; right; left
            have := stab_complete S12 S21 a b (by simp only [S12, List.mem_filter, decide_eq_true_eq, har]; exact ⟨ha, u⟩)
              (by simp only [S21, List.mem_filter, decide_eq_true_eq, hbr]; exact ⟨hb', v⟩) (by rw [har, hbr]; exact hyi)
              (by rw [har, hbr]; exact hyj)
            rwa [hai, hbj] at this
        · have hb' : b ∈ left := by
            rcases List.mem_append.1 hb with h | h
            · exact h
            · exact absurd ⟨⟨a, ha, hai⟩, b, h, hbj⟩ hRR
          have hjR : ∀ e ∈ right, e.idx / 2 ≠ j := fun e he h => hRR ⟨⟨a, ha, hai⟩, e, he, h⟩
          have hiL : ∀ e ∈ left, e.idx / 2 ≠ i := fun e he h => hLL ⟨⟨e, he, h⟩, b, hb', hbj⟩
          have hne : ri.x0 ≤ X0 ∨ X < ri.x0 := by
            have hi0 := hi.left
            have hj0 : rj.x0 ≤ X ∨ X1 ≤ rj.x0 := by
              have := hj.left
              simp only [List.mem_append] at this
              rcases this with (h | h | h) | h
              · exact Or.inl (le_trans (hpre _ h) h0X)
              · exact Or.inl (hL _ h)
              · exact absurd (by simp only; omega) (hjR _ h)
              · exact Or.inr (hpost _ h)
            simp only [List.mem_append] at hi0
            rcases hi0 with (h | h | h) | h
            · exact Or.inl (hpre _ h)
            · exact absurd (by simp only; omega) (hiL _ h)
            · right
              have h1 : X ≤ ri.x0 := hR _ h
              rcases hj0 with h2 | h2
              · linarith
              · exfalso
                have hbl : b.x ≤ X := hL b hb'
                rcases hj.side b (by simp [hb']) hbj with h3 | h3 <;> linarith
            · right
              have h1 : X1 ≤ ri.x0 := hpost _ h
              rcases hj0 with h2 | h2
              · linarith
              · exfalso
                have hbl : b.x ≤ X := hL b hb'
                rcases hj.side b (by simp [hb']) hbj with h3 | h3 <;> linarith
          have := split_cases pre left right post X0 X X1 hpre hL h0X hpost j i rj ri hxi hj.right hne hjR
          rcases this with ⟨u, v⟩ | ⟨u, v⟩ | ⟨u, v⟩
          · right
            apply mem
            left
            have := stab_complete S12 S22 b a (by simp only [S12, List.mem_filter, decide_eq_true_eq, hbr]; exact ⟨hb', u⟩)
              (by simp only [S22, List.mem_filter, decide_eq_true_eq, har]; exact ⟨ha, v⟩) (by rw [har, hbr]; exact hyj)
              (by rw [har, hbr]; exact hyi)
            rwa [hai, hbj] at this
          · left
            apply mem
            right; left
            have := stab_complete S21 S11 a b (by simp only [S21, List.mem_filter, decide_eq_true_eq, har]; exact ⟨ha, u⟩)
              (by simp only [S11, List.mem_filter, decide_eq_true_eq, hbr]; exact ⟨hb', v⟩) (by rw [har, hbr]; exact hyi)
              (by rw [har, hbr]; exact hyj)
            rwa [hai, hbj] at this
          · right
            apply mem
            right; right; left
            have := stab_complete S12 S21 b a (by simp only [S12, List.mem_filter, decide_eq_true_eq, hbr]; exact ⟨hb', u⟩)
              (by simp only [S21, List.mem_filter, decide_eq_true_eq, har]; exact ⟨ha, v⟩) (by rw [har, hbr]; exact hyj)
              (by rw [har, hbr]; exact hyi)
            rwa [hai, hbj] at this

theorem mem_edgesFrom (i : ℕ) (rs : List Rect) (e : Edge) :
    e ∈ edgesFrom i rs ↔ ∃ k r, rs[k]? = some r ∧ (e = ⟨2 * (i + k), r, r.x0⟩ ∨ e = ⟨2 * (i + k) + 1, r, r.x1⟩) := by
  induction rs generalizing i with
  | nil => simp [edgesFrom]
  | cons r rs ih =>
    simp only [edgesFrom, List.mem_cons, ih]
    constructor
    · rintro (h | h | ⟨k, r', hk, h⟩)
      · exact ⟨0, r, rfl, Or.inl h⟩
      · exact ⟨0, r, rfl, Or.inr h⟩
      · refine ⟨k + 1, r', hk, ?_⟩
        rw [show i + (k + 1) = i + 1 + k by omega]; exact h
    · rintro ⟨k, r', hk, h⟩
      cases k with
      | zero =>
        simp only [List.getElem?_cons_zero, Option.some.injEq] at hk
        subst hk
        tauto
      | succ k =>
        refine Or.inr (Or.inr ⟨k, r', hk, ?_⟩)
        rw [show i + 1 + k = i + (k + 1) by omega]; exact h

theorem pairs_sound (rs : List Rect) (hv : ∀ r ∈ rs, r.Valid) (p : ℕ × ℕ) (h : p ∈ pairs rs) :
    ∃ a b, rs[p.1]? = some a ∧ rs[p.2]? = some b ∧ a.x0 ≤ b.x1 ∧ b.x0 ≤ a.x1 ∧
      (a.y0 < b.y0 ∧ b.y0 < a.y1 ∨ b.y0 ≤ a.y0 ∧ a.y0 < b.y1) := by
  have mem : ∀ e, e ∈ sortBy (fun e : Edge => e.x) (edgesFrom 0 rs) →
      rs[e.idx / 2]? = some e.r ∧ (e.x = e.r.x0 ∨ e.x = e.r.x1) := by
    intro e he
    rw [mem_sortBy, mem_edgesFrom] at he
    obtain ⟨k, r, hk, h | h⟩ := he
    · subst h
      simp only [Nat.zero_add]
      exact ⟨by rw [show 2 * k / 2 = k by omega]; exact hk, Or.inl trivial⟩
    · subst h
      simp only [Nat.zero_add]
      exact ⟨by rw [show (2 * k + 1) / 2 = k by omega]; exact hk, Or.inr trivial⟩
  obtain ⟨a, ha, b, hb, rfl, hx, hx', hy⟩ := solve_sound _ (sortBy_pairwise _ _)
    (fun e he => ⟨hv _ (List.mem_of_getElem? (mem e he).1), (mem e he).2⟩) p h
  exact ⟨a.r, b.r, (mem a ha).1, (mem b hb).1, hx, hx', hy⟩

theorem pairs_lt (rs : List Rect) (hv : ∀ r ∈ rs, r.Valid) (p : ℕ × ℕ) (h : p ∈ pairs rs) :
    p.1 < rs.length ∧ p.2 < rs.length := by
  obtain ⟨a, b, ha, hb, _⟩ := pairs_sound rs hv p h
  exact ⟨(List.getElem?_eq_some_iff.1 ha).1, (List.getElem?_eq_some_iff.1 hb).1⟩

/-- No vertical edge of an earlier rectangle has the x-coordinate of the left edge of rectangle `i`. -/
def LeftFirst (rs : List Rect) (i : ℕ) : Prop :=
  ∀ r, rs[i]? = some r → ∀ k s, k < i → rs[k]? = some s → s.x0 ≠ r.x0 ∧ s.x1 ≠ r.x0

theorem has_of_getElem (rs : List Rect) (i : ℕ) (r : Rect) (hr : rs[i]? = some r) :
    Has (sortBy (fun e : Edge => e.x) (edgesFrom 0 rs)) i r := by
  have key : ∀ e ∈ sortBy (fun e : Edge => e.x) (edgesFrom 0 rs), e.idx / 2 = i → e.r = r ∧ (e.x = r.x0 ∨ e.x = r.x1) := by
    intro e he hei
    rw [mem_sortBy, mem_edgesFrom] at he
    obtain ⟨k, r', hk, h' | h'⟩ := he
    · subst h'
      simp only [Nat.zero_add] at hei ⊢
      have : k = i := by omega
      subst this; rw [hr] at hk; obtain rfl := Option.some.inj hk; simp
    · subst h'
      simp only [Nat.zero_add] at hei ⊢
      have : k = i := by omega
      subst this; rw [hr] at hk; obtain rfl := Option.some.inj hk; simp
  constructor
  · exact fun e he h => (key e he h).1
  · exact fun e he h => (key e he h).2
  · rw [mem_sortBy, mem_edgesFrom]
    exact ⟨i, r, hr, Or.inl (by simp)⟩
  · rw [mem_sortBy, mem_edgesFrom]
    exact ⟨i, r, hr, Or.inr (by simp)⟩

theorem edgesFrom_pairwise (i : ℕ) (rs : List Rect) : (edgesFrom i rs).Pairwise fun a b => a.idx < b.idx := by
  induction rs generalizing i with
  | nil => simp [edgesFrom]
  | cons r rs ih =>
    have h : ∀ e ∈ edgesFrom (i + 1) rs, 2 * i + 1 < e.idx := by
      intro e he
      obtain ⟨k, r', _, h | h⟩ := (mem_edgesFrom _ _ _).1 he <;> subst h <;> simp only <;> omega
    simp only [edgesFrom, List.pairwise_cons, List.mem_cons]
    refine ⟨?_, fun e he => h e he, ih _⟩
    rintro e (rfl | he)
    · simp
    · have := h e he; omega

theorem first_of_leftFirst (rs : List Rect) (j : ℕ) (r : Rect) (hr : rs[j]? = some r) (h : LeftFirst rs j) :
    (sortBy (fun e : Edge => e.x) (edgesFrom 0 rs)).Pairwise fun e f => f = ⟨2 * j, r, r.x0⟩ → e.x < r.x0 := by
  have h1 := sortBy_pairwise_lex (fun e : Edge => e.x) _ _ (edgesFrom_pairwise 0 rs)
  refine List.Pairwise.imp_of_mem ?_ h1
  intro e f he hf hef hj
  subst hj
  rcases hef with hef | ⟨hx, hidx⟩
  · exact hef
  · exfalso
    rw [mem_sortBy, mem_edgesFrom] at he
    obtain ⟨k, r', hk, h' | h'⟩ := he
    · subst h'
      simp only [Nat.zero_add] at hx hidx
      exact (h r hr k r' (by omega) hk).1 hx
    · subst h'
      simp only [Nat.zero_add] at hx hidx
      exact (h r hr k r' (by omega) hk).2 hx

theorem pairs_complete (rs : List Rect) (i j : ℕ) (a b : Rect) (ha : rs[i]? = some a)
    (hb : rs[j]? = some b) (huj : LeftFirst rs j) (hlt : a.x0 < b.x0)
    (hxi : a.x0 < b.x1) (hxj : b.x0 < a.x1) (hyi : a.y0 < b.y1) (hyj : b.y0 < a.y1) :
    (i, j) ∈ pairs rs ∨ (j, i) ∈ pairs rs := by
  have hij : i ≠ j := by
    rintro rfl
    rw [ha] at hb
    obtain rfl := Option.some.inj hb
    exact lt_irrefl _ hlt
  have Hi := has_of_getElem rs i a ha
  have Hj := has_of_getElem rs j b hb
  have e : ([] : List Edge) ++ sortBy (fun e : Edge => e.x) (edgesFrom 0 rs) ++ [] =
      sortBy (fun e : Edge => e.x) (edgesFrom 0 rs) := by simp
  exact solve_complete _ [] [] (by rw [e]; exact sortBy_pairwise _ _) i j hij a b hxi hxj hyi hyj hlt
    (by rw [e]; exact Hi) (by rw [e]; exact Hj) (by rw [e]; exact first_of_leftFirst rs j b hb huj) _ _ Hi.left Hj.left (by simp only; omega)
    (by simp only; omega)

/-! ## Fuel versions, for evaluation inside the kernel -/

/-- `stabLoop` with fuel. -/
def stabF : ℕ → List Edge → List Edge → List (ℕ × ℕ)
  | 0, _, _ => []
  | n + 1, a :: A, b :: B =>
    if a.r.y0 < b.r.y0 then
      ((b :: B).takeWhile fun e => decide (e.r.y0 < a.r.y1)).map (fun e => (a.idx / 2, e.idx / 2)) ++ stabF n A (b :: B)
    else
      ((a :: A).takeWhile fun e => decide (e.r.y0 < b.r.y1)).map (fun e => (e.idx / 2, b.idx / 2)) ++ stabF n (a :: A) B
  | _ + 1, _, _ => []

theorem stabF_eq (n : ℕ) (A B : List Edge) (h : A.length + B.length ≤ n) : stabF n A B = stabLoop A B := by
  induction n generalizing A B with
  | zero =>
    have hA : A = [] := List.eq_nil_of_length_eq_zero (by omega)
    subst hA
    rw [stabLoop.eq_def]; rfl
  | succ n ih =>
    cases A with
    | nil => rw [stabLoop.eq_def]; rfl
    | cons a A =>
      cases B with
      | nil => rw [stabLoop.eq_def]; rfl
      | cons b B =>
        simp only [List.length_cons] at h
        rw [stabLoop.eq_def]
        simp only [stabF]
        rw [ih A (b :: B) (by simp only [List.length_cons]; omega), ih (a :: A) B (by simp only [List.length_cons]; omega)]

/-- `solve` with fuel. -/
def solveF : ℕ → List Edge → List (ℕ × ℕ)
  | 0, _ => []
  | n + 1, V =>
    if h : V.length < 2 then []
    else
      let c := V.length / 2
      let left := V.take c
      let right := V.drop c
      let X0 := (V[0]'(by omega)).x
      let X := (V[c - 1]'(by omega)).x
      let X1 := (V[V.length - 1]'(by omega)).x
      let S11 := left.filter fun e => decide (e.r.x1 ≤ X)
      let S12 := left.filter fun e => decide (X1 ≤ e.r.x1)
      let S22 := right.filter fun e => decide (X < e.r.x0)
      let S21 := right.filter fun e => decide (e.r.x0 ≤ X0)
      let st (A B : List Edge) := stabF (A.length + B.length) (sortBy (fun e => e.r.y0) A) (sortBy (fun e => e.r.y0) B)
      st S12 S22 ++ st S21 S11 ++ st S12 S21 ++ solveF n left ++ solveF n right

theorem solveF_eq (n : ℕ) (V : List Edge) (h : V.length ≤ n) : solveF n V = solve V := by
  induction n generalizing V with
  | zero =>
    have hA : V = [] := List.eq_nil_of_length_eq_zero (by omega)
    subst hA
    rw [solve.eq_def]; rfl
  | succ n ih =>
    rw [solve.eq_def]
    simp only [solveF]
    split
    · rfl
    · have hst : ∀ A B : List Edge, stabF (A.length + B.length) (sortBy (fun e => e.r.y0) A) (sortBy (fun e => e.r.y0) B) =
          stab A B := fun A B => stabF_eq _ _ _ (by rw [(sortBy_perm _ A).length_eq, (sortBy_perm _ B).length_eq])
      simp only [hst]
      rw [ih _ (by simp only [List.length_take]; omega), ih _ (by simp only [List.length_drop]; omega)]

end Sweep
