import Verif.SweepLemmas
import Verif.Props.Graph
import Mathlib.Tactic.NormNum
/-! # C22, C23: the plane sweep and `group_by_connectivity` -/

namespace Props
open Graph Spec Py Geom Sweep

/-- The two boxes, each enlarged by the tolerances, meet in x (touching allowed) and overlap properly in y. -/
def Near (dx dy : ℚ) (a b : Rect) : Prop :=
  a.x0 - dx ≤ b.x1 + dx ∧ b.x0 - dx ≤ a.x1 + dx ∧ a.y0 - dy < b.y1 + dy ∧ b.y0 - dy < a.y1 + dy

/-- The two boxes, each enlarged by the tolerances, overlap properly. -/
def Overlap (dx dy : ℚ) (a b : Rect) : Prop :=
  a.x0 - dx < b.x1 + dx ∧ b.x0 - dx < a.x1 + dx ∧ a.y0 - dy < b.y1 + dy ∧ b.y0 - dy < a.y1 + dy

instance (dx dy : ℚ) (a b : Rect) : Decidable (Near dx dy a b) := by unfold Near; infer_instance
instance (dx dy : ℚ) (a b : Rect) : Decidable (Overlap dx dy a b) := by unfold Overlap; infer_instance

/-- The boxes are normalised and, enlarged by the tolerances, have positive height and non-negative width. -/
def Solid (dx dy : ℚ) (rs : List Rect) : Prop := ∀ r ∈ rs, r.x0 - dx ≤ r.x1 + dx ∧ r.y0 - dy < r.y1 + dy

theorem solid_valid (dx dy : ℚ) (rs : List Rect) (h : Solid dx dy rs) :
    ∀ r ∈ rs.map (fun r => r.expand dx dy), r.Valid := by
  intro r hr
  obtain ⟨s, hs, rfl⟩ := List.mem_map.1 hr
  exact ⟨(h s hs).1, le_of_lt (h s hs).2⟩

/-- **C22** (pairs). Every pair reported by the plane sweep is a pair of boxes that are near each other. -/
theorem C22_reported_pairs_overlap (dx dy : ℚ) (rs : List Rect) (h : Solid dx dy rs) (i j : ℕ)
    (hp : (i, j) ∈ pairs (rs.map fun r => r.expand dx dy)) :
    ∃ a b, rs[i]? = some a ∧ rs[j]? = some b ∧ Near dx dy a b := by
  obtain ⟨a, b, ha, hb, h1, h2, h3⟩ := pairs_sound _ (solid_valid dx dy rs h) _ hp
  rw [List.getElem?_map, Option.map_eq_some_iff] at ha hb
  obtain ⟨a, ha, rfl⟩ := ha
  obtain ⟨b, hb, rfl⟩ := hb
  refine ⟨a, b, ha, hb, h1, h2, ?_⟩
  have ya := (h a (List.mem_of_getElem? ha)).2
  have yb := (h b (List.mem_of_getElem? hb)).2
  simp only [Rect.expand] at h3
  rcases h3 with ⟨h3, h4⟩ | ⟨h3, h4⟩
  · exact ⟨by linarith, h4⟩
  · exact ⟨h4, by linarith⟩

theorem stabLoop_idx : ∀ (A B : List Edge) (p : ℕ × ℕ), p ∈ stabLoop A B → (∃ a ∈ A, p.1 = a.idx / 2) ∧ ∃ b ∈ B, p.2 = b.idx / 2
  | a :: A, b :: B, p, h => by
    rw [stabLoop] at h
    split at h
    · rcases List.mem_append.1 h with h | h
      · obtain ⟨e, he, rfl⟩ := List.mem_map.1 h
        exact ⟨⟨a, by simp, rfl⟩, e, (List.takeWhile_sublist _).subset he, rfl⟩
      · obtain ⟨⟨x, hx, h1⟩, h2⟩ := stabLoop_idx A (b :: B) p h
        exact ⟨⟨x, by simp [hx], h1⟩, h2⟩
    · rcases List.mem_append.1 h with h | h
      · obtain ⟨e, he, rfl⟩ := List.mem_map.1 h
        exact ⟨⟨e, (List.takeWhile_sublist _).subset he, rfl⟩, b, by simp, rfl⟩
      · obtain ⟨h1, x, hx, h2⟩ := stabLoop_idx (a :: A) B p h
        exact ⟨h1, x, by simp [hx], h2⟩
  | [], B, p, h => by simp [stabLoop] at h
  | a :: A, [], p, h => by simp [stabLoop] at h
termination_by A B => A.length + B.length

theorem stab_idx (A B : List Edge) (p : ℕ × ℕ) (h : p ∈ stab A B) : (∃ a ∈ A, p.1 = a.idx / 2) ∧ ∃ b ∈ B, p.2 = b.idx / 2 := by
  obtain ⟨⟨a, ha, h1⟩, b, hb, h2⟩ := stabLoop_idx _ _ p h
  exact ⟨⟨a, (mem_sortBy _ _ _).1 ha, h1⟩, b, (mem_sortBy _ _ _).1 hb, h2⟩

theorem solve_idx (V : List Edge) (p : ℕ × ℕ) (h : p ∈ solve V) : (∃ a ∈ V, p.1 = a.idx / 2) ∧ ∃ b ∈ V, p.2 = b.idx / 2 := by
  have ht : ∀ (f : Edge → Bool) (n : ℕ) (e : Edge), e ∈ (V.take n).filter f → e ∈ V :=
    fun f n e he => List.mem_of_mem_take (List.mem_of_mem_filter he)
  have hd : ∀ (f : Edge → Bool) (n : ℕ) (e : Edge), e ∈ (V.drop n).filter f → e ∈ V :=
    fun f n e he => List.mem_of_mem_drop (List.mem_of_mem_filter he)
  rw [solve] at h
  split at h
  · simp at h
  · rename_i hlen
    simp only [List.mem_append] at h
    rcases h with (((h | h) | h) | h) | h
    · obtain ⟨⟨a, ha, h1⟩, b, hb, h2⟩ := stab_idx _ _ p h
      exact ⟨⟨a, ht _ _ a ha, h1⟩, b, hd _ _ b hb, h2⟩
    · obtain ⟨⟨a, ha, h1⟩, b, hb, h2⟩ := stab_idx _ _ p h
      exact ⟨⟨a, hd _ _ a ha, h1⟩, b, ht _ _ b hb, h2⟩
    · obtain ⟨⟨a, ha, h1⟩, b, hb, h2⟩ := stab_idx _ _ p h
      exact ⟨⟨a, ht _ _ a ha, h1⟩, b, hd _ _ b hb, h2⟩
    · obtain ⟨⟨a, ha, h1⟩, b, hb, h2⟩ := solve_idx _ p h
      exact ⟨⟨a, List.mem_of_mem_take ha, h1⟩, b, List.mem_of_mem_take hb, h2⟩
    · obtain ⟨⟨a, ha, h1⟩, b, hb, h2⟩ := solve_idx _ p h
      exact ⟨⟨a, List.mem_of_mem_drop ha, h1⟩, b, List.mem_of_mem_drop hb, h2⟩
termination_by V.length
decreasing_by
  · simp only [List.length_take]; omega
  · simp only [List.length_drop]; omega

theorem edgesFrom_idx (rs : List Rect) (i : ℕ) (e : Edge) (h : e ∈ edgesFrom i rs) : e.idx / 2 < i + rs.length := by
  induction rs generalizing i with
  | nil => simp [edgesFrom] at h
  | cons r rs ih =>
    simp only [edgesFrom, List.mem_cons] at h
    rcases h with rfl | rfl | h
    · simp only [List.length_cons]; omega
    · simp only [List.length_cons]; omega
    · have := ih (i + 1) h
      simp only [List.length_cons]; omega

theorem pairs_idx (rs : List Rect) (p : ℕ × ℕ) (h : p ∈ pairs rs) : p.1 < rs.length ∧ p.2 < rs.length := by
  obtain ⟨⟨a, ha, h1⟩, b, hb, h2⟩ := solve_idx _ p h
  have := edgesFrom_idx rs 0 a ((mem_sortBy _ _ _).1 ha)
  have := edgesFrom_idx rs 0 b ((mem_sortBy _ _ _).1 hb)
  omega

/-- **C22**. `group_by_connectivity` never raises and its groups are a partition of the shapes – whatever the boxes and tolerances are, also
when a tolerance turns boxes inside out. -/
theorem C22_never_raises (dx dy : ℚ) (rs : List Rect) :
    ∃ gs, groupIdx dx dy rs = .ok gs ∧ gs.flatten.Perm (List.range rs.length) ∧ ∀ g ∈ gs, g ≠ [] := by
  obtain ⟨gs, h1, h2⟩ := components_of_pairs rs.length (pairs (rs.map fun r => r.expand dx dy))
    (fun p hp => by simpa using pairs_idx _ p hp)
  exact ⟨gs, h1, h2.partition, h2.nonempty⟩

/-- **C22** (groups). `group_by_connectivity` never raises and puts two shapes in one group only if they are linked by
a chain of shapes of that group, consecutive ones being near each other; a shape that is near no other stays alone. -/
theorem C22_groups_are_chains (dx dy : ℚ) (rs : List Rect) (h : Solid dx dy rs) :
    ∃ gs, groupIdx dx dy rs = .ok gs ∧ gs.flatten.Perm (List.range rs.length) ∧
      ∀ g ∈ gs, ∀ i ∈ g, ∀ j ∈ g,
        Linked rs.length (fun i j => ∃ a b, rs[i]? = some a ∧ rs[j]? = some b ∧ Near dx dy a b) i j := by
  have hlt : ∀ p ∈ pairs (rs.map fun r => r.expand dx dy), p.1 < rs.length ∧ p.2 < rs.length := by
    intro p hp
    simpa using pairs_lt _ (solid_valid dx dy rs h) p hp
  obtain ⟨gs, h1, h2⟩ := components_of_pairs rs.length _ hlt
  refine ⟨gs, h1, h2.partition, fun g hg i hi j hj => ?_⟩
  have := (h2.closed g hg i hi j).1 hj
  refine Relation.ReflTransGen.mono ?_ _ _ this
  rintro x y ⟨hx, hy, hxy⟩
  refine ⟨hx, hy, ?_⟩
  rcases hxy with hxy | hxy
  · exact Or.inl (C22_reported_pairs_overlap dx dy rs h _ _ hxy)
  · exact Or.inr (C22_reported_pairs_overlap dx dy rs h _ _ hxy)

/-- Non-vacuity: three boxes, two of which touch; the reported pairs. -/
example : Solid 0 0 [⟨0, 0, 2, 2⟩, ⟨1, 1, 3, 3⟩, ⟨5, 0, 6, 1⟩] ∧
    (0, 1) ∈ pairs (([⟨0, 0, 2, 2⟩, ⟨1, 1, 3, 3⟩, ⟨5, 0, 6, 1⟩] : List Rect).map fun r => r.expand 0 0) := by
  constructor
  · intro r hr
    simp only [List.mem_cons, List.not_mem_nil, or_false] at hr
    rcases hr with rfl | rfl | rfl <;> norm_num
  · unfold pairs
    rw [← solveF_eq 6 _ (by decide +kernel)]
    decide +kernel

/-- No earlier box has a left or right side (enlarged by the tolerance) at the x-coordinate of the left side of box `i`. -/
def LeftSideFirst (dx : ℚ) (rs : List Rect) (i : ℕ) : Prop :=
  ∀ r, rs[i]? = some r → ∀ k s, k < i → rs[k]? = some s → s.x0 - dx ≠ r.x0 - dx ∧ s.x1 + dx ≠ r.x0 - dx

/-- **C23** (partial). Two properly overlapping boxes are reported if the left side of one is right of the left side of the other and no earlier box has a side
at the same x-coordinate. Missing: boxes whose left side is aligned with a side of an earlier box – there the claim is false, see
`C23_refuted_aligned_sides`. -/
theorem C23_overlapping_pairs_reported_partial (dx dy : ℚ) (rs : List Rect) (i j : ℕ) (a b : Rect)
    (ha : rs[i]? = some a) (hb : rs[j]? = some b) (hlt : a.x0 < b.x0) (hj : LeftSideFirst dx rs j) (h : Overlap dx dy a b) :
    (i, j) ∈ pairs (rs.map fun r => r.expand dx dy) ∨ (j, i) ∈ pairs (rs.map fun r => r.expand dx dy) := by
  have lift : LeftFirst (rs.map fun r => r.expand dx dy) j := by
    intro r hr k s hk hs
    rw [List.getElem?_map, Option.map_eq_some_iff] at hr hs
    obtain ⟨r, hr, rfl⟩ := hr
    obtain ⟨s, hs, rfl⟩ := hs
    exact hj r hr k s hk hs
  exact pairs_complete _ i j (a.expand dx dy) (b.expand dx dy) (by simp [ha]) (by simp [hb]) lift
    (by show a.x0 - dx < b.x0 - dx; linarith) h.1 h.2.1 h.2.2.1 h.2.2.2

/-- **C23** (partial, groups). Under the same condition the two boxes end up in the same group. -/
theorem C23_overlapping_same_group_partial (dx dy : ℚ) (rs : List Rect) (hs : Solid dx dy rs) (i j : ℕ)
    (a b : Rect) (ha : rs[i]? = some a) (hb : rs[j]? = some b) (hlt : a.x0 < b.x0)
    (hj : LeftSideFirst dx rs j) (h : Overlap dx dy a b) :
    ∃ gs, groupIdx dx dy rs = .ok gs ∧ ∃ g ∈ gs, i ∈ g ∧ j ∈ g := by
  have hlt' : ∀ p ∈ pairs (rs.map fun r => r.expand dx dy), p.1 < rs.length ∧ p.2 < rs.length := by
    intro p hp
    simpa using pairs_lt _ (solid_valid dx dy rs hs) p hp
  obtain ⟨gs, h1, h2⟩ := components_of_pairs rs.length _ hlt'
  refine ⟨gs, h1, ?_⟩
  have hin : i < rs.length := (List.getElem?_eq_some_iff.1 ha).1
  have hjn : j < rs.length := (List.getElem?_eq_some_iff.1 hb).1
  obtain ⟨g, hg, hig⟩ := List.mem_flatten.1 (h2.partition.symm.subset (List.mem_range.2 hin))
  refine ⟨g, hg, hig, (h2.closed g hg i hig j).2 ?_⟩
  refine Relation.ReflTransGen.single ⟨hin, hjn, ?_⟩
  exact C23_overlapping_pairs_reported_partial dx dy rs i j a b ha hb hlt hj h

/-- Non-vacuity of both: aligned right sides, and left sides aligned with later boxes, are allowed. -/
example : LeftSideFirst 0 [⟨0, 0, 3, 2⟩, ⟨1, 1, 3, 3⟩, ⟨1, 0, 6, 1⟩] 1 ∧ Overlap 0 0 ⟨0, 0, 3, 2⟩ ⟨1, 1, 3, 3⟩ := by
  refine ⟨?_, by unfold Overlap; norm_num⟩
  intro r hr
  simp only [List.getElem?_cons_succ, List.getElem?_cons_zero, Option.some.injEq] at hr
  subst hr
  intro k s hk hs
  match k, hk with
  | 0, _ => simp at hs; subst hs; norm_num

/-- The boxes of the counterexample: a wide box (1), two boxes with the same left side (2, 3), and others. -/
def alignedBoxes : List Rect :=
  [⟨0, 0, 1/2, 10⟩, ⟨1, 0, 10, 10⟩, ⟨3, 0, 6, 10⟩, ⟨3, 0, 5, 10⟩, ⟨26/5, 0, 11/2, 10⟩, ⟨20, 0, 30, 10⟩, ⟨40, 0, 50, 10⟩,
    ⟨60, 0, 70, 10⟩]

/-- **C23 is false**: with two aligned left sides (boxes 2 and 3), box 3 lies properly inside box 1, but the sweep does
not report the pair and `group_by_connectivity` leaves box 3 alone. -/
theorem C23_refuted_aligned_sides :
    Solid 0 0 alignedBoxes ∧ Overlap 0 0 ⟨1, 0, 10, 10⟩ ⟨3, 0, 5, 10⟩ ∧
    ∃ gs, groupIdx 0 0 alignedBoxes = .ok gs ∧ ∀ g ∈ gs, 3 ∈ g → 1 ∉ g := by
  have hs : Solid 0 0 alignedBoxes := by
    intro r hr
    simp only [alignedBoxes, List.mem_cons, List.not_mem_nil, or_false] at hr
    rcases hr with rfl | rfl | rfl | rfl | rfl | rfl | rfl | rfl <;> norm_num
  refine ⟨hs, by unfold Overlap; norm_num, ?_⟩
  have hlt : ∀ p ∈ pairs (alignedBoxes.map fun r => r.expand 0 0), p.1 < alignedBoxes.length ∧ p.2 < alignedBoxes.length := by
    intro p hp
    simpa using pairs_lt _ (solid_valid 0 0 alignedBoxes hs) p hp
  obtain ⟨gs, h1, h2⟩ := components_of_pairs alignedBoxes.length _ hlt
  refine ⟨gs, h1, fun g hg h3 h1' => ?_⟩
  have hiso : ∀ p ∈ pairs (alignedBoxes.map fun r => r.expand 0 0), (p.1 = 3 ↔ p.2 = 3) := by
    unfold pairs
    rw [← solveF_eq 16 _ (by decide +kernel)]
    decide +kernel
  have key : ∀ x, Linked alignedBoxes.length (fun i j => (i, j) ∈ pairs (alignedBoxes.map fun r => r.expand 0 0)) 3 x →
      x = 3 := by
    intro x hx
    unfold Linked at hx
    induction hx with
    | refl => rfl
    | tail _ hbc ih =>
      subst ih
      rcases hbc.2.2 with h | h
      · exact (hiso _ h).1 rfl
      · exact (hiso _ h).2 rfl
  have := key 1 ((h2.closed g hg 3 h3 1).1 h1')
  omega

end Props
