import Verif.Graph
import Verif.Spec.Graph
import Mathlib.Data.List.Flatten
/-! # C21: grouping by connectivity -/

namespace Props
open Graph Spec Py

theorem components_of_pairs (n : ℕ) (pairs : List (ℕ × ℕ)) (h : ∀ p ∈ pairs, p.1 < n ∧ p.2 < n) :
    ∃ gs, graphBfs (build n pairs) = .ok gs ∧ Components n (fun i j => (i, j) ∈ pairs) gs := by
  obtain ⟨gs, h1, h2, h3⟩ := graphBfs_spec (build n pairs) (build_inBounds n pairs h) (build_symm n pairs h)
  rw [build_length] at h2
  refine ⟨gs, h1, h2, fun g hg => (h3 g hg).1, fun g hg a ha b => ?_⟩
  rw [(h3 g hg).2 a ha b]
  have han : a < n := List.mem_range.1 (h2.subset (List.mem_flatten.2 ⟨g, hg, ha⟩))
  constructor
  · intro hr
    unfold Reach at hr
    refine Relation.ReflTransGen.mono ?_ _ _ hr
    intro x y hxy
    rw [mem_adj_build] at hxy
    refine ⟨hxy.1, ?_, hxy.2⟩
    rcases hxy.2 with h' | h'
    · exact (h _ h').2
    · exact (h _ h').1
  · intro hr
    unfold Linked at hr
    refine Relation.ReflTransGen.mono ?_ _ _ hr
    intro x y hxy
    rw [mem_adj_build]
    exact ⟨hxy.1, hxy.2.2⟩

theorem Linked.symm {n : ℕ} {R : ℕ → ℕ → Prop} {a b : ℕ} (h : Linked n R a b) : Linked n R b a := by
  unfold Linked at *
  induction h with
  | refl => exact Relation.ReflTransGen.refl
  | tail _ hbc ih => exact Relation.ReflTransGen.head ⟨hbc.2.1, hbc.1, hbc.2.2.symm⟩ ih

/-- **C21**. For every symmetric relation `f`, every list and every iteration order `iter` of the Python sets, `group`
does not raise and returns the elements at the connected components of the positions. -/
theorem C21_connected_components {α : Type} (iter : List ℕ → List ℕ) (f : α → α → Bool)
    (hf : ∀ a b, f a b = f b a) (xs : List α) :
    ∃ gs, Components xs.length (fun i j => i ≠ j ∧ At xs f i j) gs ∧
      group iter f xs = .ok (gs.map fun g => (iter g).filterMap (xs[·]?)) := by
  obtain ⟨gs, h1, h2⟩ := components_of_pairs xs.length (relatedPairs f xs) (relatedPairs_lt f xs)
  refine ⟨gs, ⟨h2.partition, h2.nonempty, fun g hg a ha b => ?_⟩, ?_⟩
  · rw [h2.closed g hg a ha b]
    unfold Linked
    have : (fun i j => i < xs.length ∧ j < xs.length ∧ ((i, j) ∈ relatedPairs f xs ∨ (j, i) ∈ relatedPairs f xs)) =
        fun i j => i < xs.length ∧ j < xs.length ∧ ((i ≠ j ∧ At xs f i j) ∨ (j ≠ i ∧ At xs f j i)) := by
      funext i j
      apply propext
      refine and_congr_right fun _ => and_congr_right fun _ => ?_
      rw [mem_relatedPairs, mem_relatedPairs]
      have hs : ∀ i j, At xs f i j → At xs f j i := by
        rintro i j ⟨a, b, ha, hb, hab⟩
        exact ⟨b, a, hb, ha, by rw [hf]; exact hab⟩
      constructor
      · rintro (⟨hlt, h⟩ | ⟨hlt, h⟩)
        · exact Or.inl ⟨by omega, h⟩
        · exact Or.inr ⟨by omega, h⟩
      · rintro (⟨hne, h⟩ | ⟨hne, h⟩)
        · rcases Nat.lt_or_gt_of_ne hne with hlt | hlt
          · exact Or.inl ⟨hlt, h⟩
          · exact Or.inr ⟨hlt, hs _ _ h⟩
        · rcases Nat.lt_or_gt_of_ne hne with hlt | hlt
          · exact Or.inr ⟨hlt, h⟩
          · exact Or.inl ⟨hlt, hs _ _ h⟩
    rw [this]
  · unfold group
    rw [h1]

/-- Non-vacuity: `[1,5,2,6,9]` grouped by "differ by one". -/
example : (∀ a b : ℕ, (decide (a + 1 = b ∨ b + 1 = a)) = decide (b + 1 = a ∨ a + 1 = b)) ∧
    group (fun l => l) (fun a b : ℕ => decide (a + 1 = b ∨ b + 1 = a)) [1, 5, 2, 6, 9] = .ok [[1, 2], [5, 6], [9]] := by
  refine ⟨fun a b => by congr 1; exact propext or_comm, ?_⟩
  simp [group, relatedPairs, build, reportPair, setAdd, graphBfs, bfsLoop, bfsFrom, bfs, List.range, List.range.loop, List.modify,
    List.filterMap]

/-- **C21**: no element is lost or duplicated, whatever the iteration order and even for a non-symmetric relation. -/
theorem C21_elements_conserved {α : Type} (iter : List ℕ → List ℕ) (hi : ∀ l, (iter l).Perm l)
    (f : α → α → Bool) (xs : List α) :
    ∃ gs, group iter f xs = .ok gs ∧ gs.flatten.Perm xs ∧ ∀ g ∈ gs, g ≠ [] := by
  obtain ⟨gs, h1, h2⟩ := components_of_pairs xs.length (relatedPairs f xs) (relatedPairs_lt f xs)
  refine ⟨gs.map fun g => (iter g).filterMap (xs[·]?), by unfold group; rw [h1], ?_, ?_⟩
  · have e1 : (gs.map fun g => (iter g).filterMap (xs[·]?)).flatten.Perm (gs.flatten.filterMap (xs[·]?)) := by
      clear h1 h2
      induction gs with
      | nil => simp
      | cons g gs ih =>
        simp only [List.map_cons, List.flatten_cons, List.filterMap_append]
        exact ((hi g).filterMap _).append ih
    refine e1.trans ((h2.partition.filterMap _).trans ?_)
    have : ∀ (ys : List α), (List.range ys.length).filterMap (ys[·]?) = ys := by
      intro ys
      induction ys with
      | nil => rfl
      | cons y ys ih =>
        rw [List.length_cons, List.range_succ_eq_map, List.filterMap_cons, List.filterMap_map]
        simp only [List.getElem?_cons_zero]
        congr 1
    rw [this]
  · intro g hg
    obtain ⟨g', hg', rfl⟩ := List.mem_map.1 hg
    obtain ⟨a, ha⟩ := List.exists_mem_of_ne_nil _ (h2.nonempty g' hg')
    have han : a < xs.length := List.mem_range.1 (h2.partition.subset (List.mem_flatten.2 ⟨g', hg', ha⟩))
    apply List.ne_nil_of_mem (a := xs[a])
    rw [List.mem_filterMap]
    exact ⟨a, (hi g').symm.subset ha, List.getElem?_eq_getElem han⟩

/-- Non-vacuity: a reversing iteration order. -/
example : (∀ l : List ℕ, l.reverse.Perm l) ∧
    group List.reverse (fun a b : ℕ => decide (a + 1 = b)) [1, 5, 2, 6, 9] = .ok [[2, 1], [6, 5], [9]] :=
  ⟨fun l => List.reverse_perm l, by
    simp [group, relatedPairs, build, reportPair, setAdd, graphBfs, bfsLoop, bfsFrom, bfs, List.range, List.range.loop, List.modify,
      List.filterMap]⟩

/-- **C21**: the result does not depend on the iteration order – there is only one family of connected components,
up to the order inside and of the groups. -/
theorem C21_unique (n : ℕ) (R : ℕ → ℕ → Prop) (gs hs : List (List ℕ)) (hg : Components n R gs)
    (hh : Components n R hs) : ∀ g ∈ gs, ∃ h ∈ hs, g.Perm h := by
  intro g hg'
  obtain ⟨a, ha⟩ := List.exists_mem_of_ne_nil _ (hg.nonempty g hg')
  have han := hg.partition.subset (List.mem_flatten.2 ⟨g, hg', ha⟩)
  obtain ⟨h, hh', hah⟩ := List.mem_flatten.1 (hh.partition.symm.subset han)
  refine ⟨h, hh', ?_⟩
  have nd : ∀ ks : List (List ℕ), ks.flatten.Perm (List.range n) → ∀ k ∈ ks, k.Nodup := by
    intro ks hp k hk
    have := hp.nodup_iff.2 List.nodup_range
    rw [List.nodup_flatten] at this
    exact this.1 k hk
  rw [List.perm_ext_iff_of_nodup (nd gs hg.partition g hg') (nd hs hh.partition h hh')]
  intro b
  rw [hg.closed g hg' a ha b, hh.closed h hh' a hah b]

/-- Non-vacuity: the components of `{0,1,2}` with 0–2 related, in two orders. -/
example : ∃ gs, graphBfs (build 3 [(0, 2)]) = .ok gs ∧ Components 3 (fun i j => (i, j) ∈ [(0, 2)]) gs :=
  components_of_pairs 3 [(0, 2)] (by decide)

/-- **C21**, in terms of elements: for a symmetric relation no two elements of different groups are related, and any two elements of a
group are linked by a chain of related elements of that group. -/
theorem C21_groups {α : Type} (iter : List ℕ → List ℕ) (hi : ∀ l, (iter l).Perm l) (f : α → α → Bool)
    (hf : ∀ a b, f a b = f b a) (xs : List α) :
    ∃ gs, group iter f xs = .ok gs ∧ gs.flatten.Perm xs ∧
      gs.Pairwise (fun g h => ∀ a ∈ g, ∀ b ∈ h, f a b = false) ∧
      ∀ g ∈ gs, g ≠ [] ∧ ∀ a ∈ g, ∀ b ∈ g, Relation.ReflTransGen (fun x y => x ∈ g ∧ y ∈ g ∧ f x y = true) a b := by
  obtain ⟨gs, hc, hg⟩ := C21_connected_components iter f hf xs
  obtain ⟨gs', hg', hp, hne⟩ := C21_elements_conserved iter hi f xs
  rw [hg] at hg'
  injection hg' with hg'
  refine ⟨_, hg, by rw [hg']; exact hp, ?_, ?_⟩
  · rw [List.pairwise_map]
    have nd := hc.partition.nodup_iff.2 List.nodup_range
    rw [List.nodup_flatten] at nd
    refine nd.2.imp_of_mem ?_
    intro g h hgm hhm hdis a ha b hb
    obtain ⟨i, hi1, hi2⟩ := List.mem_filterMap.1 ha
    obtain ⟨k, hk1, hk2⟩ := List.mem_filterMap.1 hb
    have hig := (hi g).subset hi1
    have hkh := (hi h).subset hk1
    cases hfv : f a b with
    | false => rfl
    | true =>
      exfalso
      have hne' : i ≠ k := by
        rintro rfl
        exact hdis hig hkh
      have hil : i < xs.length := List.mem_range.1 (hc.partition.subset (List.mem_flatten.2 ⟨g, hgm, hig⟩))
      have hkl : k < xs.length := List.mem_range.1 (hc.partition.subset (List.mem_flatten.2 ⟨h, hhm, hkh⟩))
      have hkg : k ∈ g := (hc.closed g hgm i hig k).2
        (Relation.ReflTransGen.single ⟨hil, hkl, Or.inl ⟨hne', a, b, hi2, hk2, hfv⟩⟩)
      exact hdis hkg hkh
  · intro g hgm
    refine ⟨hne g (by rw [← hg']; exact hgm), ?_⟩
    obtain ⟨g0, hg0, rfl⟩ := List.mem_map.1 hgm
    intro a ha b hb
    obtain ⟨i, hi1, hi2⟩ := List.mem_filterMap.1 ha
    obtain ⟨k, hk1, hk2⟩ := List.mem_filterMap.1 hb
    have hig := (hi g0).subset hi1
    have hkg := (hi g0).subset hk1
    have hl := (hc.closed g0 hg0 i hig k).1 hkg
    clear hb hk1 hkg
    unfold Linked at hl
    induction hl generalizing b with
    | refl =>
      rw [hi2] at hk2
      injection hk2 with hk2
      rw [hk2]
    | tail h1 h2 ih =>
      rename_i m k'
      obtain ⟨hm, hk, hr⟩ := h2
      have hmg : m ∈ g0 := (hc.closed g0 hg0 i hig m).2 h1
      have hkg : k' ∈ g0 := (hc.closed g0 hg0 i hig k').2 (h1.tail ⟨hm, hk, hr⟩)
      have hrel : ∃ c, xs[m]? = some c ∧ f c b = true := by
        rcases hr with ⟨_, c, d, h3, h4, h5⟩ | ⟨_, c, d, h3, h4, h5⟩
        · rw [hk2] at h4; injection h4 with h4; subst h4; exact ⟨c, h3, h5⟩
        · rw [hk2] at h3; injection h3 with h3; subst h3; exact ⟨d, h4, by rw [hf]; exact h5⟩
      obtain ⟨c, hc1, hc2⟩ := hrel
      refine (ih c hc1).tail ⟨?_, ?_, hc2⟩
      · exact List.mem_filterMap.2 ⟨m, (hi g0).symm.subset hmg, hc1⟩
      · exact List.mem_filterMap.2 ⟨k', (hi g0).symm.subset hkg, hk2⟩

/-- Non-vacuity: see the examples above for symmetric relations and iteration orders. -/
example : (∀ l : List ℕ, l.reverse.Perm l) ∧ ∀ a b : ℕ, (decide (a + 1 = b ∨ b + 1 = a)) = decide (b + 1 = a ∨ a + 1 = b) :=
  ⟨fun l => List.reverse_perm l, fun a b => by congr 1; exact propext or_comm⟩

end Props
