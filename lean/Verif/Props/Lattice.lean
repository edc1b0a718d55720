import Verif.Lattice
import Verif.Props.Sweep
import Verif.Props.Graph
import Verif.Props.Assign
import Verif.Props.Table
import Verif.Props.Element
/-! # Theorems about tables with drawn borders: nested groups of strokes (C82) -/

namespace Props
open Py Geom Lattice Spec Graph

section
variable {α : Type}

theorem largest_some (box : α → Rect) (g : List α) (h : g ≠ []) :
    ∃ m ∈ g, largest box g = some m ∧ ∀ x ∈ g, (box x).area ≤ (box m).area := by
  unfold largest
  have hs := sortBy_pairwise (fun x => (box x).area) g
  have hp := sortBy_perm (fun x => (box x).area) g
  have hne : sortBy (fun x => (box x).area) g ≠ [] := by
    intro e
    rw [e] at hp
    exact h (List.nil_perm.1 hp)
  refine ⟨(sortBy (fun x => (box x).area) g).getLast hne, hp.mem_iff.1 (List.getLast_mem hne), List.getLast?_eq_getLast_of_ne_nil hne, ?_⟩
  intro x hx
  have hx' := hp.mem_iff.2 hx
  generalize sortBy (fun x => (box x).area) g = l at *
  clear hp hx
  have e := List.dropLast_append_getLast hne
  rw [← e] at hs hx'
  rw [List.pairwise_append] at hs
  rcases List.mem_append.1 hx' with q | q
  · exact hs.2.2 x q _ (by simp)
  · rw [List.mem_singleton] at q; rw [← q]

theorem covers_antisymm {a b : Rect} (h : Covers a b) (k : Covers b a) : a = b := by
  obtain ⟨h1, h2, h3, h4⟩ := h
  obtain ⟨k1, k2, k3, k4⟩ := k
  cases a; cases b
  simp only at *
  rw [le_antisymm h1 k1, le_antisymm h2 k2, le_antisymm k3 h3, le_antisymm k4 h4]

theorem covers_area_eq {a b : Rect} (hb : Proper b) (h : Covers a b) (e : a.area ≤ b.area) : Covers b a := by
  obtain ⟨h1, h2, h3, h4⟩ := h
  unfold Rect.area Rect.width Rect.height at e
  have w1 : b.x1 - b.x0 ≤ a.x1 - a.x0 := by linarith
  have w2 : b.y1 - b.y0 ≤ a.y1 - a.y0 := by linarith
  have p1 : 0 < b.x1 - b.x0 := by linarith [hb.1]
  have p2 : 0 < b.y1 - b.y0 := by linarith [hb.2]
  have q1 : a.x1 - a.x0 = b.x1 - b.x0 := by
    by_contra hne
    have : b.x1 - b.x0 < a.x1 - a.x0 := lt_of_le_of_ne w1 (Ne.symm hne)
    have m : (b.x1 - b.x0) * (b.y1 - b.y0) < (a.x1 - a.x0) * (a.y1 - a.y0) :=
      mul_lt_mul this w2 p2 (by linarith)
    linarith
  have q2 : a.y1 - a.y0 = b.y1 - b.y0 := by
    by_contra hne
    have : b.y1 - b.y0 < a.y1 - a.y0 := lt_of_le_of_ne w2 (Ne.symm hne)
    have m : (b.x1 - b.x0) * (b.y1 - b.y0) < (a.x1 - a.x0) * (a.y1 - a.y0) :=
      mul_lt_mul' w1 this (by linarith) (by linarith)
    linarith
  exact ⟨by linarith, by linarith, by linarith, by linarith⟩

/-- Two boxes are nested or do not overlap. -/
def Nested (a b : Rect) : Prop := Covers a b ∨ Covers b a ∨ a.intersects b = false

theorem common_part {a b c : Rect} (ha : Proper a) (hb : Proper b) (hc : Proper c) (h : Covers a c) (k : Covers b c) : a.intersects b = true := by
  rw [intersects_iff a b ha hb]
  exact ⟨lt_of_le_of_lt (max_le h.1 k.1) (lt_of_lt_of_le hc.1 (le_min h.2.2.1 k.2.2.1)),
    lt_of_le_of_lt (max_le h.2.1 k.2.1) (lt_of_lt_of_le hc.2 (le_min h.2.2.2 k.2.2.2))⟩

theorem lattice_groups_spec (iter : List ℕ → List ℕ) (hi : ∀ l, (iter l).Perm l) (f : α → α → Bool) (hf : ∀ a b, f a b = f b a) (xs : List α) :
    (Stream.groups iter f xs).flatten.Perm xs ∧ (Stream.groups iter f xs).Pairwise (fun g h => ∀ a ∈ g, ∀ b ∈ h, f a b = false) ∧
      ∀ g ∈ Stream.groups iter f xs, g ≠ [] ∧ ∀ a ∈ g, ∀ b ∈ g, Relation.ReflTransGen (fun x y => x ∈ g ∧ y ∈ g ∧ f x y = true) a b := by
  obtain ⟨gs, h1, h2, h3, h4⟩ := C21_groups iter hi f hf xs
  unfold Stream.groups
  rw [h1]
  exact ⟨h2, h3, h4⟩

/-- **C82**: what is kept is part of what was found, and nothing kept lies within something else that is kept. -/
theorem C82_kept_apart (iter : List ℕ → List ℕ) (hi : ∀ l, (iter l).Perm l) (box : α → Rect) (l : List α) (hp : ∀ x ∈ l, Proper (box x)) :
    (removeOverlap iter box l).Subperm l ∧
    (removeOverlap iter box l).Pairwise fun a b => ¬ Covers (box a) (box b) ∧ ¬ Covers (box b) (box a) := by
  obtain ⟨h1, h2, h3⟩ := lattice_groups_spec iter hi (fun a b => (box a).contains (box b) || (box b).contains (box a))
    (fun a b => Bool.or_comm _ _) l
  unfold removeOverlap
  generalize Stream.groups iter (fun a b => (box a).contains (box b) || (box b).contains (box a)) l = gs at *
  have hmem : ∀ g ∈ gs, ∀ x ∈ g, x ∈ l := fun g hg x hx => h1.mem_iff.1 (List.mem_flatten.2 ⟨g, hg, hx⟩)
  constructor
  · refine List.Subperm.trans ?_ h1.subperm
    clear h1 h2
    induction gs with
    | nil => simp
    | cons g gs ih =>
      obtain ⟨m, hm, em, _⟩ := largest_some box g (h3 g (by simp)).1
      rw [List.filterMap_cons, em, List.flatten_cons]
      have ih' := ih (fun g' hg' => h3 g' (by simp [hg'])) (fun g' hg' => hmem g' (by simp [hg']))
      exact List.Subperm.append (l₁ := [m]) (List.singleton_subperm_iff.2 hm) ih'
  · rw [List.pairwise_filterMap]
    refine h2.imp_of_mem ?_
    intro g h hg hh hgh a ha b hb
    obtain ⟨m, hm, em, _⟩ := largest_some box g (h3 g hg).1
    obtain ⟨n, hn, en, _⟩ := largest_some box h (h3 h hh).1
    rw [em] at ha
    rw [en] at hb
    obtain rfl := Option.some.inj ha
    obtain rfl := Option.some.inj hb
    have := hgh m hm n hn
    rw [Bool.or_eq_false_iff] at this
    rw [← contains_iff _ _ (hp m (hmem g hg m hm)) (hp n (hmem h hh n hn)), ← contains_iff _ _ (hp n (hmem h hh n hn)) (hp m (hmem g hg m hm))]
    simp [this.1, this.2]

/-- **C82** (partial: any two of the boxes are nested or do not overlap): whatever is left out lies within something kept. -/
theorem C82_dropped_inside_partial (iter : List ℕ → List ℕ) (hi : ∀ l, (iter l).Perm l) (box : α → Rect) (l : List α) (hp : ∀ x ∈ l, Proper (box x))
    (hn : ∀ x ∈ l, ∀ y ∈ l, Nested (box x) (box y)) :
    ∀ x ∈ l, ∃ k ∈ removeOverlap iter box l, Covers (box k) (box x) := by
  obtain ⟨h1, h2, h3⟩ := lattice_groups_spec iter hi (fun a b => (box a).contains (box b) || (box b).contains (box a))
    (fun a b => Bool.or_comm _ _) l
  unfold removeOverlap
  generalize Stream.groups iter (fun a b => (box a).contains (box b) || (box b).contains (box a)) l = gs at *
  have hmem : ∀ g ∈ gs, ∀ x ∈ g, x ∈ l := fun g hg x hx => h1.mem_iff.1 (List.mem_flatten.2 ⟨g, hg, hx⟩)
  intro x hx
  obtain ⟨g, hg, hxg⟩ := List.mem_flatten.1 (h1.mem_iff.2 hx)
  obtain ⟨m, hm, em, hmax⟩ := largest_some box g (h3 g hg).1
  refine ⟨m, List.mem_filterMap.2 ⟨g, hg, em⟩, ?_⟩
  have hr := (h3 g hg).2 m hm x hxg
  have pm := hp m (hmem g hg m hm)
  clear hxg hx
  induction hr with
  | refl => exact covers_refl _
  | tail _ hs ih =>
    rename_i y z _
    obtain ⟨hy, hz, hf⟩ := hs
    have py := hp y (hmem g hg y hy)
    have pz := hp z (hmem g hg z hz)
    rw [Bool.or_eq_true, contains_iff _ _ py pz, contains_iff _ _ pz py] at hf
    rcases hf with q | q
    · exact covers_trans ih q
    · rcases hn m (hmem g hg m hm) z (hmem g hg z hz) with r | r | r
      · exact r
      · exact covers_area_eq pm r (hmax z hz)
      · rw [common_part pm pz py ih q] at r; cases r


/-- Non-vacuity: two tables side by side, the first with a table in a table in it. -/
example : let l : List Rect := [⟨10, 10, 50, 50⟩, ⟨0, 0, 100, 100⟩, ⟨20, 20, 30, 30⟩, ⟨200, 0, 300, 50⟩]
    (∀ x ∈ l, Proper x) ∧ (∀ x ∈ l, ∀ y ∈ l, Covers x y ∨ Covers y x ∨ x.intersects y = false) ∧
    removeOverlap id id l = [⟨0, 0, 100, 100⟩, ⟨200, 0, 300, 50⟩] := by decide +kernel

/-- C82 (refuted): a small table in the overlap of two others makes one of them vanish: it is neither parsed nor within a table that is. -/
theorem C82_refuted_overlapping : ∃ (l : List Rect) (x : Rect), (∀ r ∈ l, Proper r) ∧ x ∈ l ∧ ∀ k ∈ removeOverlap id id l, ¬ Covers k x :=
  ⟨[⟨0, 0, 100, 100⟩, ⟨60, 60, 140, 140⟩, ⟨70, 70, 90, 90⟩], ⟨60, 60, 140, 140⟩, by decide +kernel⟩

/-- Without the small one both are kept. -/
example : removeOverlap id id [(⟨0, 0, 100, 100⟩ : Rect), ⟨60, 60, 140, 140⟩] = [⟨0, 0, 100, 100⟩, ⟨60, 60, 140, 140⟩] := by decide +kernel

end

/-! ## The tables of a page -/

open Table

theorem strokeGroups_perm (iter : List ℕ → List ℕ) (hi : ∀ l, (iter l).Perm l) (d : ℚ) (strokes : List St) :
    (strokeGroups iter d strokes).flatten.Perm strokes ∧ ∀ g ∈ strokeGroups iter d strokes, g ≠ [] := by
  obtain ⟨gs, h1, h2, h3⟩ := C22_never_raises d d (strokes.map St.bbox)
  unfold strokeGroups
  rw [h1]
  rw [List.length_map] at h2
  dsimp only
  constructor
  · have e1 : (gs.map fun g => (iter g).filterMap (strokes[·]?)).flatten.Perm (gs.flatten.filterMap (strokes[·]?)) := by
      clear h1 h2 h3
      induction gs with
      | nil => simp
      | cons g gs ih =>
        simp only [List.map_cons, List.flatten_cons, List.filterMap_append]
        exact ((hi g).filterMap _).append ih
    refine e1.trans ((h2.filterMap _).trans ?_)
    have : ∀ (ys : List St), (List.range ys.length).filterMap (ys[·]?) = ys := by
      intro ys
      induction ys with
      | nil => rfl
      | cons y ys ih =>
        rw [List.length_cons, List.range_succ_eq_map, List.filterMap_cons, List.filterMap_map]
        simp only [List.getElem?_cons_zero]
        congr 1
    rw [this]
  · intro g hg
    obtain ⟨g', hg', rfl⟩ := List.mem_map.1 hg
    obtain ⟨i, hi'⟩ := List.exists_mem_of_ne_nil _ (h3 g' hg')
    have hlt : i < strokes.length := List.mem_range.1 (h2.mem_iff.1 (List.mem_flatten.2 ⟨g', hg', hi'⟩))
    exact List.ne_nil_of_mem (List.mem_filterMap.2 ⟨i, (hi g').mem_iff.2 hi', List.getElem?_eq_getElem hlt⟩)

/-- **C82** (partial: the groups of connected strokes are nested or apart). Each table of a page is made of strokes of the page; the fills offered to
it as shadings are exactly those within the smallest box around its strokes; and every stroke lies within that box for some table. -/
theorem C82_page_partial (iter : List ℕ → List ℕ) (hi : ∀ l, (iter l).Perm l) (d : ℚ) (strokes : List St) (fills : List Rect)
    (hs : ∀ s ∈ strokes, Proper s.bbox ∧ Tenths s.bbox) (hf : ∀ f ∈ fills, Proper f)
    (hn : ∀ g ∈ strokeGroups iter d strokes, ∀ h ∈ strokeGroups iter d strokes, Nested (box g) (box h)) :
    (∀ t ∈ candidates iter d strokes fills, t.1 ≠ [] ∧ (∀ s ∈ t.1, s ∈ strokes) ∧
      ∃ b, IsHull (t.1.map St.bbox) b ∧ t.2 = fills.filter fun f => decide (Covers b f)) ∧
    (candidates iter d strokes fills).Pairwise (fun t u => ∀ b c, IsHull (t.1.map St.bbox) b → IsHull (u.1.map St.bbox) c → ¬ Covers b c ∧ ¬ Covers c b) ∧
    ∀ s ∈ strokes, ∃ t ∈ candidates iter d strokes fills, ∀ b, IsHull (t.1.map St.bbox) b → Covers b s.bbox := by
  obtain ⟨hperm, hne⟩ := strokeGroups_perm iter hi d strokes
  have hsub : ∀ g ∈ strokeGroups iter d strokes, ∀ s ∈ g, s ∈ strokes := fun g hg s h => hperm.mem_iff.1 (List.mem_flatten.2 ⟨g, hg, h⟩)
  have hull : ∀ g ∈ strokeGroups iter d strokes, IsHull (g.map St.bbox) (box g) := by
    intro g hg
    refine C24_collection_bbox_partial _ (by simpa using hne g hg) ?_
    intro r hr
    obtain ⟨s, h, rfl⟩ := List.mem_map.1 hr
    exact hs s (hsub g hg s h)
  have hprop : ∀ g ∈ strokeGroups iter d strokes, Proper (box g) := by
    intro g hg
    obtain ⟨s, h⟩ := List.exists_mem_of_ne_nil _ (hne g hg)
    have c := (hull g hg).1 s.bbox (List.mem_map.2 ⟨s, h, rfl⟩)
    have p := (hs s (hsub g hg s h)).1
    exact ⟨lt_of_le_of_lt c.1 (lt_of_lt_of_le p.1 c.2.2.1), lt_of_le_of_lt c.2.1 (lt_of_lt_of_le p.2 c.2.2.2)⟩
  have huniq : ∀ (rs : List Rect) b c, IsHull rs b → IsHull rs c → b = c := fun rs b c h k => covers_antisymm (k.2 b h.1 |> fun q => q) (h.2 c k.1)
  obtain ⟨hk1, hk2⟩ := C82_kept_apart iter hi box _ hprop
  have hd := C82_dropped_inside_partial iter hi box _ hprop hn
  have hkm : ∀ g ∈ removeOverlap iter box (strokeGroups iter d strokes), g ∈ strokeGroups iter d strokes := fun g hg => hk1.subset hg
  unfold candidates
  refine ⟨?_, ?_, ?_⟩
  · intro t ht
    obtain ⟨g, hg, rfl⟩ := List.mem_map.1 ht
    refine ⟨hne g (hkm g hg), hsub g (hkm g hg), box g, hull g (hkm g hg), ?_⟩
    dsimp only
    refine List.filter_congr fun f hfm => ?_
    rw [Bool.eq_iff_iff, contains_iff _ _ (hprop g (hkm g hg)) (hf f hfm), decide_eq_true_eq]
  · rw [List.pairwise_map]
    refine hk2.imp_of_mem ?_
    intro g h hg hh hgh b c hb hc
    rw [huniq _ b _ hb (hull g (hkm g hg)), huniq _ c _ hc (hull h (hkm h hh))]
    exact hgh
  · intro s hsm
    obtain ⟨g, hg, hsg⟩ := List.mem_flatten.1 (hperm.mem_iff.2 hsm)
    obtain ⟨k, hk, hc⟩ := hd g hg
    refine ⟨_, List.mem_map.2 ⟨k, hk, rfl⟩, ?_⟩
    intro b hb
    rw [huniq _ b _ hb (hull k (hkm k hk))]
    exact covers_trans hc ((hull g hg).1 _ (List.mem_map.2 ⟨s, hsg, rfl⟩))

/-- A frame of four strokes, a frame within it, and one beside it. -/
def threeFrames : List St :=
  [hst 0 100 0 1, hst 0 100 100 1, vst 0 0 100 1, vst 100 0 100 1,
   hst 20 60 20 1, hst 20 60 50 1, vst 20 20 50 1, vst 60 20 50 1,
   hst 150 200 0 1, hst 150 200 30 1, vst 150 0 30 1, vst 200 0 30 1]

set_option synthInstance.maxSize 1024 in
/-- Non-vacuity. -/
example : (∀ s ∈ threeFrames, Proper s.bbox ∧ s.bbox.round = s.bbox) ∧
    ((strokeGroups id (1 / 2) threeFrames).map List.length) = [4, 4, 4] ∧
    (∀ g ∈ strokeGroups id (1 / 2) threeFrames, ∀ h ∈ strokeGroups id (1 / 2) threeFrames,
      Covers (box g) (box h) ∨ Covers (box h) (box g) ∨ (box g).intersects (box h) = false) ∧
    (candidates id (1 / 2) threeFrames [⟨5, 5, 95, 95⟩, ⟨150, 5, 250, 20⟩]).map (fun t => (box t.1, t.2)) =
      [(⟨-1 / 2, -1 / 2, 201 / 2, 201 / 2⟩, [⟨5, 5, 95, 95⟩]), (⟨299 / 2, -1 / 2, 401 / 2, 61 / 2⟩, [])] ∧
    tables id (1 / 2) 2 6 threeFrames = .ok [[[some ((1, 1), ⟨0, 0, 100, 100⟩)]], [[some ((1, 1), ⟨150, 0, 200, 30⟩)]]] := by
  refine ⟨?_, ?_, ?_, ?_, ?_⟩ <;> decide +kernel

end Props
