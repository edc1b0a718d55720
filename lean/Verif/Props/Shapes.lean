import Verif.Shapes
import Verif.Props.Page
/-! # C37, C56: clean-up and classification of shapes -/

namespace Props
open Shapes Py Geom Spec

/-- A well-formed shape: box not inverted, coordinates in tenths (as every stored box). -/
def GoodShp (s : Shp) : Prop := s.bbox.Valid ∧ s.bbox.round = s.bbox

theorem proper_of_eligible {page : Rect} {d : ℚ} {s : Shp} (hs : GoodShp s) (h : eligible page d s = true) : Proper s.bbox := by
  unfold eligible at h
  rw [Bool.and_eq_true] at h
  have h1 := h.1
  unfold Rect.intersects at h1
  split at h1
  · simp at h1
  · rename_i hne
    rw [not_or] at hne
    have := hne.1
    unfold Rect.isEmpty at this
    rw [not_or] at this
    exact ⟨lt_of_le_of_ne hs.1.1 this.1, lt_of_le_of_ne hs.1.2 this.2⟩

theorem proper_not_empty {r : Rect} (h : Proper r) : ¬ r.isEmpty := by
  rintro (e | e)
  · exact absurd e (ne_of_lt h.1)
  · exact absurd e (ne_of_lt h.2)

theorem proper_area {r : Rect} (h : Proper r) : r.area ≠ 0 := by
  unfold Rect.area Rect.width Rect.height
  have h1 : 0 < r.x1 - r.x0 := by linarith [h.1]
  have h2 : 0 < r.y1 - r.y0 := by linarith [h.2]
  exact (mul_pos h1 h2).ne'

/-- Merging two boxes with area: the union is their hull. -/
theorem union_hull {a b : Rect} (ha : Proper a) (hb : Proper b) :
    Proper (a.union b) ∧ Covers (a.union b) a ∧ Covers (a.union b) b ∧ ∀ c, Covers c a → Covers c b → Covers c (a.union b) := by
  have e : a.union b = ⟨min a.x0 b.x0, min a.y0 b.y0, max a.x1 b.x1, max a.y1 b.y1⟩ := by
    unfold Rect.union; rw [if_neg (proper_not_empty hb), if_neg (proper_not_empty ha)]
  rw [e]
  refine ⟨⟨lt_of_le_of_lt (min_le_left _ _) (lt_of_lt_of_le ha.1 (le_max_left _ _)),
      lt_of_le_of_lt (min_le_left _ _) (lt_of_lt_of_le ha.2 (le_max_left _ _))⟩,
    ⟨min_le_left _ _, min_le_left _ _, le_max_left _ _, le_max_left _ _⟩,
    ⟨min_le_right _ _, min_le_right _ _, le_max_right _ _, le_max_right _ _⟩, ?_⟩
  rintro c ⟨a1, a2, a3, a4⟩ ⟨b1, b2, b3, b4⟩
  exact ⟨le_min a1 b1, le_min a2 b2, max_le a3 b3, max_le a4 b4⟩

theorem mainBbox_some {a b c : Rect} {t : ℚ} (h : El.mainBbox a b t = some c) : c = a.union b := by
  unfold El.mainBbox at h
  dsimp only at h
  split at h
  · simp at h
  · split at h
    all_goals
      simp only [Option.ite_none_right_eq_some, Option.some.injEq] at h
      exact h.2.symm

/-- Invariant of the merge: what the list of unique shapes says about the shapes processed so far. -/
structure Merged (P us : List Shp) : Prop where
  covered : ∀ s ∈ P, s.kind ≠ .link → ∃ u ∈ us, u.kind ≠ .link ∧ u.color = s.color ∧ Covers u.bbox s.bbox
  hull : ∀ u ∈ us, u.kind ≠ .link → Proper u.bbox ∧ u.bbox.round = u.bbox ∧
    ∃ L : List Shp, L ≠ [] ∧ (∀ x ∈ L, x ∈ P ∧ x.kind ≠ .link ∧ x.color = u.color) ∧ (∃ x ∈ L, x.kind = u.kind) ∧
      IsHull (L.map Shp.bbox) u.bbox
  links : us.filter (fun s => s.kind = .link) = P.filter fun s => s.kind = .link

theorem place_links (t : ℚ) (s : Shp) (us : List Shp) :
    (place t s us).filter (fun s => s.kind = .link) =
      us.filter (fun s => s.kind = .link) ++ if s.kind = .link then [s] else [] := by
  induction us with
  | nil => by_cases h : s.kind = .link <;> simp [place, h]
  | cons r rs ih =>
    unfold place
    split
    · rw [List.filter_cons, ih, List.filter_cons]; split <;> simp
    · split
      · rw [List.filter_cons, ih, List.filter_cons]; split <;> simp
      · rename_i _ hk
        rw [not_or] at hk
        have hu : ∀ b, (r.update b).kind = r.kind := by intro b; unfold Shp.update; split <;> rfl
        split
        · split
          · simp [List.filter_cons, hu, hk.1, hk.2]
          · rw [List.filter_cons, ih, List.filter_cons]; split <;> simp
        · rw [List.filter_cons, ih, List.filter_cons]; split <;> simp

/-- One step: either `s` is appended or merged into the first matching shape. -/
theorem place_cases (t : ℚ) (s : Shp) (us : List Shp) :
    place t s us = us ++ [s] ∨
    ∃ A r B, us = A ++ r :: B ∧ r.color = s.color ∧ s.kind ≠ .link ∧ r.kind ≠ .link ∧
      place t s us = A ++ r.update (s.bbox.union r.bbox) :: B := by
  induction us with
  | nil => left; rfl
  | cons r rs ih =>
    have hrec : place t s (r :: rs) = r :: place t s rs → place t s (r :: rs) = r :: rs ++ [s] ∨
        ∃ A r' B, r :: rs = A ++ r' :: B ∧ r'.color = s.color ∧ s.kind ≠ .link ∧ r'.kind ≠ .link ∧
          place t s (r :: rs) = A ++ r'.update (s.bbox.union r'.bbox) :: B := by
      intro h
      rcases ih with h1 | ⟨A, r', B, h1, h2, h3, h4, h5⟩
      · left; rw [h, h1]; rfl
      · right
        exact ⟨r :: A, r', B, by rw [h1]; rfl, h2, h3, h4, by rw [h, h5]; rfl⟩
    by_cases h1 : r.color ≠ s.color
    · exact hrec (by rw [place, if_pos h1])
    · by_cases h2 : s.kind = .link ∨ r.kind = .link
      · exact hrec (by rw [place, if_neg h1, if_pos h2])
      · cases hm : El.mainBbox s.bbox r.bbox t with
        | none => exact hrec (by rw [place, if_neg h1, if_neg h2, hm])
        | some b =>
          by_cases hb : b.truthy
          · right
            rw [not_or] at h2
            refine ⟨[], r, rs, rfl, by simpa using h1, h2.1, h2.2, ?_⟩
            rw [place, if_neg h1, if_neg (not_or.2 h2), hm]
            dsimp only
            rw [if_pos hb, mainBbox_some hm]
            rfl
          · exact hrec (by rw [place, if_neg h1, if_neg h2, hm]; dsimp only; rw [if_neg hb])

theorem merged_place (t : ℚ) (P us : List Shp) (s : Shp) (h : Merged P us) (hs : Proper s.bbox) (hr : s.bbox.round = s.bbox) :
    Merged (P ++ [s]) (place t s us) := by
  refine ⟨?_, ?_, ?_⟩
  · -- covered
    intro x hx hk
    have old : ∀ x ∈ P, x.kind ≠ .link → ∃ u ∈ place t s us, u.kind ≠ .link ∧ u.color = x.color ∧ Covers u.bbox x.bbox := by
      intro x hx hk
      obtain ⟨u, hu, u1, u2, u3⟩ := h.covered x hx hk
      rcases place_cases t s us with e | ⟨A, r, B, e1, e2, e3, e4, e5⟩
      · exact ⟨u, by rw [e]; simp [hu], u1, u2, u3⟩
      · rw [e1] at hu
        rcases List.mem_append.1 hu with hu | hu
        · exact ⟨u, by rw [e5]; simp [hu], u1, u2, u3⟩
        · rcases List.mem_cons.1 hu with rfl | hu
          · obtain ⟨hp, hrr, _⟩ := h.hull u (by rw [e1]; simp) u1
            have hU := union_hull hs hp
            have hur : (u.update (s.bbox.union u.bbox)) = { u with bbox := s.bbox.union u.bbox } := by
              unfold Shp.update
              rw [if_neg (fun hh => proper_area hU.1 hh.2), union_round hr hrr]
            refine ⟨u.update (s.bbox.union u.bbox), by rw [e5]; simp, ?_⟩
            rw [hur]
            exact ⟨u1, u2, covers_trans hU.2.2.1 u3⟩
          · exact ⟨u, by rw [e5]; simp [hu], u1, u2, u3⟩
    rcases List.mem_append.1 hx with hx | hx
    · exact old x hx hk
    · rw [List.mem_singleton] at hx
      subst hx
      rcases place_cases t x us with e | ⟨A, r, B, e1, e2, e3, e4, e5⟩
      · exact ⟨x, by rw [e]; simp, hk, rfl, covers_refl _⟩
      · obtain ⟨hp, hrr, _⟩ := h.hull r (by rw [e1]; simp) e4
        have hU := union_hull hs hp
        have hur : (r.update (x.bbox.union r.bbox)) = { r with bbox := x.bbox.union r.bbox } := by
          unfold Shp.update
          rw [if_neg (fun hh => proper_area hU.1 hh.2), union_round hr hrr]
        refine ⟨r.update (x.bbox.union r.bbox), by rw [e5]; simp, ?_⟩
        rw [hur]
        exact ⟨e4, e2, hU.2.1⟩
  · -- hull
    intro u hu hk
    have old : ∀ u ∈ us, u.kind ≠ .link → Proper u.bbox ∧ u.bbox.round = u.bbox ∧
        ∃ L : List Shp, L ≠ [] ∧ (∀ x ∈ L, x ∈ P ++ [s] ∧ x.kind ≠ .link ∧ x.color = u.color) ∧ (∃ x ∈ L, x.kind = u.kind) ∧
          IsHull (L.map Shp.bbox) u.bbox := by
      intro u hu hk
      obtain ⟨h1, h2, L, h3, h4, h5⟩ := h.hull u hu hk
      exact ⟨h1, h2, L, h3, fun x hx => ⟨List.mem_append_left _ (h4 x hx).1, (h4 x hx).2⟩, h5⟩
    rcases place_cases t s us with e | ⟨A, r, B, e1, e2, e3, e4, e5⟩
    · rw [e] at hu
      rcases List.mem_append.1 hu with hu | hu
      · exact old u hu hk
      · rw [List.mem_singleton] at hu
        subst hu
        refine ⟨hs, hr, [u], by simp, ?_, ⟨u, by simp, rfl⟩, ?_⟩
        · intro x hx; rw [List.mem_singleton] at hx; subst hx; exact ⟨by simp, hk, rfl⟩
        · exact ⟨by simp [covers_refl], fun c hc => hc _ (by simp)⟩
    · rw [e5] at hu
      have hr' : r ∈ us := by rw [e1]; simp
      rcases List.mem_append.1 hu with hu | hu
      · exact old u (by rw [e1]; simp [hu]) hk
      · rcases List.mem_cons.1 hu with rfl | hu
        · obtain ⟨hp, hrr, L, l1, l2, l3, l4⟩ := old r hr' e4
          have hU := union_hull hs hp
          have hur : (r.update (s.bbox.union r.bbox)) = { r with bbox := s.bbox.union r.bbox } := by
            unfold Shp.update
            rw [if_neg (fun hh => proper_area hU.1 hh.2), union_round hr hrr]
          rw [hur]
          refine ⟨hU.1, union_round hr hrr, s :: L, by simp, ?_, ?_, ?_⟩
          · intro x hx
            rcases List.mem_cons.1 hx with rfl | hx
            · exact ⟨by simp, e3, e2.symm⟩
            · exact l2 x hx
          · obtain ⟨x, hx, hxk⟩ := l3
            exact ⟨x, by simp [hx], hxk⟩
          · constructor
            · intro b hb
              rcases List.mem_cons.1 hb with rfl | hb
              · exact hU.2.1
              · exact covers_trans hU.2.2.1 (l4.1 b hb)
            · intro c hc
              exact hU.2.2.2 c (hc _ (by simp)) (l4.2 c fun b hb => hc b (by simp [hb]))
        · exact old u (by rw [e1]; simp [hu]) hk
  · rw [place_links, h.links, List.filter_append]
    congr 1
    by_cases hk : s.kind = .link <;> simp [hk]

theorem merged_all (t : ℚ) (l : List Shp) (h : ∀ s ∈ l, Proper s.bbox ∧ s.bbox.round = s.bbox) :
    Merged l (l.foldl (fun us s => place t s us) []) := by
  have key : ∀ (l P us : List Shp), Merged P us → (∀ s ∈ l, Proper s.bbox ∧ s.bbox.round = s.bbox) →
      Merged (P ++ l) (l.foldl (fun us s => place t s us) us) := by
    intro l
    induction l with
    | nil => intro P us h _; simpa using h
    | cons s l ih =>
      intro P us h hl
      rw [List.foldl_cons]
      have := ih (P ++ [s]) (place t s us) (merged_place t P us s h (hl s (by simp)).1 (hl s (by simp)).2)
        fun x hx => hl x (by simp [hx])
      simpa using this
  simpa using key l [] [] ⟨by simp, by simp, by simp⟩ h

theorem convert_spec (m : ℚ) (s : Shp) (hp : Proper s.bbox) (hr : s.bbox.round = s.bbox) :
    (convert m s).bbox = s.bbox ∧ (convert m s).color = s.color ∧ ((convert m s).kind = .link ↔ s.kind = .link) ∧
    (s.kind = .stroke → convert m s = s) ∧
    (s.kind = .fill → ((convert m s).kind = .stroke ↔ min s.bbox.width s.bbox.height ≤ m)) := by
  have ht : s.bbox.truthy = true := by
    unfold Rect.truthy
    apply decide_eq_true
    intro h
    have := hp.1
    rw [h] at this
    simp [Rect.zero] at this
  unfold convert
  split
  · rename_i hk
    unfold Shp.toStroke
    dsimp only
    by_cases hm : m < min s.bbox.width s.bbox.height
    · rw [if_pos hm]
      dsimp only
      refine ⟨rfl, rfl, Iff.rfl, fun _ => rfl, ?_⟩
      intro _
      simp [hk, not_le.2 hm]
    · rw [if_neg hm]
      have hu : (⟨.stroke, s.color, Rect.zero, min s.bbox.width s.bbox.height, s.tag⟩ : Shp).update s.bbox =
          ⟨.stroke, s.color, s.bbox, min s.bbox.width s.bbox.height, s.tag⟩ := by
        unfold Shp.update
        rw [if_neg (fun hh => proper_area hp hh.2), hr]
      dsimp only
      rw [hu]
      dsimp only
      rw [if_pos ht]
      refine ⟨rfl, rfl, by simp [hk], by simp [hk], ?_⟩
      intro _; simp [not_lt.1 hm]
  · rename_i hk
    refine ⟨rfl, rfl, Iff.rfl, fun _ => rfl, fun h => absurd h hk⟩

theorem proper_truthy {r : Rect} (hp : Proper r) : r.truthy = true := by
  unfold Rect.truthy
  apply decide_eq_true
  intro h
  have := hp.1
  rw [h] at this
  simp [Rect.zero] at this

/-- **C37**: no painted area is lost. Every stroke or fill on the page that is large enough is covered by a stroke or fill of the
same colour in the result. -/
theorem C37_covered (page : Rect) (maxBorder threshold minDim : ℚ) (shapes : List Shp) (hg : ∀ s ∈ shapes, GoodShp s)
    (s : Shp) (hs : s ∈ shapes) (he : eligible page minDim s = true) (hk : s.kind ≠ .link) :
    ∃ o ∈ cleanUp page maxBorder threshold minDim shapes, o.kind ≠ .link ∧ o.color = s.color ∧ Covers o.bbox s.bbox := by
  set l := (sortBy (fun s : Shp => Coll.key s.bbox.y0 s.bbox.x0 s.bbox.x1) shapes).filter (eligible page minDim) with hl
  have hm := merged_all threshold l (by
    intro x hx
    rw [hl, List.mem_filter, mem_sortBy] at hx
    exact ⟨proper_of_eligible (hg x hx.1) hx.2, (hg x hx.1).2⟩)
  obtain ⟨u, hu, u1, u2, u3⟩ := hm.covered s (by rw [hl, List.mem_filter, mem_sortBy]; exact ⟨hs, he⟩) hk
  obtain ⟨hp, hr, _⟩ := hm.hull u hu u1
  obtain ⟨c1, c2, c3, _, _⟩ := convert_spec maxBorder u hp hr
  refine ⟨convert maxBorder u, ?_, fun h => u1 (c3.1 h), by rw [c2, u2], by rw [c1]; exact u3⟩
  unfold cleanUp
  rw [List.mem_filter, c1]
  exact ⟨List.mem_map.2 ⟨u, hu, rfl⟩, proper_truthy hp⟩

/-- **C37**: only shapes of the same colour are merged, and nothing else is painted: every stroke or fill of the result has the
bounding box of some strokes and fills of its colour; none is invented. -/
theorem C37_merges_same_colour (page : Rect) (maxBorder threshold minDim : ℚ) (shapes : List Shp) (hg : ∀ s ∈ shapes, GoodShp s)
    (o : Shp) (ho : o ∈ cleanUp page maxBorder threshold minDim shapes) (hk : o.kind ≠ .link) :
    ∃ L : List Shp, L ≠ [] ∧ (∀ x ∈ L, x ∈ shapes ∧ eligible page minDim x = true ∧ x.kind ≠ .link ∧ x.color = o.color) ∧
      IsHull (L.map Shp.bbox) o.bbox := by
  set l := (sortBy (fun s : Shp => Coll.key s.bbox.y0 s.bbox.x0 s.bbox.x1) shapes).filter (eligible page minDim) with hl
  have hmem : ∀ x ∈ l, x ∈ shapes ∧ eligible page minDim x = true := by
    intro x hx; rw [hl, List.mem_filter, mem_sortBy] at hx; exact hx
  have hall : ∀ x ∈ l, Proper x.bbox ∧ x.bbox.round = x.bbox := by
    intro x hx
    have := hmem x hx
    exact ⟨proper_of_eligible (hg x this.1) this.2, (hg x this.1).2⟩
  have hm := merged_all threshold l hall
  unfold cleanUp at ho
  rw [List.mem_filter] at ho
  obtain ⟨u, hu, rfl⟩ := List.mem_map.1 ho.1
  have hku : u.kind ≠ .link := by
    intro h
    apply hk
    unfold convert
    rw [if_neg (by rw [h]; decide)]
    exact h
  obtain ⟨hp, hr, L, l1, l2, _, l4⟩ := hm.hull u hu hku
  obtain ⟨c1, c2, _⟩ := convert_spec maxBorder u hp hr
  refine ⟨L, l1, ?_, by rw [c1]; exact l4⟩
  intro x hx
  obtain ⟨a, b, c⟩ := l2 x hx
  exact ⟨(hmem x a).1, (hmem x a).2, b, by rw [c2]; exact c⟩

/-- **C37**: hyperlinks are kept one by one, unchanged, in reading order. -/
theorem C37_hyperlinks (page : Rect) (maxBorder threshold minDim : ℚ) (shapes : List Shp) (hg : ∀ s ∈ shapes, GoodShp s) :
    (cleanUp page maxBorder threshold minDim shapes).filter (fun s => s.kind = .link) =
      (sortBy (fun s : Shp => Coll.key s.bbox.y0 s.bbox.x0 s.bbox.x1) shapes).filter
        (fun s => eligible page minDim s && s.kind = .link) := by
  set l := (sortBy (fun s : Shp => Coll.key s.bbox.y0 s.bbox.x0 s.bbox.x1) shapes).filter (eligible page minDim) with hl
  have hmem : ∀ x ∈ l, x ∈ shapes ∧ eligible page minDim x = true := by
    intro x hx; rw [hl, List.mem_filter, mem_sortBy] at hx; exact hx
  have hall : ∀ x ∈ l, Proper x.bbox ∧ x.bbox.round = x.bbox := by
    intro x hx
    have := hmem x hx
    exact ⟨proper_of_eligible (hg x this.1) this.2, (hg x this.1).2⟩
  have hm := merged_all threshold l hall
  have e1 : ∀ us : List Shp, (∀ u ∈ us, u.kind = .link → u ∈ l) → (∀ u ∈ us, u.kind ≠ .link → Proper u.bbox ∧ u.bbox.round = u.bbox) →
      ((us.map (convert maxBorder)).filter fun s => s.bbox.truthy).filter (fun s => s.kind = .link) =
      us.filter fun s => s.kind = .link := by
    intro us
    induction us with
    | nil => intro _ _; rfl
    | cons u us ih =>
      intro h1 h2
      have ih' := ih (fun x hx => h1 x (by simp [hx])) (fun x hx => h2 x (by simp [hx]))
      by_cases hk : u.kind = .link
      · have hc : convert maxBorder u = u := by unfold convert; rw [if_neg (by rw [hk]; decide)]
        have ht := proper_truthy (hall u (h1 u (by simp) hk)).1
        rw [List.map_cons, hc, List.filter_cons, if_pos ht, List.filter_cons, if_pos (by simpa using hk), ih',
          List.filter_cons, if_pos (by simpa using hk)]
      · obtain ⟨hp, hr⟩ := h2 u (by simp) hk
        obtain ⟨c1, _, c3, _⟩ := convert_spec maxBorder u hp hr
        have hkc : (convert maxBorder u).kind ≠ .link := fun h => hk (c3.1 h)
        rw [List.map_cons, List.filter_cons, if_pos (by rw [c1]; exact proper_truthy hp), List.filter_cons,
          if_neg (by simpa using hkc), ih', List.filter_cons, if_neg (by simpa using hk)]
  unfold cleanUp
  dsimp only
  rw [e1, hm.links, hl, List.filter_filter]
  · congr 1; funext s; rw [Bool.and_comm]
  · intro u hu hk
    have : u ∈ (l.foldl (fun us s => place threshold s us) []).filter fun s => s.kind = .link := by
      rw [List.mem_filter]; exact ⟨hu, by simpa using hk⟩
    rw [hm.links] at this
    exact (List.mem_filter.1 this).1
  · intro u hu hk
    exact ⟨(hm.hull u hu hk).1, (hm.hull u hu hk).2.1⟩

/-- Non-vacuity: two overlapping red fills are merged, a blue one and two overlapping links stay, a tiny one goes. -/
example :
    let shapes : List Shp := [⟨.fill, 1, ⟨0, 0, 100, 50⟩, 0, 0⟩, ⟨.fill, 1, ⟨20, 0, 130, 50⟩, 0, 1⟩, ⟨.fill, 2, ⟨0, 0, 100, 50⟩, 0, 2⟩,
      ⟨.link, 0, ⟨0, 0, 30, 10⟩, 0, 3⟩, ⟨.link, 0, ⟨0, 0, 30, 10⟩, 0, 4⟩, ⟨.fill, 1, ⟨300, 300, 301, 301⟩, 0, 5⟩]
    (∀ s ∈ shapes, s.bbox.Valid ∧ s.bbox.round = s.bbox) ∧
    (cleanUp ⟨0, 0, 600, 800⟩ 6 (1 / 2) 2 shapes).map (fun s => (s.kind, s.tag, s.bbox)) =
      [(.link, 3, ⟨0, 0, 30, 10⟩), (.link, 4, ⟨0, 0, 30, 10⟩), (.fill, 0, ⟨0, 0, 130, 50⟩), (.fill, 2, ⟨0, 0, 100, 50⟩)] := by
  decide +kernel

/-- **C37** (kinds) **is false**: a large filled area can turn into a stroke, when a line of the same colour drawn inside it (e.g. at
its upper edge) comes first in reading order: the area is merged *into the line*. -/
theorem C37_refuted_fill_becomes_stroke :
    ∃ line area : Shp, line.kind = .stroke ∧ area.kind = .fill ∧ line.color = area.color ∧ GoodShp line ∧ GoodShp area ∧
      6 < min area.bbox.width area.bbox.height ∧
      (cleanUp ⟨0, 0, 600, 800⟩ 6 (1 / 2) 2 [area, line]).map (fun s => (s.kind, s.width, s.bbox)) =
        [(.stroke, 1, ⟨100, 100, 200, 150⟩)] :=
  ⟨⟨.stroke, 1, ⟨100, 100, 199, 101⟩, 1, 0⟩, ⟨.fill, 1, ⟨100, 100, 200, 150⟩, 0, 1⟩, rfl, rfl, rfl, by unfold GoodShp; decide +kernel,
    by unfold GoodShp; decide +kernel, by decide +kernel, by decide +kernel⟩

/-! ## C56: classification -/

theorem containsBox_needs_overlap {a b : Rect} {t : ℚ} (ht : 1 / 100 ≤ t) (h : containsBox a b t = true) :
    ¬ (a.y1 < b.y0) ∧ ¬ (b.y1 < a.y0) := by
  unfold containsBox El.contains at h
  dsimp only at h
  split at h
  · simp at h
  · have key : (a.inter b) = Rect.zero → False := by
      intro hz
      rw [hz] at h
      have : (roundHE (100 * (Rect.zero.area / b.area)) : ℚ) / 100 < t := by
        have e : Rect.zero.area = 0 := by decide +kernel
        rw [e, zero_div, mul_zero]
        have : roundHE 0 = 0 := by decide +kernel
        rw [this]
        norm_num
        linarith
      rw [if_pos this] at h
      simp at h
    constructor
    · intro hlt
      apply key
      unfold Rect.inter
      dsimp only
      split
      · rfl
      · rw [if_pos]
        right
        exact lt_of_le_of_lt (min_le_left _ _) (lt_of_lt_of_le hlt (le_max_right _ _))
    · intro hlt
      apply key
      unfold Rect.inter
      dsimp only
      split
      · rfl
      · rw [if_pos]
        right
        exact lt_of_le_of_lt (min_le_right _ _) (lt_of_lt_of_le hlt (le_max_left _ _))

theorem check_needs_overlap (s : Shp) (b : TB) (hb : ∀ l ∈ b.lines, Covers b.bbox l) (h : check s b = true) :
    ¬ (b.bbox.y1 < s.bbox.y0) ∧ ¬ (s.bbox.y1 < b.bbox.y0) := by
  unfold check at h
  split at h
  · rw [Bool.and_eq_true] at h
    exact containsBox_needs_overlap (by norm_num) h.1
  · rw [Bool.or_eq_true] at h
    rcases h with h | h
    · have := containsBox_needs_overlap (by norm_num) h
      exact ⟨this.2, this.1⟩
    · rw [List.any_eq_true] at h
      obtain ⟨l, hl, h⟩ := h
      have := containsBox_needs_overlap (by norm_num) h
      have c := hb l hl
      constructor
      · intro hlt; exact this.2 (lt_of_le_of_lt c.2.2.2 hlt)
      · intro hlt; exact this.1 (lt_of_lt_of_le hlt c.2.1)
  · simp at h

/-- **C56** (partial): for blocks ordered from top to bottom (horizontal text), the type of a shape is determined exactly if some
block determines it: an underline or strike-through lies inside a block and one of its lines; a shading contains most of a block or
line. Stopping early misses nothing. -/
theorem C56_determined_iff_partial (s : Shp) (blocks : List TB) (hb : ∀ b ∈ blocks, ∀ l ∈ b.lines, Covers b.bbox l)
    (hs : blocks.Pairwise fun a b => a.bbox.y0 ≤ b.bbox.y0) : determined s blocks = true ↔ ∃ b ∈ blocks, check s b = true := by
  induction blocks with
  | nil => simp [determined]
  | cons b bs ih =>
    rw [List.pairwise_cons] at hs
    have ih' := ih (fun x hx => hb x (by simp [hx])) hs.2
    have ov := check_needs_overlap s b (hb b (by simp))
    unfold determined
    by_cases h1 : b.bbox.y1 < s.bbox.y0
    · rw [if_pos h1, ih']
      constructor
      · rintro ⟨x, hx, h⟩; exact ⟨x, by simp [hx], h⟩
      · rintro ⟨x, hx, h⟩
        rcases List.mem_cons.1 hx with rfl | hx
        · exact absurd h1 (ov h).1
        · exact ⟨x, hx, h⟩
    · rw [if_neg h1]
      by_cases h2 : check s b = true
      · rw [if_pos h2]
        simp [h2]
      · rw [if_neg h2]
        by_cases h3 : s.bbox.y1 < b.bbox.y0
        · rw [if_pos h3]
          simp only [Bool.false_eq_true, false_iff, not_exists, not_and]
          intro x hx h
          rcases List.mem_cons.1 hx with rfl | hx
          · exact h2 h
          · exact (check_needs_overlap s x (hb x (by simp [hx])) h).2 (lt_of_lt_of_le h3 (hs.1 x hx))
        · rw [if_neg h3, ih']
          constructor
          · rintro ⟨x, hx, h⟩; exact ⟨x, by simp [hx], h⟩
          · rintro ⟨x, hx, h⟩
            rcases List.mem_cons.1 hx with rfl | hx
            · exact absurd h h2
            · exact ⟨x, hx, h⟩

/-- **C56**: every shape with a box gets a role, and only one of the right kind: strokes are candidates for underlines, and for table
borders if not determined; a fill is either table shading or highlight, never both; hyperlinks are none of these. Order is kept. -/
theorem C56_categories (blocks : List TB) (shapes : List Shp) :
    let c := categories blocks shapes
    c.underlines = shapes.filter (fun s => s.bbox.truthy && s.kind = .stroke) ∧
    c.tableStrokes = shapes.filter (fun s => s.bbox.truthy && s.kind = .stroke && !determined s blocks) ∧
    c.tableFillings = shapes.filter (fun s => s.bbox.truthy && s.kind = .fill && determined s blocks) ∧
    c.highlights = shapes.filter (fun s => s.bbox.truthy && s.kind = .fill && !determined s blocks) := by
  have key : ∀ (shapes : List Shp) (c : Cats),
      (shapes.foldl (catStep blocks) c).underlines = c.underlines ++ shapes.filter (fun s => s.bbox.truthy && s.kind = .stroke) ∧
      (shapes.foldl (catStep blocks) c).tableStrokes =
        c.tableStrokes ++ shapes.filter (fun s => s.bbox.truthy && s.kind = .stroke && !determined s blocks) ∧
      (shapes.foldl (catStep blocks) c).tableFillings =
        c.tableFillings ++ shapes.filter (fun s => s.bbox.truthy && s.kind = .fill && determined s blocks) ∧
      (shapes.foldl (catStep blocks) c).highlights =
        c.highlights ++ shapes.filter (fun s => s.bbox.truthy && s.kind = .fill && !determined s blocks) := by
    intro shapes
    induction shapes with
    | nil => intro c; simp
    | cons s shapes ih =>
      intro c
      obtain ⟨h1, h2, h3, h4⟩ := ih (catStep blocks c s)
      rw [List.foldl_cons, h1, h2, h3, h4]
      unfold catStep push
      cases hk : s.kind <;> cases ht : s.bbox.truthy <;> cases hd : determined s blocks <;> simp [hk, ht, hd]
  simpa [categories] using key shapes ⟨[], [], [], []⟩

/-- Non-vacuity: a line of text with an underline inside it and a shading behind it, and a border elsewhere. -/
example :
    let b : TB := ⟨⟨100, 100, 300, 112⟩, [⟨100, 100, 300, 112⟩]⟩
    let u : Shp := ⟨.stroke, 0, ⟨100, 110, 300, 111⟩, 1, 0⟩
    let f : Shp := ⟨.fill, 1, ⟨90, 90, 400, 120⟩, 0, 1⟩
    let e : Shp := ⟨.stroke, 0, ⟨90, 200, 400, 201⟩, 1, 2⟩
    categories [b] [u, f, e] = ⟨[e], [f], [u, e], []⟩ := by decide +kernel

/-- **C56 is false** for vertical text: the blocks are sorted by their left edge, so the search stops too early. A block above the
shape's lower edge is missed because a block further to the left starts below the shape: the underline counts as a table border. -/
theorem C56_refuted_vertical_text :
    ∃ (s : Shp) (b1 b2 : TB), s.kind = .stroke ∧ b1.bbox.x0 < b2.bbox.x0 ∧ check s b2 = true ∧ determined s [b1, b2] = false ∧
      determined s [b2] = true :=
  ⟨⟨.stroke, 0, ⟨210, 100, 211, 200⟩, 1, 0⟩, ⟨⟨100, 300, 112, 500⟩, [⟨100, 300, 112, 500⟩]⟩,
    ⟨⟨200, 100, 212, 200⟩, [⟨200, 100, 212, 200⟩]⟩, by decide +kernel⟩

end Props
