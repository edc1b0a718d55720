import Verif.Spec.RuledPage
import Verif.Props.Ruled
import Verif.Props.Lattice
/-! # C91 on the page: the tables found are the tables drawn -/

namespace Props
open Py Geom Table Spec Sweep Graph Lattice

theorem rp_mem_at (p : ℕ → Bool) (strokes : List St) (s : St) : s ∈ strokesAt p strokes ↔ ∃ i, strokes[i]? = some s ∧ p i = true := by
  unfold strokesAt
  rw [List.mem_filterMap]
  constructor
  · rintro ⟨i, hi, h⟩
    exact ⟨i, h, (List.mem_filter.1 hi).2⟩
  · rintro ⟨i, h, hp⟩
    exact ⟨i, List.mem_filter.2 ⟨List.mem_range.2 (List.getElem?_eq_some_iff.1 h).1, hp⟩, h⟩

theorem rp_mem_of (own : ℕ → Option ℕ) (t : ℕ) (strokes : List St) (s : St) : s ∈ strokesOf own t strokes ↔ ∃ i, strokes[i]? = some s ∧ own i = some t := by
  unfold strokesOf
  rw [rp_mem_at]
  simp

theorem rp_not_row_col {δ e gap : ℚ} {X Y : ℕ → ℚ} {r k : ℕ} (hg : 2 * δ + 1 / 10 ≤ gap) (hY : ∀ i < r, Y i + gap < Y (i + 1))
    (h0 : 0 ≤ δ) (s : St) (i a b j a' b' : ℕ) (h : OnRow δ e X Y r k s i a b) (h' : OnCol δ e X Y r k s j a' b') : False := by
  have g := rl_gap Y r gap (by linarith) hY a' b' h'.lt h'.le
  have p := abs_le.1 h'.start
  have q := abs_le.1 h'.stop
  have f := h.flat
  rw [abs_sub_comm] at f
  have := le_abs_self (s.y1 - s.y0)
  linarith [p.1, p.2, q.1, q.2]

theorem rp_col_unique {δ e gap : ℚ} {X Y : ℕ → ℚ} {r k : ℕ} (hg : 2 * δ ≤ gap) (hX : ∀ i < k, X i + gap < X (i + 1))
    (h0 : 0 ≤ δ) (s : St) (j a b j' a' b' : ℕ) (h : OnCol δ e X Y r k s j a b) (h' : OnCol δ e X Y r k s j' a' b') : j = j' :=
  rl_line_unique (e := e) (ext := sideExt .left) (al := along .left) (pos := St.x0) (X := Y) h0 hg hX s j a b j' a' b' h.line h'.line
    ((rl_onCol s j a b).1 h).2.2.2 ((rl_onCol s j' a' b').1 h').2.2.2

theorem rp_beside {a b : Rect} (ha : Proper a) (hb : Proper b) (h : BoxBeside a b) : a.intersects b = false := by
  rw [Bool.eq_false_iff, Ne, intersects_iff a b ha hb]
  rintro ⟨h1, h2⟩
  rw [max_lt_iff, lt_min_iff, lt_min_iff] at h1 h2
  rcases h with h | h | h | h <;> linarith [h1.1.1, h1.1.2, h1.2.1, h1.2.2, h2.1.1, h2.1.2, h2.2.1, h2.2.2]

theorem rp_far {d : ℚ} (hd : 0 ≤ d) {a b : Rect} (ha : Proper a) (hb : Proper b) (h : ¬ Near d d a b) : a.intersects b = false := by
  rw [Bool.eq_false_iff, Ne, intersects_iff a b ha hb]
  rintro ⟨h1, h2⟩
  rw [max_lt_iff, lt_min_iff, lt_min_iff] at h1 h2
  exact h ⟨by linarith [h1.2.1, h1.1.2], by linarith [h1.1.2], by linarith [h2.1.2], by linarith [h2.2.1, h2.1.2]⟩

theorem rp_single (c w : ℚ) (s : St) : parse c w [s] = .ok [] := by
  unfold parse groupStrokes groupHV
  dsimp only
  by_cases h : s.horizontal = true
  · have e : List.filter (fun s : St => !s.horizontal && s.vertical) [s] = [] := by simp [h]
    rw [e]
    rw [if_pos (show (_ ∨ groupBy c (List.map (fun s : St => (round1 s.x0, s)) []) = []) from Or.inr rfl)]
  · have e : List.filter St.horizontal [s] = [] := by simp [h]
    rw [e]
    rw [if_pos (show (groupBy c (List.map (fun s : St => (round1 s.y0, s)) []) = [] ∨ _) from Or.inl rfl)]

section Page
variable {d w δ e gap : ℚ} {strokes : List St} {own : ℕ → Option ℕ} {loose : ℕ → Bool} {n : ℕ} {tab : ℕ → PageTable} {box : ℕ → Rect}

/-- The positions of the main part of table `t`. -/
structure Main (strokes : List St) (own : ℕ → Option ℕ) (loose : ℕ → Bool) (n t : ℕ) (g : List ℕ) : Prop where
  lt : t < n
  sub : ∀ i ∈ g, i < strokes.length ∧ own i = some t
  all : ∀ i < strokes.length, own i = some t → loose i = false → i ∈ g

/-- A single stroke. -/
def Lone (strokes : List St) (own : ℕ → Option ℕ) (loose : ℕ → Bool) (g : List ℕ) : Prop :=
  ∃ i < strokes.length, g = [i] ∧ (own i = none ∨ ∃ t, own i = some t ∧ loose i = true)

/-- A position of a table that is not loose. -/
theorem rp_position (hp : DrawnPage d w δ e gap strokes own loose n tab box) (hg : 2 * δ + 1 / 10 ≤ gap) (h0 : 0 ≤ δ) (t : ℕ) (ht : t < n) :
    ∃ i < strokes.length, own i = some t ∧ loose i = false := by
  have hr := hp.ruled t ht
  obtain ⟨s, hs, a, b, ho, _⟩ := hr.bottom 0 hr.cols
  obtain ⟨i, hi, hio⟩ := (rp_mem_of own t strokes s).1 hs
  refine ⟨i, (List.getElem?_eq_some_iff.1 hi).1, hio, ?_⟩
  by_contra hl
  obtain ⟨⟨a', b', hc⟩, _⟩ := hp.left i t s hi hio (by simpa using hl)
  exact rp_not_row_col hg hr.gapY h0 s _ _ _ _ _ _ ho hc

/-- The groups of positions. -/
theorem rp_groups (hp : DrawnPage d w δ e gap strokes own loose n tab box) (hg : 2 * δ + 1 / 10 ≤ gap) (h0 : 0 ≤ δ) :
    ∃ gs, groupIdx d d (strokes.map St.bbox) = .ok gs ∧ gs.flatten.Perm (List.range strokes.length) ∧
      (∀ g ∈ gs, (∃ t, Main strokes own loose n t g) ∨ Lone strokes own loose g) ∧ ∀ t < n, ∃ g ∈ gs, Main strokes own loose n t g := by
  have hs : Solid d d (strokes.map St.bbox) := by
    intro r hr
    obtain ⟨s, hs, rfl⟩ := List.mem_map.1 hr
    have := (hp.proper s hs).1
    have := hp.d0
    exact ⟨by linarith [this, (hp.proper s hs).1.1], by linarith [this, (hp.proper s hs).1.2]⟩
  have hlt : ∀ p ∈ pairs ((strokes.map St.bbox).map fun r => r.expand d d), p.1 < (strokes.map St.bbox).length ∧ p.2 < (strokes.map St.bbox).length := by
    intro p h
    simpa using pairs_lt _ (solid_valid d d _ hs) p h
  obtain ⟨gs, h1, h2⟩ := components_of_pairs (strokes.map St.bbox).length _ hlt
  rw [List.length_map] at h2
  have getb : ∀ (i : ℕ) a, (strokes.map St.bbox)[i]? = some a → ∃ s, strokes[i]? = some s ∧ s.bbox = a := by
    intro i a h
    rw [List.getElem?_map, Option.map_eq_some_iff] at h
    exact h
  have step : ∀ x y, (x, y) ∈ pairs ((strokes.map St.bbox).map fun r => r.expand d d) → x = y ∨ ∃ t, own x = some t ∧ own y = some t := by
    intro x y h
    obtain ⟨a, b, ha, hb, hnear⟩ := C22_reported_pairs_overlap d d _ hs x y h
    obtain ⟨s, hs1, rfl⟩ := getb x a ha
    obtain ⟨s', hs2, rfl⟩ := getb y b hb
    by_contra hcon
    push Not at hcon
    refine hp.apart x y s s' hcon.1 hs1 hs2 ?_ hnear
    cases hx : own x with
    | none => exact Or.inl rfl
    | some t => exact Or.inr fun h => hcon.2 t hx h.symm
  have same : ∀ g ∈ gs, ∀ i ∈ g, ∀ j ∈ g, i = j ∨ ∃ t, own i = some t ∧ own j = some t := by
    intro g hgm i hi j hj
    have := (h2.closed g hgm i hi j).1 hj
    clear hj
    unfold Linked at this
    induction this with
    | refl => exact Or.inl rfl
    | tail _ hbc ih =>
      rename_i y z _
      have hs' : y = z ∨ ∃ t, own y = some t ∧ own z = some t := by
        rcases hbc.2.2 with h | h
        · exact step _ _ h
        · rcases step _ _ h with h | ⟨t, ht, ht'⟩
          · exact Or.inl h.symm
          · exact Or.inr ⟨t, ht', ht⟩
      rcases ih with rfl | ⟨t, ht, ht'⟩
      · exact hs'
      · rcases hs' with rfl | ⟨u, hu, hu'⟩
        · exact Or.inr ⟨t, ht, ht'⟩
        · rw [ht'] at hu
          obtain rfl := Option.some.inj hu
          exact Or.inr ⟨t, ht, hu'⟩
  have hooks : ∀ i j, Hook d strokes i j → (i, j) ∈ pairs ((strokes.map St.bbox).map fun r => r.expand d d) ∨
      (j, i) ∈ pairs ((strokes.map St.bbox).map fun r => r.expand d d) := by
    rintro i j ⟨a, b, ha, hb, hab, ho, hf⟩
    exact C23_overlapping_pairs_reported_partial d d _ i j a.bbox b.bbox (by simp [ha]) (by simp [hb]) hab hf ho
  have hlink : ∀ i j, Linked strokes.length (Hook d strokes) i j →
      Linked strokes.length (fun i j => (i, j) ∈ pairs ((strokes.map St.bbox).map fun r => r.expand d d)) i j := by
    intro i j h
    refine Relation.ReflTransGen.mono ?_ _ _ h
    rintro x y ⟨hx, hy, hxy | hxy⟩
    · exact ⟨hx, hy, hooks x y hxy⟩
    · exact ⟨hx, hy, (hooks y x hxy).symm⟩
  have hin : ∀ g ∈ gs, ∀ i ∈ g, i < strokes.length := fun g hgm i hi =>
    List.mem_range.1 (h2.partition.mem_iff.1 (List.mem_flatten.2 ⟨g, hgm, hi⟩))
  have hnd : ∀ g ∈ gs, g.Nodup := by
    have := h2.partition.nodup_iff.2 List.nodup_range
    rw [List.nodup_flatten] at this
    exact this.1
  have main : ∀ g ∈ gs, ∀ i ∈ g, ∀ t, own i = some t → loose i = false → Main strokes own loose n t g := by
    intro g hgm i hi t hio hil
    refine ⟨hp.owner i t hio, fun j hj => ⟨hin g hgm j hj, ?_⟩, fun j hj hjo hjl => ?_⟩
    · rcases same g hgm i hi j hj with rfl | ⟨u, hu, hu'⟩
      · exact hio
      · rw [hio] at hu
        obtain rfl := Option.some.inj hu
        exact hu'
    · exact (h2.closed g hgm i hi j).2 (hlink _ _ (hp.hooked i j t (hin g hgm i hi) hj hio hjo hil hjl))
  refine ⟨gs, h1, h2.partition, fun g hgm => ?_, fun t ht => ?_⟩
  · by_cases hex : ∃ i ∈ g, ∃ t, own i = some t ∧ loose i = false
    · obtain ⟨i, hi, t, hio, hil⟩ := hex
      exact Or.inl ⟨t, main g hgm i hi t hio hil⟩
    · right
      push Not at hex
      obtain ⟨i, hi⟩ := List.exists_mem_of_ne_nil _ (h2.nonempty g hgm)
      have one : ∀ j ∈ g, j = i := by
        intro j hj
        rcases same g hgm i hi j hj with h | ⟨t, ht, ht'⟩
        · exact h.symm
        · have hli := hex i hi t ht
          have hlj := hex j hj t ht'
          rw [ne_eq, Bool.not_eq_false] at hli hlj
          obtain ⟨s', hs'⟩ : ∃ s', strokes[j]? = some s' := ⟨_, List.getElem?_eq_getElem (hin g hgm j hj)⟩
          obtain ⟨s, hs''⟩ : ∃ s, strokes[i]? = some s := ⟨_, List.getElem?_eq_getElem (hin g hgm i hi)⟩
          obtain ⟨⟨a, b, hc⟩, _⟩ := hp.left j t s' hs' ht' hlj
          exact (hp.left i t s hs'' ht hli).2.2.2.2 j s' a b hs' ht' hc
      refine ⟨i, hin g hgm i hi, ?_, ?_⟩
      · have : g = List.replicate g.length i := List.eq_replicate_of_mem one
        have hn := hnd g hgm
        rw [this, List.nodup_replicate] at hn
        have hpos : 0 < g.length := List.length_pos_of_mem hi
        rw [this, show g.length = 1 by omega]
        rfl
      · cases hx : own i with
        | none => exact Or.inl rfl
        | some t => exact Or.inr ⟨t, rfl, by simpa using hex i hi t hx⟩
  · obtain ⟨i, hi, hio, hil⟩ := rp_position hp hg h0 t ht
    obtain ⟨g, hgm, hig⟩ := List.mem_flatten.1 (h2.partition.symm.subset (List.mem_range.2 hi))
    exact ⟨g, hgm, main g hgm i hig t hio hil⟩

/-- The strokes at the positions of a group, in any order. -/
def strokesIn (strokes : List St) (g : List ℕ) : List St := g.filterMap (strokes[·]?)

theorem rp_mem_in (strokes : List St) (g : List ℕ) (s : St) : s ∈ strokesIn strokes g ↔ ∃ i ∈ g, strokes[i]? = some s := by
  unfold strokesIn
  rw [List.mem_filterMap]

/-- The main part of a table draws its cells. -/
theorem rp_part (hp : DrawnPage d w δ e gap strokes own loose n tab box) (hg : 2 * δ + 1 / 10 ≤ gap) (h0 : 0 ≤ δ) (t : ℕ) (g : List ℕ)
    (hm : Main strokes own loose n t g) :
    RuledPart w δ e gap (tab t).X (tab t).Y (tab t).r (tab t).k (tab t).cell (strokesIn strokes g) := by
  have hr := hp.ruled t hm.lt
  have hd := hp.division t hm.lt
  have sub : ∀ s ∈ strokesIn strokes g, s ∈ strokesOf own t strokes := by
    intro s hs
    obtain ⟨i, hi, h⟩ := (rp_mem_in _ _ _).1 hs
    exact (rp_mem_of _ _ _ _).2 ⟨i, h, (hm.sub i hi).2⟩
  have tight : ∀ s ∈ strokesOf own t strokes, (∀ a b, ¬ OnCol δ e (tab t).X (tab t).Y (tab t).r (tab t).k s 0 a b) → s ∈ strokesIn strokes g := by
    intro s hs hno
    obtain ⟨i, hi, hio⟩ := (rp_mem_of _ _ _ _).1 hs
    refine (rp_mem_in _ _ _).2 ⟨i, hm.all i (List.getElem?_eq_some_iff.1 hi).1 hio ?_, hi⟩
    by_contra hl
    obtain ⟨⟨a, b, hc⟩, _⟩ := hp.left i t s hi hio (by simpa using hl)
    exact hno a b hc
  have row : ∀ s i a b, OnRow δ e (tab t).X (tab t).Y (tab t).r (tab t).k s i a b → ∀ a' b', ¬ OnCol δ e (tab t).X (tab t).Y (tab t).r (tab t).k s 0 a' b' :=
    fun s i a b ho a' b' hc => rp_not_row_col hg hr.gapY h0 s _ _ _ _ _ _ ho hc
  have col : ∀ s j a b, 0 < j → OnCol δ e (tab t).X (tab t).Y (tab t).r (tab t).k s j a b →
      ∀ a' b', ¬ OnCol δ e (tab t).X (tab t).Y (tab t).r (tab t).k s 0 a' b' := by
    intro s j a b hj ho a' b' hc
    have := rp_col_unique (by linarith) hr.gapX h0 s _ _ _ _ _ _ ho hc
    omega
  refine ⟨hr.rows, hr.cols, hr.gapX, hr.gapY, fun s hs => hr.each s (sub s hs), ?_, ?_, ?_, ?_, hr.usedRow, hr.usedCol, ?_⟩
  · intro i hi j hj
    rw [← hr.top i hi j hj]
    exact ⟨fun ⟨s, hs, a, b, ho, h⟩ => ⟨s, sub s hs, a, b, ho, h⟩, fun ⟨s, hs, a, b, ho, h⟩ => ⟨s, tight s hs (row s _ _ _ ho), a, b, ho, h⟩⟩
  · intro i hi j hj hj0
    rw [← hr.left i hi j hj]
    exact ⟨fun ⟨s, hs, a, b, ho, h⟩ => ⟨s, sub s hs, a, b, ho, h⟩, fun ⟨s, hs, a, b, ho, h⟩ => ⟨s, tight s hs (col s _ _ _ hj0 ho), a, b, ho, h⟩⟩
  · intro j hj
    obtain ⟨s, hs, a, b, ho, h⟩ := hr.bottom j hj
    exact ⟨s, tight s hs (row s _ _ _ ho), a, b, ho, h⟩
  · intro i hi
    obtain ⟨s, hs, a, b, ho, h⟩ := hr.right i hi
    exact ⟨s, tight s hs (col s _ _ _ (by have := hr.cols; omega) ho), a, b, ho, h⟩
  · by_cases hall : ∀ i < strokes.length, own i = some t → i ∈ g
    · left
      intro i hi
      obtain ⟨s, hs, a, b, ho, h⟩ := (hr.left i hi 0 hr.cols).2 (by
        have := hd.mem i hi 0 hr.cols
        unfold GRect.Has at this; omega)
      obtain ⟨p, hpp, hpo⟩ := (rp_mem_of _ _ _ _).1 hs
      exact ⟨s, (rp_mem_in _ _ _).2 ⟨p, hall p (List.getElem?_eq_some_iff.1 hpp).1 hpo, hpp⟩, a, b, ho, h⟩
    · right
      push Not at hall
      obtain ⟨p, hpl, hpo, hpg⟩ := hall
      have hl : loose p = true := by
        by_contra h
        exact hpg (hm.all p hpl hpo (by simpa using h))
      obtain ⟨s, hs⟩ : ∃ s, strokes[p]? = some s := ⟨_, List.getElem?_eq_getElem hpl⟩
      obtain ⟨_, hwg, _, _, huniq⟩ := hp.left p t s hs hpo hl
      refine ⟨fun s' hs' a b ho => ?_, hwg⟩
      obtain ⟨q, hq, hqs⟩ := (rp_mem_in _ _ _).1 hs'
      have := huniq q s' a b hqs (hm.sub q hq).2 ho
      subst this
      exact hpg hq

/-- The box of the main part. -/
theorem rp_box (hp : DrawnPage d w δ e gap strokes own loose n tab box) (hg : 2 * δ + 1 / 10 ≤ gap) (h0 : 0 ≤ δ) (t : ℕ) (g : List ℕ)
    (hm : Main strokes own loose n t g) : Lattice.box (strokesIn strokes g) = box t := by
  obtain ⟨i, hi, hio, hil⟩ := rp_position hp hg h0 t hm.lt
  have hne : strokesIn strokes g ≠ [] := List.ne_nil_of_mem ((rp_mem_in _ _ _).2 ⟨i, hm.all i hi hio hil, List.getElem?_eq_getElem hi⟩)
  have h1 : IsHull ((strokesIn strokes g).map St.bbox) (Lattice.box (strokesIn strokes g)) := by
    refine C24_collection_bbox_partial _ (by simpa using hne) ?_
    intro r hr
    obtain ⟨s, h, rfl⟩ := List.mem_map.1 hr
    obtain ⟨i, _, hi⟩ := (rp_mem_in _ _ _).1 h
    exact hp.proper s (List.mem_of_getElem? hi)
  have h2 := hp.hull t hm.lt
  refine covers_antisymm (h2.2 _ ?_) (h1.2 _ ?_)
  · intro r hr
    obtain ⟨s, h, rfl⟩ := List.mem_map.1 hr
    obtain ⟨i, hi, hb⟩ := (rp_mem_at _ _ _).1 h
    rw [Bool.and_eq_true, decide_eq_true_eq, Bool.not_eq_true'] at hb
    exact h1.1 _ (List.mem_map_of_mem ((rp_mem_in _ _ _).2 ⟨i, hm.all i (List.getElem?_eq_some_iff.1 hi).1 hb.1 hb.2, hi⟩))
  · intro r hr
    obtain ⟨s, h, rfl⟩ := List.mem_map.1 hr
    obtain ⟨i, hi, his⟩ := (rp_mem_in _ _ _).1 h
    by_cases hl : loose i = true
    · exact (hp.left i t s his (hm.sub i hi).2 hl).2.2.1
    · exact h2.1 _ (List.mem_map_of_mem ((rp_mem_at _ _ _).2 ⟨i, his, by simpa [(hm.sub i hi).2] using hl⟩))

/-- Tables made of the groups kept. -/
theorem rp_tables {α β : Type} (f : α → Except Err (List β)) (tf : α → Option ℕ) (P : ℕ → List β → Prop) (K : List α)
    (h : ∀ L ∈ K, ∃ tbl, f L = .ok tbl ∧ (tf L = none → tbl = []) ∧ ∀ t, tf L = some t → P t tbl ∧ tbl ≠ []) :
    ∃ ts, ((K.mapM f).map fun ts => ts.filter fun t => !t.isEmpty) = .ok ts ∧ List.Forall₂ P (K.filterMap tf) ts := by
  induction K with
  | nil => exact ⟨[], rfl, List.Forall₂.nil⟩
  | cons L K ih =>
    obtain ⟨ts, h1, h2⟩ := ih fun L hL => h L (List.mem_cons_of_mem _ hL)
    obtain ⟨tbl, e, hn, hs⟩ := h L (by simp)
    cases hK : K.mapM f with
    | error err => rw [hK] at h1; cases h1
    | ok us =>
      rw [hK] at h1
      have hus : us.filter (fun t => !t.isEmpty) = ts := by injection h1
      have hm : (L :: K).mapM f = .ok (tbl :: us) := by
        rw [List.mapM_cons, e]
        show (do let bs ← K.mapM f; pure (tbl :: bs)) = _
        rw [hK]
        rfl
      rw [hm]
      cases ht : tf L with
      | none =>
        refine ⟨ts, ?_, by rw [List.filterMap_cons, ht]; exact h2⟩
        show Except.ok (List.filter _ (tbl :: us)) = _
        rw [hn ht, List.filter_cons_of_neg (by simp), hus]
      | some t =>
        obtain ⟨hP, hne⟩ := hs t ht
        refine ⟨tbl :: ts, ?_, by rw [List.filterMap_cons, ht]; exact List.Forall₂.cons hP h2⟩
        show Except.ok (List.filter _ (tbl :: us)) = _
        rw [List.filter_cons_of_pos (by cases tbl with
          | nil => exact absurd rfl hne
          | cons x l => rfl), hus]

theorem rp_shows_ne (t : ℚ) (X Y : ℕ → ℚ) (r k : ℕ) (cell : ℕ → ℕ → GRect) (table : List (List CellOut)) (hr : 1 ≤ r) (h : ShowsCells t X Y r k cell table) : table ≠ [] := by
  rintro rfl
  have := h.1
  simp at this
  omega

/-- The page, given that the strokes of each line come in order. -/
theorem rp_page (iter : List ℕ → List ℕ) (hi : ∀ l, (iter l).Perm l) (c : ℚ) (hcl : Clear c w δ e gap)
    (hp : DrawnPage d w δ e gap strokes own loose n tab box)
    (hord : ∀ t g, Main strokes own loose n t g → g.Nodup → (∃ g', g = iter g') →
      InOrder δ e (tab t).X (tab t).Y (tab t).r (tab t).k (strokesIn strokes g)) :
    ∃ order ts, order.Perm (List.range n) ∧ Lattice.tables iter d c w strokes = .ok ts ∧
      List.Forall₂ (fun t table => ShowsCells (δ + 1 / 20) (tab t).X (tab t).Y (tab t).r (tab t).k (tab t).cell table) order ts := by
  classical
  have hg : 2 * δ + 1 / 10 ≤ gap := by linarith [hcl.boxes, hcl.δ0, hcl.e0]
  have h0 := hcl.δ0
  obtain ⟨gs, hgs, hpart, hclass, hmain⟩ := rp_groups hp hg h0
  have hG : strokeGroups iter d strokes = gs.map fun g => strokesIn strokes (iter g) := by
    unfold strokeGroups
    rw [hgs]
    rfl
  have hnd : ∀ g ∈ gs, g.Nodup := by
    have := hpart.nodup_iff.2 List.nodup_range
    rw [List.nodup_flatten] at this
    exact this.1
  have bpos : ∀ s ∈ strokes, Proper s.bbox := fun s hs => (hp.proper s hs).1
  let MainL : ℕ → List St → Prop := fun t L => ∃ g, Main strokes own loose n t g ∧ g.Nodup ∧ (∃ g', g = iter g') ∧ L = strokesIn strokes g
  have hiter : ∀ t g, Main strokes own loose n t g → Main strokes own loose n t (iter g) := fun t g h =>
    ⟨h.lt, fun i hi' => h.sub i ((hi g).mem_iff.1 hi'), fun i h1 h2 h3 => (hi g).mem_iff.2 (h.all i h1 h2 h3)⟩
  have cls : ∀ L ∈ strokeGroups iter d strokes, (∃ t, MainL t L) ∨
      ∃ i s, strokes[i]? = some s ∧ L = [s] ∧ (own i = none ∨ ∃ t, own i = some t ∧ loose i = true) := by
    intro L hL
    rw [hG] at hL
    obtain ⟨g, hgm, rfl⟩ := List.mem_map.1 hL
    rcases hclass g hgm with ⟨t, ht⟩ | ⟨i, hi', rfl, h⟩
    · exact Or.inl ⟨t, iter g, hiter t g ht, (hi g).nodup_iff.2 (hnd g hgm), ⟨g, rfl⟩, rfl⟩
    · right
      refine ⟨i, strokes[i], List.getElem?_eq_getElem hi', ?_, h⟩
      have : iter [i] = [i] := List.perm_singleton.1 (hi [i])
      rw [this]
      simp [strokesIn, List.getElem?_eq_getElem hi']
  have mem_main : ∀ t < n, ∃ L ∈ strokeGroups iter d strokes, MainL t L := by
    intro t ht
    obtain ⟨g, hgm, hm⟩ := hmain t ht
    exact ⟨_, by rw [hG]; exact List.mem_map_of_mem hgm, iter g, hiter t g hm, (hi g).nodup_iff.2 (hnd g hgm), ⟨g, rfl⟩, rfl⟩
  have mbox : ∀ t L, MainL t L → t < n ∧ Lattice.box L = box t := by
    rintro t L ⟨g, hm, _, _, rfl⟩
    exact ⟨hm.lt, rp_box hp hg h0 t g hm⟩
  have sbox : ∀ s ∈ strokes, Lattice.box [s] = s.bbox := by
    intro s hs
    have h1 : IsHull ([s].map St.bbox) (Lattice.box [s]) := C24_collection_bbox_partial _ (by simp) (by
      intro r hr
      simp only [List.map_cons, List.map_nil, List.mem_singleton] at hr
      rw [hr]
      exact hp.proper s hs)
    refine covers_antisymm (h1.1 _ (by simp)) (h1.2 _ ?_)
    intro r hr
    simp only [List.map_cons, List.map_nil, List.mem_singleton] at hr
    rw [hr]
    exact covers_refl _
  have tstroke : ∀ t < n, ∃ i s, strokes[i]? = some s ∧ own i = some t ∧ Covers (box t) s.bbox := by
    intro t ht
    obtain ⟨i, hil, hio, hl⟩ := rp_position hp hg h0 t ht
    exact ⟨i, strokes[i], List.getElem?_eq_getElem hil, hio, (hp.hull t ht).1 _ (List.mem_map_of_mem ((rp_mem_at _ _ _).2
      ⟨i, List.getElem?_eq_getElem hil, by simp [hio, hl]⟩))⟩
  have tprop : ∀ t < n, Proper (box t) := by
    intro t ht
    obtain ⟨i, s, hs, _, hc⟩ := tstroke t ht
    have := bpos s (List.mem_of_getElem? hs)
    exact ⟨lt_of_le_of_lt hc.1 (lt_of_lt_of_le this.1 hc.2.2.1), lt_of_le_of_lt hc.2.1 (lt_of_lt_of_le this.2 hc.2.2.2)⟩
  have hprop : ∀ L ∈ strokeGroups iter d strokes, Proper (Lattice.box L) := by
    intro L hL
    rcases cls L hL with ⟨t, h⟩ | ⟨i, s, hs, rfl, _⟩
    · rw [(mbox t L h).2]; exact tprop t (mbox t L h).1
    · rw [sbox s (List.mem_of_getElem? hs)]; exact bpos s (List.mem_of_getElem? hs)
  have beside_symm : ∀ {a b : Rect}, BoxBeside a b → BoxBeside b a := by
    intro a b h
    rcases h with h | h | h | h
    · exact Or.inr (Or.inl h)
    · exact Or.inl h
    · exact Or.inr (Or.inr (Or.inr h))
    · exact Or.inr (Or.inr (Or.inl h))
  -- a single stroke against the main part of a table
  have single : ∀ i s t, strokes[i]? = some s → (own i = none ∨ ∃ u, own i = some u ∧ loose i = true) → t < n →
      Covers (box t) s.bbox ∨ BoxBeside (box t) s.bbox := by
    intro i s t hs ho ht
    rcases ho with ho | ⟨u, ho, hl⟩
    · exact hp.others i s t hs ho ht
    · by_cases htu : t = u
      · subst htu
        exact Or.inl (hp.left i t s hs ho hl).2.2.1
      · right
        have hc := (hp.left i u s hs ho hl).2.2.1
        rcases hp.tables t ht u (hp.owner i u ho) htu with h | h | h | h
        · exact Or.inl (le_trans h hc.1)
        · exact Or.inr (Or.inl (le_trans hc.2.2.1 h))
        · exact Or.inr (Or.inr (Or.inl (le_trans h hc.2.1)))
        · exact Or.inr (Or.inr (Or.inr (le_trans hc.2.2.2 h)))
  have hnest : ∀ L ∈ strokeGroups iter d strokes, ∀ M ∈ strokeGroups iter d strokes, Nested (Lattice.box L) (Lattice.box M) := by
    intro L hL M hM
    rcases cls L hL with ⟨t, h⟩ | ⟨i, s, hs, rfl, ho⟩ <;> rcases cls M hM with ⟨u, k⟩ | ⟨j, s', hs', rfl, ho'⟩
    · rw [(mbox t L h).2, (mbox u M k).2]
      by_cases htu : t = u
      · rw [htu]; exact Or.inl (covers_refl _)
      · exact Or.inr (Or.inr (rp_beside (tprop t (mbox t L h).1) (tprop u (mbox u M k).1) (hp.tables t (mbox t L h).1 u (mbox u M k).1 htu)))
    · rw [(mbox t L h).2, sbox s' (List.mem_of_getElem? hs')]
      rcases single j s' t hs' ho' (mbox t L h).1 with q | q
      · exact Or.inl q
      · exact Or.inr (Or.inr (rp_beside (tprop t (mbox t L h).1) (bpos s' (List.mem_of_getElem? hs')) q))
    · rw [(mbox u M k).2, sbox s (List.mem_of_getElem? hs)]
      rcases single i s u hs ho (mbox u M k).1 with q | q
      · exact Or.inr (Or.inl q)
      · exact Or.inr (Or.inr (rp_beside (bpos s (List.mem_of_getElem? hs)) (tprop u (mbox u M k).1) (beside_symm q)))
    · rw [sbox s (List.mem_of_getElem? hs), sbox s' (List.mem_of_getElem? hs')]
      by_cases hij : i = j
      · subst hij
        rw [hs] at hs'
        obtain rfl := Option.some.inj hs'
        exact Or.inl (covers_refl _)
      · right; right
        have ps := bpos s (List.mem_of_getElem? hs)
        have ps' := bpos s' (List.mem_of_getElem? hs')
        rcases ho with ho | ⟨u, ho, hl⟩
        · exact rp_far hp.d0 ps ps' (hp.apart i j s s' hij hs hs' (Or.inl ho))
        · rcases ho' with ho' | ⟨u', ho', hl'⟩
          · exact rp_far hp.d0 ps ps' (hp.apart i j s s' hij hs hs' (Or.inr (by rw [ho, ho']; simp)))
          · refine rp_far hp.d0 ps ps' (hp.apart i j s s' hij hs hs' (Or.inr ?_))
            rw [ho, ho']
            intro h
            obtain rfl := Option.some.inj h
            obtain ⟨⟨a, b, hc⟩, _⟩ := hp.left j u s' hs' ho' hl'
            exact hij ((hp.left i u s hs ho hl).2.2.2.2 j s' a b hs' ho' hc).symm
  obtain ⟨hk1, hk2⟩ := C82_kept_apart iter hi Lattice.box _ hprop
  have hk3 := C82_dropped_inside_partial iter hi Lattice.box _ hprop hnest
  have munique : ∀ t u L, MainL t L → MainL u L → t = u := by
    intro t u L h k
    by_contra htu
    have h1 := mbox t L h
    have h2 := mbox u L k
    have := rp_beside (tprop t h1.1) (tprop u h2.1) (hp.tables t h1.1 u h2.1 htu)
    rw [← h1.2, ← h2.2] at this
    have hP := tprop t h1.1
    rw [← h1.2] at hP
    rw [common_part hP hP hP (covers_refl _) (covers_refl _)] at this
    cases this
  -- the main part of each table is kept
  have hkept : ∀ t < n, ∃ L ∈ removeOverlap iter Lattice.box (strokeGroups iter d strokes), MainL t L := by
    intro t ht
    obtain ⟨L, hL, hm⟩ := mem_main t ht
    obtain ⟨M, hM, hc⟩ := hk3 L hL
    refine ⟨M, hM, ?_⟩
    rw [(mbox t L hm).2] at hc
    obtain ⟨i, s, hs, hio, hcs⟩ := tstroke t ht
    have ps := bpos s (List.mem_of_getElem? hs)
    rcases cls M (hk1.subset hM) with ⟨u, k⟩ | ⟨j, s', hs', rfl, ho'⟩
    · rw [(mbox u M k).2] at hc
      by_cases htu : t = u
      · rw [htu]; exact k
      · have := rp_beside (tprop t ht) (tprop u (mbox u M k).1) (hp.tables t ht u (mbox u M k).1 htu)
        rw [common_part (tprop t ht) (tprop u (mbox u M k).1) (tprop t ht) (covers_refl _) hc] at this
        cases this
    · exfalso
      have ps' := bpos s' (List.mem_of_getElem? hs')
      rw [sbox s' (List.mem_of_getElem? hs')] at hc
      have hint := common_part ps ps' ps (covers_refl _) (covers_trans hc hcs)
      by_cases hsame : own j = some t
      · rcases ho' with ho' | ⟨u, ho', hl⟩
        · rw [ho'] at hsame; cases hsame
        · rw [ho'] at hsame
          obtain rfl := Option.some.inj hsame
          exact (hp.left j u s' hs' ho' hl).2.2.2.1 hc
      · have hne : i ≠ j := by
          rintro rfl
          exact hsame hio
        have := rp_far hp.d0 ps ps' (hp.apart i j s s' hne hs hs' (Or.inr (by rw [hio]; exact fun h => hsame h.symm)))
        rw [hint] at this
        cases this
  let tf : List St → Option ℕ := fun L => if h : ∃ t, MainL t L then some h.choose else none
  have htf : ∀ L t, MainL t L → tf L = some t := by
    intro L t h
    have hex : ∃ t, MainL t L := ⟨t, h⟩
    simp only [tf, dif_pos hex]
    rw [munique _ _ L hex.choose_spec h]
  have htf' : ∀ L t, tf L = some t → MainL t L := by
    intro L t h
    by_cases hex : ∃ t, MainL t L
    · obtain ⟨u, hu⟩ := hex
      rw [htf L u hu] at h
      obtain rfl := Option.some.inj h
      exact hu
    · simp only [tf, dif_neg hex] at h
      cases h
  refine ⟨(removeOverlap iter Lattice.box (strokeGroups iter d strokes)).filterMap tf, ?_⟩
  obtain ⟨ts, e1, e2⟩ := rp_tables (parse c w) tf (fun t table => ShowsCells (δ + 1 / 20) (tab t).X (tab t).Y (tab t).r (tab t).k (tab t).cell table)
    (removeOverlap iter Lattice.box (strokeGroups iter d strokes)) (by
      intro L hL
      rcases cls L (hk1.subset hL) with ⟨t, hm⟩ | ⟨i, s, hs, rfl, ho⟩
      · obtain ⟨g, m, nd, hg', rfl⟩ := id hm
        obtain ⟨tbl, h1, h2⟩ := rl_cells c w hcl (tab t).cell (hp.division t m.lt) _ (rp_part hp hg h0 t g m) (hord t g m nd hg')
        refine ⟨tbl, h1, fun h => ?_, fun u hu => ?_⟩
        · rw [htf _ t hm] at h; cases h
        · rw [htf _ t hm] at hu
          obtain rfl := Option.some.inj hu
          exact ⟨h2, rp_shows_ne _ _ _ _ _ _ _ (hp.ruled t m.lt).rows h2⟩
      · refine ⟨[], rp_single c w s, fun _ => rfl, fun t ht => ?_⟩
        exfalso
        -- a single stroke is not the main part of a table: it would be its bottom and its right side
        obtain ⟨g, m, _, _, hg'⟩ := htf' _ t ht
        have hr := rp_part hp hg h0 t g m
        rw [← hg'] at hr
        obtain ⟨s1, hs1, a, b, o1, _⟩ := hr.bottom 0 hr.cols
        obtain ⟨s2, hs2, a', b', o2, _⟩ := hr.right 0 hr.rows
        rw [List.mem_singleton] at hs1 hs2
        subst hs1
        subst hs2
        exact rp_not_row_col hg hr.gapY h0 _ _ _ _ _ _ _ o1 o2)
  refine ⟨ts, ?_, e1, e2⟩
  rw [List.perm_ext_iff_of_nodup]
  · intro t
    rw [List.mem_filterMap, List.mem_range]
    constructor
    · rintro ⟨L, _, hL⟩
      exact (mbox t L (htf' L t hL)).1
    · intro ht
      obtain ⟨L, hL, hm⟩ := hkept t ht
      exact ⟨L, hL, htf L t hm⟩
  · unfold List.Nodup
    rw [List.pairwise_filterMap]
    refine hk2.imp ?_
    intro L M hLM t ht u hu htu
    subst htu
    have h1 := (mbox t L (htf' L t ht)).2
    have h2 := (mbox t M (htf' M t hu)).2
    rw [h1, h2] at hLM
    exact hLM.1 (covers_refl _)
  · exact List.nodup_range

/-- **C91** (partial: on the page, tables whose strokes hang together, at most one stroke per inner line). The tables found on a page are exactly the tables drawn, each with exactly its
cells, in whatever order the sets are enumerated: lines elsewhere on the page (beside the tables or within cells) neither disturb them nor make up tables of their own. -/
theorem C91_page_partial (iter : List ℕ → List ℕ) (hi : ∀ l, (iter l).Perm l) (c : ℚ) (hcl : Clear c w δ e gap)
    (hp : DrawnPage d w δ e gap strokes own loose n tab box)
    (hone : ∀ t < n, OnePerLine δ e (tab t).X (tab t).Y (tab t).r (tab t).k (strokesOf own t strokes)) :
    ∃ order ts, order.Perm (List.range n) ∧ Lattice.tables iter d c w strokes = .ok ts ∧
      List.Forall₂ (fun t table => ShowsCells (δ + 1 / 20) (tab t).X (tab t).Y (tab t).r (tab t).k (tab t).cell table) order ts := by
  refine rp_page iter hi c hcl hp ?_
  intro t g hm hnd _
  have hsub : (strokesIn strokes g).Subperm (strokesOf own t strokes) := by
    have : g.Subperm ((List.range strokes.length).filter fun i => decide (own i = some t)) :=
      List.subperm_of_subset hnd fun i hi' => List.mem_filter.2 ⟨List.mem_range.2 (hm.sub i hi').1, by simpa using (hm.sub i hi').2⟩
    obtain ⟨l, hl1, hl2⟩ := this
    exact ⟨l.filterMap _, hl1.filterMap _, hl2.filterMap _⟩
  obtain ⟨l, hl1, hl2⟩ := hsub
  have ho := hone t hm.lt
  constructor
  · have h := ho.rows.sublist hl2
    have := hl1.pairwise h (by intro s u h i a b a' b' g1 g2 ⟨g3, g4⟩; exact h i a' b' a b g1 g2 ⟨g4, g3⟩)
    exact this.imp fun h i a b a' b' g1 g2 g3 g4 => absurd ⟨g3, g4⟩ (h i a b a' b' g1 g2)
  · have h := ho.cols.sublist hl2
    have := hl1.pairwise h (by intro s u h i a b a' b' g1 g2 ⟨g3, g4⟩; exact h i a' b' a b g1 g2 ⟨g4, g3⟩)
    exact this.imp fun h i a b a' b' g1 g2 g3 g4 => absurd ⟨g3, g4⟩ (h i a b a' b' g1 g2)

/-- **C91** (partial): the same for lines drawn in pieces, if sets of positions are enumerated in ascending order and the pieces of each inner line come in order. -/
theorem C91_pieces_partial (iter : List ℕ → List ℕ) (hi : ∀ l, (iter l).Perm l) (hasc : ∀ l, (iter l).Pairwise (· ≤ ·)) (c : ℚ) (hcl : Clear c w δ e gap)
    (hp : DrawnPage d w δ e gap strokes own loose n tab box)
    (ho : ∀ t < n, InOrder δ e (tab t).X (tab t).Y (tab t).r (tab t).k (strokesOf own t strokes)) :
    ∃ order ts, order.Perm (List.range n) ∧ Lattice.tables iter d c w strokes = .ok ts ∧
      List.Forall₂ (fun t table => ShowsCells (δ + 1 / 20) (tab t).X (tab t).Y (tab t).r (tab t).k (tab t).cell table) order ts := by
  refine rp_page iter hi c hcl hp ?_
  rintro t g hm hnd ⟨g', rfl⟩
  have hsub : (strokesIn strokes (iter g')).Sublist (strokesOf own t strokes) := by
    have h1 : (iter g').Subperm ((List.range strokes.length).filter fun i => decide (own i = some t)) :=
      List.subperm_of_subset hnd fun i hi' => List.mem_filter.2 ⟨List.mem_range.2 (hm.sub i hi').1, by simpa using (hm.sub i hi').2⟩
    have h2 : (iter g').Sublist ((List.range strokes.length).filter fun i => decide (own i = some t)) :=
      List.sublist_of_subperm_of_pairwise h1 (hasc g') (List.Pairwise.sublist List.filter_sublist (List.pairwise_le_range))
    exact h2.filterMap _
  exact ⟨(ho t hm.lt).rows.sublist hsub, (ho t hm.lt).cols.sublist hsub⟩

end Page
end Props
