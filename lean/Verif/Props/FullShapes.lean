import Verif.Props.FullColumn
import Verif.Props.Assign
import Verif.Spec.Format
/-! # C95: shapes go with the text of their table cell -/

namespace Props
open Geom Py Full Spec

variable {α : Type}

theorem fs_inter {a b : Rect} (ha : Proper a) (hb : Proper b) :
    ((a.inter b).truthy = true → Meets a b) ∧ (a.x0 < b.x1 ∧ b.x0 < a.x1 ∧ a.y0 < b.y1 ∧ b.y0 < a.y1 → (a.inter b).truthy = true) := by
  unfold Rect.inter
  rw [if_neg (by rintro (h | h); exacts [proper_nonempty a ha h, proper_nonempty b hb h])]
  dsimp only
  constructor
  · intro h
    split at h
    · exact absurd h (by decide)
    · rename_i hn
      push Not at hn
      exact ⟨le_trans (le_trans (le_max_left _ _) hn.1) (min_le_right _ _), le_trans (le_trans (le_max_right _ _) hn.1) (min_le_left _ _),
        le_trans (le_trans (le_max_left _ _) hn.2) (min_le_right _ _), le_trans (le_trans (le_max_right _ _) hn.2) (min_le_left _ _)⟩
  · rintro ⟨h1, h2, h3, h4⟩
    have m1 : max a.x0 b.x0 < min a.x1 b.x1 := max_lt (lt_min ha.1 h1) (lt_min h2 hb.1)
    have m2 : max a.y0 b.y0 < min a.y1 b.y1 := max_lt (lt_min ha.2 h3) (lt_min h4 hb.2)
    rw [if_neg (by push Not; exact ⟨le_of_lt m1, le_of_lt m2⟩)]
    unfold Rect.truthy
    rw [decide_eq_true_eq]
    intro hz
    have z1 := congrArg Rect.x0 hz
    have z2 := congrArg Rect.x1 hz
    simp only [Rect.zero] at z1 z2
    rw [z1, z2] at m1
    exact lt_irrefl _ m1

/-- The shape belongs to the layout itself: it is a border or shading of it, or no table found covers it. -/
def StaysOut (done : List Sh) (tables : List Rect) (s : Sh) : Prop := s ∈ done ∨ ∀ t ∈ tables, ¬ Covers t s.bbox

instance (done : List Sh) (tables : List Rect) (s : Sh) : Decidable (StaysOut done tables s) := by unfold StaysOut; infer_instance

/-- The shape is given to table `k`: the first one that covers it. -/
def GoesTo (done : List Sh) (tables : List Rect) (k : ℕ) (s : Sh) : Prop :=
  s ∉ done ∧ ∃ t, tables[k]? = some t ∧ Covers t s.bbox ∧ ∀ j < k, ∀ u, tables[j]? = some u → ¬ Covers u s.bbox

theorem fs_tableOf (ty : Types) (boxes : List Rect) (s : Sh) (hb : ∀ t ∈ boxes, Proper t) (hs : Proper s.bbox) :
    ((tableOf ty boxes s).isNone = true ↔ StaysOut ty.done boxes s) ∧
    ∀ k, tableOf ty boxes s = some k ↔ GoesTo ty.done boxes k s := by
  unfold tableOf StaysOut GoesTo
  by_cases hd : s ∈ ty.done
  · rw [if_pos hd]; simp [hd]
  · rw [if_neg hd]
    constructor
    · rw [Option.isNone_iff_eq_none, List.findIdx?_eq_none_iff]
      constructor
      · intro h
        exact Or.inr fun t ht hc => by rw [← contains_iff t _ (hb t ht) hs, h t ht] at hc; cases hc
      · rintro (h | h) t ht
        · exact absurd h hd
        · by_contra hc
          exact h t ht ((contains_iff t _ (hb t ht) hs).1 (by simpa using hc))
    · intro k
      rw [List.findIdx?_eq_some_iff_getElem]
      constructor
      · rintro ⟨hk, h1, h2⟩
        refine ⟨hd, boxes[k], by rw [List.getElem?_eq_getElem hk], (contains_iff _ _ (hb _ (List.getElem_mem hk)) hs).1 h1, ?_⟩
        intro j hj u hu hc
        obtain ⟨hj', rfl⟩ := List.getElem?_eq_some_iff.1 hu
        exact h2 j hj ((contains_iff _ _ (hb _ (List.getElem_mem hj')) hs).2 hc)
      · rintro ⟨_, t, ht, hc, h2⟩
        obtain ⟨hk, rfl⟩ := List.getElem?_eq_some_iff.1 ht
        refine ⟨hk, (contains_iff _ _ (hb _ (List.getElem_mem hk)) hs).2 hc, ?_⟩
        intro j hj hh
        exact h2 j hj boxes[j] (by rw [List.getElem?_eq_getElem]) ((contains_iff _ _ (hb _ (List.getElem_mem (lt_trans hj hk))) hs).1 hh)

/-- **C95**: when tables have been found, every shape drawn on the page (underline, highlight, link area …) is kept exactly where it belongs:
* it stays with the page if it is a border or shading of these tables or if no table covers it;
* otherwise it goes to the first table covering it, there to every cell it overlaps and to no cell it does not even touch, in the same order. -/
theorem C95_shapes_distributed (nid : ℕ → ℕ → ℕ → ℕ) (ty : Types) (ts : List Found) (sub : Sub) (bs : List (Full.Blk α))
    (r : List (Full.Blk α) × Sub) (hok : assignTables nid ty ts sub bs = .ok r) (ht : ∀ t ∈ ts, Proper t.box ∧ ∀ c ∈ t.cells, Proper c.box)
    (hs : ∀ s ∈ sub.shapes, Proper s.bbox) :
    r.2.shapes.Perm (sub.shapes.filter fun s => decide (StaysOut ty.done (ts.map Found.box) s)) ∧
    ∀ k (hk : k < ts.length), ∃ cells, Full.Blk.table ts[k].box ts[k].rows cells ∈ r.1 ∧ cells.map (fun c => c.1.info) = ts[k].cells ∧
      ∀ c ∈ cells, c.1.sub.shapes.Sublist sub.shapes ∧
        (∀ s ∈ c.1.sub.shapes, GoesTo ty.done (ts.map Found.box) k s ∧ Meets c.1.info.box s.bbox) ∧
        ∀ s ∈ sub.shapes, GoesTo ty.done (ts.map Found.box) k s →
          c.1.info.box.x0 < s.bbox.x1 ∧ s.bbox.x0 < c.1.info.box.x1 ∧ c.1.info.box.y0 < s.bbox.y1 ∧ s.bbox.y0 < c.1.info.box.y1 →
          s ∈ c.1.sub.shapes := by
  have hb : ∀ t ∈ ts.map Found.box, Proper t := by
    intro t h
    obtain ⟨f, hf, rfl⟩ := List.mem_map.1 h
    exact (ht f hf).1
  unfold assignTables at hok
  by_cases he : ts.isEmpty
  · rw [if_pos he] at hok
    have : ts = [] := by simpa using he
    subst this
    obtain rfl := Except.ok.inj hok
    refine ⟨?_, fun k hk => absurd hk (by simp)⟩
    dsimp only
    rw [List.filter_eq_self.2]
    intro s _
    simp [StaysOut]
  · rw [if_neg he] at hok
    split at hok
    · cases hok
    · rename_i rs _
      obtain rfl := Except.ok.inj hok
      refine ⟨?_, ?_⟩
      · dsimp only
        unfold leftShapes
        refine (sortBy_perm _ _).trans ?_
        rw [List.filter_congr (q := fun s => decide (StaysOut ty.done (ts.map Found.box) s))]
        intro s h
        rw [Bool.eq_iff_iff, (fs_tableOf ty _ s hb (hs s h)).1, decide_eq_true_eq]
      · intro k hk
        have htk := ht ts[k] (List.getElem_mem hk)
        refine ⟨_, (ft_sort_perm _).symm.subset (List.mem_filter.2 ⟨List.mem_append_right _ (List.mem_map.2
          ⟨(ts[k], k), List.mem_zipIdx_iff_getElem?.2 (by simp [List.getElem?_eq_getElem hk]), rfl⟩), ?_⟩), ?_, ?_⟩
        · exact truthy_of_proper htk.1
        · rw [List.map_map]
          exact List.zipIdx_map_fst _ _
        · intro c hc
          obtain ⟨x, hx, rfl⟩ := List.mem_map.1 hc
          have hxc : x.1 ∈ ts[k].cells := by
            have := List.mem_map_of_mem (f := Prod.fst) hx
            rwa [List.zipIdx_map_fst] at this
          have hcp := htk.2 x.1 hxc
          dsimp only
          obtain ⟨S, eS⟩ : ∃ S, S = sub.shapes.filter fun s => decide (tableOf ty (ts.map Found.box) s = some k) := ⟨_, rfl⟩
          rw [← eS]
          have hmem : ∀ s, s ∈ S ↔ s ∈ sub.shapes ∧ GoesTo ty.done (ts.map Found.box) k s := by
            intro s
            rw [eS, List.mem_filter, decide_eq_true_eq]
            constructor
            · rintro ⟨h1, h2⟩; exact ⟨h1, ((fs_tableOf ty _ s hb (hs s h1)).2 k).1 h2⟩
            · rintro ⟨h1, h2⟩; exact ⟨h1, ((fs_tableOf ty _ s hb (hs s h1)).2 k).2 h2⟩
          have hsub : ∀ bs' : List (Full.Blk α), (cellSub S x.1.box bs').shapes = S.filter fun s => (x.1.box.inter s.bbox).truthy && s.bbox.truthy := by
            intro bs'
            unfold cellSub
            split
            · rename_i h
              have : S = [] := by simpa using h
              rw [this]; rfl
            · rfl
          rw [hsub]
          refine ⟨?_, ?_, ?_⟩
          · exact List.filter_sublist.trans (by rw [eS]; exact List.filter_sublist)
          · intro s h
            obtain ⟨h1, h2⟩ := List.mem_filter.1 h
            obtain ⟨h3, h4⟩ := (hmem s).1 h1
            exact ⟨h4, (fs_inter hcp (hs s h3)).1 (Bool.and_eq_true_iff.1 h2).1⟩
          · intro s h1 h2 h3
            refine List.mem_filter.2 ⟨(hmem s).2 ⟨h1, h2⟩, Bool.and_eq_true_iff.2 ⟨(fs_inter hcp (hs s h1)).2 h3, truthy_of_proper (hs s h1)⟩⟩

/-- A page with a table of two cells, text in both, a link inside the left cell, an underline across both cells, a link below the table. -/
def fsTable : Found := ⟨⟨0, 0, 200, 50⟩, [[true, true]], [⟨⟨0, 0, 100, 50⟩, 1, 1, 1, 1, none⟩, ⟨⟨100, 0, 200, 50⟩, 1, 1, 1, 1, none⟩]⟩

def fsShapes : List Sh := [.link ⟨10, 10, 40, 20⟩, .fill ⟨80, 30, 120, 40⟩ 255, .link ⟨10, 60, 40, 70⟩]

def fsBlocks : List (Full.Blk ℕ) :=
  [.text ⟨10, 10, 90, 20⟩ [⟨⟨10, 10, 90, 20⟩, .leftRight, some 1, [(⟨10, 10, 90, 20⟩, .text ⟨10, 10, 90, 20⟩ [(⟨10, 10, 90, 20⟩, 1)])]⟩]]

/-- What the page and the cells keep. -/
def fsSeen (r : Except Err (List (Full.Blk ℕ) × Sub)) : Option (List Sh × List (List (List Sh × List ℕ))) :=
  r.toOption.map fun r => (r.2.shapes, r.1.map fun b => match b with
    | .text _ _ => []
    | .table _ _ cs => cs.map fun c => (c.1.sub.shapes, Lay.items (c.2.map Blk.erase)))

/-- Non-vacuity: the page above. The hypotheses hold; the link stays below, the other shapes are in the cells. -/
example : (∀ t ∈ [fsTable], Proper t.box ∧ ∀ c ∈ t.cells, Proper c.box) ∧ (∀ s ∈ fsShapes, Proper s.bbox) ∧
    fsSeen (assignTables (fun _ _ _ => 0) ⟨[], []⟩ [fsTable] ⟨fsShapes, [], []⟩ fsBlocks) =
      some ([.link ⟨10, 60, 40, 70⟩], [[([.link ⟨10, 10, 40, 20⟩, .fill ⟨80, 30, 120, 40⟩ 255], [1]), ([.fill ⟨80, 30, 120, 40⟩ 255], [])]]) := by
  refine ⟨by decide +kernel, by decide +kernel, by decide +kernel⟩

/-- **C95 is false** for a link area (or highlight, underline) that sticks out of the table by a tenth of a point: it stays with the page, while the text it lies over
goes to the cell – the page keeps the link area, but no text, and the cell keeps the text, but no link area. -/
theorem C95_refuted_sticks_out :
    ∃ (t : Found) (link : Sh) (b : Full.Blk ℕ), Covers t.box b.bbox ∧ (t.box.intersects link.bbox = true) ∧ Covers link.bbox b.bbox ∧
      fsSeen (assignTables (fun _ _ _ => 0) ⟨[], []⟩ [t] ⟨[link], [], []⟩ [b]) = some ([link], [[([], [1]), ([], [])]]) := by
  refine ⟨fsTable, .link ⟨-1 / 10, 10, 90, 20⟩, fsBlocks[0], by decide +kernel, by decide +kernel, by decide +kernel, by decide +kernel⟩

end Props
