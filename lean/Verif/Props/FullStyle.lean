import Verif.Props.FullColumn
import Verif.Props.FullLattice
import Verif.Props.FullPage
import Verif.Props.TightTable
import Verif.Spec.CellStyle
/-! # C104: the style of table cells comes from drawings -/

namespace Props
open Geom Py Full Spec

variable {α : Type}

theorem cs_in (P : Full.Cell → Prop) (bs : List (Full.Blk α)) : EachCellIn P bs ↔ ∀ b ∈ bs, EachCell P b := by
  induction bs with
  | nil => simp [EachCellIn]
  | cons b bs ih => rw [EachCellIn, ih]; simp

theorem cs_of (P : Full.Cell → Prop) (cs : List (Full.Cell × List (Full.Blk α))) : EachCellOf P cs ↔ ∀ c ∈ cs, P c.1 ∧ ∀ b ∈ c.2, EachCell P b := by
  induction cs with
  | nil => simp [EachCellOf]
  | cons c cs ih => obtain ⟨c, bs⟩ := c; rw [EachCellOf, ih, cs_in]; simp [and_assoc]

theorem cs_table (P : Full.Cell → Prop) (r : Rect) (g : List (List Bool)) (cs : List (Full.Cell × List (Full.Blk α))) : EachCell P (.table r g cs) ↔ ∀ c ∈ cs, P c.1 ∧ ∀ b ∈ c.2, EachCell P b := by
  rw [EachCell, cs_of]

theorem cs_text (P : Full.Cell → Prop) (r : Rect) (ls : List (Lay.Ln α)) : EachCell P (.text r ls : Full.Blk α) := by
  rw [EachCell]; trivial

/-! ## Strokes of a table structure -/

/-- Strokes of a direction, or lines without width. -/
def FromSet (S : Table.St → Prop) (d : Table.Dict Table.St) : Prop := ∀ e ∈ d, ∀ s ∈ e.2, S s ∨ s.width = 0

theorem cs_dset (S : Table.St → Prop) (d : Table.Dict Table.St) (k : ℚ) (v : List Table.St) (hd : FromSet S d) (hv : ∀ s ∈ v, S s ∨ s.width = 0) : FromSet S (Table.dset d k v) := by
  unfold Table.dset
  split_ifs
  · intro e he s hs
    obtain ⟨e', he', rfl⟩ := List.mem_map.1 he
    split_ifs at hs
    · exact hv s hs
    · exact hd e' he' s hs
  · intro e he s hs
    rcases List.mem_append.1 he with he | he
    · exact hd e he s hs
    · rw [List.mem_singleton] at he
      subst he
      exact hv s hs

theorem cs_addStroke (S : Table.St → Prop) (c : ℚ) (d : Table.Dict Table.St) (y : ℚ) (a : Table.St) (hd : FromSet S d) (ha : S a) : FromSet S (Table.addStroke c d y a) := by
  unfold Table.addStroke
  split
  · rename_i k g hf
    refine cs_dset S _ _ _ (fun e he => hd e (List.mem_filter.1 he).1) ?_
    intro s hs
    rcases List.mem_append.1 hs with hs | hs
    · exact hd _ (List.mem_of_find?_eq_some hf) s hs
    · rw [List.mem_singleton] at hs
      subst hs
      exact Or.inl ha
  · refine cs_dset S _ _ _ hd ?_
    intro s hs
    rw [List.mem_singleton] at hs
    subst hs
    exact Or.inl ha

theorem cs_groupBy (S : Table.St → Prop) (c : ℚ) (l : List (ℚ × Table.St)) (hl : ∀ p ∈ l, S p.2) : FromSet S (Table.groupBy c l) := by
  unfold Table.groupBy
  induction l using List.reverseRecOn with
  | nil => intro e he; cases he
  | append_singleton l p ih =>
    rw [List.foldl_append]
    exact cs_addStroke S c _ _ _ (ih fun q hq => hl q (by simp [hq])) (hl p (by simp))

theorem cs_missing (s : Table.Side) (target stop : ℚ) (occ : List (ℚ × ℚ)) (start : ℚ) : ∀ x ∈ Table.missing s target start stop occ, x.width = 0 := by
  have fl : ∀ t a b, (Table.frameLine s t a b).width = 0 := by intro t a b; cases s <;> rfl
  induction occ generalizing start with
  | nil =>
    intro x hx
    unfold Table.missing at hx
    split_ifs at hx
    · rw [List.mem_singleton] at hx; subst hx; exact fl _ _ _
    · cases hx
  | cons o occ ih =>
    obtain ⟨l, r⟩ := o
    intro x hx
    unfold Table.missing at hx
    rcases List.mem_append.1 hx with hx | hx
    · split_ifs at hx
      · rw [List.mem_singleton] at hx; subst hx; exact fl _ _ _
      · cases hx
    · exact ih _ x hx

theorem cs_sortSide (s : Table.Side) (l : List Table.St) : ∀ x, x ∈ Table.sortSide s l ↔ x ∈ l := by
  intro x
  cases s <;> exact (sortBy_perm _ _).mem_iff

theorem cs_checkOuter (S : Table.St → Prop) (table : Rect) (s : Table.Side) (w : ℚ) (d : Table.Dict Table.St) (hd : FromSet S d) : FromSet S (Table.checkOuter table s w d) := by
  unfold Table.checkOuter
  dsimp only
  have h1 : ∀ cur : ℚ, FromSet S (d.map fun e => if e.1 = cur then (e.1, Table.sortSide s e.2) else e) := by
    intro cur e he x hx
    obtain ⟨e', he', rfl⟩ := List.mem_map.1 he
    split_ifs at hx
    · exact hd e' he' x ((cs_sortSide s _ x).1 hx)
    · exact hd e' he' x hx
  have fl : ∀ t a b, (Table.frameLine s t a b).width = 0 := by intro t a b; cases s <;> rfl
  split_ifs
  · refine cs_dset S _ _ _ (h1 _) ?_
    intro x hx
    rw [List.mem_singleton] at hx
    subst hx
    exact Or.inr (fl _ _ _)
  · intro e he x hx
    obtain ⟨e', he', rfl⟩ := List.mem_map.1 he
    split_ifs at hx
    · have hx := (cs_sortSide s _ x).1 hx
      rcases List.mem_append.1 hx with hx | hx
      · exact h1 _ e' he' x hx
      · exact Or.inr (cs_missing s _ _ _ _ x hx)
    · exact h1 _ e' he' x hx

theorem cs_groupStrokes (c w : ℚ) (strokes : List Table.St) (H V : Table.Dict Table.St) (h : Table.groupStrokes c w strokes = some (H, V)) :
    FromSet (fun s => s ∈ strokes ∧ s.horizontal = true) H ∧ FromSet (fun s => s ∈ strokes ∧ s.horizontal = false) V := by
  unfold Table.groupStrokes at h
  dsimp only at h
  split_ifs at h
  obtain ⟨rfl, rfl⟩ := Prod.mk.inj (Option.some.inj h)
  unfold Table.groupHV
  dsimp only
  constructor
  · refine cs_checkOuter _ _ _ _ _ (cs_checkOuter _ _ _ _ _ (cs_groupBy _ _ _ ?_))
    intro p hp
    obtain ⟨s, hs, rfl⟩ := List.mem_map.1 hp
    exact List.mem_filter.1 hs
  · refine cs_checkOuter _ _ _ _ _ (cs_checkOuter _ _ _ _ _ (cs_groupBy _ _ _ ?_))
    intro p hp
    obtain ⟨s, hs, rfl⟩ := List.mem_map.1 hp
    obtain ⟨h1, h2⟩ := List.mem_filter.1 hs
    rw [Bool.and_eq_true_iff] at h2
    exact ⟨h1, by simpa using h2.1⟩

theorem cs_loop {β : Type} (x0 x1 : ℚ) (l : List ((ℚ × ℚ) × β)) (s : β) (h : s ∈ (Table.borderLoop x0 x1 l).2) :
    ∃ e, (e, s) ∈ l ∧ 5 ≤ min x1 e.2 - max x0 e.1 := by
  induction l with
  | nil => cases h
  | cons p l ih =>
    obtain ⟨⟨t0, t1⟩, a⟩ := p
    unfold Table.borderLoop at h
    split_ifs at h with h1 h2 h3
    · obtain ⟨e, h4, h5⟩ := ih h; exact ⟨e, List.mem_cons_of_mem _ h4, h5⟩
    · cases h
    · obtain ⟨e, h4, h5⟩ := ih h; exact ⟨e, List.mem_cons_of_mem _ h4, h5⟩
    · rcases List.mem_cons.1 h with rfl | h
      · exact ⟨(t0, t1), List.mem_cons_self, le_of_not_gt h3⟩
      · obtain ⟨e, h4, h5⟩ := ih h; exact ⟨e, List.mem_cons_of_mem _ h4, h5⟩

/-- The stroke of a side runs along at least 5pt of it. -/
theorem cs_borderStroke (vertical : Bool) (x0 x1 : ℚ) (l : List Table.St) (s : Table.St) (h : Table.borderStroke vertical x0 x1 l = some s) :
    s ∈ l ∧ (if vertical then 5 ≤ min x1 s.y1 - max x0 s.y0 else 5 ≤ min x1 s.x1 - max x0 s.x0) := by
  unfold Table.borderStroke at h
  dsimp only at h
  cases vertical <;>
  · simp only [if_true, Bool.false_eq_true, if_false] at h ⊢
    split_ifs at h
    split at h
    · cases h
    · rename_i s' l' e
      split_ifs at h
      obtain rfl := Option.some.inj h
      obtain ⟨e', h1, h2⟩ := cs_loop x0 x1 _ s' (by rw [e]; exact List.mem_cons_self)
      obtain ⟨t, ht, hte⟩ := List.mem_map.1 h1
      obtain ⟨rfl, rfl⟩ := Prod.mk.inj hte
      exact ⟨ht, h2⟩

theorem cs_strokesAt (S : Table.St → Prop) (d : Table.Dict Table.St) (hd : FromSet S d) (k : ℚ) : ∀ s ∈ Full.strokesAt d k, S s ∨ s.width = 0 := by
  intro s hs
  unfold Full.strokesAt at hs
  cases hf : d.find? (fun e => decide (e.1 = k)) with
  | none => rw [hf] at hs; cases hs
  | some e =>
    rw [hf] at hs
    exact hd e (List.mem_of_find?_eq_some hf) s hs

/-- Width 0, or the width of a stroke running along the side. -/
theorem cs_width (S : Table.St → Prop) (d : Table.Dict Table.St) (hd : FromSet S d) (vertical : Bool) (x0 x1 k : ℚ) :
    widthOf vertical x0 x1 (Full.strokesAt d k) = 0 ∨
      ∃ s, S s ∧ s.width = widthOf vertical x0 x1 (Full.strokesAt d k) ∧ (if vertical then 5 ≤ min x1 s.y1 - max x0 s.y0 else 5 ≤ min x1 s.x1 - max x0 s.x0) := by
  unfold widthOf
  cases h : Table.borderStroke vertical x0 x1 (Full.strokesAt d k) with
  | none => exact Or.inl rfl
  | some s =>
    obtain ⟨h1, h2⟩ := cs_borderStroke _ _ _ _ _ h
    rcases cs_strokesAt S d hd k s h1 with h3 | h3
    · exact Or.inr ⟨s, h3, rfl, h2⟩
    · exact Or.inl h3

/-- Strokes of a table are, up to width and direction, among the shapes; as far as they reach 5pt in their direction. -/
def StrokesDrawn (shapes : List Sh) (strokes : List Table.St) : Prop :=
  (∀ s ∈ strokes, s.horizontal = true → 5 ≤ s.x1 - s.x0 → DrawnWidth shapes true s.width) ∧
  ∀ s ∈ strokes, s.horizontal = false → 5 ≤ s.y1 - s.y0 → DrawnWidth shapes false s.width

theorem cs_style (shapes : List Sh) (strokes : List Table.St) (fills : List (Rect × ℕ)) (H V : Table.Dict Table.St) (c w : ℚ)
    (h : Table.groupStrokes c w strokes = some (H, V)) (hs : StrokesDrawn shapes strokes) (hf : ∀ f ∈ fills, Sh.fill f.1 f.2 ∈ shapes) (r : Rect) :
    StyleDrawn shapes (cellStyle H V fills r).1 := by
  obtain ⟨hH, hV⟩ := cs_groupStrokes c w strokes H V h
  have hw : ∀ k, DrawnWidth shapes true (widthOf false r.x0 r.x1 (Full.strokesAt H k)) := by
    intro k
    rcases cs_width _ H hH false r.x0 r.x1 k with h | ⟨s, ⟨h1, h2⟩, h3, h4⟩
    · exact Or.inl h
    · rw [← h3]
      refine hs.1 s h1 h2 ?_
      rw [if_neg (by simp)] at h4
      linarith [min_le_right r.x1 s.x1, le_max_right r.x0 s.x0]
  have hv : ∀ k, DrawnWidth shapes false (widthOf true r.y0 r.y1 (Full.strokesAt V k)) := by
    intro k
    rcases cs_width _ V hV true r.y0 r.y1 k with h | ⟨s, ⟨h1, h2⟩, h3, h4⟩
    · exact Or.inl h
    · rw [← h3]
      refine hs.2 s h1 h2 ?_
      rw [if_pos rfl] at h4
      linarith [min_le_right r.y1 s.y1, le_max_right r.y0 s.y0]
  refine ⟨hw _, hw _, hv _, hv _, ?_⟩
  intro k hk
  unfold cellStyle at hk
  dsimp only at hk
  obtain ⟨f, hf1, rfl⟩ := Option.map_eq_some_iff.1 hk
  have hmem := List.mem_of_find?_eq_some hf1
  have hp := List.find?_some hf1
  obtain ⟨g, hg⟩ := Option.isSome_iff_exists.1 hp
  obtain ⟨h1, inner, h2, h3, h4⟩ := C62_shading _ _ _ _ _ _ _ hg
  rw [List.mem_singleton] at h1
  subst h1
  refine ⟨f.1, hf f hmem, inner, ?_, h3, h4⟩
  subst h2
  unfold cellStyle insideOf CloseBox Rect.round
  dsimp only
  have R := abs_round1_sub
  refine ⟨?_, ?_, ?_, ?_⟩ <;> rw [abs_le]
  · have a := abs_le.1 (R (r.x0 + widthOf true r.y0 r.y1 (Full.strokesAt V r.x0) / 2)); have b := abs_le.1 (R r.x0)
    constructor <;> linarith [a.1, a.2, b.1, b.2]
  · have a := abs_le.1 (R (r.y0 + widthOf false r.x0 r.x1 (Full.strokesAt H r.y0) / 2)); have b := abs_le.1 (R r.y0)
    constructor <;> linarith [a.1, a.2, b.1, b.2]
  · have a := abs_le.1 (R (r.x1 - widthOf true r.y0 r.y1 (Full.strokesAt V r.x1) / 2)); have b := abs_le.1 (R r.x1)
    constructor <;> linarith [a.1, a.2, b.1, b.2]
  · have a := abs_le.1 (R (r.y1 - widthOf false r.x0 r.x1 (Full.strokesAt H r.y1) / 2)); have b := abs_le.1 (R r.y1)
    constructor <;> linarith [a.1, a.2, b.1, b.2]

theorem cs_structure (shapes : List Sh) (strokes : List Table.St) (fills : List (Rect × ℕ)) (c w : ℚ) (t : Rows × List Table.St × List (Rect × ℕ))
    (h : structure_ c w strokes fills = .ok t) (hs : StrokesDrawn shapes strokes) (hf : ∀ f ∈ fills, Sh.fill f.1 f.2 ∈ shapes) :
    ∀ ci ∈ (found t.1).cells, StyleDrawn shapes ci := by
  unfold structure_ at h
  split at h
  · obtain rfl := Except.ok.inj h
    intro ci hc; cases hc
  · rename_i H V hg
    split_ifs at h
    · obtain rfl := Except.ok.inj h
      intro ci hc; cases hc
    · obtain rfl := Except.ok.inj h
      intro ci hc
      unfold found at hc
      dsimp only at hc
      have hc := (List.mem_filter.1 hc).1
      obtain ⟨o, ho, hoc⟩ := List.mem_filterMap.1 hc
      rw [id] at hoc
      subst hoc
      obtain ⟨row, hrow, hin⟩ := List.mem_flatten.1 ho
      have hrow := (List.mem_filter.1 hrow).1
      obtain ⟨row', hrow', rfl⟩ := List.mem_map.1 hrow
      obtain ⟨o', ho', e⟩ := List.mem_map.1 hin
      obtain ⟨x, rfl, hx⟩ := Option.map_eq_some_iff.1 e
      unfold styles at hrow'
      obtain ⟨i, _, rfl⟩ := List.mem_map.1 hrow'
      obtain ⟨j, _, e2⟩ := List.mem_map.1 ho'
      obtain ⟨r, _, rfl⟩ := Option.map_eq_some_iff.1 e2
      rw [← hx]
      exact cs_style shapes strokes fills H V c w hg hs hf r

/-! ## The three stages -/

/-- The shapes of a layout are shapes of the page. -/
structure SubDrawn (all : List Sh) (sub : Sub) : Prop where
  shapes : ∀ s ∈ sub.shapes, s ∈ all
  strokes : ∀ s ∈ sub.strokes, Sh.stroke s ∈ all
  fills : ∀ f ∈ sub.fills, Sh.fill f.1 f.2 ∈ all

theorem cs_strokes_drawn (shapes : List Sh) (g : List Table.St) (h : ∀ s ∈ g, Sh.stroke s ∈ shapes) : StrokesDrawn shapes g := by
  constructor
  · intro s hs hh _
    exact Or.inr ⟨s, h s hs, rfl, by rw [if_pos rfl]; exact of_decide_eq_true hh⟩
  · intro s hs hh _
    exact Or.inr ⟨s, h s hs, rfl, by rw [if_neg (by simp)]; exact of_decide_eq_false hh⟩

theorem cs_lattice_loop (shapes : List Sh) (c : Full.Cfg) (fills : List (Rect × ℕ)) (hf : ∀ f ∈ fills, Sh.fill f.1 f.2 ∈ shapes) (gs : List (List Table.St))
    (hg : ∀ g ∈ gs, ∀ s ∈ g, Sh.stroke s ∈ shapes) (ty : Types) (t : List Found × Types) (h : latticeLoop c fills ty gs = .ok t) :
    ∀ f ∈ t.1, ∀ ci ∈ f.cells, StyleDrawn shapes ci := by
  induction gs generalizing ty t with
  | nil =>
    unfold latticeLoop at h
    obtain rfl := Except.ok.inj h
    intro f hf; cases hf
  | cons g gs ih =>
    unfold latticeLoop at h
    split at h
    · cases h
    · rename_i u hu
      split_ifs at h
      · split at h
        · cases h
        · rename_i r hr
          obtain rfl := Except.ok.inj h
          intro f hf' ci hci
          rcases List.mem_cons.1 hf' with rfl | hf'
          · exact cs_structure shapes g _ _ _ u hu (cs_strokes_drawn shapes g (hg g (by simp))) (fun f hf' => hf f (List.mem_filter.1 hf').1) ci hci
          · exact ih (fun g hg' => hg g (by simp [hg'])) _ _ hr f hf' ci hci
      · exact ih (fun g hg' => hg g (by simp [hg'])) _ _ h

theorem cs_groups_mem {β : Type} (iter : List ℕ → List ℕ) (hi : ∀ l, (iter l).Perm l) (f : β → β → Bool) (xs : List β) : ∀ g ∈ Stream.groups iter f xs, ∀ x ∈ g, x ∈ xs := by
  intro g hg x hx
  obtain ⟨h1, _⟩ := groups_spec iter hi f xs
  exact h1.subset (List.mem_flatten.2 ⟨g, hg, hx⟩)

theorem cs_remove_mem {β : Type} (iter : List ℕ → List ℕ) (hi : ∀ l, (iter l).Perm l) (box : β → Rect) (l : List β) : ∀ g ∈ Lattice.removeOverlap iter box l, g ∈ l := by
  intro g hg
  unfold Lattice.removeOverlap at hg
  obtain ⟨u, hu, h⟩ := List.mem_filterMap.1 hg
  unfold Lattice.largest at h
  have : g ∈ sortBy (fun x => (box x).area) u := List.mem_of_getLast? h
  exact cs_groups_mem iter hi _ l u hu g ((sortBy_perm _ _).subset this)

theorem cs_strokeGroups_mem (iter : List ℕ → List ℕ) (d : ℚ) (strokes : List Table.St) : ∀ g ∈ Lattice.strokeGroups iter d strokes, ∀ s ∈ g, s ∈ strokes := by
  intro g hg s hs
  unfold Lattice.strokeGroups at hg
  split at hg
  · obtain ⟨u, _, rfl⟩ := List.mem_map.1 hg
    obtain ⟨i, _, h⟩ := List.mem_filterMap.1 hs
    exact List.mem_of_getElem? h
  · cases hg

theorem cs_lattice (shapes : List Sh) (c : Full.Cfg) (hi : ∀ l, (c.base.lay.iter l).Perm l) (ty : Types) (sub : Sub) (hs : SubDrawn shapes sub) (t : List Found × Types)
    (h : latticeStage c ty sub = .ok t) : ∀ f ∈ t.1, ∀ ci ∈ f.cells, StyleDrawn shapes ci := by
  unfold latticeStage at h
  split_ifs at h
  · obtain rfl := Except.ok.inj h
    intro f hf; cases hf
  · refine cs_lattice_loop shapes c sub.fills hs.fills _ ?_ ty t h
    intro g hg s hsg
    exact hs.strokes s (cs_strokeGroups_mem _ _ _ g (cs_remove_mem _ hi _ _ g hg) s hsg)

theorem cs_page (shapes : List Sh) (box : Rect) (sub : Sub) (bs : List (Full.Blk α)) (t : List Found) (h : pageStage box sub bs = .ok t) :
    ∀ f ∈ t, ∀ ci ∈ f.cells, StyleDrawn shapes ci := by
  unfold pageStage at h
  split at h
  · cases h
  · rename_i g hg
    obtain rfl := Except.ok.inj h
    intro f hf ci hci
    have hf := (List.mem_filter.1 hf).1
    rw [List.mem_singleton] at hf
    subst hf
    unfold found at hci
    have hc := (List.mem_filter.1 hci).1
    obtain ⟨o, ho, hoc⟩ := List.mem_filterMap.1 hc
    rw [id] at hoc
    subst hoc
    obtain ⟨row, hrow, hin⟩ := List.mem_flatten.1 ho
    obtain ⟨row', _, rfl⟩ := List.mem_map.1 hrow
    obtain ⟨o', _, e⟩ := List.mem_map.1 hin
    obtain ⟨x, rfl, rfl⟩ := Option.map_eq_some_iff.1 e
    exact ⟨Or.inl rfl, Or.inl rfl, Or.inl rfl, Or.inl rfl, fun k hk => by cases hk⟩

/-! ## Borders of stream tables -/

/-- A border without width, or with the width of a line of the same direction. -/
def WidthFrom (ls : List Border.Line) (b : Border.Bd) : Prop := b.width = 0 ∨ ∃ s ∈ ls, s.horizontal = b.horizontal ∧ s.width = b.width

def WidthsFrom (ls : List Border.Line) (st : Border.State) : Prop := ∀ b ∈ st, WidthFrom ls b

theorem cs_modify (ls : List Border.Line) (st : Border.State) (i : ℕ) (f : Border.Bd → Border.Bd) (h : WidthsFrom ls st) (hf : ∀ b, st[i]? = some b → WidthFrom ls b → WidthFrom ls (f b)) :
    WidthsFrom ls (st.modify i f) := by
  intro b hb
  obtain ⟨n, hn, rfl⟩ := List.getElem_of_mem hb
  rw [List.getElem_modify]
  have hn' : n < st.length := by rwa [List.length_modify] at hn
  split_ifs with h1
  · subst h1
    exact hf _ (by rw [List.getElem?_eq_getElem hn']) (h _ (List.getElem_mem hn'))
  · exact h _ (List.getElem_mem hn')

theorem cs_finalize (ls : List Border.Line) (b : Border.Bd) (v : ℚ) (h : WidthFrom ls b) : WidthFrom ls (b.finalize v) := by
  unfold Border.Bd.finalize
  split_ifs
  · exact h
  · exact h

theorem cs_byValue (ls : List Border.Line) (st : Border.State) (i : ℕ) (v : ℚ) (h : WidthsFrom ls st) : WidthsFrom ls (Border.byValue st i v) :=
  cs_modify ls st i _ h fun b _ hb => cs_finalize ls b v hb

theorem cs_byStroke (ls : List Border.Line) (st : Border.State) (i : ℕ) (s : Border.Line) (h : WidthsFrom ls st) (hs : s.width = 0 ∨ s ∈ ls)
    (hd : s.horizontal = (st.getD i Border.dummy).horizontal) : WidthsFrom ls (Border.byStroke st i s) := by
  unfold Border.byStroke
  dsimp only
  split_ifs
  · exact h
  · exact h
  · exact cs_byValue _ _ _ _ (cs_byValue _ _ _ _ h)
  · refine cs_byValue _ _ _ _ (cs_byValue _ _ _ _ (cs_modify ls st i _ h ?_))
    intro b hb _
    have e : (b.finalize s.value).horizontal = b.horizontal := by unfold Border.Bd.finalize; split_ifs <;> rfl
    rcases hs with hs | hs
    · exact Or.inl hs
    · refine Or.inr ⟨s, hs, ?_, rfl⟩
      rw [hd, List.getD_eq_getElem?_getD, hb]
      exact e.symm

theorem cs_foldl {β : Type} (P : Border.State → Prop) (f : Border.State → β → Border.State) (l : List β) (hf : ∀ st, ∀ a ∈ l, P st → P (f st a)) (st : Border.State) (h : P st) :
    P (l.foldl f st) := by
  induction l generalizing st with
  | nil => exact h
  | cons a l ih => exact ih (fun st b hb => hf st b (by simp [hb])) _ (hf st a (by simp) h)

theorem cs_byStrokes (ls l : List Border.Line) (hl : ∀ s ∈ l, s.width = 0 ∨ s ∈ ls) (st : Border.State) (h : WidthsFrom ls st) : WidthsFrom ls (Border.byStrokes st l) := by
  unfold Border.byStrokes
  refine cs_foldl (WidthsFrom ls) _ l ?_ st h
  intro st s hs h
  split_ifs
  · exact h
  · refine cs_foldl (WidthsFrom ls) _ _ ?_ st h
    intro st i _ h
    split_ifs with hd
    · exact h
    · exact cs_byStroke ls st i s h (hl s hs) (not_not.1 hd)

theorem cs_layoutLoop (ls : List Border.Line) (idx : List ℕ) (l : List (ℚ × List Bool)) (cur : List Bool) (st : Border.State) (h : WidthsFrom ls st) :
    WidthsFrom ls (Border.layoutLoop idx cur l st) := by
  induction l generalizing cur st with
  | nil => unfold Border.layoutLoop; exact h
  | cons p l ih =>
    obtain ⟨x, s⟩ := p
    unfold Border.layoutLoop
    split_ifs
    · exact h
    · exact ih _ _ h
    · refine ih _ _ (cs_foldl (WidthsFrom ls) _ _ ?_ st h)
      intro st p _ h
      split_ifs
      · exact cs_byValue _ _ _ _ h
      · exact h

theorem cs_dummies (ls : List Border.Line) (order : List (ℚ × ℚ) → List (ℚ × ℚ)) (st : Border.State) (h : WidthsFrom ls st) : WidthsFrom ls (Border.addDummies order st) := by
  unfold Border.addDummies
  dsimp only
  intro b hb
  rcases List.mem_append.1 hb with hb | hb
  · exact h b hb
  · obtain ⟨p, _, hb⟩ := List.mem_flatMap.1 hb
    split_ifs at hb
    · cases hb
    · obtain ⟨q, _, hb⟩ := List.mem_filterMap.1 hb
      split_ifs at hb
      obtain rfl := Option.some.inj hb
      exact Or.inl rfl

theorem cs_finalized (ls : List Border.Line) (order : List (ℚ × ℚ) → List (ℚ × ℚ)) (fills : List Rect) (st : Border.State) (h : WidthsFrom ls st) :
    WidthsFrom ls (Border.finalize order ls fills st) := by
  unfold Border.finalize
  dsimp only
  unfold Border.byLayout
  refine cs_layoutLoop _ _ _ _ _ (cs_layoutLoop _ _ _ _ _ (cs_byStrokes ls _ ?_ _ (cs_byStrokes ls ls (fun s hs => Or.inr hs) _ (cs_dummies ls order st h))))
  intro s hs
  obtain ⟨r, _, hs⟩ := List.mem_flatMap.1 hs
  left
  unfold Border.sides at hs
  simp only [List.mem_cons, List.not_mem_nil, or_false] at hs
  rcases hs with rfl | rfl | rfl | rfl <;> rfl

/-- The borders before they are placed have no width. -/
def NoWidth (st : Border.State) : Prop := ∀ b ∈ st, b.width = 0

theorem cs_nw_append (st : Border.State) (b : Border.Bd) (h : NoWidth st) (hb : b.width = 0) : NoWidth (st ++ [b]) := by
  intro x hx
  rcases List.mem_append.1 hx with hx | hx
  · exact h x hx
  · rw [List.mem_singleton] at hx; subst hx; exact hb

theorem cs_nw_setReal (st : Border.State) (is : List ℕ) (h : NoWidth st) : NoWidth (Stream.setReal st is) := by
  unfold Stream.setReal
  refine cs_foldl NoWidth _ is ?_ st h
  intro st i _ h b hb
  obtain ⟨n, hn, rfl⟩ := List.getElem_of_mem hb
  rw [List.getElem_modify]
  have hn' : n < st.length := by rwa [List.length_modify] at hn
  split_ifs
  · exact h st[n] (List.getElem_mem hn')
  · exact h _ (List.getElem_mem hn')

def NwCall (call : Stream.Call) : Prop := ∀ ls T B L R st st', call ls T B L R st = some st' → NoWidth st → NoWidth st'

theorem cs_nw_rowLoop (call : Stream.Call) (hc : NwCall call) (ref : Bool) (B left right : ℕ) (rs : List (List El)) (top : ℕ) (st st' : Border.State)
    (h : Stream.rowLoop call ref B left right top rs st = some st') (hn : NoWidth st) : NoWidth st' := by
  induction rs generalizing top st with
  | nil =>
    simp only [Stream.rowLoop, Option.some.injEq] at h
    subst h
    exact hn
  | cons r rs ih =>
    cases rs with
    | nil =>
      simp only [Stream.rowLoop] at h
      exact hc _ _ _ _ _ _ _ h hn
    | cons q rest =>
      simp only [Stream.rowLoop, Option.bind_eq_some_iff] at h
      obtain ⟨s1, h1, h2⟩ := h
      exact ih _ s1 h2 (hc _ _ _ _ _ _ _ h1 (cs_nw_append _ _ hn rfl))

theorem cs_nw_colWork (iter : List ℕ → List ℕ) (call : Stream.Call) (hc : NwCall call) (ref : Bool) (T B left right : ℕ) (c : List El) (st st' : Border.State)
    (h : Stream.colWork iter call ref T B left right c st = some st') (hn : NoWidth st) : NoWidth st' := by
  unfold Stream.colWork at h
  split_ifs at h
  · obtain rfl := Option.some.inj h; exact hn
  · exact cs_nw_rowLoop call hc _ _ _ _ _ _ _ _ h hn

theorem cs_nw_colLoop (iter : List ℕ → List ℕ) (call : Stream.Call) (hc : NwCall call) (ref : Bool) (T B R : ℕ) (cs : List (List El)) (left : ℕ) (st st' : Border.State)
    (h : Stream.colLoop iter call ref T B R left cs st = some st') (hn : NoWidth st) : NoWidth st' := by
  induction cs generalizing left st with
  | nil =>
    simp only [Stream.colLoop, Option.some.injEq] at h
    subst h
    exact hn
  | cons c cs ih =>
    cases cs with
    | nil =>
      simp only [Stream.colLoop] at h
      exact cs_nw_colWork iter call hc _ _ _ _ _ _ _ _ h hn
    | cons d rest =>
      simp only [Stream.colLoop, Option.bind_eq_some_iff] at h
      obtain ⟨s1, h1, h2⟩ := h
      exact ih _ s1 h2 (cs_nw_colWork iter call hc _ _ _ _ _ _ _ _ h1 (cs_nw_append _ _ hn rfl))

theorem cs_nw_inner (iter : List ℕ → List ℕ) (n : ℕ) : NwCall (Stream.inner iter n) := by
  induction n with
  | zero => intro ls T B L R st st' h; cases h
  | succ n ih =>
    intro ls T B L R st st' h hn
    unfold Stream.inner at h
    dsimp only at h
    refine cs_nw_colLoop iter _ ih _ _ _ _ _ _ _ _ h ?_
    split_ifs
    · exact cs_nw_setReal _ _ hn
    · exact hn

theorem cs_nw_borders (iter : List ℕ → List ℕ) (n : ℕ) (page : Rect) (blocks : List Rect) (ls : List El) (st : Border.State)
    (h : Stream.borders iter n page blocks ls = some st) : NoWidth st := by
  refine cs_nw_inner iter n _ _ _ _ _ _ _ h ?_
  intro b hb
  unfold Stream.outer Stream.bd at hb
  simp only [List.mem_cons, List.not_mem_nil, or_false] at hb
  rcases hb with rfl | rfl | rfl | rfl <;> rfl

theorem cs_lineOf (ty : Types) (s : Table.St) : (lineOf ty s).horizontal = s.horizontal ∧ (lineOf ty s).width = s.width := by
  unfold lineOf
  cases h : s.horizontal
  · rw [if_neg (by simp)]; exact ⟨rfl, rfl⟩
  · rw [if_pos rfl]; exact ⟨rfl, rfl⟩

/-- The strokes made from placed borders. -/
theorem cs_new (shapes : List Sh) (ty : Types) (strokes : List Table.St) (hs : ∀ s ∈ strokes, Sh.stroke s ∈ shapes) (st : Border.State)
    (h : WidthsFrom (strokes.map (lineOf ty)) st) (l : List Table.St) (hl : ∀ s ∈ l, s ∈ st.filterMap fun b => (Border.toStroke st b).map strokeOf) : StrokesDrawn shapes l := by
  have key : ∀ s ∈ l, ∃ b ∈ st, s.width = b.width ∧ (b.horizontal = false → s.x0 = s.x1) ∧ (b.horizontal = true → s.y0 = s.y1) := by
    intro s hs
    obtain ⟨b, hb, e⟩ := List.mem_filterMap.1 (hl s hs)
    obtain ⟨x, hx, rfl⟩ := Option.map_eq_some_iff.1 e
    refine ⟨b, hb, ?_⟩
    unfold Border.toStroke at hx
    split_ifs at hx with h1 h2
    · obtain rfl := Option.some.inj hx
      exact ⟨rfl, (fun h => by rw [h2] at h; cases h), fun _ => rfl⟩
    · obtain rfl := Option.some.inj hx
      exact ⟨rfl, fun _ => rfl, fun h => absurd h h2⟩
  have wid : ∀ b ∈ st, DrawnWidth shapes b.horizontal b.width := by
    intro b hb
    rcases h b hb with h | ⟨x, hx, h1, h2⟩
    · exact Or.inl h
    · obtain ⟨s, hs', rfl⟩ := List.mem_map.1 hx
      rw [(cs_lineOf ty s).1] at h1
      rw [(cs_lineOf ty s).2] at h2
      refine Or.inr ⟨s, hs s hs', h2, ?_⟩
      rw [← h1]
      cases hh : s.horizontal
      · rw [if_neg (by simp)]; exact of_decide_eq_false hh
      · rw [if_pos rfl]; exact of_decide_eq_true hh
  constructor
  · intro s hs hh h5
    obtain ⟨b, hb, h1, h2, h3⟩ := key s hs
    have := wid b hb
    cases hbh : b.horizontal
    · have := h2 hbh; linarith
    · rw [hbh] at this; rw [h1]; exact this
  · intro s hs hh h5
    obtain ⟨b, hb, h1, h2, h3⟩ := key s hs
    have := wid b hb
    cases hbh : b.horizontal
    · rw [hbh] at this; rw [h1]; exact this
    · have := h3 hbh; linarith

theorem cs_streamTable (shapes : List Sh) (c : Full.Cfg) (ty : Types) (box : Rect) (sub : Sub) (hs : SubDrawn shapes sub) (boxes : List Rect) (ls : List El) (t : List Found × Types)
    (h : streamTable c ty box sub boxes ls = .ok t) : ∀ f ∈ t.1, ∀ ci ∈ f.cells, StyleDrawn shapes ci := by
  unfold streamTable at h
  split at h
  · obtain rfl := Except.ok.inj h
    intro f hf; cases hf
  · rename_i st hst
    dsimp only at h
    split at h
    · cases h
    · rename_i u hu
      obtain rfl := Except.ok.inj h
      intro f hf ci hci
      dsimp only at hf
      split_ifs at hf
      · have hf := (List.mem_filter.1 hf).1
        rw [List.mem_singleton] at hf
        subst hf
        refine cs_structure shapes _ _ _ _ u hu ?_ hs.fills ci hci
        refine cs_new shapes ty (sub.strokes.filter fun s => (Stream.outerBox box boxes ls).round.contains s.bbox) (fun s hs' => hs.strokes s (List.mem_filter.1 hs').1) _
          (cs_finalized _ c.base.order ((sub.fills.filter fun f => !(ty.determined (.fill f.1 f.2) || decide (f.2 = white))).map Prod.fst) st ?_) _ ?_
        · exact fun b hb => Or.inl (cs_nw_borders _ _ _ _ _ st hst b hb)
        · intro s hs'
          exact (List.mem_filter.1 ((sortBy_perm _ _).subset hs')).1
      · cases hf

theorem cs_stream (shapes : List Sh) (c : Full.Cfg) (box : Rect) (sub : Sub) (hs : SubDrawn shapes sub) (boxes : List Rect) (gs : List (List El)) (ty : Types) (t : List Found × Types)
    (h : streamLoop c box sub boxes ty gs = .ok t) : ∀ f ∈ t.1, ∀ ci ∈ f.cells, StyleDrawn shapes ci := by
  induction gs generalizing ty t with
  | nil =>
    unfold streamLoop at h
    obtain rfl := Except.ok.inj h
    intro f hf; cases hf
  | cons g gs ih =>
    unfold streamLoop at h
    split at h
    · cases h
    · rename_i u hu
      split at h
      · cases h
      · rename_i r hr
        obtain rfl := Except.ok.inj h
        intro f hf
        rcases List.mem_append.1 hf with hf | hf
        · exact cs_streamTable shapes c ty box sub hs boxes g u hu f hf
        · exact ih _ _ hr f hf

theorem cs_stage (shapes : List Sh) (c : Full.Cfg) (hi : ∀ l, (c.base.lay.iter l).Perm l) (s : ℕ) (ty : Types) (box : Rect) (sub : Sub) (hs : SubDrawn shapes sub)
    (bs : List (Full.Blk α)) (t : List Found × Types) (h : stage c s ty box sub bs = .ok t) : ∀ f ∈ t.1, ∀ ci ∈ f.cells, StyleDrawn shapes ci := by
  unfold stage at h
  split at h
  · cases hp : pageStage box sub bs with
    | error e => rw [hp] at h; cases h
    | ok u =>
      rw [hp] at h
      obtain rfl := Except.ok.inj h
      exact cs_page shapes box sub bs u hp
  · exact cs_lattice shapes c hi ty sub hs t h
  · exact cs_stream shapes c box sub hs _ _ ty t h

/-! ## Distribution and recursion -/

theorem cs_mkSub (shapes : List Sh) (bs : List (Full.Blk α)) (l : List Sh) (h : ∀ s ∈ l, s ∈ shapes) : SubDrawn shapes (mkSub bs l) := by
  refine ⟨h, ?_, ?_⟩
  · intro s hs
    obtain ⟨x, hx, e⟩ := List.mem_filterMap.1 hs
    unfold borderOf at e
    split at e
    · split_ifs at e
      obtain rfl := Option.some.inj e
      exact h _ hx
    · cases e
  · intro f hf
    obtain ⟨x, hx, e⟩ := List.mem_filterMap.1 hf
    unfold shadingOf at e
    split at e
    · split_ifs at e
      obtain rfl := Option.some.inj e
      exact h _ hx
    · cases e

/-- A cell with drawn style and shapes of the page. -/
def CellDrawn (shapes : List Sh) (c : Full.Cell) : Prop := StyleDrawn shapes c.info ∧ SubDrawn shapes c.sub

theorem cs_assignCell (P : Full.Cell → Prop) (id : ℕ) (cell : Rect) (b : Full.Blk α) (h : EachCell P b) : ∀ x ∈ assignCell id cell b, EachCell P x := by
  intro x hx
  unfold assignCell at hx
  split_ifs at hx
  · have := (List.mem_filter.1 hx).1
    rw [List.mem_singleton] at this
    subst this
    exact h
  · cases hx
  · split at hx
    · cases hx
    · have := (List.mem_filter.1 hx).1
      rw [List.mem_singleton] at this
      subst this
      exact cs_text P _ _

theorem cs_cellLayout (P : Full.Cell → Prop) (nid : ℕ → ℕ) (cell : Rect) (bs : List (Full.Blk α)) (h : ∀ b ∈ bs, EachCell P b) : ∀ x ∈ cellLayout nid cell bs, EachCell P x := by
  intro x hx
  unfold cellLayout at hx
  obtain ⟨b, hb, hx⟩ := List.mem_flatMap.1 hx
  have hb' : b.1 ∈ bs := by
    have := List.mem_map_of_mem (f := Prod.fst) hb
    rwa [List.zipIdx_map_fst] at this
  exact cs_assignCell P _ _ _ (h _ hb') x hx

theorem cs_arrange (P : Full.Blk α → Prop) (s : Bool) (bs : List (Full.Blk α)) (h : ∀ b ∈ bs, P b) : ∀ x ∈ arrange s bs, P x := by
  intro x hx
  unfold arrange at hx
  split_ifs at hx
  · exact h x ((ft_sort_perm bs).subset hx)
  · exact h x hx

theorem cs_assignBlock (P : Full.Cell → Prop) (boxes : List Rect) (b : Full.Blk α) (h : EachCell P b) (r : List (List (Full.Blk α)) × List (Full.Blk α))
    (hr : assignBlock boxes b = .ok r) : (∀ l ∈ r.1, ∀ x ∈ l, EachCell P x) ∧ ∀ x ∈ r.2, EachCell P x := by
  unfold assignBlock at hr
  split at hr
  · split at hr
    · obtain rfl := Except.ok.inj hr
      refine ⟨?_, fun x hx => by cases hx⟩
      intro l hl x hx
      obtain ⟨i, hi, rfl⟩ := List.mem_mapIdx.1 hl
      split_ifs at hx
      · rw [List.mem_singleton] at hx; subst hx; exact h
      · cases hx
    · obtain rfl := Except.ok.inj hr
      refine ⟨?_, ?_⟩
      · intro l hl x hx
        obtain ⟨_, _, rfl⟩ := List.mem_map.1 hl
        cases hx
      · intro x hx
        rw [List.mem_singleton] at hx; subst hx; exact h
  · split at hr
    · cases hr
    · obtain rfl := Except.ok.inj hr
      refine ⟨?_, ?_⟩
      · intro l hl x hx
        obtain ⟨i, hi, rfl⟩ := List.getElem_of_mem hl
        rw [List.getElem_zipWith] at hx
        split_ifs at hx
        · cases hx
        · rw [List.mem_singleton] at hx; subst hx; exact cs_text P _ _
        · rw [List.mem_singleton] at hx; subst hx; exact cs_text P _ _
      · intro x hx
        rw [List.mem_singleton] at hx; subst hx; exact cs_text P _ _

theorem cs_assignTables (shapes : List Sh) (nid : ℕ → ℕ → ℕ → ℕ) (ty : Types) (ts : List Found) (ht : ∀ f ∈ ts, ∀ ci ∈ f.cells, StyleDrawn shapes ci) (sub : Sub)
    (hs : SubDrawn shapes sub) (bs : List (Full.Blk α)) (hb : ∀ b ∈ bs, EachCell (CellDrawn shapes) b) (r : List (Full.Blk α) × Sub)
    (h : assignTables nid ty ts sub bs = .ok r) : (∀ b ∈ r.1, EachCell (CellDrawn shapes) b) ∧ SubDrawn shapes r.2 := by
  unfold assignTables at h
  split_ifs at h
  · obtain rfl := Except.ok.inj h
    exact ⟨hb, hs⟩
  · split at h
    · cases h
    · rename_i rs hrs
      obtain rfl := Except.ok.inj h
      have hr : ∀ r ∈ rs, (∀ l ∈ r.1, ∀ x ∈ l, EachCell (CellDrawn shapes) x) ∧ ∀ x ∈ r.2, EachCell (CellDrawn shapes) x := by
        intro r hr
        obtain ⟨b, hb', e⟩ := fx_mapM_mem hrs r hr
        exact cs_assignBlock _ _ b (hb b hb') r e
      refine ⟨?_, ?_, hs.strokes, hs.fills⟩
      · intro b hb'
        have hb' := (List.mem_filter.1 ((ft_sort_perm _).subset hb')).1
        rcases List.mem_append.1 hb' with hb' | hb'
        · obtain ⟨r, hr', hx⟩ := List.mem_flatMap.1 hb'
          exact (hr r hr').2 b hx
        · obtain ⟨t, ht', rfl⟩ := List.mem_map.1 hb'
          have htm : t.1 ∈ ts := by
            have := List.mem_map_of_mem (f := Prod.fst) ht'
            rwa [List.zipIdx_map_fst] at this
          unfold fillTable
          rw [cs_table]
          intro c hc
          obtain ⟨x, hx, rfl⟩ := List.mem_map.1 hc
          have hxc : x.1 ∈ t.1.cells := by
            have := List.mem_map_of_mem (f := Prod.fst) hx
            rwa [List.zipIdx_map_fst] at this
          have hin : ∀ b ∈ rs.flatMap (fun r => r.1.getD t.2 []), EachCell (CellDrawn shapes) b := by
            intro b hb''
            obtain ⟨r, hr', hx'⟩ := List.mem_flatMap.1 hb''
            rw [List.getD_eq_getElem?_getD] at hx'
            cases e : r.1[t.2]? with
            | none => rw [e] at hx'; cases hx'
            | some l => rw [e] at hx'; exact (hr r hr').1 l (List.mem_of_getElem? e) b hx'
          refine ⟨⟨ht t.1 htm x.1 hxc, ?_⟩, ?_⟩
          · dsimp only
            unfold cellSub
            split_ifs
            · exact ⟨(fun s hs' => by cases hs'), (fun s hs' => by cases hs'), (fun s hs' => by cases hs')⟩
            · refine cs_mkSub shapes _ _ ?_
              intro s hs'
              exact hs.shapes s (List.mem_filter.1 (List.mem_filter.1 hs').1).1
          · exact cs_arrange _ _ _ (cs_cellLayout _ _ _ _ hin)
      · intro s hs'
        unfold leftShapes at hs'
        exact hs.shapes s (List.mem_filter.1 ((sortBy_perm _ _).subset hs')).1

theorem cs_stages (shapes : List Sh) (c : Full.Cfg) (hi : ∀ l, (c.base.lay.iter l).Perm l) (nid : Lay.Ids) (path : List ℕ) (box : Rect) (ss : List ℕ) (st st' : State α)
    (hb : ∀ b ∈ st.blocks, EachCell (CellDrawn shapes) b) (hs : SubDrawn shapes st.sub) (h : stages c nid path box ss st = .ok st') :
    (∀ b ∈ st'.blocks, EachCell (CellDrawn shapes) b) ∧ SubDrawn shapes st'.sub := by
  induction ss generalizing st with
  | nil =>
    unfold stages at h
    obtain rfl := Except.ok.inj h
    exact ⟨hb, hs⟩
  | cons s ss ih =>
    unfold stages at h
    split at h
    · cases h
    · rename_i t ht
      split at h
      · cases h
      · rename_i r hr
        obtain ⟨h1, h2⟩ := cs_assignTables shapes _ t.2 t.1 (cs_stage shapes c hi s _ box st.sub hs st.blocks t ht) st.sub hs st.blocks hb r hr
        exact ih _ h1 h2 h

theorem cs_splitBack (P : Full.Cell → Prop) (c : Lay.Cfg) (bs r : List (Full.Blk α)) (h : splitBack c bs = .ok r) (hb : ∀ b ∈ bs, EachCell P b) : ∀ b ∈ r, EachCell P b := by
  unfold splitBack at h
  split at h
  · cases h
  · obtain rfl := Except.ok.inj h
    intro b hb'
    have hb' := (List.mem_filter.1 ((ft_sort_perm _).subset hb')).1
    rcases List.mem_append.1 hb' with hb' | hb'
    · exact hb b (List.mem_filter.1 hb').1
    · obtain ⟨g, _, rfl⟩ := List.mem_map.1 hb'
      exact cs_text P _ _

theorem cs_parseCells (P : Full.Cell → Prop) (sub : ℕ → Types → Full.Cell → List (Full.Blk α) → Except Err (List (Full.Blk α) × Types))
    (hsub : ∀ i ty c bs r, sub i ty c bs = .ok r → P c → (∀ b ∈ bs, EachCell P b) → ∀ b ∈ r.1, EachCell P b) (cs : List (Full.Cell × List (Full.Blk α))) (i : ℕ) (ty : Types)
    (r : List (Full.Cell × List (Full.Blk α)) × Types) (h : parseCells sub i ty cs = .ok r) (hc : ∀ c ∈ cs, P c.1 ∧ ∀ b ∈ c.2, EachCell P b) :
    ∀ c ∈ r.1, P c.1 ∧ ∀ b ∈ c.2, EachCell P b := by
  induction cs generalizing i ty r with
  | nil =>
    unfold parseCells at h
    obtain rfl := Except.ok.inj h
    exact hc
  | cons c cs ih =>
    unfold parseCells at h
    split at h
    · cases h
    · rename_i u hu
      split at h
      · cases h
      · rename_i q hq
        obtain rfl := Except.ok.inj h
        have h0 := hc c (by simp)
        intro x hx
        rcases List.mem_cons.1 hx with rfl | hx
        · exact ⟨h0.1, hsub _ _ _ _ _ hu h0.1 h0.2⟩
        · exact ih _ _ _ hq (fun c hc' => hc c (by simp [hc'])) x hx

theorem cs_parseTables (P : Full.Cell → Prop) (sub : ℕ → ℕ → Types → Full.Cell → List (Full.Blk α) → Except Err (List (Full.Blk α) × Types))
    (hsub : ∀ i j ty c bs r, sub i j ty c bs = .ok r → P c → (∀ b ∈ bs, EachCell P b) → ∀ b ∈ r.1, EachCell P b) (bs : List (Full.Blk α)) (i : ℕ) (ty : Types)
    (r : List (Full.Blk α) × Types) (h : parseTables sub i ty bs = .ok r) (hb : ∀ b ∈ bs, EachCell P b) : ∀ b ∈ r.1, EachCell P b := by
  induction bs generalizing i ty r with
  | nil =>
    unfold parseTables at h
    obtain rfl := Except.ok.inj h
    exact hb
  | cons b bs ih =>
    cases b with
    | text x ls =>
      unfold parseTables at h
      split at h
      · cases h
      · rename_i u hu
        obtain rfl := Except.ok.inj h
        intro y hy
        rcases List.mem_cons.1 hy with rfl | hy
        · exact cs_text P _ _
        · exact ih _ _ _ hu (fun b hb' => hb b (by simp [hb'])) y hy
    | table x _ cs =>
      unfold parseTables at h
      split at h
      · cases h
      · rename_i q hq
        split at h
        · cases h
        · rename_i u hu
          obtain rfl := Except.ok.inj h
          intro y hy
          rcases List.mem_cons.1 hy with rfl | hy
          · rw [cs_table]
            exact cs_parseCells P _ (hsub i) cs _ _ _ hq ((cs_table P x _ cs).1 (hb _ List.mem_cons_self))
          · exact ih _ _ _ hu (fun b hb' => hb b (by simp [hb'])) y hy

theorem cs_parse (shapes : List Sh) (c : Full.Cfg) (hi : ∀ l, (c.base.lay.iter l).Perm l) (fmt : Format α) (nid : Lay.Ids) (depth : ℕ) (path : List ℕ) (box : Rect) (ss : List ℕ)
    (st : State α) (r : List (Full.Blk α) × Types) (h : Full.parse c fmt nid depth path box ss st = .ok r) (hb : ∀ b ∈ st.blocks, EachCell (CellDrawn shapes) b)
    (hs : SubDrawn shapes st.sub) : ∀ b ∈ r.1, EachCell (CellDrawn shapes) b := by
  induction depth generalizing path box ss st r with
  | zero => unfold Full.parse at h; cases h
  | succ n ih =>
    unfold Full.parse at h
    split at h
    · cases h
    · rename_i st' hst
      split at h
      · cases h
      · rename_i bs hbs
        obtain ⟨h1, _⟩ := cs_stages shapes c hi nid path box ss st st' hb hs hst
        refine cs_parseTables (CellDrawn shapes) _ ?_ bs _ _ r h (cs_splitBack _ _ _ _ hbs h1)
        intro i j ty cell bs' r' h' hc hbs'
        exact ih _ _ _ _ _ h' hbs' hc.2

mutual
theorem cs_weaken {P Q : Full.Cell → Prop} (h : ∀ c, P c → Q c) : ∀ b : Full.Blk α, EachCell P b → EachCell Q b
  | .text b ls, _ => cs_text Q b ls
  | .table _ _ cs, h' => by rw [EachCell] at h' ⊢; exact cs_weaken_of h cs h'
theorem cs_weaken_of {P Q : Full.Cell → Prop} (h : ∀ c, P c → Q c) : ∀ cs : List (Full.Cell × List (Full.Blk α)), EachCellOf P cs → EachCellOf Q cs
  | [], _ => by rw [EachCellOf]; trivial
  | (c, bs) :: cs, h' => by rw [EachCellOf] at h' ⊢; exact ⟨h c h'.1, cs_weaken_in h bs h'.2.1, cs_weaken_of h cs h'.2.2⟩
theorem cs_weaken_in {P Q : Full.Cell → Prop} (h : ∀ c, P c → Q c) : ∀ bs : List (Full.Blk α), EachCellIn P bs → EachCellIn Q bs
  | [], _ => by rw [EachCellIn]; trivial
  | b :: bs, h' => by rw [EachCellIn] at h' ⊢; exact ⟨cs_weaken h b h'.1, cs_weaken_in h bs h'.2⟩
end

/-- **C104**: the style of a table cell is never invented. On every page, whatever tables are found, and at any depth of nesting, a visible border of a cell has the width of a line
of this direction drawn on the page, and the background of a cell is the colour of an area drawn over at least nine tenths of the cell. -/
theorem C104_style_drawn (c : Full.Cfg) (hi : ∀ l, (c.base.lay.iter l).Perm l) (fmt : Format α) (nid : Lay.Ids) (depth : ℕ) (page : Rect) (shapes : List Sh)
    (bs : List (Full.Blk α)) (ht : ∀ b ∈ bs, b.isText = true) (r : List (Full.Blk α) × Types) (h : Full.parsePage c fmt nid depth page shapes bs = .ok r) :
    EachCellIn (fun cell => StyleDrawn shapes cell.info) r.1 := by
  rw [cs_in]
  intro b hb
  refine cs_weaken (fun c hc => hc.1) b (cs_parse shapes c hi fmt nid depth [] page _ _ r h ?_ (cs_mkSub shapes _ _ fun s hs => hs) b hb)
  intro b hb
  have := ht b ((ft_sort_perm bs).subset hb)
  cases b with
  | text x ls => exact cs_text _ _ _
  | table x _ cs => cases this

/-! ## Position -/

/-- Strokes at their keys, or lines without width. -/
def KeyedSet (S : ℚ → Table.St → Prop) (d : Table.Dict Table.St) : Prop := ∀ e ∈ d, ∀ s ∈ e.2, S e.1 s ∨ s.width = 0

theorem cs_keyed_outer (S : ℚ → Table.St → Prop) (table : Rect) (s : Table.Side) (w : ℚ) (d : Table.Dict Table.St) (hd : KeyedSet S d) : KeyedSet S (Table.checkOuter table s w d) := by
  unfold Table.checkOuter
  dsimp only
  have h1 : ∀ cur : ℚ, KeyedSet S (d.map fun e => if e.1 = cur then (e.1, Table.sortSide s e.2) else e) := by
    intro cur e he x hx
    obtain ⟨e', he', rfl⟩ := List.mem_map.1 he
    split_ifs at hx ⊢
    · exact hd e' he' x ((cs_sortSide s _ x).1 hx)
    · exact hd e' he' x hx
  have fl : ∀ t a b, (Table.frameLine s t a b).width = 0 := by intro t a b; cases s <;> rfl
  split_ifs
  · intro e he x hx
    unfold Table.dset at he
    split_ifs at he
    · obtain ⟨e', he', rfl⟩ := List.mem_map.1 he
      split_ifs at hx ⊢
      · rw [List.mem_singleton] at hx
        subst hx
        exact Or.inr (fl _ _ _)
      · exact h1 _ e' he' x hx
    · rcases List.mem_append.1 he with he | he
      · exact h1 _ e he x hx
      · rw [List.mem_singleton] at he
        subst he
        rw [List.mem_singleton] at hx
        subst hx
        exact Or.inr (fl _ _ _)
  · intro e he x hx
    obtain ⟨e', he', rfl⟩ := List.mem_map.1 he
    split_ifs at hx ⊢
    · have hx := (cs_sortSide s _ x).1 hx
      rcases List.mem_append.1 hx with hx | hx
      · exact h1 _ e' he' x hx
      · exact Or.inr (cs_missing s _ _ _ _ x hx)
    · exact h1 _ e' he' x hx

theorem cs_keyed_group (c : ℚ) (hc : 0 ≤ c) (pos : Table.St → ℚ) (l : List Table.St) (ht : NoLadder c pos l) :
    KeyedSet (fun k s => s ∈ l ∧ |round1 (pos s) - k| ≤ c) (Table.groupBy c (l.map fun s => (round1 (pos s), s))) := by
  obtain ⟨h1, h2⟩ := C41_clusters_partial c hc (fun s => round1 (pos s)) l ht
  intro e he s hs
  left
  refine ⟨h1.subset (List.mem_flatMap.2 ⟨e, he, hs⟩), ?_⟩
  obtain ⟨a, ha, b, hb, k1, k2⟩ := h2.key e he
  have q1 := abs_le.1 (h2.close e he s hs a ha)
  have q2 := abs_le.1 (h2.close e he s hs b hb)
  rw [abs_le]
  constructor <;> linarith [q1.1, q1.2, q2.1, q2.2]

theorem cs_keyed_strokesAt (S : ℚ → Table.St → Prop) (d : Table.Dict Table.St) (hd : KeyedSet S d) (k : ℚ) : ∀ s ∈ Full.strokesAt d k, S k s ∨ s.width = 0 := by
  intro s hs
  unfold Full.strokesAt at hs
  cases hf : d.find? (fun e => decide (e.1 = k)) with
  | none => rw [hf] at hs; cases hs
  | some e =>
    rw [hf] at hs
    have := hd e (List.mem_of_find?_eq_some hf) s hs
    have hk := List.find?_some hf
    rw [decide_eq_true_eq] at hk
    rwa [hk] at this

theorem cs_side (vertical : Bool) (strokes l : List Table.St) (c : ℚ) (hl : ∀ s ∈ l, s ∈ strokes ∧ (if vertical then |s.x0 - s.x1| < 1 / 1000 else |s.y0 - s.y1| < 1 / 1000))
    (d : Table.Dict Table.St) (hd : KeyedSet (fun k s => s ∈ l ∧ |round1 (if vertical then s.x0 else s.y0) - k| ≤ c) d) (k lo hi : ℚ) :
    DrawnAtSide strokes c (!vertical) (round1 k) (round1 lo) (round1 hi) (widthOf vertical lo hi (Full.strokesAt d k)) := by
  unfold widthOf
  cases h : Table.borderStroke vertical lo hi (Full.strokesAt d k) with
  | none => exact Or.inl rfl
  | some s =>
    obtain ⟨h1, h2⟩ := cs_borderStroke _ _ _ _ _ h
    rcases cs_keyed_strokesAt _ d hd k s h1 with ⟨h3, h4⟩ | h3
    · right
      obtain ⟨h5, h6⟩ := hl s h3
      refine ⟨s, h5, rfl, ?_⟩
      have k1 := abs_le.1 (abs_round1_sub k)
      have k2 := abs_le.1 (abs_round1_sub lo)
      have k3 := abs_le.1 (abs_round1_sub hi)
      have k4 := abs_le.1 h4
      cases vertical
      · simp only [if_true, Bool.false_eq_true, if_false, Bool.not_false] at h2 h6 k4 ⊢
        have k5 := abs_le.1 (abs_round1_sub s.y0)
        refine ⟨h6, ?_, ?_⟩
        · rw [abs_le]; constructor <;> linarith [k1.1, k1.2, k4.1, k4.2, k5.1, k5.2]
        · have m1 : min hi s.x1 - 1 / 20 ≤ min (round1 hi) s.x1 := le_min (by linarith [min_le_left hi s.x1, k3.1]) (by linarith [min_le_right hi s.x1])
          have m2 : max (round1 lo) s.x0 ≤ max lo s.x0 + 1 / 20 := max_le (by linarith [le_max_left lo s.x0, k2.2]) (by linarith [le_max_right lo s.x0])
          linarith
      · simp only [if_true, Bool.not_true, Bool.false_eq_true, if_false] at h2 h6 k4 ⊢
        have k5 := abs_le.1 (abs_round1_sub s.x0)
        refine ⟨h6, ?_, ?_⟩
        · rw [abs_le]; constructor <;> linarith [k1.1, k1.2, k4.1, k4.2, k5.1, k5.2]
        · have m1 : min hi s.y1 - 1 / 20 ≤ min (round1 hi) s.y1 := le_min (by linarith [min_le_left hi s.y1, k3.1]) (by linarith [min_le_right hi s.y1])
          have m2 : max (round1 lo) s.y0 ≤ max lo s.y0 + 1 / 20 := max_le (by linarith [le_max_left lo s.y0, k2.2]) (by linarith [le_max_right lo s.y0])
          linarith
    · exact Or.inl h3

/-- **C104** (partial: no ladders of lines closer than the border clearance): a visible border of a table cell has the width of a line drawn at this side of the cell (within the border
clearance `c`), running along it. -/
theorem C104_at_side_partial (c w : ℚ) (hc : 0 ≤ c) (strokes : List Table.St) (fills : List (Rect × ℕ)) (hy : NoLadder c Table.St.y0 strokes) (hx : NoLadder c Table.St.x0 strokes)
    (t : Rows × List Table.St × List (Rect × ℕ)) (h : structure_ c w strokes fills = .ok t) : ∀ ci ∈ (found t.1).cells, SidesDrawn strokes c ci := by
  unfold structure_ at h
  split at h
  · obtain rfl := Except.ok.inj h
    intro ci hc; cases hc
  · rename_i H V hg
    split_ifs at h
    · obtain rfl := Except.ok.inj h
      intro ci hc; cases hc
    · obtain rfl := Except.ok.inj h
      intro ci hci
      unfold found at hci
      dsimp only at hci
      have hci := (List.mem_filter.1 hci).1
      obtain ⟨o, ho, hoc⟩ := List.mem_filterMap.1 hci
      rw [id] at hoc
      subst hoc
      obtain ⟨row, hrow, hin⟩ := List.mem_flatten.1 ho
      have hrow := (List.mem_filter.1 hrow).1
      obtain ⟨row', hrow', rfl⟩ := List.mem_map.1 hrow
      obtain ⟨o', ho', e⟩ := List.mem_map.1 hin
      obtain ⟨x, rfl, hx'⟩ := Option.map_eq_some_iff.1 e
      unfold styles at hrow'
      obtain ⟨i, _, rfl⟩ := List.mem_map.1 hrow'
      obtain ⟨j, _, e2⟩ := List.mem_map.1 ho'
      obtain ⟨r, _, rfl⟩ := Option.map_eq_some_iff.1 e2
      rw [← hx']
      unfold Table.groupStrokes at hg
      dsimp only at hg
      split_ifs at hg
      obtain ⟨rfl, rfl⟩ := Prod.mk.inj (Option.some.inj hg)
      unfold Table.groupHV
      dsimp only
      have hl1 : ∀ s ∈ strokes.filter Table.St.horizontal, s ∈ strokes ∧ |s.y0 - s.y1| < 1 / 1000 :=
        fun s hs => ⟨(List.mem_filter.1 hs).1, of_decide_eq_true (List.mem_filter.1 hs).2⟩
      have hl2 : ∀ s ∈ strokes.filter (fun s => !s.horizontal && s.vertical), s ∈ strokes ∧ |s.x0 - s.x1| < 1 / 1000 :=
        fun s hs => ⟨(List.mem_filter.1 hs).1, of_decide_eq_true (Bool.and_eq_true_iff.1 (List.mem_filter.1 hs).2).2⟩
      have g1 := cs_keyed_group c hc Table.St.y0 (strokes.filter Table.St.horizontal)
        (fun x hx y hy' z hz => hy x (List.mem_filter.1 hx).1 y (List.mem_filter.1 hy').1 z (List.mem_filter.1 hz).1)
      have g2 := cs_keyed_group c hc Table.St.x0 (strokes.filter fun s => !s.horizontal && s.vertical)
        (fun x hx'' y hy' z hz => hx x (List.mem_filter.1 hx'').1 y (List.mem_filter.1 hy').1 z (List.mem_filter.1 hz).1)
      exact ⟨cs_side false strokes _ c hl1 _ (cs_keyed_outer _ _ _ _ _ (cs_keyed_outer _ _ _ _ _ g1)) _ _ _,
        cs_side false strokes _ c hl1 _ (cs_keyed_outer _ _ _ _ _ (cs_keyed_outer _ _ _ _ _ g1)) _ _ _,
        cs_side true strokes _ c hl2 _ (cs_keyed_outer _ _ _ _ _ (cs_keyed_outer _ _ _ _ _ g2)) _ _ _,
        cs_side true strokes _ c hl2 _ (cs_keyed_outer _ _ _ _ _ (cs_keyed_outer _ _ _ _ _ g2)) _ _ _⟩

/-! ## Examples -/

/-- The styles of the cells of the tables of a page (not of tables in cells). -/
def csSeen (shapes : List Sh) (bs : List (Full.Blk ℕ)) : Option (List (List CellInfo)) :=
  (fpRun shapes bs).toOption.map fun r => r.1.map fun b => match b with
    | .text _ _ => []
    | .table _ _ cs => cs.map fun c => c.1.info

/-- Non-vacuity: a grid of 2 × 2 cells drawn with lines of 1pt, the second cell shaded. -/
example : (∀ b ∈ fpPage, b.isText = true) ∧ csSeen (fpGrid ++ [.fill ⟨200, 100, 300, 150⟩ 255]) fpPage =
    some [[], [⟨⟨100, 100, 200, 150⟩, 1, 1, 1, 1, none⟩, ⟨⟨200, 100, 300, 150⟩, 1, 1, 1, 1, some 255⟩, ⟨⟨100, 150, 200, 200⟩, 1, 1, 1, 1, none⟩,
      ⟨⟨200, 150, 300, 200⟩, 1, 1, 1, 1, none⟩], []] := by
  refine ⟨by decide +kernel, by decide +kernel⟩

/-- A frame of 100pt × 80pt; above it, twenty lines 1pt apart, the topmost 5pt thick. -/
def csLadder : List Table.St :=
  ((List.range 20).map fun i => (⟨0, 100 + i, 100, 100 + i, ⟨0, 100 + i, 100, 100 + i + 1⟩, if i = 0 then 5 else 1, 0⟩ : Table.St)) ++
  [⟨0, 200, 100, 200, ⟨0, 200, 100, 201⟩, 1, 0⟩, ⟨0, 120, 0, 200, ⟨0, 120, 1, 200⟩, 1, 0⟩, ⟨100, 120, 100, 200, ⟨100, 120, 101, 200⟩, 1, 0⟩]

/-- The cells found. -/
def csCells (strokes : List Table.St) : Option (List CellInfo) := (structure_ 2 6 strokes []).toOption.map fun t => (found t.1).cells

/-- Non-vacuity of `C104_at_side_partial`: the grid of `fpPage` has no ladders. -/
example : NoLadder 2 Table.St.y0 (gridStrokes (fun j => 100 + 100 * j) (fun i => 100 + 50 * i) 2 2 1) ∧
    NoLadder 2 Table.St.x0 (gridStrokes (fun j => 100 + 100 * j) (fun i => 100 + 50 * i) 2 2 1) ∧
    (csCells (gridStrokes (fun j => 100 + 100 * j) (fun i => 100 + 50 * i) 2 2 1)).map (List.map CellInfo.top) = some [1, 1, 1, 1] := by
  refine ⟨by decide +kernel, by decide +kernel, by decide +kernel⟩

/-- **C104** (refuted for ladders): lines 1pt apart are taken for one border, at the lowest of them; its width is that of the topmost one, drawn 18pt away, though no line of this width
is drawn nearer. -/
theorem C104_refuted_ladder : ∃ ci : CellInfo, csCells csLadder = some [ci] ∧ ci.top = 5 ∧ ∀ s ∈ csLadder, s.width = 5 → 18 ≤ |s.y0 - ci.box.y0| := by
  refine ⟨⟨⟨0, 118, 100, 200⟩, 5, 1, 1, 1, none⟩, ?_, ?_, ?_⟩ <;> decide +kernel

end Props
