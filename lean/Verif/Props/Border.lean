import Verif.Border
import Verif.Props.Table
import Mathlib.Data.List.Forall2
/-! # Properties of stream-table borders (C42, C63, C64) -/

namespace Props
open Py Geom Border

/-- `b'` is `b` or `b` with its position decided, within the range. -/
def Ext (b b' : Bd) : Prop :=
  b' = b ∨ (b.value = none ∧ b'.horizontal = b.horizontal ∧ b'.lo = b.lo ∧ b'.hi = b.hi ∧ b'.lb = b.lb ∧ b'.ub = b.ub ∧
    b'.reference = false ∧ ∃ v, b'.value = some v ∧ b.lo - 1 ≤ v ∧ v ≤ b.hi + 1)

theorem Ext.refl (b : Bd) : Ext b b := Or.inl rfl

theorem Ext.trans {a b c : Bd} (h1 : Ext a b) (h2 : Ext b c) : Ext a c := by
  rcases h1 with rfl | ⟨h, h3, h4, h5, h6, h7, h8, v, hv, h9⟩
  · exact h2
  · rcases h2 with rfl | ⟨h', _⟩
    · exact Or.inr ⟨h, h3, h4, h5, h6, h7, h8, v, hv, h9⟩
    · rw [hv] at h'; cases h'

/-- Every border of the state kept or decided. -/
def ExtAll (st st' : State) : Prop := List.Forall₂ Ext st st'

theorem ExtAll.refl (st : State) : ExtAll st st := List.forall₂_same.mpr fun b _ => Ext.refl b

theorem ExtAll.trans {a b c : State} (h1 : ExtAll a b) (h2 : ExtAll b c) : ExtAll a c := by
  unfold ExtAll at *
  induction h1 generalizing c with
  | nil => exact h2
  | cons h _ ih =>
    cases h2 with
    | cons h' h2' => exact List.Forall₂.cons (h.trans h') (ih h2')

theorem ext_finalize (b : Bd) (v : ℚ) : Ext b (b.finalize v) := by
  unfold Bd.finalize
  split_ifs with h
  · exact Ext.refl b
  · simp only [Bool.or_eq_true, Bool.not_eq_true', not_or, Bool.not_eq_false] at h
    have hv : b.isValid v = true := by simpa using h.2
    unfold Bd.isValid at hv
    rw [decide_eq_true_eq] at hv
    exact Or.inr ⟨by simpa using h.1, rfl, rfl, rfl, rfl, rfl, rfl, v, rfl, hv.1, hv.2⟩

theorem extAll_modify (st : State) (i : ℕ) (f : Bd → Bd) (h : ∀ b, st[i]? = some b → Ext b (f b)) : ExtAll st (st.modify i f) := by
  unfold ExtAll
  induction st generalizing i with
  | nil => simp
  | cons a st ih =>
    cases i with
    | zero =>
      rw [List.modify_zero_cons]
      exact List.Forall₂.cons (h a rfl) (ExtAll.refl st)
    | succ i =>
      rw [List.modify_succ_cons]
      exact List.Forall₂.cons (Ext.refl a) (ih i fun b hb => h b hb)

theorem extAll_byValue (st : State) (i : ℕ) (v : ℚ) : ExtAll st (byValue st i v) :=
  extAll_modify st i _ fun b _ => ext_finalize b v

theorem extAll_byStroke (st : State) (i : ℕ) (s : Line) : ExtAll st (byStroke st i s) := by
  unfold byStroke
  simp only []
  split_ifs with h1 h2 h3
  · exact ExtAll.refl st
  · exact ExtAll.refl st
  · exact (extAll_byValue _ _ _).trans (extAll_byValue _ _ _)
  · refine ExtAll.trans ?_ ((extAll_byValue _ _ _).trans (extAll_byValue _ _ _))
    refine extAll_modify st i _ fun b hb => ?_
    have hb' : st.getD i dummy = b := by rw [List.getD_eq_getElem?_getD, hb]; rfl
    rw [hb'] at h1 h3
    have hv : b.isValid s.value = true := by simpa using h1
    have hn : b.value = none := by simpa using h3
    unfold Bd.finalize
    rw [if_neg (by simp [hn, hv])]
    unfold Bd.isValid at hv
    rw [decide_eq_true_eq] at hv
    exact Or.inr ⟨hn, rfl, rfl, rfl, rfl, rfl, rfl, _, rfl, hv.1, hv.2⟩

theorem extAll_foldl {α : Type} (f : State → α → State) (hf : ∀ st a, ExtAll st (f st a)) (l : List α) (st : State) :
    ExtAll st (l.foldl f st) := by
  induction l generalizing st with
  | nil => exact ExtAll.refl st
  | cons a l ih => exact (hf st a).trans (ih (f st a))

theorem extAll_byStrokes (st : State) (l : List Line) : ExtAll st (byStrokes st l) := by
  refine extAll_foldl _ (fun st s => ?_) l st
  split_ifs
  · exact ExtAll.refl st
  · refine extAll_foldl _ (fun st i => ?_) _ st
    split_ifs
    · exact ExtAll.refl st
    · exact extAll_byStroke st i s

theorem extAll_layoutLoop (idx : List ℕ) (l : List (ℚ × List Bool)) (cur : List Bool) (st : State) :
    ExtAll st (layoutLoop idx cur l st) := by
  induction l generalizing cur st with
  | nil => exact ExtAll.refl st
  | cons e l ih =>
    obtain ⟨x, s⟩ := e
    unfold layoutLoop
    split_ifs
    · exact ExtAll.refl st
    · exact ih _ _
    · refine ExtAll.trans ?_ (ih _ _)
      refine extAll_foldl _ (fun st p => ?_) _ st
      split_ifs
      · exact extAll_byValue _ _ _
      · exact ExtAll.refl st

theorem extAll_byLayout (st : State) (idx : List ℕ) : ExtAll st (byLayout st idx) := extAll_layoutLoop _ _ _ _

/-- The ways to place borders. -/
inductive BOp where
  | value (i : ℕ) (v : ℚ)
  | stroke (i : ℕ) (s : Line)
  | strokes (l : List Line)
  | layout (idx : List ℕ)

/-- One call. -/
def bstep (st : State) : BOp → State
  | .value i v => byValue st i v
  | .stroke i s => byStroke st i s
  | .strokes l => byStrokes st l
  | .layout idx => byLayout st idx

theorem extAll_run (ops : List BOp) (st : State) : ExtAll st (ops.foldl bstep st) := by
  refine extAll_foldl _ (fun st op => ?_) ops st
  cases op
  · exact extAll_byValue _ _ _
  · exact extAll_byStroke _ _ _
  · exact extAll_byStrokes _ _
  · exact extAll_byLayout _ _

theorem ExtAll.get {st st' : State} (h : ExtAll st st') (i : ℕ) (b : Bd) (hb : st[i]? = some b) : ∃ b', st'[i]? = some b' ∧ Ext b b' := by
  unfold ExtAll at h
  induction h generalizing i with
  | nil => simp at hb
  | cons hab _ ih =>
    cases i with
    | zero =>
      simp only [List.getElem?_cons_zero, Option.some.injEq] at hb
      exact ⟨_, rfl, hb ▸ hab⟩
    | succ i => exact ih i hb

/-- C42: once the position of a border is decided, the border (position, width, colour, range, neighbours) never changes, whatever
sequence of alignment attempts follows. -/
theorem C42_decided_once (ops : List BOp) (st : State) (i : ℕ) (b : Bd) (v : ℚ) (hb : st[i]? = some b) (hv : b.value = some v) :
    (ops.foldl bstep st)[i]? = some b := by
  obtain ⟨b', hb', h⟩ := (extAll_run ops st).get i b hb
  rcases h with rfl | ⟨hn, _⟩
  · exact hb'
  · rw [hv] at hn; cases hn

/-- C42: a position decided by any sequence of attempts lies within the allowed range, with 1 pt tolerance; the range is that of the
start. -/
theorem C42_in_range (ops : List BOp) (st : State) (i : ℕ) (b : Bd) (hb : st[i]? = some b) (hn : b.value = none) :
    ∃ b', (ops.foldl bstep st)[i]? = some b' ∧ b'.lo = b.lo ∧ b'.hi = b.hi ∧ b'.horizontal = b.horizontal ∧
      ∀ v, b'.value = some v → b.lo - 1 ≤ v ∧ v ≤ b.hi + 1 := by
  obtain ⟨b', hb', h⟩ := (extAll_run ops st).get i b hb
  refine ⟨b', hb', ?_⟩
  rcases h with rfl | ⟨_, h3, h4, h5, _, _, _, v, hv, h9⟩
  · exact ⟨rfl, rfl, rfl, fun v hv => by rw [hn] at hv; cases hv⟩
  · refine ⟨h4, h5, h3, fun w hw => ?_⟩
    rw [hv, Option.some.injEq] at hw
    rw [← hw]
    exact h9

/-- C42: the position used for drawing, decided or not, is within the range (1 pt tolerance). -/
theorem C42_position_in_range (ops : List BOp) (st : State) (i : ℕ) (b : Bd) (hb : st[i]? = some b) (hn : b.value = none)
    (hr : b.lo ≤ b.hi) : ∃ b', (ops.foldl bstep st)[i]? = some b' ∧ b.lo - 1 ≤ b'.pos ∧ b'.pos ≤ b.hi + 1 := by
  obtain ⟨b', hb', h1, h2, _, h3⟩ := C42_in_range ops st i b hb hn
  refine ⟨b', hb', ?_⟩
  unfold Bd.pos
  cases hv : b'.value with
  | none => rw [h1, h2]; simp only [Option.getD_none]; constructor <;> linarith
  | some v => exact h3 v hv

/-- Four outer borders with the given ranges (`_outer_borders`, table/TablesConstructor.py L299-330): top, bottom, left, right. -/
def box4 (t b l r : ℚ × ℚ) : State :=
  [⟨true, t.1, t.2, 2, 3, false, none, 0, 0⟩, ⟨true, b.1, b.2, 2, 3, false, none, 0, 0⟩,
   ⟨false, l.1, l.2, 0, 1, false, none, 0, 0⟩, ⟨false, r.1, r.2, 0, 1, false, none, 0, 0⟩]

/-- Non-vacuity: a line at 45 decides the top border (and the sides); a second one at 48 changes nothing. -/
example : let st := box4 (40, 50) (100, 120) (10, 20) (200, 210)
    let st1 := bstep st (.stroke 0 ⟨true, 15, 205, 45, 1, 0, false⟩)
    (st1.getD 0 dummy).value = some 45 ∧ (st1.getD 2 dummy).value = some 15 ∧
    bstep st1 (.stroke 0 ⟨true, 15, 205, 48, 1, 0, false⟩) = st1 := by decide +kernel

/-! ## C63: reference borders -/

theorem addDummies_append (order : List (ℚ × ℚ) → List (ℚ × ℚ)) (st : State) :
    ∃ ds, addDummies order st = st ++ ds ∧ ∀ d ∈ ds, d.horizontal = true ∧ d.reference = true ∧ d.value = none := by
  refine ⟨_, rfl, ?_⟩
  intro d hd
  simp only [List.mem_flatMap] at hd
  obtain ⟨p, _, hd⟩ := hd
  split_ifs at hd
  · simp at hd
  · simp only [List.mem_filterMap] at hd
    obtain ⟨q, _, hq⟩ := hd
    split_ifs at hq
    rw [Option.some.injEq] at hq
    rw [← hq]
    exact ⟨rfl, rfl, rfl⟩

theorem extAll_finalize (order : List (ℚ × ℚ) → List (ℚ × ℚ)) (strokes : List Line) (fills : List Rect) (st : State) :
    ExtAll (addDummies order st) (finalize order strokes fills st) := by
  unfold finalize
  simp only []
  exact (extAll_byStrokes _ _).trans ((extAll_byStrokes _ _).trans ((extAll_byLayout _ _).trans (extAll_byLayout _ _)))

/-- C63: placing the borders of a table keeps all borders (decided ones unchanged), and every reference border added in between is drawn
only if a position was decided for it; otherwise it gives no stroke. -/
theorem C63_reference_borders (order : List (ℚ × ℚ) → List (ℚ × ℚ)) (strokes : List Line) (fills : List Rect) (st : State) :
    (∀ (i : ℕ) (b : Bd), st[i]? = some b → ∃ b', (finalize order strokes fills st)[i]? = some b' ∧ Ext b b') ∧
    ∀ i ≥ st.length, ∀ b' : Bd, (finalize order strokes fills st)[i]? = some b' →
      (toStroke (finalize order strokes fills st) b').isSome = true → ∃ v, b'.value = some v ∧ b'.lo - 1 ≤ v ∧ v ≤ b'.hi + 1 := by
  have hx := extAll_finalize order strokes fills st
  obtain ⟨ds, hds, hd⟩ := addDummies_append order st
  rw [hds] at hx
  constructor
  · intro i b hb
    refine hx.get i b ?_
    obtain ⟨hi, rfl⟩ := List.getElem?_eq_some_iff.mp hb
    rw [List.getElem?_append_left hi]
    exact hb
  · intro i hi b' hb' hs
    have hlen : (st ++ ds).length = (finalize order strokes fills st).length := List.Forall₂.length_eq hx
    obtain ⟨hi', hbe⟩ := List.getElem?_eq_some_iff.mp hb'
    have hi2 : i < (st ++ ds).length := by omega
    obtain ⟨b2, hb2, he⟩ := hx.get i _ (List.getElem?_eq_getElem hi2)
    rw [hb', Option.some.injEq] at hb2
    subst hb2
    have hmem : (st ++ ds)[i] ∈ ds := by
      rw [List.getElem_append_right hi]
      exact List.getElem_mem _
    obtain ⟨_, h2, h3⟩ := hd _ hmem
    rcases he with he | ⟨_, _, h4, h5, _, _, _, v, hv, h6⟩
    · unfold toStroke at hs
      rw [he, h2] at hs
      simp at hs
    · rw [h4, h5]
      exact ⟨v, hv, h6⟩

/-- Non-vacuity: a middle line adds a reference border next to each column, and the explicit stroke at 75 decides both. -/
example : let st := box4 (40, 50) (100, 120) (10, 20) (200, 210) ++
      [⟨false, 100, 110, 0, 1, false, none, 0, 0⟩, ⟨true, 70, 80, 2, 4, true, none, 0, 0⟩]
    let st' := finalize id [⟨true, 15, 205, 75, 1, 0, false⟩] [] st
    6 < st'.length ∧ (st'.drop 6).any (fun b => b.value.isSome) = true ∧ (st'.drop 6).any (fun b => !b.value.isSome) = true := by
  decide +kernel

/-- C63 (refuted): "a reference border is added only where no border exists". The table of existing borders is built with wrong keys:
the existing border (range 70-80 between borders 2 and 4) is added again. -/
theorem C63_refuted_duplicate : ∃ (st : State) (b d : Bd), b ∈ st ∧ d ∈ (addDummies id st).drop st.length ∧
    d.horizontal = b.horizontal ∧ d.lo = b.lo ∧ d.hi = b.hi ∧ d.lb = b.lb ∧ d.ub = b.ub := by
  refine ⟨box4 (40, 50) (100, 120) (10, 20) (200, 210) ++
      [⟨false, 100, 110, 0, 1, false, none, 0, 0⟩, ⟨true, 70, 80, 2, 4, false, none, 0, 0⟩],
    ⟨true, 70, 80, 2, 4, false, none, 0, 0⟩, ⟨true, 70, 80, 2, 4, true, none, 0, 0⟩, ?_⟩
  decide +kernel

/-! ## C64: alignment by layout -/

/-- C64 (refuted): not every border is placed: of the ranges 0-100, 0-10, 50-60, 50-60 the first and the last two are aligned at 55, and
the second, overlapping the first, stays open. -/
theorem C64_refuted_left_open : ∃ (st : State) (idx : List ℕ), (∀ i ∈ idx, ∃ b, st[i]? = some b ∧ b.value = none ∧ b.lo < b.hi) ∧
    ∃ i ∈ idx, ((byLayout st idx).getD i dummy).value = none := by
  refine ⟨[⟨false, 0, 100, 0, 0, false, none, 0, 0⟩, ⟨false, 0, 10, 0, 0, false, none, 0, 0⟩,
    ⟨false, 50, 60, 0, 0, false, none, 0, 0⟩, ⟨false, 50, 60, 0, 0, false, none, 0, 0⟩], [0, 1, 2, 3], ?_, 1, by simp, by decide +kernel⟩
  intro i hi
  simp only [List.mem_cons, List.not_mem_nil, or_false] at hi
  rcases hi with rfl | rfl | rfl | rfl <;> exact ⟨_, rfl, rfl, by norm_num⟩

theorem mid_after (l : List ℚ) (hs : l.Pairwise (· < ·)) (m : ℚ) (hm : m ∈ l) (h : ∃ x ∈ l, m < x) :
    ∃ x ∈ Table.mids l, m < x ∧ ∀ y ∈ l, m < y → x < y := by
  induction l with
  | nil => simp at hm
  | cons a l ih =>
    cases l with
    | nil =>
      obtain ⟨x, hx, hlt⟩ := h
      simp only [List.mem_singleton] at hm hx
      rw [hm, hx] at hlt
      exact absurd hlt (lt_irrefl _)
    | cons b l =>
      rw [List.pairwise_cons] at hs
      by_cases hma : m = a
      · subst hma
        refine ⟨(m + b) / 2, by simp [Table.mids], ?_, ?_⟩
        · have := hs.1 b (by simp)
          linarith
        · intro y hy hlt
          rcases List.mem_cons.mp hy with rfl | hy
          · exact absurd hlt (lt_irrefl _)
          · have hb := hs.1 b (by simp)
            rcases List.mem_cons.mp hy with rfl | hy
            · linarith
            · have := (List.pairwise_cons.mp hs.2).1 y hy
              linarith
      · have hm' : m ∈ b :: l := by
          rcases List.mem_cons.mp hm with h | h
          · exact absurd h hma
          · exact h
        have ham := hs.1 m hm'
        obtain ⟨x, hx, hlt⟩ := h
        have hx' : x ∈ b :: l := by
          rcases List.mem_cons.mp hx with rfl | h
          · linarith
          · exact h
        obtain ⟨z, hz, h1, h2⟩ := ih hs.2 hm' ⟨x, hx', hlt⟩
        refine ⟨z, by rw [Table.mids]; exact List.mem_cons_of_mem _ hz, h1, ?_⟩
        intro y hy hlt
        rcases List.mem_cons.mp hy with rfl | hy
        · linarith
        · exact h2 y hy hlt

theorem mem_points (bs : List Bd) (x : ℚ) : x ∈ points bs ↔ ∃ b ∈ bs, x = b.lo ∨ x = b.hi := by
  unfold points
  simp [List.mem_dedup, mem_sortBy]

theorem points_sorted (bs : List Bd) : (points bs).Pairwise (· < ·) := by
  have h1 : (points bs).Pairwise (· ≤ ·) := (sortBy_pairwise (fun x : ℚ => x) _).sublist (List.dedup_sublist _)
  have h2 : (points bs).Nodup := List.nodup_dedup _
  exact (h1.and h2).imp fun ⟨h, h'⟩ => lt_of_le_of_ne h h'

/-- Ranges with a common interval: some centre point is valid for all. -/
theorem common_status (bs : List Bd) (hne : bs ≠ []) (h : ∀ a ∈ bs, ∀ b ∈ bs, a.lo < b.hi) :
    ∃ x rest, statuses bs = (x, bs.map fun _ => true) :: rest ∧ ∀ b ∈ bs, b.isValid x = true := by
  -- the largest lower end
  obtain ⟨m, hm, hmax⟩ : ∃ m ∈ bs, ∀ b ∈ bs, b.lo ≤ m.lo := by
    have : ∀ l : List Bd, l ≠ [] → ∃ m ∈ l, ∀ b ∈ l, b.lo ≤ m.lo := by
      intro l
      induction l with
      | nil => intro h; exact absurd rfl h
      | cons a l ih =>
        intro _
        by_cases hl : l = []
        · subst hl; exact ⟨a, by simp, by simp⟩
        · obtain ⟨m, hm, h⟩ := ih hl
          by_cases hc : m.lo ≤ a.lo
          · refine ⟨a, by simp, fun b hb => ?_⟩
            rcases List.mem_cons.mp hb with rfl | hb
            · exact le_refl _
            · exact le_trans (h b hb) hc
          · refine ⟨m, by simp [hm], fun b hb => ?_⟩
            rcases List.mem_cons.mp hb with rfl | hb
            · exact le_of_lt (not_le.mp hc)
            · exact h b hb
    exact this bs hne
  obtain ⟨x, hx, hmx, hxl⟩ := mid_after (points bs) (points_sorted bs) m.lo ((mem_points bs _).mpr ⟨m, hm, Or.inl rfl⟩)
    ⟨m.hi, (mem_points bs _).mpr ⟨m, hm, Or.inr rfl⟩, h m hm m hm⟩
  have hval : ∀ b ∈ bs, b.isValid x = true := by
    intro b hb
    unfold Bd.isValid
    rw [decide_eq_true_eq]
    have h1 := hmax b hb
    have h2 := hxl b.hi ((mem_points bs _).mpr ⟨b, hb, Or.inr rfl⟩) (h m hm b hb)
    constructor <;> linarith
  have hmem : (x, bs.map fun b => b.isValid x) ∈ statuses bs :=
    (mem_sortBy _ _ _).mpr (List.mem_map.mpr ⟨x, hx, rfl⟩)
  have hs := sortBy_pairwise (fun e : ℚ × List Bool => -(e.2.count true : ℤ))
    ((Table.mids (points bs)).map fun x => (x, bs.map fun b => b.isValid x))
  have hall : (bs.map fun b => b.isValid x).count true = bs.length := by
    rw [List.map_congr_left (g := fun _ => true) hval, List.map_const', List.count_replicate_self]
  cases hst : statuses bs with
  | nil => rw [hst] at hmem; simp at hmem
  | cons e rest =>
    obtain ⟨x', s⟩ := e
    have hin : (x', s) ∈ (Table.mids (points bs)).map fun x => (x, bs.map fun b => b.isValid x) :=
      (mem_sortBy _ _ _).mp (by show (x', s) ∈ statuses bs; rw [hst]; simp)
    obtain ⟨x'', _, he⟩ := List.mem_map.mp hin
    rw [Prod.mk.injEq] at he
    obtain ⟨rfl, rfl⟩ := he
    change (statuses bs).Pairwise _ at hs
    rw [hst, List.pairwise_cons] at hs
    have hc : bs.length ≤ (bs.map fun b => b.isValid x'').count true := by
      rw [hst] at hmem
      rcases List.mem_cons.mp hmem with hm | hm
      · rw [Prod.mk.injEq] at hm
        rw [← hm.1, hall]
      · have := hs.1 _ hm
        dsimp only at this
        rw [hall] at this
        omega
    have hall' : ∀ b ∈ bs, b.isValid x'' = true := by
      have hle := List.count_le_length (a := true) (l := bs.map fun b => b.isValid x'')
      rw [List.length_map] at hle
      have : (bs.map fun b => b.isValid x'').count true = (bs.map fun b => b.isValid x'').length := by
        rw [List.length_map]; omega
      rw [List.count_eq_length] at this
      intro b hb
      exact (this _ (List.mem_map_of_mem hb)).symm
    refine ⟨x'', rest, ?_, hall'⟩
    rw [List.map_congr_left (g := fun _ => true) hall']

theorem byValue_fold (x : ℚ) (idx : List ℕ) (st : State)
    (h : ∀ i ∈ idx, ∃ b, st[i]? = some b ∧ (b.value = none ∧ b.isValid x = true ∨ b.value = some x)) :
    ∀ i ∈ idx, ∃ b, ((idx.foldl (fun st i => byValue st i x) st)[i]?) = some b ∧ b.value = some x := by
  have step : ∀ (st : State) (i j : ℕ) (b : Bd), st[i]? = some b → (b.value = none ∧ b.isValid x = true ∨ b.value = some x) →
      ∃ b', (byValue st j x)[i]? = some b' ∧ (b'.value = none ∧ b'.isValid x = true ∨ b'.value = some x) ∧
        (b.value = some x → b'.value = some x) ∧ (i = j → b'.value = some x) := by
    intro st i j b hb hv
    unfold byValue
    rw [List.getElem?_modify, hb]
    by_cases hij : j = i
    · simp only [hij, if_true, Option.map_eq_map, Option.map_some, Option.some.injEq, exists_eq_left']
      unfold Bd.finalize
      rcases hv with ⟨h1, h2⟩ | h1
      · rw [if_neg (by simp [h1, h2])]
        exact ⟨Or.inr rfl, fun _ => rfl, fun _ => rfl⟩
      · rw [if_pos (by simp [h1])]
        exact ⟨Or.inr h1, fun _ => h1, fun _ => h1⟩
    · refine ⟨b, by simp [hij], hv, id, fun h => absurd h.symm hij⟩
  have keep : ∀ (idx : List ℕ) (st : State) (i : ℕ) (b : Bd), st[i]? = some b → b.value = some x →
      ∃ b', (idx.foldl (fun st i => byValue st i x) st)[i]? = some b' ∧ b'.value = some x := by
    intro idx
    induction idx with
    | nil => intro st i b hb hv; exact ⟨b, hb, hv⟩
    | cons j idx ih =>
      intro st i b hb hv
      obtain ⟨b', hb', _, h3, _⟩ := step st i j b hb (Or.inr hv)
      exact ih _ i b' hb' (h3 hv)
  induction idx generalizing st with
  | nil => intro i hi; simp at hi
  | cons j idx ih =>
    intro i hi
    rw [List.foldl_cons]
    rcases List.mem_cons.mp hi with rfl | hi
    · obtain ⟨b, hb, hv⟩ := h i (by simp)
      obtain ⟨b', hb', _, _, h4⟩ := step st i i b hb hv
      exact keep idx _ i b' hb' (h4 rfl)
    · refine ih (byValue st j x) (fun k hk => ?_) i hi
      obtain ⟨b, hb, hv⟩ := h k (by simp [hk])
      obtain ⟨b', hb', h2, _, _⟩ := step st k j b hb hv
      exact ⟨b', hb', h2⟩

/-- C64 (partial): borders whose ranges have a common interval are all placed, on one common line. -/
theorem C64_aligned_partial (st : State) (idx : List ℕ) (hne : idx ≠ []) (ho : ∀ i ∈ idx, ∃ b, st[i]? = some b ∧ b.value = none)
    (hc : ∀ i ∈ idx, ∀ j ∈ idx, (st.getD i dummy).lo < (st.getD j dummy).hi) :
    ∃ x, ∀ i ∈ idx, ((byLayout st idx).getD i dummy).value = some x := by
  have hbs : (idx.map fun i => st.getD i dummy) ≠ [] := by simpa using hne
  obtain ⟨x, rest, hs, hval⟩ := common_status _ hbs (by
    intro a ha b hb
    obtain ⟨i, hi, rfl⟩ := List.mem_map.mp ha
    obtain ⟨j, hj, rfl⟩ := List.mem_map.mp hb
    exact hc i hi j hj)
  refine ⟨x, ?_⟩
  have hstop : ∀ (r : List (ℚ × List Bool)) st, layoutLoop idx (idx.map fun _ => true) r st = st := by
    intro r st
    cases r with
    | nil => rfl
    | cons e r => obtain ⟨y, s⟩ := e; unfold layoutLoop; rw [if_pos (by simp)]
  have hrun : byLayout st idx = idx.foldl (fun st i => byValue st i x) st := by
    unfold byLayout
    rw [hs, List.map_map]
    unfold layoutLoop
    obtain ⟨a, idx', rfl⟩ := List.exists_cons_of_ne_nil hne
    rw [if_neg (by simp), if_neg]
    · have h1 : ((((a :: idx').map fun _ => false).zip ((a :: idx').map ((fun _ => true) ∘ fun i => st.getD i dummy))).map
          fun p => p.1 || p.2) = (a :: idx').map fun _ => true := by
        simp [List.zip_map', Function.comp_def]
      rw [h1, hstop]
      have h2 : (a :: idx').zip ((a :: idx').map ((fun _ => true) ∘ fun i => st.getD i dummy)) = (a :: idx').map fun i => (i, true) := by
        conv_lhs => rw [← List.map_id (a :: idx')]
        rw [List.map_map, List.zip_map']
        simp
      rw [h2, List.foldl_map]
      simp
    · simp [List.zip_map', Function.comp_def]
  intro i hi
  rw [hrun]
  obtain ⟨b, hb, hv⟩ := byValue_fold x idx st (fun i hi => by
    obtain ⟨b, hb, hv⟩ := ho i hi
    refine ⟨b, hb, Or.inl ⟨hv, ?_⟩⟩
    have := hval (st.getD i dummy) (List.mem_map_of_mem hi)
    rwa [List.getD_eq_getElem?_getD, hb] at this) i hi
  rw [List.getD_eq_getElem?_getD, hb]
  exact hv

/-- Non-vacuity. -/
example : let st := box4 (40, 50) (100, 120) (10, 20) (15, 30)
    (∀ i ∈ [2, 3], ∀ j ∈ [2, 3], (st.getD i dummy).lo < (st.getD j dummy).hi) ∧
    ((byLayout st [2, 3]).getD 2 dummy).value = some (35 / 2) ∧ ((byLayout st [2, 3]).getD 3 dummy).value = some (35 / 2) := by
  decide +kernel

end Props
