import Verif.Props.Stream
import Verif.Props.FullStyle
/-! # Borders of a stream table placed along the sides of a filled area (towards C97) -/

namespace Props
open Py Geom Spec Border

section ShadeB

/-! ## The borders before they are placed -/

/-- Lines on a coloured area. -/
structure AreaLines (F : Rect) (ls : List El) : Prop where
  text : TextLines ls
  inside : ∀ l ∈ ls, Covers F l.bbox
  size : ∀ l ∈ ls, l.bbox.x0 + 1 < l.bbox.x1 ∧ l.bbox.y0 + 1 < l.bbox.y1
  column : ∀ a ∈ ls, ∀ b ∈ ls, ShareColumn a b

theorem sb_mono {F : Rect} {ls ls' : List El} (h : AreaLines F ls) (hs : ∀ l ∈ ls', l ∈ ls) : AreaLines F ls' :=
  ⟨fun l hl => h.text l (hs l hl), fun l hl => h.inside l (hs l hl), fun l hl => h.size l (hs l hl), fun a ha b hb => h.column a (hs a ha) b (hs b hb)⟩

theorem sb_columns (iter : List ℕ → List ℕ) (hi : ∀ l, (iter l).Perm l) (F : Rect) (ls : List El) (h : AreaLines F ls) : Stream.columns iter ls = [] ∨ ∃ c, Stream.columns iter ls = [c] ∧ c.Perm ls := by
  obtain ⟨gs, hg, hp, hpw, hne⟩ := C21_groups iter hi (fun a b : El => a.verticallyAlign b 0 false)
    (fun a b => C25_vertical_symm_partial a b 0 false (by simp)) ls
  have hcols : Stream.columns iter ls = sortBy (fun g => (Stream.hull g).x0) gs := by unfold Stream.columns Stream.groups; rw [hg]
  rw [hcols]
  match gs, hp, hpw, hne with
  | [], _, _, _ => left; rfl
  | [c], hp, _, _ =>
    right
    exact ⟨c, rfl, by simpa using hp⟩
  | c :: d :: rest, hp, hpw, hne =>
    exfalso
    obtain ⟨a, ha⟩ := List.exists_mem_of_ne_nil _ (hne c (by simp)).1
    obtain ⟨b, hb⟩ := List.exists_mem_of_ne_nil _ (hne d (by simp)).1
    have ham := hp.subset (show a ∈ (c :: d :: rest).flatten by simp [ha])
    have hbm := hp.subset (show b ∈ (c :: d :: rest).flatten by simp [hb])
    have := (List.pairwise_cons.1 hpw).1 d (by simp) a ha b hb
    rw [(vAlign_iff a b (h.text a ham).1 (h.text b hbm).1).2 (h.column a ham b hbm)] at this
    cases this

/-- A reference border between two rows. -/
structure Gap (F : Rect) (g : Bd) : Prop where
  horizontal : g.horizontal = true
  lb : g.lb = 2
  ub : g.ub = 3
  reference : g.reference = true
  value : g.value = none
  width : g.width = 0
  color : g.color = 0
  lo : F.y0 + 1 < g.lo
  hi : g.hi + 1 < F.y1

theorem sb_hull (F : Rect) (g : List El) (h : AreaLines F g) (hne : g ≠ []) : F.y0 + 1 < (Stream.hull g).y1 ∧ (Stream.hull g).y0 + 1 < F.y1 := by
  have hs := hull_spec g hne (fun l hl => ⟨(h.text l hl).1, (h.text l hl).2.1⟩)
  obtain ⟨a, ha⟩ := List.exists_mem_of_ne_nil _ hne
  have hc := hs.1 a ha
  have h1 := h.inside a ha
  have h2 := h.size a ha
  exact ⟨by linarith [hc.2.2.2, h1.2.1, h2.2], by linarith [hc.2.1, h1.2.2.2, h2.2]⟩

theorem sb_rowLoop (F : Rect) (call : Stream.Call) (B : ℕ) (rs : List (List El)) (hr : ∀ r ∈ rs, r ≠ [] ∧ AreaLines F r)
    (hcall : ∀ r ∈ rs, ∀ T B st st', call r T B 2 3 st = some st' → ∃ gs, st' = st ++ gs ∧ ∀ g ∈ gs, Gap F g) (top : ℕ) (st st' : State)
    (h : Stream.rowLoop call true B 2 3 top rs st = some st') : ∃ gs, st' = st ++ gs ∧ ∀ g ∈ gs, Gap F g := by
  induction rs generalizing top st with
  | nil =>
    unfold Stream.rowLoop at h
    obtain rfl := Option.some.inj h
    exact ⟨[], by simp, by simp⟩
  | cons r rest ih =>
    cases rest with
    | nil =>
      unfold Stream.rowLoop at h
      exact hcall r (by simp) _ _ _ _ h
    | cons q rest =>
      unfold Stream.rowLoop at h
      rw [Option.bind_eq_some_iff] at h
      obtain ⟨s1, h1, h2⟩ := h
      obtain ⟨g1, e1, k1⟩ := hcall r (by simp) _ _ _ _ h1
      obtain ⟨g2, e2, k2⟩ := ih (fun x hx => hr x (by simp [hx])) (fun x hx => hcall x (by simp [hx])) _ _ h2
      refine ⟨Stream.bd true (Stream.hull r).y1 (Stream.hull q).y0 2 3 true :: (g1 ++ g2), by rw [e2, e1]; simp, ?_⟩
      intro g hg
      rcases List.mem_cons.1 hg with rfl | hg
      · have a1 := sb_hull F r (hr r (by simp)).2 (hr r (by simp)).1
        have a2 := sb_hull F q (hr q (by simp)).2 (hr q (by simp)).1
        exact ⟨rfl, rfl, rfl, rfl, rfl, rfl, rfl, a1.1, a2.2⟩
      · rcases List.mem_append.1 hg with hg | hg
        · exact k1 g hg
        · exact k2 g hg

theorem sb_inner (iter : List ℕ → List ℕ) (hi : ∀ l, (iter l).Perm l) (F : Rect) (n : ℕ) (ls : List El) (h : AreaLines F ls) (T B : ℕ) (st st' : State)
    (hs : Stream.inner iter n ls T B 2 3 st = some st') : ∃ gs, st' = st ++ gs ∧ ∀ g ∈ gs, Gap F g := by
  induction n generalizing ls T B st st' with
  | zero => cases hs
  | succ n ih =>
    unfold Stream.inner at hs
    dsimp only at hs
    rcases sb_columns iter hi F ls h with e | ⟨c, e, hc⟩
    · rw [e] at hs
      unfold Stream.colLoop at hs
      rw [if_neg (by simp)] at hs
      obtain rfl := Option.some.inj hs
      exact ⟨[], by simp, by simp⟩
    · rw [e] at hs
      unfold Stream.colLoop at hs
      rw [if_neg (by simp)] at hs
      unfold Stream.colWork at hs
      split_ifs at hs with h1
      · obtain rfl := Option.some.inj hs
        exact ⟨[], by simp, by simp⟩
      · obtain ⟨p1, p2⟩ := rows_perm iter hi c
        have hmem : ∀ r ∈ Stream.rows iter c, ∀ l ∈ r, l ∈ ls := fun r hr l hl => hc.subset (p1.subset (List.mem_flatten.2 ⟨r, hr, hl⟩))
        have hd : decide (([c] : List (List El)).length ≤ 2) = true := by simp
        rw [hd] at hs
        exact sb_rowLoop F _ B _ (fun r hr => ⟨p2 r hr, sb_mono h (hmem r hr)⟩) (fun r hr T B st st' hcall => ih r (sb_mono h (hmem r hr)) T B st st' hcall) T st st' hs

/-- The borders: four outer ones and reference borders between rows. -/
theorem sb_borders (iter : List ℕ → List ℕ) (hi : ∀ l, (iter l).Perm l) (F page : Rect) (boxes : List Rect) (ls : List El) (h : AreaLines F ls) :
    ∃ gs, Stream.borders iter (ls.length + 1) page boxes ls = some (Stream.outer (Stream.tableBox ls) (Stream.outerBox page boxes ls) ++ gs) ∧ ∀ g ∈ gs, Gap F g := by
  unfold Stream.borders
  obtain ⟨st', hs⟩ := inner_total iter hi (ls.length + 1) ls (by omega) (by omega) 0 1 2 3 (Stream.outer (Stream.tableBox ls) (Stream.outerBox page boxes ls))
  obtain ⟨gs, e, hg⟩ := sb_inner iter hi F _ ls h 0 1 _ _ hs
  exact ⟨gs, by rw [hs, e], hg⟩

/-! ## Boundaries -/

theorem sb_boundaries (F : Rect) (Y1 y0 y1 : ℚ) (h0 : F.y0 ≤ y0) (h1 : y1 ≤ F.y1) (h01 : y0 ≤ y1) (hY : F.y1 ≤ Y1) (bs : List Rect) (hp : ∀ b ∈ bs, b.y0 ≤ b.y1)
    (hb : ∀ b ∈ bs, b.y1 < F.y0 ∨ F.y1 < b.y0 ∨ (y0 ≤ b.y1 ∧ b.y0 ≤ y1)) (lo : ℚ) (hlo : lo ≤ F.y0) :
    (Stream.boundaries Y1 y0 y1 lo bs).1 ≤ F.y0 ∧ F.y1 ≤ (Stream.boundaries Y1 y0 y1 lo bs).2 := by
  induction bs generalizing lo with
  | nil => exact ⟨hlo, hY⟩
  | cons b bs ih =>
    have hpb := hp b (by simp)
    unfold Stream.boundaries
    dsimp only
    have hlo' : (if b.y1 < y0 then b.y1 else lo) ≤ F.y0 := by
      split_ifs with h
      · rcases hb b (by simp) with k | k | k
        · exact le_of_lt k
        · linarith
        · linarith [k.1]
      · exact hlo
    generalize (if b.y1 < y0 then b.y1 else lo) = lo' at hlo' ⊢
    by_cases h2 : y1 < b.y0
    · rw [if_pos h2]
      refine ⟨hlo', ?_⟩
      dsimp only
      rcases hb b (by simp) with k | k | k
      · linarith
      · exact le_of_lt k
      · linarith [k.2]
    · rw [if_neg h2]
      exact ih (fun b hb' => hp b (by simp [hb'])) (fun b hb' => hb b (by simp [hb'])) _ hlo'

/-! ## Placing -/

/-- Above the area / below it / between. -/
def HRange (F : Rect) (b : Bd) : Prop :=
  (b.lo ≤ F.y0 ∧ F.y0 ≤ b.hi ∧ b.hi + 1 < F.y1 ∧ (b.value = none ∨ b.value = some F.y0)) ∨
  (b.lo ≤ F.y1 ∧ F.y1 ≤ b.hi ∧ F.y0 + 1 < b.lo ∧ (b.value = none ∨ b.value = some F.y1)) ∨
  (F.y0 + 1 < b.lo ∧ b.hi + 1 < F.y1 ∧ b.value = none)

/-- State of border `i`. -/
structure Kind (F : Rect) (i : ℕ) (b : Bd) : Prop where
  width : b.width = 0
  color : b.color = 0
  placed : b.value ≠ none → b.reference = false
  free : b.value = none → 4 ≤ i → b.reference = true
  first : i = 0 → b.lo ≤ F.y0 ∧ F.y0 ≤ b.hi ∧ b.hi + 1 < F.y1
  second : i = 1 → b.lo ≤ F.y1 ∧ F.y1 ≤ b.hi ∧ F.y0 + 1 < b.lo
  left : i = 2 → b.horizontal = false ∧ b.lb = 0 ∧ b.ub = 1 ∧ b.lo ≤ F.x0 ∧ F.x0 ≤ b.hi ∧ b.hi + 1 < F.x1 ∧ (b.value = none ∨ b.value = some F.x0)
  right : i = 3 → b.horizontal = false ∧ b.lb = 0 ∧ b.ub = 1 ∧ b.lo ≤ F.x1 ∧ F.x1 ≤ b.hi ∧ F.x0 + 1 < b.lo ∧ (b.value = none ∨ b.value = some F.x1)
  others : i ≠ 2 → i ≠ 3 → b.horizontal = true ∧ b.lb = 2 ∧ b.ub = 3 ∧ HRange F b

/-- The position `v` is the right one for border `i`. -/
def Right (F : Rect) (i : ℕ) (b : Bd) (v : ℚ) : Prop :=
  (i = 2 → v = F.x0) ∧ (i = 3 → v = F.x1) ∧ (i ≠ 2 → i ≠ 3 → (v = F.y0 ∧ b.hi + 1 < F.y1 ∧ b.lo ≤ F.y0) ∨ (v = F.y1 ∧ F.y0 + 1 < b.lo ∧ F.y1 ≤ b.hi))

theorem sb_finalize {F : Rect} {i : ℕ} {b : Bd} (h : Kind F i b) {v : ℚ} (hv : Right F i b v) : Kind F i (b.finalize v) := by
  unfold Bd.finalize
  split_ifs with hc
  · exact h
  · simp only [Bool.or_eq_true, Bool.not_eq_true', not_or, Bool.not_eq_false] at hc
    have hval : b.isValid v = true := by simpa using hc.2
    unfold Bd.isValid at hval
    rw [decide_eq_true_eq] at hval
    refine ⟨h.width, h.color, fun _ => rfl, fun q => (by cases q), h.first, h.second, ?_, ?_, ?_⟩
    · intro e
      obtain ⟨a1, a2, a3, a4, a5, a6, _⟩ := h.left e
      exact ⟨a1, a2, a3, a4, a5, a6, Or.inr (by rw [hv.1 e])⟩
    · intro e
      obtain ⟨a1, a2, a3, a4, a5, a6, _⟩ := h.right e
      exact ⟨a1, a2, a3, a4, a5, a6, Or.inr (by rw [hv.2.1 e])⟩
    · intro e2 e3
      obtain ⟨a1, a2, a3, a4⟩ := h.others e2 e3
      refine ⟨a1, a2, a3, ?_⟩
      unfold HRange at a4 ⊢
      dsimp only at hval ⊢
      rcases hv.2.2 e2 e3 with ⟨rfl, k1, k2⟩ | ⟨rfl, k1, k2⟩
      · rcases a4 with k | k | k
        · exact Or.inl ⟨k.1, k.2.1, k.2.2.1, Or.inr rfl⟩
        · exfalso; linarith [k.2.2.1]
        · exfalso; linarith [k.1]
      · rcases a4 with k | k | k
        · exfalso; linarith [k.1, k.2.1, k.2.2.1]
        · exact Or.inr (Or.inl ⟨k.1, k.2.1, k.2.2.1, Or.inr rfl⟩)
        · exfalso; linarith [k.2.1]

/-- All borders. -/
def Kinds (F : Rect) (st : State) : Prop := 4 ≤ st.length ∧ ∀ i b, st[i]? = some b → Kind F i b

theorem sb_modify {F : Rect} {st : State} (h : Kinds F st) (i : ℕ) (f : Bd → Bd) (hf : ∀ b, st[i]? = some b → Kind F i b → Kind F i (f b)) : Kinds F (st.modify i f) := by
  refine ⟨by rw [List.length_modify]; exact h.1, ?_⟩
  intro j b hb
  rw [List.getElem?_modify] at hb
  cases hs : st[j]? with
  | none => rw [hs] at hb; cases hb
  | some b0 =>
    rw [hs] at hb
    have e := Option.some.inj hb
    dsimp only at e
    by_cases hij : i = j
    · subst hij
      rw [if_pos rfl] at e
      subst e
      exact hf b0 hs (h.2 _ b0 hs)
    · rw [if_neg hij] at e
      subst e
      exact h.2 _ b0 hs

theorem sb_byValue {F : Rect} {st : State} (h : Kinds F st) (i : ℕ) (v : ℚ) (hv : ∀ b, Kind F i b → Right F i b v) : Kinds F (byValue st i v) :=
  sb_modify h i _ fun b _ hb => sb_finalize hb (hv b hb)

theorem sb_right0 {F : Rect} (b : Bd) (h : Kind F 0 b) : Right F 0 b F.y0 :=
  ⟨fun e => (by omega), fun e => (by omega), fun _ _ => Or.inl ⟨rfl, (h.first rfl).2.2, (h.first rfl).1⟩⟩
theorem sb_right1 {F : Rect} (b : Bd) (h : Kind F 1 b) : Right F 1 b F.y1 :=
  ⟨fun e => (by omega), fun e => (by omega), fun _ _ => Or.inr ⟨rfl, (h.second rfl).2.2, (h.second rfl).2.1⟩⟩
theorem sb_right2 {F : Rect} (b : Bd) (_h : Kind F 2 b) : Right F 2 b F.x0 := ⟨fun _ => rfl, fun e => (by omega), fun e => absurd rfl e⟩
theorem sb_right3 {F : Rect} (b : Bd) (_h : Kind F 3 b) : Right F 3 b F.x1 := ⟨fun e => (by omega), fun _ => rfl, fun _ e => absurd rfl e⟩

theorem sb_get {F : Rect} {st : State} (h : Kinds F st) (i : ℕ) (hi : i < st.length) : st[i]? = some (st.getD i dummy) ∧ Kind F i (st.getD i dummy) := by
  have e : st[i]? = some (st.getD i dummy) := by
    rw [List.getD_eq_getElem?_getD, List.getElem?_eq_getElem hi, Option.getD_some]
  exact ⟨e, h.2 i _ e⟩

/-- A side of the area. -/
inductive Side4 (F : Rect) : Line → Prop
  | top : Side4 F ⟨true, F.x0, F.x1, F.y0, 0, 0, false⟩
  | bottom : Side4 F ⟨true, F.x0, F.x1, F.y1, 0, 0, false⟩
  | left : Side4 F ⟨false, F.y0, F.y1, F.x0, 0, 0, false⟩
  | right : Side4 F ⟨false, F.y0, F.y1, F.x1, 0, 0, false⟩

theorem sb_sides (F : Rect) : ∀ s ∈ sides F, Side4 F s := by
  intro s hs
  simp only [sides, List.mem_cons, List.not_mem_nil, or_false] at hs
  rcases hs with rfl | rfl | rfl | rfl
  · exact .top
  · exact .bottom
  · exact .left
  · exact .right

theorem sb_byStroke {F : Rect} {st : State} (h : Kinds F st) (i : ℕ) (hi : i < st.length) (s : Line) (hs : Side4 F s) (hd : s.horizontal = (st.getD i dummy).horizontal) :
    Kinds F (byStroke st i s) := by
  unfold byStroke
  dsimp only
  obtain ⟨e, hk⟩ := sb_get h i hi
  split_ifs with h1 h2 h3
  · exact h
  · exact h
  all_goals
    have hval : (st.getD i dummy).isValid s.value = true := by simpa using h1
    unfold Bd.isValid at hval
    rw [decide_eq_true_eq] at hval
  · -- already placed
    by_cases hv : i = 2 ∨ i = 3
    · have hh : (st.getD i dummy).horizontal = false ∧ (st.getD i dummy).lb = 0 ∧ (st.getD i dummy).ub = 1 := by
        rcases hv with rfl | rfl
        · exact ⟨(hk.left rfl).1, (hk.left rfl).2.1, (hk.left rfl).2.2.1⟩
        · exact ⟨(hk.right rfl).1, (hk.right rfl).2.1, (hk.right rfl).2.2.1⟩
      rw [hh.1] at hd
      rw [hh.2.1, hh.2.2]
      have : s.low = F.y0 ∧ s.up = F.y1 := by cases hs <;> first | exact ⟨rfl, rfl⟩ | cases hd
      rw [this.1, this.2]
      exact sb_byValue (sb_byValue h 0 _ sb_right0) 1 _ sb_right1
    · obtain ⟨e1, e2, e3, _⟩ := hk.others (fun q => hv (Or.inl q)) (fun q => hv (Or.inr q))
      rw [e1] at hd
      rw [e2, e3]
      have : s.low = F.x0 ∧ s.up = F.x1 := by cases hs <;> first | exact ⟨rfl, rfl⟩ | cases hd
      rw [this.1, this.2]
      exact sb_byValue (sb_byValue h 2 _ sb_right2) 3 _ sb_right3
  · have hR : Right F i (st.getD i dummy) s.value := by
      by_cases hv : i = 2
      · subst hv
        obtain ⟨a1, a2, a3, a4, a5, a6, _⟩ := hk.left rfl
        rw [a1] at hd
        refine ⟨fun _ => ?_, fun q => (by omega), fun q => absurd rfl q⟩
        cases hs with
        | top => cases hd
        | bottom => cases hd
        | left => rfl
        | right => exfalso; dsimp only at hval; linarith [hval.2]
      · by_cases hv3 : i = 3
        · subst hv3
          obtain ⟨a1, a2, a3, a4, a5, a6, _⟩ := hk.right rfl
          rw [a1] at hd
          refine ⟨fun q => (by omega), fun _ => ?_, fun _ q => absurd rfl q⟩
          cases hs with
          | top => cases hd
          | bottom => cases hd
          | left => exfalso; dsimp only at hval; linarith [hval.1]
          | right => rfl
        · obtain ⟨a1, a2, a3, a4⟩ := hk.others hv hv3
          rw [a1] at hd
          refine ⟨fun q => absurd q hv, fun q => absurd q hv3, fun _ _ => ?_⟩
          cases hs with
          | left => cases hd
          | right => cases hd
          | top =>
            dsimp only at hval ⊢
            rcases a4 with k | k | k
            · exact Or.inl ⟨rfl, k.2.2.1, k.1⟩
            · exfalso; linarith [hval.1, k.2.2.1]
            · exfalso; linarith [hval.1, k.1]
          | bottom =>
            dsimp only at hval ⊢
            rcases a4 with k | k | k
            · exfalso; linarith [hval.2, k.2.2.1]
            · exact Or.inr ⟨rfl, k.2.2.1, k.2.1⟩
            · exfalso; linarith [hval.2, k.2.1]
    have hw : s.width = 0 ∧ s.color = 0 := by cases hs <;> exact ⟨rfl, rfl⟩
    have hm : Kinds F (st.modify i fun b => { b.finalize s.value with color := s.color, width := s.width }) := by
      refine sb_modify h i _ fun b hb hkb => ?_
      rw [e] at hb
      obtain rfl := Option.some.inj hb
      have := sb_finalize hkb hR
      rw [hw.1, hw.2]
      exact ⟨rfl, rfl, this.placed, this.free, this.first, this.second, this.left, this.right, this.others⟩
    by_cases hv : i = 2 ∨ i = 3
    · have hh : (st.getD i dummy).horizontal = false ∧ (st.getD i dummy).lb = 0 ∧ (st.getD i dummy).ub = 1 := by
        rcases hv with rfl | rfl
        · exact ⟨(hk.left rfl).1, (hk.left rfl).2.1, (hk.left rfl).2.2.1⟩
        · exact ⟨(hk.right rfl).1, (hk.right rfl).2.1, (hk.right rfl).2.2.1⟩
      rw [hh.1] at hd
      rw [hh.2.1, hh.2.2]
      have : s.low = F.y0 ∧ s.up = F.y1 := by cases hs <;> first | exact ⟨rfl, rfl⟩ | cases hd
      rw [this.1, this.2]
      exact sb_byValue (sb_byValue hm 0 _ sb_right0) 1 _ sb_right1
    · obtain ⟨e1, e2, e3, _⟩ := hk.others (fun q => hv (Or.inl q)) (fun q => hv (Or.inr q))
      rw [e1] at hd
      rw [e2, e3]
      have : s.low = F.x0 ∧ s.up = F.x1 := by cases hs <;> first | exact ⟨rfl, rfl⟩ | cases hd
      rw [this.1, this.2]
      exact sb_byValue (sb_byValue hm 2 _ sb_right2) 3 _ sb_right3

/-- Placing along the sides keeps the kinds. -/
theorem sb_inner_step {F : Rect} (s : Line) (hs : Side4 F s) (is : List ℕ) (st : State) (h : Kinds F st) (hi : ∀ i ∈ is, i < st.length) :
    Kinds F (is.foldl (fun st i => if s.horizontal ≠ (st.getD i dummy).horizontal then st else byStroke st i s) st) := by
  induction is generalizing st with
  | nil => exact h
  | cons i is ih =>
    rw [List.foldl_cons]
    split_ifs with hd
    · exact ih st h fun j hj => hi j (by simp [hj])
    · refine ih _ (sb_byStroke h i (hi i (by simp)) s hs (not_not.1 hd)) fun j hj => ?_
      rw [← (extAll_byStroke st i s).length_eq]
      exact hi j (by simp [hj])

theorem sb_byStrokes {F : Rect} (l : List Line) (hl : ∀ s ∈ l, Side4 F s) (st : State) (h : Kinds F st) : Kinds F (byStrokes st l) := by
  unfold byStrokes
  induction l generalizing st with
  | nil => exact h
  | cons s l ih =>
    rw [List.foldl_cons]
    have hs := hl s (by simp)
    have hdet : s.determined = false := by cases hs <;> rfl
    rw [hdet]
    exact ih (fun s hs => hl s (by simp [hs])) _ (sb_inner_step s hs _ _ h fun i hi => List.mem_range.1 hi)

/-- Border `i` is placed. -/
def Placed (st : State) (i : ℕ) : Prop := ∃ b, st[i]? = some b ∧ b.value ≠ none

theorem sb_placed_ext {st st' : State} (h : ExtAll st st') {i : ℕ} (hp : Placed st i) : Placed st' i := by
  obtain ⟨b, hb, hv⟩ := hp
  obtain ⟨b', hb', he⟩ := h.get i b hb
  refine ⟨b', hb', ?_⟩
  rcases he with rfl | ⟨h0, _⟩
  · exact hv
  · exact absurd h0 hv

theorem sb_placed_value (st : State) (i : ℕ) (v : ℚ) (b : Bd) (hb : st[i]? = some b) (hv : b.isValid v = true) : Placed (byValue st i v) i := by
  refine ⟨b.finalize v, ?_, ?_⟩
  · unfold byValue
    rw [List.getElem?_modify, hb]
    simp
  · unfold Bd.finalize
    split_ifs with h
    · intro hn
      rw [hn, hv] at h
      cases h
    · exact fun q => by cases q

theorem sb_modify_ne (st : State) (i k : ℕ) (f : Bd → Bd) (h : k ≠ i) : (st.modify i f)[k]? = st[k]? := by
  rw [List.getElem?_modify]
  cases st[k]? with
  | none => rfl
  | some b =>
    show some (if i = k then f b else b) = some b
    rw [if_neg (Ne.symm h)]

theorem sb_placed_modify (st : State) (i : ℕ) (f : Bd → Bd) (b : Bd) (hb : st[i]? = some b) (hv : (f b).value ≠ none) : Placed (st.modify i f) i := by
  refine ⟨f b, ?_, hv⟩
  rw [List.getElem?_modify, hb]
  simp

/-- The top side places border 0, and the left and right borders; the bottom side border 1. -/
theorem sb_place_first {F : Rect} {st : State} (h : Kinds F st) (i : ℕ) (hi : i < 2) :
    Placed (byStroke st i ⟨true, F.x0, F.x1, if i = 0 then F.y0 else F.y1, 0, 0, false⟩) i ∧
    Placed (byStroke st i ⟨true, F.x0, F.x1, if i = 0 then F.y0 else F.y1, 0, 0, false⟩) 2 ∧
    Placed (byStroke st i ⟨true, F.x0, F.x1, if i = 0 then F.y0 else F.y1, 0, 0, false⟩) 3 := by
  obtain ⟨e, hk⟩ := sb_get h i (by have := h.1; omega)
  obtain ⟨e2, hk2⟩ := sb_get h 2 (by have := h.1; omega)
  obtain ⟨e3, hk3⟩ := sb_get h 3 (by have := h.1; omega)
  obtain ⟨a1, a2, a3, a4⟩ := hk.others (by omega) (by omega)
  have hval : (st.getD i dummy).isValid (if i = 0 then F.y0 else F.y1) = true := by
    unfold Bd.isValid
    rw [decide_eq_true_eq]
    split_ifs with h0
    · have := hk.first h0; exact ⟨by linarith [this.1], by linarith [this.2.1]⟩
    · have := hk.second (by omega); exact ⟨by linarith [this.1], by linarith [this.2.1]⟩
  have hv2 : (st.getD 2 dummy).isValid F.x0 = true := by
    unfold Bd.isValid
    rw [decide_eq_true_eq]
    obtain ⟨_, _, _, k1, k2, _⟩ := hk2.left rfl
    exact ⟨by linarith, by linarith⟩
  have hv3 : (st.getD 3 dummy).isValid F.x1 = true := by
    unfold Bd.isValid
    rw [decide_eq_true_eq]
    obtain ⟨_, _, _, k1, k2, _⟩ := hk3.right rfl
    exact ⟨by linarith, by linarith⟩
  have hnot : ¬ ((st.getD (st.getD i dummy).lb dummy).hi < F.x0 ∧ F.x1 < (st.getD (st.getD i dummy).ub dummy).lo) := by
    rw [a2]
    rintro ⟨k1, _⟩
    linarith [(hk2.left rfl).2.2.2.2.1]
  unfold byStroke
  dsimp only
  rw [if_neg (by rw [hval]; simp), if_neg hnot, a2, a3]
  set st1 := (if (st.getD i dummy).value.isSome = true then st else st.modify i fun b => { b.finalize (if i = 0 then F.y0 else F.y1) with color := 0, width := 0 }) with hst1
  have g1 : Placed st1 i := by
    rw [hst1]
    by_cases hs : (st.getD i dummy).value.isSome = true
    · rw [if_pos hs]
      exact ⟨_, e, fun q => by rw [q] at hs; cases hs⟩
    · rw [if_neg hs]
      refine sb_placed_modify st i _ _ e ?_
      have hh : (st.getD i dummy).value = none := by simpa using hs
      dsimp only
      unfold Bd.finalize
      rw [if_neg (by rw [hh, hval]; simp)]
      exact fun q => by cases q
  have hne : ∀ k, k ≠ i → st1[k]? = st[k]? := by
    intro k hk
    rw [hst1]
    by_cases hs : (st.getD i dummy).value.isSome = true
    · rw [if_pos hs]
    · rw [if_neg hs]; exact sb_modify_ne _ _ _ _ hk
  have e2' : st1[2]? = some (st.getD 2 dummy) := by rw [hne 2 (by omega), e2]
  have e3' : (byValue st1 2 F.x0)[3]? = some (st.getD 3 dummy) := by
    unfold byValue
    rw [sb_modify_ne _ _ _ _ (by omega), hne 3 (by omega), e3]
  refine ⟨sb_placed_ext (extAll_byValue _ _ _) (sb_placed_ext (extAll_byValue _ _ _) g1), ?_, ?_⟩
  · exact sb_placed_ext (extAll_byValue _ _ _) (sb_placed_value st1 2 F.x0 _ e2' hv2)
  · exact sb_placed_value _ 3 F.x1 _ e3' hv3

theorem sb_ext_inner (s : Line) (is : List ℕ) (st : State) : ExtAll st (is.foldl (fun st i => if s.horizontal ≠ (st.getD i dummy).horizontal then st else byStroke st i s) st) :=
  extAll_foldl _ (fun st i => by
    split_ifs
    · exact ExtAll.refl _
    · exact extAll_byStroke _ _ _) is st

theorem sb_place_step {F : Rect} (i : ℕ) (hi : i < 2) (st : State) (h : Kinds F st) :
    let s : Line := ⟨true, F.x0, F.x1, if i = 0 then F.y0 else F.y1, 0, 0, false⟩
    let st' := (List.range st.length).foldl (fun st j => if s.horizontal ≠ (st.getD j dummy).horizontal then st else byStroke st j s) st
    Placed st' i ∧ Placed st' 2 ∧ Placed st' 3 := by
  intro s st'
  have hs : Side4 F s := by
    show Side4 F ⟨true, F.x0, F.x1, if i = 0 then F.y0 else F.y1, 0, 0, false⟩
    split_ifs
    · exact .top
    · exact .bottom
  have hlen := h.1
  have e : List.range st.length = List.range i ++ i :: (List.range (st.length - i - 1)).map (fun x => i + 1 + x) := by
    have : st.length = i + (1 + (st.length - i - 1)) := by omega
    conv_lhs => rw [this, List.range_add, List.range_add]
    simp [Function.comp_def, Nat.add_assoc]
  have hst' : st' = ((List.range (st.length - i - 1)).map (fun x => i + 1 + x)).foldl (fun st j => if s.horizontal ≠ (st.getD j dummy).horizontal then st else byStroke st j s)
      ((fun st j => if s.horizontal ≠ (st.getD j dummy).horizontal then st else byStroke st j s)
        ((List.range i).foldl (fun st j => if s.horizontal ≠ (st.getD j dummy).horizontal then st else byStroke st j s) st) i) := by
    show List.foldl _ _ _ = _
    rw [e, List.foldl_append, List.foldl_cons]
  set st1 := (List.range i).foldl (fun st j => if s.horizontal ≠ (st.getD j dummy).horizontal then st else byStroke st j s) st with hst1
  have hk1 : Kinds F st1 := sb_inner_step s hs _ st h fun j hj => by have := List.mem_range.1 hj; omega
  obtain ⟨e1, hk⟩ := sb_get hk1 i (by have := hk1.1; omega)
  have hd : ¬ (s.horizontal ≠ (st1.getD i dummy).horizontal) := by
    rw [(hk.others (by omega) (by omega)).1]
    simp [s]
  dsimp only at hst'
  rw [if_neg hd] at hst'
  obtain ⟨p1, p2, p3⟩ := sb_place_first hk1 i hi
  rw [hst']
  exact ⟨sb_placed_ext (sb_ext_inner _ _ _) p1, sb_placed_ext (sb_ext_inner _ _ _) p2, sb_placed_ext (sb_ext_inner _ _ _) p3⟩

theorem sb_placed {F : Rect} (st : State) (h : Kinds F st) : ∀ i < 4, Placed (byStrokes st (sides F)) i := by
  have hx : byStrokes st (sides F) = byStrokes (byStrokes (byStrokes st [⟨true, F.x0, F.x1, F.y0, 0, 0, false⟩]) [⟨true, F.x0, F.x1, F.y1, 0, 0, false⟩])
      [⟨false, F.y0, F.y1, F.x0, 0, 0, false⟩, ⟨false, F.y0, F.y1, F.x1, 0, 0, false⟩] := by
    unfold byStrokes sides
    rfl
  have h1 := sb_place_step 0 (by omega) st h
  have hk1 : Kinds F (byStrokes st [⟨true, F.x0, F.x1, F.y0, 0, 0, false⟩]) := sb_byStrokes _ (by simp; exact .top) st h
  have h2 := sb_place_step 1 (by omega) _ hk1
  have e1 : Placed (byStrokes st [⟨true, F.x0, F.x1, F.y0, 0, 0, false⟩]) 0 ∧ Placed (byStrokes st [⟨true, F.x0, F.x1, F.y0, 0, 0, false⟩]) 2 ∧
    Placed (byStrokes st [⟨true, F.x0, F.x1, F.y0, 0, 0, false⟩]) 3 := h1
  have e2 : Placed (byStrokes (byStrokes st [⟨true, F.x0, F.x1, F.y0, 0, 0, false⟩]) [⟨true, F.x0, F.x1, F.y1, 0, 0, false⟩]) 1 := h2.1
  rw [hx]
  intro i hi
  refine sb_placed_ext (extAll_byStrokes _ _) ?_
  have : i = 0 ∨ i = 1 ∨ i = 2 ∨ i = 3 := by omega
  rcases this with rfl | rfl | rfl | rfl
  · exact sb_placed_ext (extAll_byStrokes _ _) e1.1
  · exact e2
  · exact sb_placed_ext (extAll_byStrokes _ _) e1.2.1
  · exact sb_placed_ext (extAll_byStrokes _ _) e1.2.2

/-! ## From the lines to the strokes -/

theorem sb_insert (key : ℕ → ℚ) (a b : ℕ) (h : key a < key b) (l : List ℕ) (hl : l.Perm [a, b]) : sortBy key l = [a, b] := by
  have hp : (sortBy key l).Perm [a, b] := (sortBy_perm key l).trans hl
  have hs := sortBy_pairwise key l
  match sortBy key l, hp, hs with
  | [], hp, _ => exact absurd hp.length_eq (by simp)
  | [x], hp, _ => exact absurd hp.length_eq (by simp)
  | x :: y :: z :: w, hp, _ => exact absurd hp.length_eq (by simp)
  | [x, y], hp, hs =>
    have hxy := (List.pairwise_cons.1 hs).1 y (by simp)
    have hne : a ≠ b := fun q => by rw [q] at h; exact lt_irrefl _ h
    have hx := hp.subset (show x ∈ [x, y] by simp)
    have ha := hp.symm.subset (show a ∈ [a, b] by simp)
    have hb := hp.symm.subset (show b ∈ [a, b] by simp)
    simp only [List.mem_cons, List.not_mem_nil, or_false] at hx ha hb
    rcases hx with rfl | rfl
    · rcases hb with rfl | rfl
      · exact absurd rfl hne
      · rfl
    · rcases ha with rfl | rfl
      · exact absurd rfl hne
      · linarith

/-- The outer borders and the gaps are of the right kinds, and so are the borders added. -/
theorem sb_dummies (F i o : Rect) (hi : Covers F i) (ho : Covers o F) (hx : i.x0 + 1 < i.x1) (hy : i.y0 + 1 < i.y1) (gs : List Bd) (hg : ∀ g ∈ gs, Gap F g)
    (order : List (ℚ × ℚ) → List (ℚ × ℚ)) (hord : ∀ l, (order l).Perm l) : Kinds F (addDummies order (Stream.outer i o ++ gs)) := by
  obtain ⟨i0, i1, i2, i3⟩ := hi
  obtain ⟨o0, o1, o2, o3⟩ := ho
  set st := Stream.outer i o ++ gs with hst
  have hH : ∀ b ∈ st, b.horizontal = true → b.value = none ∧ HRange F b := by
    intro b hb hh
    rcases List.mem_append.1 hb with hb | hb
    · simp only [Stream.outer, List.mem_cons, List.not_mem_nil, or_false] at hb
      rcases hb with rfl | rfl | rfl | rfl
      · exact ⟨rfl, Or.inl ⟨o1, i1, by dsimp only [Stream.bd]; linarith, Or.inl rfl⟩⟩
      · exact ⟨rfl, Or.inr (Or.inl ⟨i3, o3, by dsimp only [Stream.bd]; linarith, Or.inl rfl⟩)⟩
      · cases hh
      · cases hh
    · have := hg b hb
      exact ⟨this.value, Or.inr (Or.inr ⟨this.lo, this.hi, this.value⟩)⟩
  have hfour : ∀ k b, st[k]? = some b → Kind F k b := by
    intro k b hb
    have h4 : (Stream.outer i o).length = 4 := rfl
    by_cases hk : k < 4
    · rw [hst, List.getElem?_append_left (by omega)] at hb
      have : k = 0 ∨ k = 1 ∨ k = 2 ∨ k = 3 := by omega
      rcases this with rfl | rfl | rfl | rfl
      · obtain rfl := Option.some.inj hb
        refine ⟨rfl, rfl, fun q => absurd rfl q, fun _ q => (by omega), fun _ => ⟨o1, i1, by dsimp only [Stream.bd]; linarith⟩, fun q => (by omega), fun q => (by omega), fun q => (by omega),
          fun _ _ => ⟨rfl, rfl, rfl, Or.inl ⟨o1, i1, by dsimp only [Stream.bd]; linarith, Or.inl rfl⟩⟩⟩
      · obtain rfl := Option.some.inj hb
        refine ⟨rfl, rfl, fun q => absurd rfl q, fun _ q => (by omega), fun q => (by omega), fun _ => ⟨i3, o3, by dsimp only [Stream.bd]; linarith⟩, fun q => (by omega), fun q => (by omega),
          fun _ _ => ⟨rfl, rfl, rfl, Or.inr (Or.inl ⟨i3, o3, by dsimp only [Stream.bd]; linarith, Or.inl rfl⟩)⟩⟩
      · obtain rfl := Option.some.inj hb
        refine ⟨rfl, rfl, fun q => absurd rfl q, fun _ q => (by omega), fun q => (by omega), fun q => (by omega),
          fun _ => ⟨rfl, rfl, rfl, o0, i0, by dsimp only [Stream.bd]; linarith, Or.inl rfl⟩, fun q => (by omega), fun q => absurd rfl q⟩
      · obtain rfl := Option.some.inj hb
        refine ⟨rfl, rfl, fun q => absurd rfl q, fun _ q => (by omega), fun q => (by omega), fun q => (by omega), fun q => (by omega),
          fun _ => ⟨rfl, rfl, rfl, i2, o2, by dsimp only [Stream.bd]; linarith, Or.inl rfl⟩, fun _ q => absurd rfl q⟩
    · rw [hst, List.getElem?_append_right (by omega)] at hb
      have g := hg b (List.mem_of_getElem? hb)
      exact ⟨g.width, g.color, fun q => absurd g.value q, fun _ _ => g.reference, fun q => (by omega), fun q => (by omega), fun q => (by omega), fun q => (by omega),
        fun _ _ => ⟨g.horizontal, g.lb, g.ub, Or.inr (Or.inr ⟨g.lo, g.hi, g.value⟩)⟩⟩
  have hlen : 4 ≤ st.length := by rw [hst]; simp [Stream.outer]
  have hk0 : Kinds F st := ⟨hlen, hfour⟩
  -- the vertical borders
  have hvs : sortBy (fun k => (st.getD k dummy).pos) ((List.range st.length).filter fun k => !(st.getD k dummy).horizontal) = [2, 3] := by
    refine sb_insert _ 2 3 ?_ _ ?_
    · have e2 : st.getD 2 dummy = Stream.bd false o.x0 i.x0 0 1 false := rfl
      have e3 : st.getD 3 dummy = Stream.bd false i.x1 o.x1 0 1 false := rfl
      rw [e2, e3]
      dsimp only [Bd.pos, Stream.bd, Option.getD_none]
      linarith
    · refine (List.perm_ext_iff_of_nodup (List.nodup_range.filter _) (by simp)).2 fun k => ?_
      rw [List.mem_filter, List.mem_range]
      constructor
      · rintro ⟨h1, h2⟩
        by_contra hcon
        simp only [List.mem_cons, List.not_mem_nil, or_false, not_or] at hcon
        have := ((sb_get hk0 k h1).2.others hcon.1 hcon.2).1
        rw [this] at h2
        cases h2
      · intro hk
        simp only [List.mem_cons, List.not_mem_nil, or_false] at hk
        rcases hk with rfl | rfl
        · exact ⟨by omega, by rw [((sb_get hk0 2 (by omega)).2.left rfl).1]; rfl⟩
        · exact ⟨by omega, by rw [((sb_get hk0 3 (by omega)).2.right rfl).1]; rfl⟩
  unfold addDummies
  dsimp only
  rw [hvs]
  refine ⟨by rw [List.length_append]; omega, ?_⟩
  intro k b hb
  by_cases hk : k < st.length
  · rw [List.getElem?_append_left hk] at hb
    exact hfour k b hb
  · rw [List.getElem?_append_right (by omega)] at hb
    have hm := List.mem_of_getElem? hb
    obtain ⟨p, hp, hm⟩ := List.mem_flatMap.1 hm
    have hp' : p = (2, 3) := by simpa [pairs] using hp
    subst hp'
    split_ifs at hm
    · cases hm
    · obtain ⟨q, hq, e⟩ := List.mem_filterMap.1 hm
      split_ifs at e
      obtain rfl := Option.some.inj e
      have hq := (hord _).subset hq
      rw [List.mem_dedup] at hq
      obtain ⟨b0, hb0, rfl⟩ := List.mem_map.1 hq
      obtain ⟨hb0, hh⟩ := List.mem_filter.1 hb0
      obtain ⟨hv, hr⟩ := hH b0 hb0 hh
      refine ⟨rfl, rfl, fun q => absurd rfl q, fun _ _ => rfl, fun q => (by omega), fun q => (by omega), fun q => (by omega), fun q => (by omega), fun _ _ => ⟨rfl, rfl, rfl, ?_⟩⟩
      rcases hr with r | r | r
      · exact Or.inl ⟨r.1, r.2.1, r.2.2.1, Or.inl rfl⟩
      · exact Or.inr (Or.inl ⟨r.1, r.2.1, r.2.2.1, Or.inl rfl⟩)
      · exact Or.inr (Or.inr ⟨r.1, r.2.1, rfl⟩)

/-- Nothing is left to be placed by the layout. -/
theorem sb_layout_nil (st : State) : byLayout st [] = st := by
  unfold byLayout
  rw [List.map_nil]
  generalize statuses _ = l
  cases l with
  | nil => rfl
  | cons a l => rfl

/-- The sides of the area as lines. -/
inductive SideLine (F : Rect) : (ℚ × ℚ × ℚ × ℚ) × ℚ × ℕ → Prop
  | top : SideLine F ((F.x0, F.y0, F.x1, F.y0), 0, 0)
  | bottom : SideLine F ((F.x0, F.y1, F.x1, F.y1), 0, 0)
  | left : SideLine F ((F.x0, F.y0, F.x0, F.y1), 0, 0)
  | right : SideLine F ((F.x1, F.y0, F.x1, F.y1), 0, 0)

theorem sb_value {F : Rect} {st : State} (h : Kinds F st) (hp : ∀ i < 4, Placed st i) :
    (st.getD 0 dummy).value = some F.y0 ∧ (st.getD 1 dummy).value = some F.y1 ∧ (st.getD 2 dummy).value = some F.x0 ∧ (st.getD 3 dummy).value = some F.x1 := by
  have g : ∀ i < 4, Kind F i (st.getD i dummy) ∧ (st.getD i dummy).value ≠ none := by
    intro i hi
    obtain ⟨e, hk⟩ := sb_get h i (by have := h.1; omega)
    obtain ⟨b, hb, hv⟩ := hp i hi
    rw [e] at hb
    obtain rfl := Option.some.inj hb
    exact ⟨hk, hv⟩
  refine ⟨?_, ?_, ?_, ?_⟩
  · obtain ⟨hk, hv⟩ := g 0 (by omega)
    have f := hk.first rfl
    rcases (hk.others (by omega) (by omega)).2.2.2 with k | k | k
    · exact k.2.2.2.resolve_left hv
    · exfalso; linarith [f.1, k.2.2.1]
    · exact absurd k.2.2 hv
  · obtain ⟨hk, hv⟩ := g 1 (by omega)
    have f := hk.second rfl
    rcases (hk.others (by omega) (by omega)).2.2.2 with k | k | k
    · exfalso; linarith [f.2.1, k.2.2.1]
    · exact k.2.2.2.resolve_left hv
    · exact absurd k.2.2 hv
  · obtain ⟨hk, hv⟩ := g 2 (by omega)
    exact (hk.left rfl).2.2.2.2.2.2.resolve_left hv
  · obtain ⟨hk, hv⟩ := g 3 (by omega)
    exact (hk.right rfl).2.2.2.2.2.2.resolve_left hv

/-- The borders placed are exactly the sides of the area. -/
theorem sb_final (F i o : Rect) (hi : Covers F i) (ho : Covers o F) (hx : i.x0 + 1 < i.x1) (hy : i.y0 + 1 < i.y1) (gs : List Bd) (hg : ∀ g ∈ gs, Gap F g)
    (order : List (ℚ × ℚ) → List (ℚ × ℚ)) (hord : ∀ l, (order l).Perm l) :
    let fin := finalize order [] [F] (Stream.outer i o ++ gs)
    ∀ t, (∃ b ∈ fin, toStroke fin b = some t) ↔ SideLine F t := by
  intro fin
  have hk := sb_dummies F i o hi ho hx hy gs hg order hord
  have hk1 : Kinds F (byStrokes (addDummies order (Stream.outer i o ++ gs)) (sides F)) := sb_byStrokes _ (sb_sides F) _ hk
  have hp1 := sb_placed _ hk
  have hopen : ∀ d, open_ d (byStrokes (addDummies order (Stream.outer i o ++ gs)) (sides F)) = [] := by
    intro d
    unfold open_
    rw [List.filter_eq_nil_iff]
    intro k hkm hcon
    rw [List.mem_range] at hkm
    obtain ⟨e, kk⟩ := sb_get hk1 k hkm
    dsimp only at hcon
    simp only [Bool.and_eq_true, Bool.not_eq_true', Bool.or_eq_false_iff] at hcon
    obtain ⟨⟨h1, h2⟩, _⟩ := hcon
    have hn : ((byStrokes (addDummies order (Stream.outer i o ++ gs)) (sides F)).getD k dummy).value = none := by simpa using h1
    by_cases h4 : k < 4
    · obtain ⟨b, hb, hv⟩ := hp1 k h4
      rw [e] at hb
      obtain rfl := Option.some.inj hb
      exact hv hn
    · rw [kk.free hn (by omega)] at h2
      cases h2
  have efin : fin = byStrokes (addDummies order (Stream.outer i o ++ gs)) (sides F) := by
    show finalize order [] [F] (Stream.outer i o ++ gs) = _
    unfold finalize
    dsimp only
    have e1 : byStrokes (addDummies order (Stream.outer i o ++ gs)) [] = addDummies order (Stream.outer i o ++ gs) := rfl
    have e2 : [F].flatMap sides = sides F := by simp
    rw [e1, e2, hopen, hopen, sb_layout_nil, sb_layout_nil]
  rw [← efin] at hk1 hp1
  clear_value fin
  obtain ⟨v0, v1, v2, v3⟩ := sb_value hk1 hp1
  have p0 : (fin.getD 0 dummy).pos = F.y0 := by unfold Bd.pos; rw [v0]; rfl
  have p1 : (fin.getD 1 dummy).pos = F.y1 := by unfold Bd.pos; rw [v1]; rfl
  have p2 : (fin.getD 2 dummy).pos = F.x0 := by unfold Bd.pos; rw [v2]; rfl
  have p3 : (fin.getD 3 dummy).pos = F.x1 := by unfold Bd.pos; rw [v3]; rfl
  have hmem : ∀ k < 4, fin.getD k dummy ∈ fin ∧ (fin.getD k dummy).reference = false := by
    intro k hk4
    obtain ⟨e, kk⟩ := sb_get hk1 k (by have := hk1.1; omega)
    refine ⟨List.mem_of_getElem? e, kk.placed ?_⟩
    obtain ⟨b, hb, hv⟩ := hp1 k hk4
    rw [e] at hb
    obtain rfl := Option.some.inj hb
    exact hv
  have hstroke : ∀ (k : ℕ) (b : Bd), fin[k]? = some b → b.reference = false → toStroke fin b = some
      (if b.horizontal then (F.x0, b.pos, F.x1, b.pos) else (b.pos, F.y0, b.pos, F.y1), 0, 0) := by
    intro k b hb hr
    have kk := hk1.2 k b hb
    unfold toStroke
    rw [hr, if_neg (by simp), kk.width, kk.color]
    by_cases h2 : k = 2 ∨ k = 3
    · have : b.horizontal = false ∧ b.lb = 0 ∧ b.ub = 1 := by
        rcases h2 with rfl | rfl
        · exact ⟨(kk.left rfl).1, (kk.left rfl).2.1, (kk.left rfl).2.2.1⟩
        · exact ⟨(kk.right rfl).1, (kk.right rfl).2.1, (kk.right rfl).2.2.1⟩
      rw [this.1, this.2.1, this.2.2]
      dsimp only
      rw [p0, p1]
      rfl
    · obtain ⟨a1, a2, a3, _⟩ := kk.others (fun q => h2 (Or.inl q)) (fun q => h2 (Or.inr q))
      rw [a1, a2, a3]
      dsimp only
      rw [p2, p3]
      rfl
  intro t
  constructor
  · rintro ⟨b, hb, ht⟩
    obtain ⟨k, hkl, hbk⟩ := List.getElem_of_mem hb
    have e : fin[k]? = some b := by rw [List.getElem?_eq_getElem hkl, hbk]
    have hr : b.reference = false := by
      by_contra hcon
      unfold toStroke at ht
      rw [if_pos (by simpa using hcon)] at ht
      cases ht
    rw [hstroke k b e hr] at ht
    obtain rfl := Option.some.inj ht
    have kk := hk1.2 k b e
    have hval : b.value ≠ none := by
      intro hn
      by_cases h4 : k < 4
      · obtain ⟨b', hb', hv⟩ := hp1 k h4
        rw [e] at hb'
        obtain rfl := Option.some.inj hb'
        exact hv hn
      · rw [kk.free hn (by omega)] at hr
        cases hr
    by_cases h2 : k = 2
    · subst h2
      obtain ⟨a1, _, _, _, _, _, a7⟩ := kk.left rfl
      have : b.pos = F.x0 := by unfold Bd.pos; rw [a7.resolve_left hval]; rfl
      rw [a1, this]
      exact .left
    · by_cases h3 : k = 3
      · subst h3
        obtain ⟨a1, _, _, _, _, _, a7⟩ := kk.right rfl
        have : b.pos = F.x1 := by unfold Bd.pos; rw [a7.resolve_left hval]; rfl
        rw [a1, this]
        exact .right
      · obtain ⟨a1, _, _, a4⟩ := kk.others h2 h3
        rw [a1]
        rcases a4 with q | q | q
        · have : b.pos = F.y0 := by unfold Bd.pos; rw [q.2.2.2.resolve_left hval]; rfl
          rw [this]; exact .top
        · have : b.pos = F.y1 := by unfold Bd.pos; rw [q.2.2.2.resolve_left hval]; rfl
          rw [this]; exact .bottom
        · exact absurd q.2.2 hval
  · intro h
    have key : ∀ k < 4, toStroke fin (fin.getD k dummy) = some t → ∃ b ∈ fin, toStroke fin b = some t := fun k hk4 ht => ⟨_, (hmem k hk4).1, ht⟩
    have get : ∀ k < 4, fin[k]? = some (fin.getD k dummy) := fun k hk4 => (sb_get hk1 k (by have := hk1.1; omega)).1
    have kk : ∀ k < 4, Kind F k (fin.getD k dummy) := fun k hk4 => (sb_get hk1 k (by have := hk1.1; omega)).2
    cases h with
    | top =>
      refine key 0 (by omega) ?_
      rw [hstroke 0 _ (get 0 (by omega)) (hmem 0 (by omega)).2, ((kk 0 (by omega)).others (by omega) (by omega)).1, p0]
      rfl
    | bottom =>
      refine key 1 (by omega) ?_
      rw [hstroke 1 _ (get 1 (by omega)) (hmem 1 (by omega)).2, ((kk 1 (by omega)).others (by omega) (by omega)).1, p1]
      rfl
    | left =>
      refine key 2 (by omega) ?_
      rw [hstroke 2 _ (get 2 (by omega)) (hmem 2 (by omega)).2, ((kk 2 (by omega)).left rfl).1, p2]
      rfl
    | right =>
      refine key 3 (by omega) ?_
      rw [hstroke 3 _ (get 3 (by omega)) (hmem 3 (by omega)).2, ((kk 3 (by omega)).right rfl).1, p3]
      rfl

end ShadeB
end Props
