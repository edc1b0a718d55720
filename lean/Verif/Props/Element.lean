import Verif.Collection
import Verif.Spec.Geom
/-! # C24–C27, C48: boxes, containers, geometric predicates, sorting -/

namespace Props
open Geom Spec Py Coll

theorem tenths_iff (r : Rect) : Tenths r ↔ r.round = r := by
  constructor
  · rintro ⟨a, b, c, d, rfl⟩
    simp only [Rect.round, round1_tenths]
  · intro h
    refine ⟨roundHE (10 * r.x0), roundHE (10 * r.y0), roundHE (10 * r.x1), roundHE (10 * r.y1), ?_⟩
    exact h.symm

theorem covers_refl (a : Rect) : Covers a a := ⟨le_refl _, le_refl _, le_refl _, le_refl _⟩

theorem covers_trans {a b c : Rect} (h : Covers a b) (k : Covers b c) : Covers a c :=
  ⟨h.1.trans k.1, h.2.1.trans k.2.1, k.2.2.1.trans h.2.2.1, k.2.2.2.trans h.2.2.2⟩

theorem not_empty_of_proper {r : Rect} (h : Proper r) : ¬ r.isEmpty := by
  rintro (e | e)
  · exact absurd e (ne_of_lt h.1)
  · exact absurd e (ne_of_lt h.2)

theorem zero_empty : Rect.zero.isEmpty := Or.inl rfl

theorem truthy_of_proper {r : Rect} (h : Proper r) : r.truthy = true := by
  simp only [Rect.truthy, decide_eq_true_eq]
  rintro rfl
  exact absurd h.1 (lt_irrefl _)

theorem union_zero_left {r : Rect} (h : Proper r) : Rect.zero.union r = r := by
  unfold Rect.union
  rw [if_neg (not_empty_of_proper h), if_pos zero_empty]

theorem union_proper {a b : Rect} (ha : Proper a) (hb : Proper b) :
    a.union b = ⟨min a.x0 b.x0, min a.y0 b.y0, max a.x1 b.x1, max a.y1 b.y1⟩ := by
  unfold Rect.union
  rw [if_neg (not_empty_of_proper hb), if_neg (not_empty_of_proper ha)]

theorem proper_union {a b : Rect} (ha : Proper a) (hb : Proper b) : Proper (a.union b) := by
  rw [union_proper ha hb]
  exact ⟨lt_of_le_of_lt (min_le_left _ _) (lt_of_lt_of_le ha.1 (le_max_left _ _)),
    lt_of_le_of_lt (min_le_left _ _) (lt_of_lt_of_le ha.2 (le_max_left _ _))⟩

theorem union_covers {a b : Rect} (ha : Proper a) (hb : Proper b) :
    Covers (a.union b) a ∧ Covers (a.union b) b ∧ ∀ c, Covers c a → Covers c b → Covers c (a.union b) := by
  rw [union_proper ha hb]
  refine ⟨⟨min_le_left _ _, min_le_left _ _, le_max_left _ _, le_max_left _ _⟩,
    ⟨min_le_right _ _, min_le_right _ _, le_max_right _ _, le_max_right _ _⟩, fun c h k => ?_⟩
  exact ⟨le_min h.1 k.1, le_min h.2.1 k.2.1, max_le h.2.2.1 k.2.2.1, max_le h.2.2.2 k.2.2.2⟩

theorem round_union {a b : Rect} (ha : a.round = a) (hb : b.round = b) : (a.union b).round = a.union b := by
  unfold Rect.union
  split
  · exact ha
  · split
    · exact hb
    · have ea := congrArg Rect.x0 ha
      have eb := congrArg Rect.x0 hb
      have fa := congrArg Rect.y0 ha
      have fb := congrArg Rect.y0 hb
      have ga := congrArg Rect.x1 ha
      have gb := congrArg Rect.x1 hb
      have ka := congrArg Rect.y1 ha
      have kb := congrArg Rect.y1 hb
      simp only [Rect.round] at ea eb fa fb ga gb ka kb
      simp only [Rect.round, Rect.mk.injEq]
      refine ⟨?_, ?_, ?_, ?_⟩
      · rcases min_choice a.x0 b.x0 with h | h <;> rw [h] <;> assumption
      · rcases min_choice a.y0 b.y0 with h | h <;> rw [h] <;> assumption
      · rcases max_choice a.x1 b.x1 with h | h <;> rw [h] <;> assumption
      · rcases max_choice a.y1 b.y1 with h | h <;> rw [h] <;> assumption

/-! ## C24 -/

/-- A stored, non-degenerate element. -/
def Stored (e : El) : Prop := Proper e.bbox ∧ Tenths e.bbox

/-- The elements a call adds. -/
def Op.added : Op → List El
  | .append e => [e]
  | .extend es => es
  | .insert _ e => [e]
  | .pop _ => []
  | .reset es => es

/-- Invariant: the parent's box is still unset and there are no elements, or it covers every element. -/
def BoxInv (s : State) : Prop :=
  ∃ p, s.parent = some p ∧ p.round = p ∧ ((p = Rect.zero ∧ s.items = []) ∨ (Proper p ∧ ∀ e ∈ s.items, Covers p e.bbox))

theorem boxInv_add (s : State) (e : El) (he : Stored e) (items : List El) (hi : ∀ x ∈ items, x = e ∨ x ∈ s.items)
    (h : BoxInv s) : BoxInv ⟨items, s.parent.map fun p => unionBbox p e.bbox⟩ := by
  obtain ⟨p, hp, hr, h⟩ := h
  have hre : e.bbox.round = e.bbox := (tenths_iff _).1 he.2
  refine ⟨p.union e.bbox, ?_, round_union hr hre, ?_⟩
  · simp only [hp, Option.map_some, unionBbox, updateBbox, round_union hr hre]
  · right
    rcases h with ⟨rfl, hnil⟩ | ⟨hpp, hcov⟩
    · rw [union_zero_left he.1]
      refine ⟨he.1, fun x hx => ?_⟩
      rcases hi x hx with rfl | hx
      · exact covers_refl _
      · rw [hnil] at hx; simp at hx
    · obtain ⟨c1, c2, _⟩ := union_covers hpp he.1
      refine ⟨proper_union hpp he.1, fun x hx => ?_⟩
      rcases hi x hx with rfl | hx
      · exact c2
      · exact covers_trans c1 (hcov x hx)

theorem boxInv_append (s : State) (e : El) (he : Stored e) (h : BoxInv s) : BoxInv (s.append e) := by
  unfold State.append
  simp only [El.truthy, truthy_of_proper he.1, Bool.not_true, Bool.false_eq_true, if_false]
  exact boxInv_add s e he _ (fun x hx => by simpa [or_comm] using hx) h

theorem boxInv_extend (es : List El) (s : State) (he : ∀ e ∈ es, Stored e) (h : BoxInv s) : BoxInv (s.extend es) := by
  unfold State.extend
  induction es generalizing s with
  | nil => exact h
  | cons e es ih =>
    rw [List.foldl_cons]
    exact ih _ (fun x hx => he x (by simp [hx])) (boxInv_append s e (he e (by simp)) h)

theorem boxInv_sub (s : State) (items : List El) (h : BoxInv s) (hs : ∀ x ∈ items, x ∈ s.items) :
    BoxInv ⟨items, s.parent⟩ := by
  obtain ⟨p, hp, hr, h⟩ := h
  refine ⟨p, hp, hr, ?_⟩
  rcases h with ⟨rfl, hnil⟩ | ⟨hpp, hcov⟩
  · refine Or.inl ⟨rfl, ?_⟩
    rw [hnil] at hs
    exact List.eq_nil_iff_forall_not_mem.2 fun x hx => by simpa using hs x hx
  · exact Or.inr ⟨hpp, fun x hx => hcov x (hs x hx)⟩

theorem boxInv_step (s : State) (op : Op) (he : ∀ e ∈ Op.added op, Stored e) (h : BoxInv s) : BoxInv (s.step op) := by
  cases op with
  | append e => exact boxInv_append s e (he e (by simp [Op.added])) h
  | extend es => exact boxInv_extend es s he h
  | insert n e =>
    have := he e (by simp [Op.added])
    simp only [State.step, State.insert, El.truthy, truthy_of_proper this.1, Bool.not_true, Bool.false_eq_true, if_false]
    refine boxInv_add s e this _ (fun x hx => ?_) h
    simp only [List.mem_append, List.mem_cons] at hx
    rcases hx with hx | hx | hx
    · exact Or.inr (List.mem_of_mem_take hx)
    · exact Or.inl hx
    · exact Or.inr (List.mem_of_mem_drop hx)
  | pop n => exact boxInv_sub s _ h fun x hx => (List.eraseIdx_sublist ..).subset hx
  | reset es => exact boxInv_extend es _ he (boxInv_sub s [] h (by simp))

/-- **C24** (containment). After any history of append, extend, insert, pop and reset with stored, non-degenerate
elements, the box of the parent covers the box of every element in the container. -/
theorem C24_parent_covers_partial (ops : List Op) (h : ∀ op ∈ ops, ∀ e ∈ Op.added op, Stored e) :
    ∃ p, (ops.foldl State.step ⟨[], some Rect.zero⟩).parent = some p ∧
      ∀ e ∈ (ops.foldl State.step ⟨[], some Rect.zero⟩).items, Covers p e.bbox := by
  have key : ∀ (ops : List Op) (s : State), (∀ op ∈ ops, ∀ e ∈ Op.added op, Stored e) → BoxInv s →
      BoxInv (ops.foldl State.step s) := by
    intro ops
    induction ops with
    | nil => intro s _ h; exact h
    | cons op ops ih =>
      intro s ha hs
      rw [List.foldl_cons]
      exact ih _ (fun o ho => ha o (by simp [ho])) (boxInv_step s op (ha op (by simp)) hs)
  obtain ⟨p, hp, _, h'⟩ := key ops ⟨[], some Rect.zero⟩ h
    ⟨Rect.zero, rfl, by simp [Rect.round, Rect.zero], Or.inl ⟨rfl, rfl⟩⟩
  refine ⟨p, hp, ?_⟩
  rcases h' with ⟨_, hnil⟩ | ⟨_, hcov⟩
  · rw [hnil]; simp
  · exact hcov

/-- Non-vacuity: two stored elements. -/
example : Stored ⟨⟨1, 2, 3, 4⟩, .leftRight⟩ ∧ Stored ⟨⟨1/10, 2, 3, 4⟩, .bottomTop⟩ :=
  ⟨⟨⟨by norm_num, by norm_num⟩, 10, 20, 30, 40, by norm_num⟩, ⟨by norm_num, by norm_num⟩, 1, 20, 30, 40, by norm_num⟩

/-- **C24** (smallest). Adding elements to a new container makes the parent's box the smallest box covering all of them
(and all are kept, in order). -/
theorem C24_parent_smallest_partial (es : List El) (hne : es ≠ []) (h : ∀ e ∈ es, Stored e) :
    (State.extend ⟨[], some Rect.zero⟩ es).items = es ∧
    ∃ p, (State.extend ⟨[], some Rect.zero⟩ es).parent = some p ∧ IsHull (es.map El.bbox) p := by
  have key : ∀ (es : List El) (items : List El) (p : Rect), p.round = p →
      (∀ e ∈ es, Stored e) → (p = Rect.zero ∧ items = [] ∨ Proper p ∧ IsHull (items.map El.bbox) p) →
      (State.extend ⟨items, some p⟩ es).items = items ++ es ∧
      ∃ q, (State.extend ⟨items, some p⟩ es).parent = some q ∧
        ((q = Rect.zero ∧ items ++ es = []) ∨ IsHull ((items ++ es).map El.bbox) q) := by
    intro es
    induction es with
    | nil =>
      intro items p _ _ h
      refine ⟨by simp [State.extend], p, rfl, ?_⟩
      rcases h with h | h
      · exact Or.inl ⟨h.1, by simp [h.2]⟩
      · exact Or.inr (by simpa using h.2)
    | cons e es ih =>
      intro items p hr ha h
      have he := ha e (by simp)
      have hre : e.bbox.round = e.bbox := (tenths_iff _).1 he.2
      have e1 : State.append ⟨items, some p⟩ e = ⟨items ++ [e], some (p.union e.bbox)⟩ := by
        unfold State.append
        simp only [El.truthy, truthy_of_proper he.1, Bool.not_true, Bool.false_eq_true, if_false, Option.map_some, unionBbox,
          updateBbox, round_union hr hre]
      have e2 : State.extend ⟨items, some p⟩ (e :: es) = State.extend ⟨items ++ [e], some (p.union e.bbox)⟩ es := by
        unfold State.extend
        rw [List.foldl_cons, e1]
      rw [e2]
      have := ih (items ++ [e]) (p.union e.bbox) (round_union hr hre) (fun x hx => ha x (by simp [hx])) (by
        right
        rcases h with ⟨rfl, rfl⟩ | ⟨hp, hh⟩
        · rw [union_zero_left he.1]
          refine ⟨he.1, ?_, fun h' hc => ?_⟩
          · simp [covers_refl]
          · exact hc _ (by simp)
        · obtain ⟨c1, c2, c3⟩ := union_covers hp he.1
          refine ⟨proper_union hp he.1, ?_, fun h' hc => ?_⟩
          · intro r hr
            simp only [List.map_append, List.map_cons, List.map_nil, List.mem_append, List.mem_singleton] at hr
            rcases hr with hr | rfl
            · exact covers_trans c1 (hh.1 r hr)
            · exact c2
          · exact c3 h' (hh.2 h' fun r hr => hc r (by simp only [List.map_append, List.mem_append]; exact Or.inl hr))
              (hc _ (by simp)))
      simpa [List.append_assoc] using this
  obtain ⟨h1, q, h2, h3⟩ := key es [] Rect.zero (by simp [Rect.round, Rect.zero]) h (Or.inl ⟨rfl, rfl⟩)
  refine ⟨by simpa using h1, q, h2, ?_⟩
  rcases h3 with h3 | h3
  · exact absurd (by simpa using h3.2) hne
  · simpa using h3

/-- **C24** (collections). The computed box of a collection of stored, non-degenerate elements is the smallest box
covering all of them. -/
theorem C24_collection_bbox_partial (rs : List Rect) (hne : rs ≠ []) (h : ∀ r ∈ rs, Proper r ∧ Tenths r) :
    IsHull rs (Coll.bbox rs) := by
  obtain ⟨_, p, hp, hh⟩ := C24_parent_smallest_partial (rs.map fun r => ⟨r, .leftRight⟩) (by simpa using hne) (by
    intro e he
    obtain ⟨r, hr, rfl⟩ := List.mem_map.1 he
    exact h r hr)
  have e : (rs.map fun r => (⟨r, .leftRight⟩ : El)).map El.bbox = rs := by
    rw [List.map_map]; simp [Function.comp_def]
  rw [e] at hh
  have key : ∀ (rs : List Rect) (items : List El) (q : Rect), q.round = q → (∀ r ∈ rs, Proper r ∧ Tenths r) →
      (State.extend ⟨items, some q⟩ (rs.map fun r => ⟨r, .leftRight⟩)).parent = some (rs.foldl Rect.union q).round := by
    intro rs
    induction rs with
    | nil => intro items q hq _; simp [State.extend, hq]
    | cons r rs ih =>
      intro items q hq hr
      have he := hr r (by simp)
      have hre : r.round = r := (tenths_iff _).1 he.2
      have e1 : State.append ⟨items, some q⟩ ⟨r, .leftRight⟩ = ⟨items ++ [⟨r, .leftRight⟩], some (q.union r)⟩ := by
        unfold State.append
        simp only [El.truthy, truthy_of_proper he.1, Bool.not_true, Bool.false_eq_true, if_false, Option.map_some, unionBbox,
          updateBbox, round_union hq hre]
      have := ih (items ++ [⟨r, .leftRight⟩]) (q.union r) (round_union hq hre) (fun x hx => hr x (by simp [hx]))
      unfold State.extend at this ⊢
      rw [List.map_cons, List.foldl_cons, e1, List.foldl_cons]
      exact this
  have := key rs [] Rect.zero (by simp [Rect.round, Rect.zero]) h
  rw [hp] at this
  unfold Coll.bbox
  rw [← Option.some.inj this]
  exact hh

/-- Non-vacuity. -/
example : Proper ⟨1, 2, 3, 4⟩ ∧ Tenths ⟨1, 2, 3, 4⟩ ∧ Coll.bbox [⟨1, 2, 3, 4⟩, ⟨0, 3, 2, 9/2⟩] = ⟨0, 2, 3, 9/2⟩ :=
  ⟨⟨by norm_num, by norm_num⟩, ⟨10, 20, 30, 40, by norm_num⟩, by decide +kernel⟩

/-- **C24 is false for degenerate elements**: an element without width (truthy, so it is added) is not covered by the
box of its parent – e.g. a vertical hairline at x=5 next to a box ending at x=3. -/
theorem C24_refuted_degenerate :
    ∃ a b : El, a.truthy = true ∧ b.truthy = true ∧ b.bbox.Valid ∧
      (State.extend ⟨[], some Rect.zero⟩ [a, b]).items = [a, b] ∧
      ∃ p, (State.extend ⟨[], some Rect.zero⟩ [a, b]).parent = some p ∧ ¬ Covers p b.bbox :=
  ⟨⟨⟨1, 2, 3, 4⟩, .leftRight⟩, ⟨⟨5, 0, 5, 9⟩, .leftRight⟩, by decide +kernel, by decide +kernel, by decide +kernel,
    by decide +kernel, ⟨1, 2, 3, 4⟩, by decide +kernel, by decide +kernel⟩

/-! ## C25 -/

/-- **C25**: `vertically_align_with` is symmetric for elements with the same text direction (or when the direction is
ignored). -/
theorem C25_vertical_symm_partial (a b : El) (f : ℚ) (td : Bool) (h : td = true → a.dir = b.dir) :
    a.verticallyAlign b f td = b.verticallyAlign a f td := by
  have hH : (if td then a.horizontal else true) = if td then b.horizontal else true := by
    cases td with
    | false => rfl
    | true => simp only [if_true, El.horizontal, h rfl]
  have ho : ∀ p q : ℚ × ℚ, El.overlapEnough p q f = El.overlapEnough q p f := by
    intro p q
    unfold El.overlapEnough
    simp only [decide_eq_decide]
    rw [min_comm (p.2 - p.1), max_comm p.2, min_comm p.1, add_comm (p.2 - p.1)]
  unfold El.verticallyAlign
  rw [hH, ho, Bool.or_comm]

/-- **C25**: an element without a box is aligned with nothing, in neither direction, and nothing is aligned with it. -/
theorem C25_empty (a b : El) (f : ℚ) (td : Bool) (h : a.truthy = false) :
    a.verticallyAlign b f td = false ∧ b.verticallyAlign a f td = false ∧ a.horizontallyAlign b f td = false ∧ b.horizontallyAlign a f td = false := by
  unfold El.verticallyAlign El.horizontallyAlign
  simp [h]

/-- The hypothesis is met by a new element, and only by elements with the zero box. -/
example : (⟨Rect.zero, .leftRight⟩ : El).truthy = false ∧ (⟨⟨0, 0, 1, 1⟩, .leftRight⟩ : El).truthy = true := by decide +kernel

/-- **C25**: likewise `horizontally_align_with`. -/
theorem C25_horizontal_symm_partial (a b : El) (f : ℚ) (td : Bool) (h : td = true → a.dir = b.dir) :
    a.horizontallyAlign b f td = b.horizontallyAlign a f td := by
  have hH : (if td then a.horizontal else true) = if td then b.horizontal else true := by
    cases td with
    | false => rfl
    | true => simp only [if_true, El.horizontal, h rfl]
  have ho : ∀ p q : ℚ × ℚ, El.overlapEnough p q f = El.overlapEnough q p f := by
    intro p q
    unfold El.overlapEnough
    simp only [decide_eq_decide]
    rw [min_comm (p.2 - p.1), max_comm p.2, min_comm p.1, add_comm (p.2 - p.1)]
  unfold El.horizontallyAlign
  rw [hH, ho, Bool.or_comm]

/-- Non-vacuity of both: a positive and a negative case. -/
example : El.verticallyAlign ⟨⟨0, 0, 2, 1⟩, .leftRight⟩ ⟨⟨1, 5, 3, 6⟩, .leftRight⟩ (1/2) true = true ∧
    El.horizontallyAlign ⟨⟨0, 0, 2, 1⟩, .leftRight⟩ ⟨⟨1, 5, 3, 6⟩, .leftRight⟩ (1/2) true = false := by
  decide +kernel

/-- **C25 is false for mixed text directions**: alignment then depends on which element is asked. -/
theorem C25_refuted_mixed_directions :
    ∃ a b : El, a.bbox.Valid ∧ b.bbox.Valid ∧ a.verticallyAlign b 0 true ≠ b.verticallyAlign a 0 true :=
  ⟨⟨⟨0, 0, 2, 1⟩, .leftRight⟩, ⟨⟨1, 5, 3, 6⟩, .bottomTop⟩, by decide +kernel⟩

/-- **C25**: `in_same_row` is symmetric for real (truthy) elements, also of different directions. -/
theorem C25_same_row_symm (a b : El) (ha : a.truthy = true) (hb : b.truthy = true) : a.inSameRow b = b.inSameRow a := by
  unfold El.inSameRow
  by_cases h : a.dir = b.dir
  · have hh : a.horizontal = b.horizontal := by simp [El.horizontal, h]
    have hA : (!b.truthy || decide (a.dir ≠ b.dir)) = false := by simp [hb, h]
    have hB : (!a.truthy || decide (b.dir ≠ a.dir)) = false := by simp [ha, h]
    simp only [hA, hB, Bool.false_eq_true, if_false, hh, and_comm]
  · have hA : (!b.truthy || decide (a.dir ≠ b.dir)) = true := by simp [h]
    have hB : (!a.truthy || decide (b.dir ≠ a.dir)) = true := by simp [Ne.symm h]
    simp only [hA, hB, if_true]

/-- Non-vacuity. -/
example : El.inSameRow ⟨⟨0, 0, 2, 10⟩, .leftRight⟩ ⟨⟨5, 3, 8, 12⟩, .leftRight⟩ = true ∧
    El.inSameRow ⟨⟨0, 0, 2, 10⟩, .leftRight⟩ ⟨⟨5, 8, 8, 16⟩, .leftRight⟩ = false := by decide +kernel

/-- **C25**: a real element is aligned with itself in both directions, for every threshold up to 1, and in its own row. -/
theorem C25_self_aligned (a : El) (ht : a.truthy = true) (hv : a.bbox.Valid) (f : ℚ) (hf : f ≤ 1) (td : Bool) :
    a.verticallyAlign a f td = true ∧ a.horizontallyAlign a f td = true ∧ a.inSameRow a = true := by
  have ho : ∀ b, El.overlapEnough (El.ext b a.bbox) (El.ext b a.bbox) f = true := by
    intro b
    unfold El.overlapEnough
    simp only [decide_eq_true_eq, min_self, max_self]
    have h0 : 0 ≤ (El.ext b a.bbox).2 - (El.ext b a.bbox).1 := by
      cases b
      · simp only [El.ext, Bool.false_eq_true, if_false]; linarith [hv.2]
      · simp only [El.ext, if_true]; linarith [hv.1]
    nlinarith
  refine ⟨?_, ?_, ?_⟩
  · unfold El.verticallyAlign; simp [ht, ho]
  · unfold El.horizontallyAlign; simp [ht, ho]
  · have h0 : ∀ b, (El.ext b a.bbox).1 ≤ (El.ext b a.bbox).2 := by
      intro b
      cases b
      · simp only [El.ext, Bool.false_eq_true, if_false]; exact hv.2
      · simp only [El.ext, if_true]; exact hv.1
    unfold El.inSameRow
    simp only [ht, Bool.not_true, ne_eq, not_true_eq_false, decide_false, Bool.or_self, Bool.false_eq_true, if_false, and_self,
      decide_eq_true_eq]
    linarith [h0 (!a.horizontal)]

/-- Non-vacuity: an element with zero width is still aligned with itself. -/
example : El.truthy ⟨⟨5, 0, 5, 9⟩, .leftRight⟩ = true ∧ Rect.Valid ⟨5, 0, 5, 9⟩ := by decide +kernel

/-- **C25**: union of real boxes is commutative, associative, idempotent, contains both operands and is the smallest
such box. -/
theorem C25_union_laws (a b c : Rect) (ha : Proper a) (hb : Proper b) (hc : Proper c) :
    a.union b = b.union a ∧ (a.union b).union c = a.union (b.union c) ∧ a.union a = a ∧ IsHull [a, b] (a.union b) := by
  refine ⟨?_, ?_, ?_, ?_⟩
  · rw [union_proper ha hb, union_proper hb ha, min_comm, min_comm a.y0, max_comm, max_comm a.y1]
  · rw [union_proper (proper_union ha hb) hc, union_proper ha (proper_union hb hc), union_proper ha hb, union_proper hb hc]
    simp only [min_assoc, max_assoc]
  · rw [union_proper ha ha]; simp
  · obtain ⟨h1, h2, h3⟩ := union_covers ha hb
    exact ⟨by simp [h1, h2], fun h' hh => h3 h' (hh a (by simp)) (hh b (by simp))⟩

/-- **C25**: containment of boxes is transitive (also with degenerate boxes), and `a.contains(b)` of real boxes means
that `a` covers `b`. -/
theorem C25_contains (a b c : Rect) :
    (a.contains b = true → b.contains c = true → a.contains c = true) ∧
    (Proper a → Proper b → (a.contains b = true ↔ Covers a b)) := by
  constructor
  · unfold Rect.contains
    intro h1 h2
    by_cases ea : a.isEmpty
    · simp [ea] at h1
    · by_cases eb : b.isEmpty
      · simp [eb] at h2
      · by_cases ec : c.isEmpty
        · simp [ea, ec]
        · simp only [ea, eb, ec, if_false, decide_eq_true_eq] at *
          exact ⟨h1.1.trans h2.1, h1.2.1.trans h2.2.1, h2.2.2.1.trans h1.2.2.1, h2.2.2.2.trans h1.2.2.2⟩
  · intro ha hb
    unfold Rect.contains
    simp [not_empty_of_proper ha, not_empty_of_proper hb, Covers]

/-- Non-vacuity. -/
example : Proper ⟨0, 0, 9, 9⟩ ∧ Rect.contains ⟨0, 0, 9, 9⟩ ⟨1, 1, 8, 8⟩ = true ∧ Rect.contains ⟨1, 1, 8, 8⟩ ⟨2, 2, 3, 3⟩ = true := by
  refine ⟨⟨by norm_num, by norm_num⟩, by decide +kernel, by decide +kernel⟩

/-- **C25**: the "main box" of two elements does not depend on the order, and when there is one it is their union. -/
theorem C25_main_bbox (a b : Rect) (t : ℚ) :
    El.mainBbox a b t = El.mainBbox b a t ∧ ∀ r, El.mainBbox a b t = some r → r = a.union b := by
  have hi : a.inter b = b.inter a := by
    unfold Rect.inter
    simp only [or_comm, max_comm a.x0, max_comm a.y0, min_comm a.x1, min_comm a.y1]
  constructor
  · unfold El.mainBbox
    simp only [hi, min_comm a.area]
    by_cases ht : (b.inter a).truthy = false
    · simp [ht]
    · have hne : ¬ (b.isEmpty ∨ a.isEmpty) := by
        intro h
        apply ht
        unfold Rect.inter
        rw [if_pos h]; rfl
      have hu : a.union b = b.union a := by
        unfold Rect.union
        rw [if_neg (fun h => hne (Or.inl h)), if_neg (fun h => hne (Or.inr h)), if_neg (fun h => hne (Or.inr h)),
          if_neg (fun h => hne (Or.inl h)), min_comm, min_comm a.y0, max_comm, max_comm a.y1]
      simp only [hu]
  · intro r hr
    unfold El.mainBbox at hr
    simp only at hr
    split at hr
    · simp at hr
    · split at hr <;> split at hr <;> first | exact (Option.some.inj hr).symm | simp at hr

/-- Non-vacuity. -/
example : El.mainBbox ⟨0, 0, 10, 10⟩ ⟨0, 0, 10, 9⟩ (95/100) = some ⟨0, 0, 10, 10⟩ ∧
    El.mainBbox ⟨0, 0, 10, 10⟩ ⟨5, 0, 15, 10⟩ (95/100) = none := by decide +kernel

/-! ## C26 -/

/-- **C26**: stored coordinates are multiples of 0.1 within 0.05 of the given ones, storing again changes nothing, and
the order of edges is kept. -/
theorem C26_stored_coordinates (r : Rect) :
    Tenths (updateBbox r) ∧ updateBbox (updateBbox r) = updateBbox r ∧
    |(updateBbox r).x0 - r.x0| ≤ 1 / 20 ∧ |(updateBbox r).y0 - r.y0| ≤ 1 / 20 ∧
    |(updateBbox r).x1 - r.x1| ≤ 1 / 20 ∧ |(updateBbox r).y1 - r.y1| ≤ 1 / 20 ∧
    (r.Valid → (updateBbox r).Valid) := by
  refine ⟨⟨_, _, _, _, rfl⟩, ?_, abs_round1_sub _, abs_round1_sub _, abs_round1_sub _, abs_round1_sub _, ?_⟩
  · simp only [updateBbox, Rect.round, round1_round1]
  · exact fun h => ⟨round1_mono h.1, round1_mono h.2⟩

/-- **C26**: covering is kept by storing. -/
theorem C26_covers_kept (a b : Rect) (h : Covers a b) : Covers (updateBbox a) (updateBbox b) :=
  ⟨round1_mono h.1, round1_mono h.2.1, round1_mono h.2.2.1, round1_mono h.2.2.2⟩

/-- Non-vacuity: half-to-even rounding. -/
example : updateBbox ⟨1/20, 3/20, 21/100, 4⟩ = ⟨0, 1/5, 1/5, 4⟩ ∧ Covers ⟨0, 0, 9, 9⟩ ⟨1, 1, 2, 2⟩ := by decide +kernel

/-! ## C27 -/

theorem textDirection_perm {l l' : List El} (h : l.Perm l') : textDirection l = textDirection l' := by
  have key : ∀ (l : List El) (d : Dir), d ≠ .leftRight → (textDirection l = d ↔ l ≠ [] ∧ ∀ x ∈ l, x.dir = d) := by
    intro l d hd
    cases l with
    | nil => simp [textDirection, hd.symm]
    | cons e es =>
      unfold textDirection
      dsimp only
      by_cases hall : es.all (fun x => decide (x.dir = e.dir)) = true
      · rw [if_pos hall]
        simp only [List.all_eq_true, decide_eq_true_eq] at hall
        simp only [ne_eq, reduceCtorEq, not_false_eq_true, List.mem_cons, forall_eq_or_imp, true_and]
        exact ⟨fun h => ⟨h, fun x hx => (hall x hx).trans h⟩, fun h => h.1⟩
      · rw [if_neg hall]
        constructor
        · intro h; exact absurd h.symm hd
        · rintro ⟨_, h⟩
          exfalso
          apply hall
          simp only [List.all_eq_true, decide_eq_true_eq]
          intro x hx
          rw [h x (by simp [hx]), h e (by simp)]
  have h2 : ∀ d, d ≠ .leftRight → (textDirection l = d ↔ textDirection l' = d) := by
    intro d hd
    rw [key l d hd, key l' d hd]
    constructor
    · rintro ⟨h1, h2⟩
      exact ⟨fun e => h1 (by rw [e] at h; exact h.eq_nil), fun x hx => h2 x (h.symm.subset hx)⟩
    · rintro ⟨h1, h2⟩
      exact ⟨fun e => h1 (by rw [e] at h; exact h.symm.eq_nil), fun x hx => h2 x (h.subset hx)⟩
  cases hd : textDirection l with
  | ignore => exact ((h2 _ (by simp)).1 hd).symm
  | bottomTop => exact ((h2 _ (by simp)).1 hd).symm
  | leftRight =>
    cases hd' : textDirection l' with
    | ignore => rw [(h2 _ (by simp)).2 hd'] at hd; simp at hd
    | bottomTop => rw [(h2 _ (by simp)).2 hd'] at hd; simp at hd
    | leftRight => rfl

/-- Lexicographic order of triples, spelled out. -/
def LexLe (a b c a' b' c' : ℚ) : Prop := a < a' ∨ a = a' ∧ (b < b' ∨ b = b' ∧ c ≤ c')

theorem key_le_iff (a b c a' b' c' : ℚ) : key a b c ≤ key a' b' c' ↔ LexLe a b c a' b' c' := by
  unfold key LexLe
  rw [Prod.Lex.toLex_le_toLex, Prod.Lex.toLex_le_toLex]

/-- All elements have the vertical text direction (the only case in which the order changes). -/
def AllVertical (l : List El) : Prop := l ≠ [] ∧ ∀ e ∈ l, e.dir = .bottomTop

/-- **C27**, reading order: a permutation; sorting again changes nothing; horizontal text goes from top to bottom, then
from left to right; vertical text (bottom to top) from left to right, then by the lower edge. -/
theorem C27_reading_order (l : List El) :
    (sortInReadingOrder l).Perm l ∧ sortInReadingOrder (sortInReadingOrder l) = sortInReadingOrder l ∧
    (textDirection l = .leftRight → (sortInReadingOrder l).Pairwise fun a b =>
      LexLe a.bbox.y0 a.bbox.x0 a.bbox.x1 b.bbox.y0 b.bbox.x0 b.bbox.x1) ∧
    (AllVertical l → (sortInReadingOrder l).Pairwise fun a b =>
      LexLe a.bbox.x0 a.bbox.y1 a.bbox.y0 b.bbox.x0 b.bbox.y1 b.bbox.y0) := by
  have hp : (sortInReadingOrder l).Perm l := by unfold sortInReadingOrder; split <;> exact sortBy_perm _ _
  refine ⟨hp, ?_, ?_, ?_⟩
  · rw [sortInReadingOrder, textDirection_perm hp]
    unfold sortInReadingOrder
    split <;> exact sortBy_idem _ _
  · intro h
    unfold sortInReadingOrder
    rw [if_pos h]
    refine (sortBy_pairwise _ _).imp ?_
    exact fun h => (key_le_iff ..).1 h
  · rintro ⟨hne, hall⟩
    have hd : textDirection l = .bottomTop := by
      cases l with
      | nil => exact absurd rfl hne
      | cons e es =>
        unfold textDirection
        dsimp only
        rw [if_pos]
        · exact hall e (by simp)
        · simp only [List.all_eq_true, decide_eq_true_eq]
          intro x hx
          rw [hall x (by simp [hx]), hall e (by simp)]
    unfold sortInReadingOrder
    rw [if_neg (by rw [hd]; simp)]
    refine (sortBy_pairwise _ _).imp ?_
    exact fun h => (key_le_iff ..).1 h

/-- **C27**, line order: likewise; horizontal text goes from left to right; vertical text by the lower edge (`y1`). -/
theorem C27_line_order (l : List El) :
    (sortInLineOrder l).Perm l ∧ sortInLineOrder (sortInLineOrder l) = sortInLineOrder l ∧
    (textDirection l = .leftRight → (sortInLineOrder l).Pairwise fun a b =>
      LexLe a.bbox.x0 a.bbox.y0 a.bbox.x1 b.bbox.x0 b.bbox.y0 b.bbox.x1) ∧
    (textDirection l ≠ .leftRight → (sortInLineOrder l).Pairwise fun a b =>
      LexLe a.bbox.y1 a.bbox.x0 a.bbox.y0 b.bbox.y1 b.bbox.x0 b.bbox.y0) := by
  have hp : (sortInLineOrder l).Perm l := by unfold sortInLineOrder; split <;> exact sortBy_perm _ _
  refine ⟨hp, ?_, ?_, ?_⟩
  · rw [sortInLineOrder, textDirection_perm hp]
    unfold sortInLineOrder
    split <;> exact sortBy_idem _ _
  · intro h
    unfold sortInLineOrder
    rw [if_pos h]
    refine (sortBy_pairwise _ _).imp ?_
    exact fun h => (key_le_iff ..).1 h
  · intro h
    unfold sortInLineOrder
    rw [if_neg h]
    refine (sortBy_pairwise _ _).imp ?_
    exact fun h => (key_le_iff ..).1 h

/-- Non-vacuity: three horizontal elements; two vertical ones. -/
example : sortInReadingOrder [⟨⟨5, 1, 6, 2⟩, .leftRight⟩, ⟨⟨0, 7, 6, 9⟩, .leftRight⟩, ⟨⟨1, 1, 6, 2⟩, .leftRight⟩] =
    [⟨⟨1, 1, 6, 2⟩, .leftRight⟩, ⟨⟨5, 1, 6, 2⟩, .leftRight⟩, ⟨⟨0, 7, 6, 9⟩, .leftRight⟩] ∧
    AllVertical [⟨⟨5, 1, 6, 2⟩, .bottomTop⟩, ⟨⟨0, 7, 6, 9⟩, .bottomTop⟩] ∧
    textDirection [⟨⟨5, 1, 6, 2⟩, .leftRight⟩, ⟨⟨0, 7, 6, 9⟩, .bottomTop⟩] = .leftRight := by
  refine ⟨by decide +kernel, ⟨by simp, by simp⟩, by decide +kernel⟩

/-! ## C48 -/

/-- **C48**: splitting by a region either raises `ZeroDivisionError` – exactly when some element has zero area – or is a
partition that keeps the order. -/
theorem C48_split_partition (bbox : Rect) (t : ℚ) (l : List El) :
    (splitWith bbox t l = .error .zeroDiv ∧ ∃ e ∈ l, e.bbox.area = 0) ∨
    (∃ a b, splitWith bbox t l = .ok (a, b) ∧ (∀ e ∈ l, e.bbox.area ≠ 0) ∧ a.Sublist l ∧ b.Sublist l ∧ (a ++ b).Perm l) := by
  induction l with
  | nil => exact Or.inr ⟨[], [], rfl, by simp, List.Sublist.refl _, List.Sublist.refl _, List.Perm.refl _⟩
  | cons e es ih =>
    unfold splitWith
    by_cases h0 : e.bbox.area = 0
    · rw [if_pos h0]; exact Or.inl ⟨rfl, e, by simp, h0⟩
    · rw [if_neg h0]
      rcases ih with ⟨h, x, hx, hx0⟩ | ⟨a, b, h, hn, ha, hb, hp⟩
      · rw [h]; exact Or.inl ⟨rfl, x, by simp [hx], hx0⟩
      · rw [h]
        right
        dsimp only
        have hn' : ∀ x ∈ e :: es, x.bbox.area ≠ 0 := by
          intro x hx
          rcases List.mem_cons.1 hx with rfl | hx
          · exact h0
          · exact hn x hx
        split
        · exact ⟨e :: a, b, rfl, hn', ha.cons_cons e, hb.cons e, hp.cons e⟩
        · exact ⟨a, e :: b, rfl, hn', ha.cons e, hb.cons_cons e, List.perm_middle.trans (hp.cons e)⟩

/-- **C48 is false for the default threshold 0**: every element counts as intersecting the region, also one far away. -/
theorem C48_refuted_default_threshold :
    ∃ (bbox : Rect) (e : El), bbox.intersects e.bbox = false ∧ splitWith bbox 0 [e] = .ok ([e], []) :=
  ⟨⟨0, 0, 10, 10⟩, ⟨⟨100, 100, 110, 110⟩, .leftRight⟩, by decide +kernel, by decide +kernel⟩

/-- **C48** (partial): with a positive threshold every selected element overlaps the region with positive area. -/
theorem C48_selected_intersect_partial (bbox : Rect) (t : ℚ) (ht : 0 < t) (l a b : List El)
    (hl : ∀ e ∈ l, Proper e.bbox) (h : splitWith bbox t l = .ok (a, b)) :
    ∀ e ∈ a, 0 < (e.bbox.inter bbox).area := by
  induction l generalizing a b with
  | nil => simp only [splitWith, Except.ok.injEq, Prod.mk.injEq] at h; rw [← h.1]; simp
  | cons e es ih =>
    unfold splitWith at h
    split at h
    · simp at h
    · rename_i h0
      have hpos : 0 < e.bbox.area := by
        have := hl e (by simp)
        unfold Rect.area Rect.width Rect.height
        exact mul_pos (by linarith [this.1]) (by linarith [this.2])
      split at h
      · simp at h
      · rename_i a' b' h'
        have ih' := ih a' b' (fun x hx => hl x (by simp [hx])) h'
        dsimp only at h
        split at h
        · rename_i hf
          simp only [Except.ok.injEq, Prod.mk.injEq] at h
          rw [← h.1]
          intro x hx
          rcases List.mem_cons.1 hx with rfl | hx
          · by_contra hneg
            rw [not_lt] at hneg
            have hq : 100 * ((x.bbox.inter bbox).area / x.bbox.area) ≤ ((0 : ℤ) : ℚ) := by
              have := div_nonpos_of_nonpos_of_nonneg hneg (le_of_lt hpos)
              push_cast; linarith
            have hr : roundHE (100 * ((x.bbox.inter bbox).area / x.bbox.area)) ≤ 0 := by
              have := roundHE_mono hq
              rwa [roundHE_intCast] at this
            have hr' : (roundHE (100 * ((x.bbox.inter bbox).area / x.bbox.area)) : ℚ) ≤ 0 := by exact_mod_cast hr
            unfold round2 at hf
            linarith
          · exact ih' x hx
        · simp only [Except.ok.injEq, Prod.mk.injEq] at h
          rw [← h.1]
          exact ih'

/-- Non-vacuity. -/
example : splitWith ⟨0, 0, 10, 10⟩ (9/10) [⟨⟨1, 1, 2, 2⟩, .leftRight⟩, ⟨⟨5, 5, 20, 20⟩, .leftRight⟩] =
    .ok ([⟨⟨1, 1, 2, 2⟩, .leftRight⟩], [⟨⟨5, 5, 20, 20⟩, .leftRight⟩]) := by decide +kernel

end Props
