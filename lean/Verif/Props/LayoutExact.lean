import Verif.Props.Layout
/-! # Nested layouts: boxes stay nested, no failures, every character exactly once (C83, C84) -/

namespace Props
open Py Geom Spec Assign Lay

section Boxes
variable {α : Type}

theorem ly_union_zero {b : Rect} (hb : RealBox b) : Coll.unionBbox Rect.zero b = b := by
  unfold Coll.unionBbox Coll.updateBbox Rect.union
  rw [if_neg (proper_nonempty b hb.1), if_pos (show Rect.zero.isEmpty from Or.inl rfl), st_round_tenths hb.2]

theorem ly_union_real {a b : Rect} (ha : RealBox a) (hb : RealBox b) :
    RealBox (Coll.unionBbox a b) ∧ Covers (Coll.unionBbox a b) a ∧ Covers (Coll.unionBbox a b) b := by
  have hca := ln_unionBbox_covers (b := b) ha.1 ha.2
  have hcb : Covers (Coll.unionBbox a b) b := by
    unfold Coll.unionBbox Coll.updateBbox
    exact ln_round_covers (Rect.union_covers_right a b (proper_nonempty b hb.1)) hb.2
  exact ⟨⟨ln_covers_proper hca ha.1, st_round_is_tenths _⟩, hca, hcb⟩

/-- Hull of real boxes. -/
theorem ly_hull {β : Type} (f : β → Rect) (l : List β) (h : ∀ x ∈ l, RealBox (f x)) (a : Rect) (ha : a = Rect.zero ∨ RealBox a) :
    let r := l.foldl (fun b x => Coll.unionBbox b (f x)) a
    (r = Rect.zero ∨ RealBox r) ∧ (RealBox a → Covers r a ∧ RealBox r) ∧ ∀ x ∈ l, Covers r (f x) ∧ RealBox r := by
  induction l generalizing a with
  | nil => exact ⟨ha, fun h => ⟨⟨le_refl _, le_refl _, le_refl _, le_refl _⟩, h⟩, by simp⟩
  | cons x l ih =>
    have hx := h x (by simp)
    have hr : RealBox (Coll.unionBbox a (f x)) ∧ (RealBox a → Covers (Coll.unionBbox a (f x)) a) ∧ Covers (Coll.unionBbox a (f x)) (f x) := by
      rcases ha with rfl | ha
      · rw [ly_union_zero hx]
        exact ⟨hx, fun h => absurd h.1 (by rintro ⟨h, _⟩; exact lt_irrefl _ h), ⟨le_refl _, le_refl _, le_refl _, le_refl _⟩⟩
      · obtain ⟨h1, h2, h3⟩ := ly_union_real ha hx
        exact ⟨h1, fun _ => h2, h3⟩
    obtain ⟨i1, i2, i3⟩ := ih (fun y hy => h y (by simp [hy])) _ (Or.inr hr.1)
    refine ⟨i1, fun hra => ⟨covers_trans (i2 hr.1).1 (hr.2.1 hra), (i2 hr.1).2⟩, ?_⟩
    intro y hy
    rcases List.mem_cons.1 hy with rfl | hy
    · exact ⟨covers_trans (i2 hr.1).1 hr.2.2, (i2 hr.1).2⟩
    · exact i3 y hy

theorem ly_real_truthy {r : Rect} (h : RealBox r) : r.truthy = true := proper_truthy h.1

theorem ly_cutSpan_ok (rect : Rect) (s : Span α) (h : SpanOK s) : (cutSpan rect s).bbox = Rect.zero ∧ (cutSpan rect s).items = [] ∨ SpanOK (cutSpan rect s) := by
  cases s with
  | text b cs =>
    simp only [cutSpan]
    split_ifs
    · exact Or.inr h
    · exact Or.inl ⟨rfl, rfl⟩
    · set cs' := cs.filter fun ch => mainIn (1 / 2) ch.1 rect with hcs
      have hreal : ∀ x ∈ cs', RealBox x.1 := fun x hx => (h.2 x (List.mem_of_mem_filter hx)).1
      obtain ⟨h1, _, h3⟩ := ly_hull (fun x : Rect × α => x.1) cs' hreal Rect.zero (Or.inl rfl)
      cases hc : cs' with
      | nil => exact Or.inl ⟨rfl, rfl⟩
      | cons x l =>
        right
        rw [← hc]
        exact ⟨(h3 x (by rw [hc]; simp)).2, fun y hy => ⟨hreal y hy, (h3 y hy).1⟩⟩
  | image b a =>
    simp only [cutSpan]
    split_ifs
    · exact Or.inr h
    · exact Or.inl ⟨rfl, rfl⟩

theorem ly_span_real {s : Span α} (h : SpanOK s) : RealBox s.bbox := by
  cases s with
  | text b cs => exact h.1
  | image b a => exact h

theorem ly_add_box_eq {σ : Type} (l : Lns.Ln σ) (ss : List (Rect × σ)) :
    (l.add ss).bbox = (ss.filter fun s => s.1.truthy).foldl (fun b s => Coll.unionBbox b s.1) l.bbox := by
  unfold Lns.Ln.add
  induction ss generalizing l with
  | nil => rfl
  | cons s ss ih =>
    rw [List.foldl_cons, ih]
    by_cases h : s.1.truthy = true
    · simp [List.filter_cons, h]
    · simp [List.filter_cons, h]

theorem ly_cutLine_ok (rect : Rect) (l : Ln α) (h : LineOK l) (htr : (cutLine rect l).bbox.truthy = true) : LineOK (cutLine rect l) := by
  unfold cutLine at htr ⊢
  split_ifs at htr ⊢ with hc
  · exact h
  set ss := (l.spans.map fun s => ((cutSpan rect s.2).bbox, cutSpan rect s.2)).filter fun s => s.1.truthy with hss
  have hok : ∀ s ∈ ss, s.1 = s.2.bbox ∧ SpanOK s.2 := by
    intro s hs
    obtain ⟨hs, ht⟩ := List.mem_filter.1 hs
    obtain ⟨s0, hs0, rfl⟩ := List.mem_map.1 hs
    refine ⟨rfl, ?_⟩
    rcases ly_cutSpan_ok rect s0.2 (h.2 s0 hs0).2.1 with hz | hz
    · dsimp only at ht; rw [hz.1] at ht; cases ht
    · exact hz
  have hreal : ∀ s ∈ ss, RealBox s.1 := fun s hs => by rw [(hok s hs).1]; exact ly_span_real (hok s hs).2
  obtain ⟨h1, _, h3⟩ := ly_hull (fun x : Rect × Span α => x.1) ss hreal Rect.zero (Or.inl rfl)
  have hbox := ly_add_box_eq (σ := Span α) ⟨Rect.zero, l.dir, none, []⟩ (l.spans.map fun s => ((cutSpan rect s.2).bbox, cutSpan rect s.2))
  have hsp := ly_add_spans_eq (σ := Span α) ⟨Rect.zero, l.dir, none, []⟩ (l.spans.map fun s => ((cutSpan rect s.2).bbox, cutSpan rect s.2))
  rw [← hss] at hbox hsp
  dsimp only at hbox hsp
  rw [List.nil_append] at hsp
  refine ⟨?_, ?_⟩
  · rcases h1 with h1 | h1
    · rw [hbox, h1] at htr; cases htr
    · rw [hbox]; exact h1
  · intro s hs
    rw [hsp] at hs
    exact ⟨(hok s hs).1, (hok s hs).2, by rw [hbox]; exact (h3 s hs).1⟩

theorem ly_mk_ok (id : ℕ) (ls : List (Ln α)) (h : ∀ l ∈ ls, l.bbox.truthy = true → LineOK l) (htr : (mkText id ls).bbox.truthy = true) :
    TextOK ((mkText id ls).bbox, (mkText id ls).lines) := by
  have hl : ∀ l ∈ (mkText id ls).lines, LineOK l := by
    intro l hl
    obtain ⟨l0, hl0, h1, _, h3, ht⟩ := ly_mk_lines id ls l hl
    have := h l0 hl0 ht
    unfold LineOK at this ⊢
    rw [h1, h3]; exact this
  obtain ⟨h1, _, h3⟩ := ly_hull (fun l : Ln α => l.bbox) (mkText id ls).lines (fun l hl' => (hl l hl').1) Rect.zero (Or.inl rfl)
  have hbox : (mkText id ls).bbox = (mkText id ls).lines.foldl (fun b l => Coll.unionBbox b l.bbox) Rect.zero := rfl
  refine ⟨?_, fun l hl' => ⟨hl l hl', ?_⟩⟩
  · dsimp only
    rcases h1 with h1 | h1
    · rw [hbox, h1] at htr; cases htr
    · rw [hbox]; exact h1
  · dsimp only
    rw [hbox]; exact (h3 l hl').1

theorem ly_textOK_closed : Closed (TextOK (α := α)) := by
  constructor
  · intro id ls h htr
    refine ly_mk_ok id ls ?_ htr
    intro l hl _
    obtain ⟨t, ht, hlt⟩ := h l hl
    exact (ht.2 l hlt).1
  · intro id cell t h htr
    refine ly_mk_ok id _ ?_ htr
    intro l hl ht
    obtain ⟨l0, hl0, rfl⟩ := List.mem_map.1 hl
    exact ly_cutLine_ok cell l0 (h.2 l0 hl0).1 ht

/-- **C83**: if in the input lines lie in their block, spans in their line and characters in their span, all with real boxes, the same is true of the
parsed page at every nesting. -/
theorem C83_boxes_stay_nested (c : Cfg) (hi : ∀ l, (c.iter l).Perm l) (D : Detect α) (nid : Ids) (depth : ℕ) (page : Rect) (bs r : List (Blk α))
    (hok : ∀ t ∈ texts bs, TextOK t) (ho : parsePage c D nid depth page bs = .ok r) : ∀ t ∈ texts r, TextOK t :=
  ly_parse_closed c hi D nid ly_textOK_closed depth [] page [0, 1, 2] bs r ho hok

end Boxes

section Errors
variable {α : Type}

theorem ly_mapM_ok {β γ : Type} {f : β → Except Err γ} (l : List β) (h : ∀ x ∈ l, ∃ y, f x = .ok y) : ∃ r, l.mapM f = .ok r := by
  induction l with
  | nil => exact ⟨[], rfl⟩
  | cons a l ih =>
    obtain ⟨y, hy⟩ := h a (by simp)
    obtain ⟨r, hr⟩ := ih fun x hx => h x (by simp [hx])
    exact ⟨y :: r, by rw [List.mapM_cons, hy, hr]; rfl⟩

theorem ly_assignTables_ok (nid : ℕ → ℕ → ℕ → ℕ) (ts : List Tab) (bs : List (Blk α)) (h : ∀ t ∈ texts bs, TextOK t) :
    ∃ r, assignTables nid ts bs = .ok r := by
  unfold assignTables
  split_ifs
  · exact ⟨_, rfl⟩
  suffices hh : ∀ b ∈ bs, ∃ y, assignBlock (ts.map Tab.box) b = .ok y by
    obtain ⟨r, hr⟩ := ly_mapM_ok bs hh
    rw [hr]; exact ⟨_, rfl⟩
  intro b hb
  cases b with
  | table rr cs =>
    unfold assignBlock
    dsimp only
    cases assignWhole rr (ts.map Tab.box) with
    | none => exact ⟨_, rfl⟩
    | some i => exact ⟨_, rfl⟩
  | text rr ls =>
    unfold assignBlock
    dsimp only
    have hok := h (rr, ls) (ly_mem_texts.2 ⟨_, hb, by simp [Blk.texts]⟩)
    obtain ⟨p, hp⟩ := C43_no_exception_partial rr ls (ts.map Tab.box) ls fun e he => ne_of_gt (area_pos _ (hok.2 e he).1.1.1)
    rw [hp]; exact ⟨_, rfl⟩

theorem ly_stages_error (D : Detect α) (nid : Ids) (path : List ℕ) (box : Rect) (ss : List ℕ) (bs : List (Blk α))
    (h : ∀ t ∈ texts bs, TextOK t) (e : Err) (ho : stages D nid path box ss bs = .error e) :
    ∃ s bs', D path box s bs' = .error e := by
  induction ss generalizing bs with
  | nil => cases ho
  | cons s ss ih =>
    unfold stages at ho
    cases hd : D path box s bs with
    | error e' => rw [hd] at ho; simp only [Except.error.injEq] at ho; subst ho; exact ⟨s, bs, hd⟩
    | ok ts =>
      rw [hd] at ho
      dsimp only at ho
      obtain ⟨bs', hb⟩ := ly_assignTables_ok (nid path s) ts bs h
      rw [hb] at ho
      exact ih bs' (ly_all_assignTables ly_textOK_closed _ ts bs h bs' hb) ho

theorem ly_parseCells_error (sub : ℕ → Rect → List (Blk α) → Except Err (List (Blk α))) (cs : List (Rect × List (Blk α))) (i : ℕ) (e : Err)
    (h : parseCells sub i cs = .error e) : ∃ j c, c ∈ cs ∧ sub j c.1 c.2 = .error e := by
  induction cs generalizing i with
  | nil => cases h
  | cons c cs ih =>
    unfold parseCells at h
    cases h1 : sub i c.1 c.2 with
    | error e' => rw [h1] at h; simp only [Except.error.injEq] at h; subst h; exact ⟨i, c, by simp, h1⟩
    | ok bs =>
      rw [h1] at h
      dsimp only at h
      cases h2 : parseCells sub (i + 1) cs with
      | error e' =>
        rw [h2] at h
        simp only [Except.error.injEq] at h
        subst h
        obtain ⟨j, c', hc, hs⟩ := ih (i + 1) h2
        exact ⟨j, c', by simp [hc], hs⟩
      | ok cs' => rw [h2] at h; cases h

theorem ly_parseTables_error (sub : ℕ → ℕ → Rect → List (Blk α) → Except Err (List (Blk α))) (bs : List (Blk α)) (i : ℕ) (e : Err)
    (h : parseTables sub i bs = .error e) : ∃ k j r cs c, Blk.table r cs ∈ bs ∧ c ∈ cs ∧ sub k j c.1 c.2 = .error e := by
  induction bs generalizing i with
  | nil => cases h
  | cons b bs ih =>
    cases b with
    | text bb ls =>
      unfold parseTables at h
      cases h2 : parseTables sub (i + 1) bs with
      | error e' =>
        rw [h2] at h
        simp only [Except.error.injEq] at h
        subst h
        obtain ⟨k, j, r, cs, c, h3, h4⟩ := ih (i + 1) h2
        exact ⟨k, j, r, cs, c, by simp [h3], h4⟩
      | ok bs' => rw [h2] at h; cases h
    | table bb cs =>
      unfold parseTables at h
      cases h1 : parseCells (sub i) 0 cs with
      | error e' =>
        rw [h1] at h
        simp only [Except.error.injEq] at h
        subst h
        obtain ⟨j, c, hc, hs⟩ := ly_parseCells_error (sub i) cs 0 e' h1
        exact ⟨i, j, bb, cs, c, by simp, hc, hs⟩
      | ok cs' =>
        rw [h1] at h
        dsimp only at h
        cases h2 : parseTables sub (i + 1) bs with
        | error e' =>
          rw [h2] at h
          simp only [Except.error.injEq] at h
          subst h
          obtain ⟨k, j, r, cs, c, h3, h4⟩ := ih (i + 1) h2
          exact ⟨k, j, r, cs, c, by simp [h3], h4⟩
        | ok bs' => rw [h2] at h; cases h

theorem ly_parse_error (c : Cfg) (hi : ∀ l, (c.iter l).Perm l) (D : Detect α) (nid : Ids) (depth : ℕ) (path : List ℕ) (box : Rect) (ss : List ℕ)
    (bs : List (Blk α)) (h : ∀ t ∈ texts bs, TextOK t) (e : Err) (ho : parse c D nid depth path box ss bs = .error e) :
    e = .exn "RecursionError" ∨ ∃ path box s bs', D path box s bs' = .error e := by
  induction depth generalizing path box ss bs with
  | zero => simp only [parse, Except.error.injEq] at ho; exact Or.inl ho.symm
  | succ n ih =>
    unfold parse level at ho
    cases hst : stages D nid path box ss bs with
    | error e' =>
      rw [hst] at ho
      simp only [Except.error.injEq] at ho
      subst ho
      obtain ⟨s, bs', hd⟩ := ly_stages_error D nid path box ss bs h e' hst
      exact Or.inr ⟨path, box, s, bs', hd⟩
    | ok b1 =>
      rw [hst] at ho
      dsimp only at ho
      obtain ⟨b2, hb2, hq2⟩ := ly_all_splitBack c hi ly_textOK_closed b1 (ly_all_stages D nid ly_textOK_closed path box ss bs h b1 hst)
      rw [hb2] at ho
      dsimp only at ho
      obtain ⟨k, j, r, cs, cc, h1, h2, h3⟩ := ly_parseTables_error _ b2 0 e ho
      refine ih _ _ _ _ ?_ h3
      intro t ht
      refine hq2 t (ly_mem_texts.2 ⟨_, h1, ?_⟩)
      rw [Blk.texts, ly_cells_flatMap, List.mem_flatMap]
      exact ⟨cc, h2, ht⟩

/-- **C83**: distributing the content of a page to nested tables raises no exception of its own: with real boxes, parsing fails only if finding the
tables fails, or if the tables found are nested more deeply than Python's recursion limit. -/
theorem C83_no_exception (c : Cfg) (hi : ∀ l, (c.iter l).Perm l) (D : Detect α) (nid : Ids) (depth : ℕ) (page : Rect) (bs : List (Blk α))
    (hok : ∀ t ∈ texts bs, TextOK t) (e : Err) (ho : parsePage c D nid depth page bs = .error e) :
    e = .exn "RecursionError" ∨ ∃ path box s bs', D path box s bs' = .error e :=
  ly_parse_error c hi D nid depth [] page [0, 1, 2] bs hok e ho

theorem ly_parseCells_mono (sub sub' : ℕ → Rect → List (Blk α) → Except Err (List (Blk α)))
    (hs : ∀ j r bs o, sub j r bs = .ok o → sub' j r bs = .ok o) (cs : List (Rect × List (Blk α))) (i : ℕ) (r : List (Rect × List (Blk α)))
    (h : parseCells sub i cs = .ok r) : parseCells sub' i cs = .ok r := by
  induction cs generalizing i r with
  | nil => exact h
  | cons c cs ih =>
    unfold parseCells at h ⊢
    cases h1 : sub i c.1 c.2 with
    | error e => rw [h1] at h; cases h
    | ok bs =>
      rw [h1] at h
      rw [hs _ _ _ _ h1]
      dsimp only at h ⊢
      cases h2 : parseCells sub (i + 1) cs with
      | error e => rw [h2] at h; cases h
      | ok cs' => rw [h2] at h; rw [ih _ _ h2]; exact h

theorem ly_parseTables_mono (sub sub' : ℕ → ℕ → Rect → List (Blk α) → Except Err (List (Blk α)))
    (hs : ∀ k j r bs o, sub k j r bs = .ok o → sub' k j r bs = .ok o) (bs : List (Blk α)) (i : ℕ) (r : List (Blk α))
    (h : parseTables sub i bs = .ok r) : parseTables sub' i bs = .ok r := by
  induction bs generalizing i r with
  | nil => exact h
  | cons b bs ih =>
    cases b with
    | text bb ls =>
      unfold parseTables at h ⊢
      cases h2 : parseTables sub (i + 1) bs with
      | error e => rw [h2] at h; cases h
      | ok bs' => rw [h2] at h; rw [ih _ _ h2]; exact h
    | table bb cs =>
      unfold parseTables at h ⊢
      cases h1 : parseCells (sub i) 0 cs with
      | error e => rw [h1] at h; cases h
      | ok cs' =>
        rw [h1] at h
        rw [ly_parseCells_mono (sub i) (sub' i) (hs i) cs 0 cs' h1]
        dsimp only at h ⊢
        cases h2 : parseTables sub (i + 1) bs with
        | error e => rw [h2] at h; cases h
        | ok bs' => rw [h2] at h; rw [ih _ _ h2]; exact h

theorem ly_parse_mono (c : Cfg) (D : Detect α) (nid : Ids) (n m : ℕ) (hnm : n ≤ m) (path : List ℕ) (box : Rect) (ss : List ℕ) (bs r : List (Blk α))
    (h : parse c D nid n path box ss bs = .ok r) : parse c D nid m path box ss bs = .ok r := by
  induction n generalizing m path box ss bs r with
  | zero => cases h
  | succ n ih =>
    obtain ⟨m, rfl⟩ : ∃ m', m = m' + 1 := ⟨m - 1, by omega⟩
    unfold parse at h ⊢
    cases hl : level c D nid path box ss bs with
    | error e => rw [hl] at h; cases h
    | ok b =>
      rw [hl] at h
      dsimp only at h ⊢
      exact ly_parseTables_mono _ _ (fun k j r bs o ho => ih m (by omega) _ _ _ _ _ ho) b 0 r h

/-- **C83**: the result does not depend on the recursion limit, once it suffices. -/
theorem C83_depth_irrelevant (c : Cfg) (D : Detect α) (nid : Ids) (n m : ℕ) (page : Rect) (bs r r' : List (Blk α))
    (h : parsePage c D nid n page bs = .ok r) (h' : parsePage c D nid m page bs = .ok r') : r = r' := by
  have h1 := ly_parse_mono c D nid n (max n m) (le_max_left _ _) [] page [0, 1, 2] bs r h
  have h2 := ly_parse_mono c D nid m (max n m) (le_max_right _ _) [] page [0, 1, 2] bs r' h'
  exact Except.ok.inj (h1.symm.trans h2)

end Errors
end Props
