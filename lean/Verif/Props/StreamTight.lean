import Verif.Props.StreamCollect
/-! # Further theorems about stream tables (C77-C79); written after wrong programs had passed the first versions -/
namespace Props
open Stream Geom Py Spec Border

/-! ## Borders end at real borders -/

def RealAt (st : State) (i : ℕ) : Prop := ∃ b : Bd, st[i]? = some b ∧ b.reference = false

def EndsReal (st : State) : Prop := ∀ b ∈ st, RealAt st b.lb ∧ RealAt st b.ub

theorem RealAt.frame {st st' : State} {i : ℕ} (h : RealAt st i) (hf : Frame st st') : RealAt st' i := by
  obtain ⟨b, hb, hr⟩ := h
  obtain ⟨b', hb', -, -, -, -, -, -, h'⟩ := hf i b hb
  exact ⟨b', hb', h' hr⟩

theorem EndsReal.frame {st st' : State} (h : EndsReal st) (hf : Frame st st') (hl : st'.length = st.length) : EndsReal st' := by
  intro b' hb'
  obtain ⟨i, hi⟩ := List.getElem?_of_mem hb'
  obtain ⟨hlt, -⟩ := List.getElem?_eq_some_iff.mp hi
  obtain ⟨b'', h0, h1, h2, h3, h4, h5, h6, -⟩ := hf i st[i] (List.getElem?_eq_getElem (by omega))
  rw [hi, Option.some.injEq] at h0
  subst h0
  have := h st[i] (List.getElem_mem _)
  rw [h4, h5]
  exact ⟨this.1.frame hf, this.2.frame hf⟩

theorem EndsReal.append {st : State} {b : Bd} (h : EndsReal st) (h1 : RealAt st b.lb) (h2 : RealAt st b.ub) : EndsReal (st ++ [b]) := by
  intro x hx
  have hf := frame_append st [b]
  rcases List.mem_append.1 hx with hx | hx
  · exact ⟨(h x hx).1.frame hf, (h x hx).2.frame hf⟩
  · rw [List.mem_singleton] at hx; subst hx; exact ⟨h1.frame hf, h2.frame hf⟩

theorem realAt_setReal (st : State) (is : List ℕ) (i : ℕ) (hi : i ∈ is) (hlt : i < st.length) : RealAt (setReal st is) i := by
  induction is generalizing st with
  | nil => simp at hi
  | cons a is ih =>
    have e : setReal st (a :: is) = setReal (st.modify a fun b => { b with reference := false }) is := rfl
    rw [e]
    by_cases h : i ∈ is
    · exact ih _ h (by rw [List.length_modify]; exact hlt)
    · have ha : i = a := (List.mem_cons.1 hi).resolve_right h
      subst ha
      refine RealAt.frame ⟨{ st[i] with reference := false }, ?_, rfl⟩ (frame_setReal _ is)
      rw [List.getElem?_modify, List.getElem?_eq_getElem hlt]
      simp

/-- What a division guarantees about ends of borders. -/
def EPost (st st' : State) : Prop := Frame st st' ∧ st.length ≤ st'.length ∧ EndsReal st'

def ECall (call : Call) (ls : List El) : Prop :=
  ∀ T B L R st st', call ls T B L R st = some st' → T < st.length → B < st.length → RealAt st L → RealAt st R → EndsReal st → EPost st st'

theorem RealAt.lt {st : State} {i : ℕ} (h : RealAt st i) : i < st.length := by
  obtain ⟨b, hb, -⟩ := h
  exact (List.getElem?_eq_some_iff.mp hb).1

theorem rowLoop_ends (call : Call) (ref : Bool) (B left right : ℕ) (rs : List (List El)) (top : ℕ) (st st' : State)
    (hcall : ∀ r ∈ rs, ECall call r) (hT : top < st.length) (hB : B < st.length) (hL : RealAt st left) (hR : RealAt st right) (he : EndsReal st)
    (h : rowLoop call ref B left right top rs st = some st') : EPost st st' := by
  induction rs generalizing top st with
  | nil =>
    simp only [rowLoop, Option.some.injEq] at h
    subst h
    exact ⟨Frame.refl _, le_refl _, he⟩
  | cons r rs ih =>
    cases rs with
    | nil =>
      simp only [rowLoop] at h
      exact hcall r (by simp) _ _ _ _ _ _ h hT hB hL hR he
    | cons q rest =>
      simp only [rowLoop, Option.bind_eq_some_iff] at h
      obtain ⟨s1, h1, h2⟩ := h
      have hf := frame_append st [bd true (hull r).y1 (hull q).y0 left right ref]
      have p1 := hcall r (by simp) _ _ _ _ _ _ h1 (by simp; omega) (by simp) (hL.frame hf) (hR.frame hf) (he.append hL hR)
      have hlen := p1.2.1
      rw [List.length_append, List.length_singleton] at hlen
      have p2 := ih st.length s1 (fun k hk => hcall k (by simp [List.mem_cons.1 hk])) (by omega) (by omega) (hL.frame (hf.trans p1.1))
        (hR.frame (hf.trans p1.1)) p1.2.2 h2
      exact ⟨hf.trans (p1.1.trans p2.1), by have := p2.2.1; omega, p2.2.2⟩

theorem colLoop_ends (iter : List ℕ → List ℕ) (call : Call) (ref : Bool) (T B R : ℕ) (cs : List (List El)) (left : ℕ) (st st' : State)
    (hcall : ∀ c ∈ cs, ∀ L R st st', colWork iter call ref T B L R c st = some st' → T < st.length → B < st.length → RealAt st L → RealAt st R →
      EndsReal st → EPost st st') (hT : T < st.length) (hB : B < st.length) (hTB : 2 ≤ cs.length → RealAt st T ∧ RealAt st B)
    (hL : RealAt st left) (hR : RealAt st R) (he : EndsReal st)
    (h : colLoop iter call ref T B R left cs st = some st') : EPost st st' := by
  induction cs generalizing left st with
  | nil =>
    simp only [colLoop, Option.some.injEq] at h
    subst h
    exact ⟨Frame.refl _, le_refl _, he⟩
  | cons c cs ih =>
    cases cs with
    | nil =>
      simp only [colLoop] at h
      exact hcall c (by simp) _ _ _ _ h hT hB hL hR he
    | cons d rest =>
      simp only [colLoop, Option.bind_eq_some_iff] at h
      obtain ⟨s1, h1, h2⟩ := h
      have htb := hTB (by simp)
      have hf := frame_append st [bd false (hull c).x1 (hull d).x0 T B false]
      have hnew : RealAt (st ++ [bd false (hull c).x1 (hull d).x0 T B false]) st.length := ⟨_, by simp; rfl, rfl⟩
      have p1 := hcall c (by simp) _ _ _ _ h1 (by simp; omega) (by simp; omega) (hL.frame hf) hnew (he.append htb.1 htb.2)
      have hlen := p1.2.1
      rw [List.length_append, List.length_singleton] at hlen
      have p2 := ih st.length s1 (fun k hk => hcall k (by simp [List.mem_cons.1 hk])) (by omega) (by omega)
        (fun _ => ⟨htb.1.frame (hf.trans p1.1), htb.2.frame (hf.trans p1.1)⟩) (hnew.frame p1.1)
        (hR.frame (hf.trans p1.1)) p1.2.2 h2
      exact ⟨hf.trans (p1.1.trans p2.1), by have := p2.2.1; omega, p2.2.2⟩

theorem inner_ends (iter : List ℕ → List ℕ) (n : ℕ) (ls : List El) : ECall (inner iter n) ls := by
  induction n generalizing ls with
  | zero => intro T B L R st st' h; simp [inner] at h
  | succ n ih =>
    intro T B L R st st' h hT hB hL hR he
    unfold inner at h
    simp only [] at h
    have hst : Frame st (if 2 ≤ (columns iter ls).length then setReal st [T, B, L, R] else st) ∧
        (if 2 ≤ (columns iter ls).length then setReal st [T, B, L, R] else st).length = st.length := by
      split
      · exact ⟨frame_setReal _ _, length_setReal _ _⟩
      · exact ⟨Frame.refl _, rfl⟩
    have := colLoop_ends iter (inner iter n) _ T B R (columns iter ls) L _ st' ?_ (by rw [hst.2]; exact hT) (by rw [hst.2]; exact hB) ?_
      (hL.frame hst.1) (hR.frame hst.1) (he.frame hst.1 hst.2) h
    · exact ⟨hst.1.trans this.1, by have := this.2.1; omega, this.2.2⟩
    · intro c _ L R st st' h hT hB hL hR he
      unfold colWork at h
      by_cases h1 : (rows iter c).length = 1
      · rw [if_pos h1, Option.some.injEq] at h
        subst h
        exact ⟨Frame.refl _, le_refl _, he⟩
      · rw [if_neg h1] at h
        exact rowLoop_ends (inner iter n) _ B L R (rows iter c) T st st' (fun r _ => ih r) hT hB hL hR he h
    · intro h2
      rw [if_pos h2]
      exact ⟨realAt_setReal _ _ _ (by simp) hT, realAt_setReal _ _ _ (by simp) hB⟩

/-- **C78**: the lines drawn for a stream table are closed: whatever the lines, strokes and shadings, both ends of every border found in the
table lie on borders that are drawn. -/
theorem C78_ends_drawn (iter : List ℕ → List ℕ) (page : Rect) (blocks : List Rect) (ls : List El) (order : List (ℚ × ℚ) → List (ℚ × ℚ))
    (strokes : List Line) (fills : List Rect) (n : ℕ) (st : State) (hst : borders iter n page blocks ls = some st) (i : ℕ) (hi : i < st.length) :
    ∃ b p q : Bd, (finalize order strokes fills st)[i]? = some b ∧ (finalize order strokes fills st)[b.lb]? = some p ∧
      (finalize order strokes fills st)[b.ub]? = some q ∧ (toStroke (finalize order strokes fills st) p).isSome = true ∧
      (toStroke (finalize order strokes fills st) q).isSome = true := by
  have real : ∀ k < 4, RealAt (outer (tableBox ls) (outerBox page blocks ls)) k := by
    intro k hk
    interval_cases k <;> exact ⟨_, rfl, rfl⟩
  have h := inner_ends iter n ls 0 1 2 3 _ st hst (by simp [outer]) (by simp [outer]) (real 2 (by omega)) (real 3 (by omega)) (by
    intro b hb
    simp only [outer, List.mem_cons, List.not_mem_nil, or_false] at hb
    rcases hb with rfl | rfl | rfl | rfl <;> exact ⟨real _ (by simp [bd]), real _ (by simp [bd])⟩)
  have hx := (C63_reference_borders order strokes fills st).1
  obtain ⟨⟨p, hp, hp1⟩, ⟨q, hq, hq1⟩⟩ := h.2.2 st[i] (List.getElem_mem hi)
  obtain ⟨b', hb', eb⟩ := hx i st[i] (List.getElem?_eq_getElem hi)
  obtain ⟨p', hp', ep⟩ := hx _ p hp
  obtain ⟨q', hq', eq⟩ := hx _ q hq
  have keep : ∀ x y : Bd, Ext x y → x.reference = false → y.reference = false := by
    intro x y hxy hr
    rcases hxy with rfl | ⟨_, _, _, _, _, _, h, _⟩
    · exact hr
    · exact h
  have hb : b'.lb = st[i].lb ∧ b'.ub = st[i].ub := by
    rcases eb with h | ⟨_, _, _, _, h2, h3, _⟩
    · rw [h]; exact ⟨rfl, rfl⟩
    · exact ⟨h2, h3⟩
  refine ⟨b', p', q', hb', by rw [hb.1]; exact hp', by rw [hb.2]; exact hq', ?_, ?_⟩
  · unfold toStroke; simp [keep p p' ep hp1]
  · unfold toStroke; simp [keep q q' eq hq1]

/-- Non-vacuity: a two-column layout whose left column holds a row of two cells: the horizontal border above that row is drawn. -/
example : ((borders id 5 ⟨0, 0, 600, 800⟩ [] [tln 50 100 150 110, tln 50 120 90 130, tln 110 120 150 130, tln 200 100 300 110]).map fun st =>
      (finalize id [] [] st).filterMap fun b => (toStroke (finalize id [] [] st) b).map Prod.fst) =
    some [(25, 50, 450, 50), (25, 465, 450, 465), (25, 50, 25, 465), (450, 50, 450, 465), (175, 50, 175, 465), (25, 115, 175, 115),
      (100, 115, 100, 465)] := by decide +kernel

/-! ## The frame -/

theorem boundaries_between (Y1 y0 y1 : ℚ) (bs : List Rect) (lo : ℚ) (ho : bs.Pairwise fun a b => a.y1 ≤ b.y0) (hv : ∀ b ∈ bs, b.y0 ≤ b.y1)
    (hlo : ∀ b ∈ bs, lo ≤ b.y1) (h01 : y0 ≤ y1) :
    lo ≤ (boundaries Y1 y0 y1 lo bs).1 ∧ (∀ b ∈ bs, b.y1 < y0 → b.y1 ≤ (boundaries Y1 y0 y1 lo bs).1) ∧
      ∀ b ∈ bs, y1 < b.y0 → (boundaries Y1 y0 y1 lo bs).2 ≤ b.y0 := by
  induction bs generalizing lo with
  | nil => simp [boundaries]
  | cons b bs ih =>
    rw [List.pairwise_cons] at ho
    unfold boundaries
    simp only []
    have hb := hv b (by simp)
    have hlob := hlo b (by simp)
    have hlo' : lo ≤ (if b.y1 < y0 then b.y1 else lo) := by split_ifs; exacts [hlob, le_refl _]
    by_cases hy : y1 < b.y0
    · rw [if_pos hy]
      refine ⟨hlo', ?_, ?_⟩
      · intro c hc hcy
        rcases List.mem_cons.1 hc with rfl | hc
        · linarith
        · have := ho.1 c hc; have := hv c (by simp [hc]); linarith
      · intro c hc _
        rcases List.mem_cons.1 hc with rfl | hc
        · exact le_refl _
        · have := ho.1 c hc; dsimp only; linarith
    · rw [if_neg hy]
      have hi := ih (if b.y1 < y0 then b.y1 else lo) ho.2 (fun c hc => hv c (by simp [hc])) (by
        intro c hc
        have h1 := ho.1 c hc
        have h2 := hv c (by simp [hc])
        split_ifs
        · linarith
        · exact hlo c (by simp [hc]))
      refine ⟨hlo'.trans hi.1, ?_, ?_⟩
      · intro c hc hcy
        rcases List.mem_cons.1 hc with rfl | hc
        · rw [if_pos hcy] at hi
          rw [if_pos hcy]
          exact hi.1
        · exact hi.2.1 c hc hcy
      · intro c hc hcy
        rcases List.mem_cons.1 hc with rfl | hc
        · exact absurd hcy hy
        · exact hi.2.2 c hc hcy

/-- **C77** (partial): the frame of the table: the four outer borders are drawn around all lines of the table, and (up to 1pt) the top border below every
block that ends above the table, the bottom border above every block that starts below it. *Missing*: blocks that are not ordered one
below the other (they are after `join_horizontally`, C70). -/
theorem C77_frame_partial (iter : List ℕ → List ℕ) (page : Rect) (blocks : List Rect) (ls : List El) (hne : ls ≠ [])
    (hp : ∀ l ∈ ls, Covers page l.bbox) (hv : ∀ l ∈ ls, l.bbox.y0 ≤ l.bbox.y1) (ho : blocks.Pairwise fun a b => a.y1 ≤ b.y0)
    (hbv : ∀ b ∈ blocks, b.y0 ≤ b.y1) (hbp : ∀ b ∈ blocks, page.y0 ≤ b.y1)
    (order : List (ℚ × ℚ) → List (ℚ × ℚ)) (strokes : List Line) (fills : List Rect) (n : ℕ) (st : State)
    (hst : borders iter n page blocks ls = some st) :
    ∃ t b l r : Bd, (finalize order strokes fills st)[0]? = some t ∧ (finalize order strokes fills st)[1]? = some b ∧
      (finalize order strokes fills st)[2]? = some l ∧ (finalize order strokes fills st)[3]? = some r ∧
      (∀ x ∈ [t, b, l, r], x.reference = false) ∧
      (t.horizontal = true ∧ b.horizontal = true ∧ l.horizontal = false ∧ r.horizontal = false) ∧
      (∀ x ∈ ls, t.pos - 1 ≤ x.bbox.y0 ∧ x.bbox.y1 ≤ b.pos + 1 ∧ l.pos - 1 ≤ x.bbox.x0 ∧ x.bbox.x1 ≤ r.pos + 1) ∧
      (page.x0 - 1 ≤ l.pos ∧ r.pos ≤ page.x1 + 1) ∧
      (∀ k ∈ blocks, (∀ x ∈ ls, k.y1 < x.bbox.y0) → k.y1 - 1 ≤ t.pos) ∧ ∀ k ∈ blocks, (∀ x ∈ ls, x.bbox.y1 < k.y0) → b.pos ≤ k.y0 + 1 := by
  have hcov := outerBox_covers page blocks ls hne hp
  have real : ∀ k < 4, RealAt (outer (tableBox ls) (outerBox page blocks ls)) k := by
    intro k hk
    interval_cases k <;> exact ⟨_, rfl, rfl⟩
  have h := inner_ends iter n ls 0 1 2 3 _ st hst (by simp [outer]) (by simp [outer]) (real 2 (by omega)) (real 3 (by omega)) (by
    intro b hb
    simp only [outer, List.mem_cons, List.not_mem_nil, or_false] at hb
    rcases hb with rfl | rfl | rfl | rfl <;> exact ⟨real _ (by simp [bd]), real _ (by simp [bd])⟩)
  have hx := (C63_reference_borders order strokes fills st).1
  have get : ∀ (k : ℕ) (x : Bd), (outer (tableBox ls) (outerBox page blocks ls))[k]? = some x → x.value = none → x.lo ≤ x.hi → x.reference = false →
      ∃ y : Bd, (finalize order strokes fills st)[k]? = some y ∧ y.reference = false ∧ y.horizontal = x.horizontal ∧ x.lo - 1 ≤ y.pos ∧ y.pos ≤ x.hi + 1 := by
    intro k x hk hval hr href
    obtain ⟨x', hx', e1, e2, e3, _, _, e6, e7⟩ := h.1 k x hk
    obtain ⟨y, hy, ey⟩ := hx k x' hx'
    have hp := pos_in_range x' y ey (e6.trans hval) (by rw [e2, e3]; exact hr)
    rw [e2, e3] at hp
    refine ⟨y, hy, ?_, ?_, hp⟩
    · rcases ey with rfl | ⟨_, _, _, _, _, _, h, _⟩
      · exact e7 href
      · exact h
    · rcases ey with rfl | ⟨_, h, _⟩
      · exact e1
      · exact h.trans e1
  obtain ⟨t, ht, t1, t2, t3, t4⟩ := get 0 _ rfl rfl hcov.2.1 rfl
  obtain ⟨b, hb, b1, b2, b3, b4⟩ := get 1 _ rfl rfl hcov.2.2.2 rfl
  obtain ⟨l, hl, l1, l2, l3, l4⟩ := get 2 _ rfl rfl hcov.1 rfl
  obtain ⟨r, hr, r1, r2, r3, r4⟩ := get 3 _ rfl rfl hcov.2.2.1 rfl
  simp only [bd] at t2 t3 t4 b2 b3 b4 l2 l3 l4 r2 r3 r4
  have h01 : (tableBox ls).y0 ≤ (tableBox ls).y1 := by
    obtain ⟨x, hxm⟩ := List.exists_mem_of_ne_nil ls hne
    have := tableBox_covers ls x hxm
    linarith [hv x hxm, this.2.1, this.2.2.2]
  have hbd := boundaries_between page.y1 (tableBox ls).y0 (tableBox ls).y1 blocks page.y0 ho hbv hbp h01
  refine ⟨t, b, l, r, ht, hb, hl, hr, ?_, ⟨t2, b2, l2, r2⟩, ?_, ⟨l3, r4⟩, ?_, ?_⟩
  · intro x hx
    simp only [List.mem_cons, List.not_mem_nil, or_false] at hx
    rcases hx with rfl | rfl | rfl | rfl <;> assumption
  · intro x hx
    have := tableBox_covers ls x hx
    exact ⟨by linarith [this.2.1], by linarith [this.2.2.2], by linarith [this.1], by linarith [this.2.2.1]⟩
  · intro k hk hall
    have h1 : k.y1 < (tableBox ls).y0 := by
      obtain ⟨x, hxm, e⟩ := List.mem_map.1 (minOf_mem (ls.map fun l : El => l.bbox.y0) (by simpa using hne))
      show k.y1 < Table.minOf _
      rw [← e]
      exact hall x hxm
    have h2 := hbd.2.1 k hk h1
    have h3 : (outerBox page blocks ls).y0 - 1 ≤ t.pos := t3
    have h4 : (outerBox page blocks ls).y0 = (boundaries page.y1 (tableBox ls).y0 (tableBox ls).y1 page.y0 blocks).1 := rfl
    linarith
  · intro k hk hall
    have h1 : (tableBox ls).y1 < k.y0 := by
      obtain ⟨x, hxm, e⟩ := List.mem_map.1 (maxOf_mem (ls.map fun l : El => l.bbox.y1) (by simpa using hne))
      show Table.maxOf _ < k.y0
      rw [← e]
      exact hall x hxm
    have h2 := hbd.2.2 k hk h1
    have h3 : b.pos ≤ (outerBox page blocks ls).y1 + 1 := b4
    have h4 : (outerBox page blocks ls).y1 = (boundaries page.y1 (tableBox ls).y0 (tableBox ls).y1 page.y0 blocks).2 := rfl
    linarith

/-! ## Shadings -/

/-- **C79**: shadings that are in use already have no effect on the candidates. -/
theorem C79_used_shadings (shadings : List SShape) (hd : ∀ s ∈ shadings, s.determined = true) (bs : List SBlock) :
    collect shadings bs = tablesOf bs := by
  rw [← C79_candidates]
  unfold collect
  have key : ∀ (bs : List SBlock) (s : CSt), (∀ x ∈ s.shadings, x.determined = true) →
      (collectLoop bs s).res = (collectLoop bs { s with shadings := [] }).res := by
    have st1 : ∀ (b n : SBlock) (s : CSt), (∀ x ∈ s.shadings, x.determined = true) → ∃ sh, (∀ x ∈ sh, x.determined = true) ∧
        stepShading b n s = { s with shadings := sh } := by
      intro b n s h
      unfold stepShading
      cases hs : s.shadings with
      | nil => exact ⟨[], by simp, by simp only [] ; rw [← hs]⟩
      | cons a rest =>
        rw [hs] at h
        simp only [h a (by simp), Bool.not_true, Bool.false_and, Bool.false_eq_true, if_false]
        split_ifs
        · exact ⟨rest, fun x hx => h x (by simp [hx]), rfl⟩
        · exact ⟨a :: rest, h, by rw [← hs]⟩
    have st2 : ∀ (b n : SBlock) (last : Bool) (s : CSt) (sh : List SShape), stepRow b n last (stepFlow b { s with shadings := sh }) =
        { stepRow b n last (stepFlow b { s with shadings := [] }) with shadings := sh } := by
      intro b n last s sh
      unfold stepRow stepFlow
      dsimp only
      cases s.newLine <;> cases b.flow <;> cases b.el.horizontallyAlign n.el 0 true <;> simp <;> split_ifs <;> rfl
    intro bs
    induction bs with
    | nil => intro s _; rfl
    | cons b bs ih =>
      intro s hs
      cases bs with
      | nil =>
        simp only [collectLoop]
        obtain ⟨sh, _, h2⟩ := st1 b noBlock s hs
        rw [h2, stepShading_nil _ _ _ rfl, st2]
      | cons n bs =>
        simp only [collectLoop]
        obtain ⟨sh, h1, h2⟩ := st1 b n s hs
        rw [h2, stepShading_nil _ _ _ rfl, st2, ih _ h1]
        have e : (stepRow b n false (stepFlow b { s with shadings := [] })).shadings = [] := by
          rw [st2]
        congr 2
        conv_rhs => rw [st2]
  rw [key bs ⟨[], [], true, shadings⟩ hd]

/-- **C79** (partial): the lines of a block in the first shading are candidates, as long as no block up to it starts below that shading.
*Missing*: the other shadings (`C79_refuted_shaded`). -/
theorem C79_shaded_partial (sh : SShape) (shadings : List SShape) (hd : sh.determined = false) (pre : List SBlock) (b : SBlock) (post : List SBlock)
    (hpre : ∀ k ∈ pre ++ [b], k.el.bbox.y0 ≤ sh.bbox.y1) (hc : El.contains ⟨sh.bbox, .leftRight⟩ b.el (9 / 10) = true) :
    ∀ x ∈ b.lines, x.truthy = true → x ∈ (collect (sh :: shadings) (pre ++ b :: post)).flatten := by
  intro x hx ht
  unfold collect
  have keepRow : ∀ (b n : SBlock) (last : Bool) (s : CSt), (stepRow b n last (stepFlow b s)).shadings = s.shadings := by
    intro b n last s
    unfold stepRow stepFlow
    dsimp only
    cases s.newLine <;> cases b.flow <;> cases b.el.horizontallyAlign n.el 0 true <;> simp <;> split_ifs <;> rfl
  have keepSh : ∀ (k n : SBlock) (s : CSt) (rest : List SShape), s.shadings = sh :: rest → n.el.bbox.y0 ≤ sh.bbox.y1 →
      (stepShading k n s).shadings = sh :: rest := by
    intro k n s rest hs hn
    unfold stepShading
    rw [hs]
    simp only []
    have : ¬ sh.bbox.y1 < n.el.bbox.y0 := not_lt.2 hn
    split_ifs
    · rfl
    · exact hs
  have main : ∀ (pre : List SBlock) (s : CSt), (∀ k ∈ pre ++ [b], k.el.bbox.y0 ≤ sh.bbox.y1) → s.shadings = sh :: shadings →
      (s.newLine = false → ∀ f, (pre ++ b :: post).head? = some f → ∀ x ∈ f.lines, x.truthy = true → x ∈ s.cur) →
      x ∈ (collectLoop (pre ++ b :: post) s).res.flatten := by
    intro pre
    induction pre with
    | nil =>
      intro s _ hs hn
      have hs' : s.newLine = false → ∀ x ∈ b.lines, x.truthy = true → x ∈ s.cur := fun h => hn h b rfl
      have key : ∀ n last, x ∈ (stepRow b n last (stepFlow b (stepShading b n s))).res.flatten ∨
          x ∈ (stepRow b n last (stepFlow b (stepShading b n s))).cur := by
        intro n last
        have g1 := grow_shading b n s hs'
        have g2 := grow_flow b _ g1.1.2.2.2.2
        have r := row_spec b n last _ (g1.1.trans g2.1).2.2.2.2
        exact r.2.2.1 (Or.inl (g2.1.2.2.2.1 (g1.2 _ _ hs hd hc))) x hx ht
      cases post with
      | nil =>
        have := key noBlock true
        have hc := (step_spec b noBlock true s _ rfl hs').2.2.2.2.2 rfl
        rw [hc] at this
        exact this.resolve_right (by simp)
      | cons n post =>
        have h := step_spec b n false s _ rfl hs'
        exact (collectLoop_mem post n _ (h.2.2.2.1 rfl)).1 x (key n false)
    | cons k pre ih =>
      intro s hpre hs hn
      have hs' : s.newLine = false → ∀ x ∈ k.lines, x.truthy = true → x ∈ s.cur := fun h => hn h k rfl
      cases hrest : pre ++ b :: post with
      | nil => simp at hrest
      | cons n rest =>
        have hcl : collectLoop ((k :: pre) ++ b :: post) s = collectLoop (pre ++ b :: post) (stepRow k n false (stepFlow k (stepShading k n s))) := by
          rw [List.cons_append, hrest]; rfl
        rw [hcl]
        have hst := step_spec k n false s _ rfl hs'
        refine ih _ (fun y hy => hpre y (by simp at hy ⊢; tauto)) ?_ ?_
        · rw [keepRow]
          refine keepSh k n s _ hs (hpre n ?_)
          have : n = (pre ++ [b]).head (by simp) := by
            cases pre with
            | nil => simp at hrest; simp [hrest.1]
            | cons p pre => simp at hrest; simp [hrest.1]
          rw [List.cons_append, this]
          exact List.mem_cons_of_mem _ (List.head_mem _)
        · intro hnl f hf x hx ht
          rw [hrest] at hf
          simp at hf
          subst hf
          exact hst.2.2.2.1 rfl hnl x hx ht
  exact main pre _ hpre rfl (by simp)

/-- Non-vacuity: the second block lies in the shading. -/
example : El.contains ⟨⟨40, 30, 310, 60⟩, .leftRight⟩ (oneLineBlock 50 40 300 50 true).el (9 / 10) = true ∧
    collect [⟨⟨40, 30, 310, 60⟩, false⟩] [oneLineBlock 50 10 300 20 true, oneLineBlock 50 40 300 50 true, oneLineBlock 50 100 300 110 true] =
      [[tln 50 40 300 50]] := by decide +kernel

/-- **C79** (refuted): "a block lying in a shading is a candidate": at most one shading is left behind per block, so a block in a shading is missed
when two other shadings lie above it. -/
theorem C79_refuted_shaded : ∃ (shadings : List SShape) (bs : List SBlock) (sh : SShape) (b : SBlock), sh ∈ shadings ∧ b ∈ bs ∧ sh.determined = false ∧
    El.contains ⟨sh.bbox, .leftRight⟩ b.el (9 / 10) = true ∧ b.lines ≠ [] ∧ (∀ l ∈ b.lines, l.truthy = true) ∧
    shadings.Pairwise (fun a c => a.bbox.y1 < c.bbox.y0) ∧ collect shadings bs = [] :=
  ⟨[⟨⟨40, 10, 310, 12⟩, false⟩, ⟨⟨40, 30, 310, 60⟩, false⟩], [oneLineBlock 50 40 300 50 true], ⟨⟨40, 30, 310, 60⟩, false⟩,
    oneLineBlock 50 40 300 50 true, by decide +kernel⟩

end Props
