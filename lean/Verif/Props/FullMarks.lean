import Verif.Spec.BorderMarks
import Verif.Props.StreamTight
/-! # Drawn lines used as borders of borderless tables (C105) -/

namespace Props
open Stream Geom Py Spec Border

variable {α : Type}

/-! ## Horizontal borders end at vertical ones -/

def DirAt (st : State) (i : ℕ) (h : Bool) : Prop := ∃ b : Bd, st[i]? = some b ∧ b.horizontal = h

def Crossed (st : State) : Prop := ∀ b ∈ st, DirAt st b.lb (!b.horizontal) ∧ DirAt st b.ub (!b.horizontal)

theorem DirAt.frame {st st' : State} {i : ℕ} {d : Bool} (h : DirAt st i d) (hf : Frame st st') : DirAt st' i d := by
  obtain ⟨b, hb, hr⟩ := h
  obtain ⟨b', hb', h', -⟩ := hf i b hb
  exact ⟨b', hb', h'.trans hr⟩

theorem DirAt.lt {st : State} {i : ℕ} {d : Bool} (h : DirAt st i d) : i < st.length := by
  obtain ⟨b, hb, -⟩ := h
  exact (List.getElem?_eq_some_iff.mp hb).1

theorem Crossed.frame {st st' : State} (h : Crossed st) (hf : Frame st st') (hl : st'.length = st.length) : Crossed st' := by
  intro b' hb'
  obtain ⟨i, hi⟩ := List.getElem?_of_mem hb'
  obtain ⟨hlt, -⟩ := List.getElem?_eq_some_iff.mp hi
  obtain ⟨b'', h0, h1, h2, h3, h4, h5, h6, -⟩ := hf i st[i] (List.getElem?_eq_getElem (by omega))
  rw [hi, Option.some.injEq] at h0
  subst h0
  have := h st[i] (List.getElem_mem _)
  rw [h4, h5, h1]
  exact ⟨this.1.frame hf, this.2.frame hf⟩

theorem Crossed.append {st ds : State} (h : Crossed st) (hd : ∀ b ∈ ds, DirAt st b.lb (!b.horizontal) ∧ DirAt st b.ub (!b.horizontal)) : Crossed (st ++ ds) := by
  intro x hx
  have hf := frame_append st ds
  rcases List.mem_append.1 hx with hx | hx
  · exact ⟨(h x hx).1.frame hf, (h x hx).2.frame hf⟩
  · exact ⟨(hd x hx).1.frame hf, (hd x hx).2.frame hf⟩

def XPost (st st' : State) : Prop := Frame st st' ∧ st.length ≤ st'.length ∧ Crossed st'

def XCall (call : Call) (ls : List El) : Prop :=
  ∀ T B L R st st', call ls T B L R st = some st' → DirAt st T true → DirAt st B true → DirAt st L false → DirAt st R false → Crossed st → XPost st st'

theorem rowLoop_crossed (call : Call) (ref : Bool) (B left right : ℕ) (rs : List (List El)) (top : ℕ) (st st' : State)
    (hcall : ∀ r ∈ rs, XCall call r) (hT : DirAt st top true) (hB : DirAt st B true) (hL : DirAt st left false) (hR : DirAt st right false) (he : Crossed st)
    (h : rowLoop call ref B left right top rs st = some st') : XPost st st' := by
  induction rs generalizing top st with
  | nil =>
    simp only [rowLoop, Option.some.injEq] at h
    subst h
    exact ⟨Frame.refl _, le_refl _, he⟩
  | cons r rs ih =>
    cases rs with
    | nil =>
      simp only [rowLoop] at h
      exact hcall r (by simp) _ _ _ _ _ _ h hT hB hL hR he
    | cons q rest =>
      simp only [rowLoop, Option.bind_eq_some_iff] at h
      obtain ⟨s1, h1, h2⟩ := h
      have hf := frame_append st [bd true (hull r).y1 (hull q).y0 left right ref]
      have hnew : DirAt (st ++ [bd true (hull r).y1 (hull q).y0 left right ref]) st.length true := ⟨_, by simp; rfl, rfl⟩
      have hc : Crossed (st ++ [bd true (hull r).y1 (hull q).y0 left right ref]) := he.append (by
        intro b hb; rw [List.mem_singleton] at hb; subst hb; exact ⟨hL, hR⟩)
      have p1 := hcall r (by simp) _ _ _ _ _ _ h1 (hT.frame hf) hnew (hL.frame hf) (hR.frame hf) hc
      have p2 := ih st.length s1 (fun k hk => hcall k (by simp [List.mem_cons.1 hk])) (hnew.frame p1.1) (hB.frame (hf.trans p1.1)) (hL.frame (hf.trans p1.1))
        (hR.frame (hf.trans p1.1)) p1.2.2 h2
      have hlen := p1.2.1
      rw [List.length_append, List.length_singleton] at hlen
      exact ⟨hf.trans (p1.1.trans p2.1), by have := p2.2.1; omega, p2.2.2⟩

theorem colLoop_crossed (iter : List ℕ → List ℕ) (call : Call) (ref : Bool) (T B R : ℕ) (cs : List (List El)) (left : ℕ) (st st' : State)
    (hcall : ∀ c ∈ cs, ∀ L R st st', colWork iter call ref T B L R c st = some st' → DirAt st T true → DirAt st B true → DirAt st L false → DirAt st R false →
      Crossed st → XPost st st') (hT : DirAt st T true) (hB : DirAt st B true)
    (hL : DirAt st left false) (hR : DirAt st R false) (he : Crossed st)
    (h : colLoop iter call ref T B R left cs st = some st') : XPost st st' := by
  induction cs generalizing left st with
  | nil =>
    simp only [colLoop, Option.some.injEq] at h
    subst h
    exact ⟨Frame.refl _, le_refl _, he⟩
  | cons c cs ih =>
    cases cs with
    | nil =>
      simp only [colLoop] at h
      exact hcall c (by simp) _ _ _ _ h hT hB hL hR he
    | cons d rest =>
      simp only [colLoop, Option.bind_eq_some_iff] at h
      obtain ⟨s1, h1, h2⟩ := h
      have hf := frame_append st [bd false (hull c).x1 (hull d).x0 T B false]
      have hnew : DirAt (st ++ [bd false (hull c).x1 (hull d).x0 T B false]) st.length false := ⟨_, by simp; rfl, rfl⟩
      have hc : Crossed (st ++ [bd false (hull c).x1 (hull d).x0 T B false]) := he.append (by
        intro b hb; rw [List.mem_singleton] at hb; subst hb; exact ⟨hT, hB⟩)
      have p1 := hcall c (by simp) _ _ _ _ h1 (hT.frame hf) (hB.frame hf) (hL.frame hf) hnew hc
      have p2 := ih st.length s1 (fun k hk => hcall k (by simp [List.mem_cons.1 hk])) (hT.frame (hf.trans p1.1)) (hB.frame (hf.trans p1.1)) (hnew.frame p1.1)
        (hR.frame (hf.trans p1.1)) p1.2.2 h2
      have hlen := p1.2.1
      rw [List.length_append, List.length_singleton] at hlen
      exact ⟨hf.trans (p1.1.trans p2.1), by have := p2.2.1; omega, p2.2.2⟩

theorem inner_crossed (iter : List ℕ → List ℕ) (n : ℕ) (ls : List El) : XCall (inner iter n) ls := by
  induction n generalizing ls with
  | zero => intro T B L R st st' h; simp [inner] at h
  | succ n ih =>
    intro T B L R st st' h hT hB hL hR he
    unfold inner at h
    simp only [] at h
    have hst : Frame st (if 2 ≤ (columns iter ls).length then setReal st [T, B, L, R] else st) ∧
        (if 2 ≤ (columns iter ls).length then setReal st [T, B, L, R] else st).length = st.length := by
      split
      · exact ⟨frame_setReal _ _, length_setReal _ _⟩
      · exact ⟨Frame.refl _, rfl⟩
    have := colLoop_crossed iter (inner iter n) _ T B R (columns iter ls) L _ st' ?_ (hT.frame hst.1) (hB.frame hst.1)
      (hL.frame hst.1) (hR.frame hst.1) (he.frame hst.1 hst.2) h
    · exact ⟨hst.1.trans this.1, by have := this.2.1; omega, this.2.2⟩
    · intro c _ L R st st' h hT hB hL hR he
      unfold colWork at h
      by_cases h1 : (rows iter c).length = 1
      · rw [if_pos h1, Option.some.injEq] at h
        subst h
        exact ⟨Frame.refl _, le_refl _, he⟩
      · rw [if_neg h1] at h
        exact rowLoop_crossed (inner iter n) _ B L R (rows iter c) T st st' (fun r _ => ih r) hT hB hL hR he h

theorem borders_crossed (iter : List ℕ → List ℕ) (n : ℕ) (page : Rect) (blocks : List Rect) (ls : List El) (st : State)
    (h : borders iter n page blocks ls = some st) : Crossed st := by
  have d : ∀ k < 4, DirAt (outer (tableBox ls) (outerBox page blocks ls)) k (decide (k < 2)) := by
    intro k hk
    interval_cases k <;> exact ⟨_, rfl, rfl⟩
  refine (inner_crossed iter n ls 0 1 2 3 _ st h (d 0 (by omega)) (d 1 (by omega)) (d 2 (by omega)) (d 3 (by omega)) ?_).2.2
  intro b hb
  simp only [outer, List.mem_cons, List.not_mem_nil, or_false] at hb
  rcases hb with rfl | rfl | rfl | rfl
  · exact ⟨d 2 (by omega), d 3 (by omega)⟩
  · exact ⟨d 2 (by omega), d 3 (by omega)⟩
  · exact ⟨d 0 (by omega), d 1 (by omega)⟩
  · exact ⟨d 0 (by omega), d 1 (by omega)⟩

theorem addDummies_crossed (order : List (ℚ × ℚ) → List (ℚ × ℚ)) (st : State) (h : Crossed st) : Crossed (addDummies order st) := by
  unfold addDummies
  simp only []
  refine h.append ?_
  intro d hd
  simp only [List.mem_flatMap] at hd
  obtain ⟨p, hp, hd⟩ := hd
  have mem : ∀ (l : List ℕ) (p : ℕ × ℕ), p ∈ pairs l → p.1 ∈ l ∧ p.2 ∈ l := by
    intro l
    induction l with
    | nil => intro p hp; simp [pairs] at hp
    | cons a l ih =>
      intro p hp
      cases l with
      | nil => simp [pairs] at hp
      | cons b l =>
        rw [pairs] at hp
        rcases List.mem_cons.1 hp with rfl | hp
        · simp
        · have := ih p hp
          exact ⟨List.mem_cons_of_mem _ this.1, List.mem_cons_of_mem _ this.2⟩
  have dir : ∀ i ∈ sortBy (fun i => (st.getD i dummy).pos) ((List.range st.length).filter fun i => !(st.getD i dummy).horizontal), DirAt st i false := by
    intro i hi
    rw [(sortBy_perm _ _).mem_iff] at hi
    rw [List.mem_filter] at hi
    have hlt := List.mem_range.1 hi.1
    refine ⟨st[i], List.getElem?_eq_getElem hlt, ?_⟩
    have := hi.2
    simpa [List.getD_eq_getElem?_getD, List.getElem?_eq_getElem hlt] using this
  split_ifs at hd
  · simp at hd
  · simp only [List.mem_filterMap] at hd
    obtain ⟨q, _, hq⟩ := hd
    split_ifs at hq
    rw [Option.some.injEq] at hq
    rw [← hq]
    exact ⟨dir _ (mem _ p hp).1, dir _ (mem _ p hp).2⟩

theorem Ext.same {b b' : Bd} (h : Ext b b') : b'.horizontal = b.horizontal ∧ b'.lo = b.lo ∧ b'.hi = b.hi ∧ b'.lb = b.lb ∧ b'.ub = b.ub := by
  rcases h with rfl | ⟨_, h3, h4, h5, h6, h7, _⟩
  · exact ⟨rfl, rfl, rfl, rfl, rfl⟩
  · exact ⟨h3, h4, h5, h6, h7⟩

theorem ExtAll.back {st st' : State} (h : ExtAll st st') (i : ℕ) (b' : Bd) (hb : st'[i]? = some b') : ∃ b, st[i]? = some b ∧ Ext b b' := by
  unfold ExtAll at h
  induction h generalizing i with
  | nil => simp at hb
  | cons hab _ ih =>
    cases i with
    | zero =>
      simp only [List.getElem?_cons_zero, Option.some.injEq] at hb
      exact ⟨_, rfl, hb ▸ hab⟩
    | succ i => exact ih i hb

theorem ExtAll.crossed {st st' : State} (h : ExtAll st st') (hc : Crossed st) : Crossed st' := by
  intro b' hb'
  obtain ⟨i, hi⟩ := List.getElem?_of_mem hb'
  obtain ⟨b, hb, e⟩ := h.back i b' hi
  obtain ⟨⟨p, hp, hp'⟩, ⟨q, hq, hq'⟩⟩ := hc b (List.mem_of_getElem? hb)
  obtain ⟨p', hp1, ep⟩ := h.get _ p hp
  obtain ⟨q', hq1, eq⟩ := h.get _ q hq
  obtain ⟨e1, -, -, e4, e5⟩ := e.same
  rw [e4, e5, e1]
  exact ⟨⟨p', hp1, ep.same.1.trans hp'⟩, ⟨q', hq1, eq.same.1.trans hq'⟩⟩

theorem ExtAll.keep {st st' : State} (h : ExtAll st st') (i : ℕ) (b : Bd) (v : ℚ) (hb : st[i]? = some b) (hv : b.value = some v) : st'[i]? = some b := by
  obtain ⟨b', hb', e⟩ := h.get i b hb
  rcases e with rfl | ⟨hn, _⟩
  · exact hb'
  · rw [hv] at hn; cases hn

/-! ## One line against all borders -/

theorem fm_getD {st : State} {i : ℕ} {b : Bd} (h : st[i]? = some b) : st.getD i dummy = b := by
  rw [List.getD_eq_getElem?_getD, h]; rfl

theorem fm_byValue_ne (st : State) (i k : ℕ) (v : ℚ) (h : i ≠ k) : (byValue st i v)[k]? = st[k]? := by
  unfold byValue
  rw [List.getElem?_modify]
  cases st[k]? <;> simp [h]

theorem fm_finalizes_false (st : State) (i : ℕ) (b : Bd) (s : Line) (hc : Crossed st) (hb : st[i]? = some b) (hd : b.horizontal = s.horizontal)
    (hf : Full.finalizes st i s = false) (k : ℕ) (c : Bd) (hk : st[k]? = some c) (hkd : c.horizontal = s.horizontal) : (byStroke st i s)[k]? = some c := by
  obtain ⟨⟨p, hp, hp'⟩, ⟨q, hq, hq'⟩⟩ := hc b (List.mem_of_getElem? hb)
  have n1 : b.lb ≠ k := by
    rintro rfl
    rw [hk] at hp
    obtain rfl := Option.some.inj hp
    rw [hkd, hd] at hp'
    simp at hp'
  have n2 : b.ub ≠ k := by
    rintro rfl
    rw [hk] at hq
    obtain rfl := Option.some.inj hq
    rw [hkd, hd] at hq'
    simp at hq'
  unfold Full.finalizes at hf
  unfold byStroke
  simp only [fm_getD hb] at hf ⊢
  split_ifs with h1 h2 h3
  · exact hk
  · exact hk
  · rw [fm_byValue_ne _ _ _ _ n2, fm_byValue_ne _ _ _ _ n1]; exact hk
  · exfalso
    rw [Bool.not_eq_true', Bool.not_eq_false] at h1
    rw [h1] at hf
    simp only [Bool.true_and, Bool.and_eq_false_iff, Bool.not_eq_false', decide_eq_true_eq] at hf
    rcases hf with hf | hf
    · exact h2 hf
    · cases hv : b.value with
      | none => rw [hv] at hf; cases hf
      | some v => rw [hv] at h3; exact h3 rfl

theorem fm_finalizes_true (st : State) (i : ℕ) (b : Bd) (s : Line) (hb : st[i]? = some b) (hf : Full.finalizes st i s = true) :
    b.value = none ∧ (byStroke st i s)[i]? = some ⟨b.horizontal, b.lo, b.hi, b.lb, b.ub, false, some s.value, s.width, s.color⟩ ∧ (b.lo - 1 ≤ s.value ∧ s.value ≤ b.hi + 1) ∧
      ¬ ((st.getD b.lb dummy).hi < s.low ∧ s.up < (st.getD b.ub dummy).lo) := by
  unfold Full.finalizes at hf
  simp only [fm_getD hb, Bool.and_eq_true, Bool.not_eq_true', decide_eq_false_iff_not, Option.isNone_iff_eq_none] at hf
  obtain ⟨⟨h1, h2⟩, h3⟩ := hf
  have hr : b.lo - 1 ≤ s.value ∧ s.value ≤ b.hi + 1 := by
    unfold Bd.isValid at h1; exact of_decide_eq_true h1
  refine ⟨h3, ?_, hr, h2⟩
  unfold byStroke
  simp only [fm_getD hb]
  rw [if_neg (by simp [h1]), if_neg h2, if_neg (by simp [h3])]
  have e : (st.modify i fun b => { b.finalize s.value with color := s.color, width := s.width })[i]? =
      some ⟨b.horizontal, b.lo, b.hi, b.lb, b.ub, false, some s.value, s.width, s.color⟩ := by
    rw [List.getElem?_modify, hb]
    simp only [if_true]
    simp [Bd.finalize, h3, h1]
  exact ((extAll_byValue _ _ _).trans (extAll_byValue _ _ _)).keep i _ _ e rfl

/-- The inner loop of `_finalize_by_strokes`. -/
def fmPass (s : Line) (is : List ℕ) (st : State) : State :=
  is.foldl (fun st i => if s.horizontal ≠ (st.getD i dummy).horizontal then st else byStroke st i s) st

theorem fm_pass_ext (s : Line) (is : List ℕ) (st : State) : ExtAll st (fmPass s is st) := by
  unfold fmPass
  refine extAll_foldl _ (fun st i => ?_) is st
  split
  · exact ExtAll.refl _
  · exact extAll_byStroke _ _ _

theorem fm_any (s : Line) (is : List ℕ) (st : State) (hc : Crossed st) (hi : ∀ i ∈ is, i < st.length) :
    Full.finalizesAny s is st = true ↔
      ∃ (i : ℕ) (b b' : Bd), st[i]? = some b ∧ b.value = none ∧ b.horizontal = s.horizontal ∧ (fmPass s is st)[i]? = some b' ∧ b'.value = some s.value := by
  induction is generalizing st with
  | nil =>
    rw [Full.finalizesAny]
    constructor
    · intro h; cases h
    · rintro ⟨i, b, b', h1, h2, -, h3, h4⟩
      rw [fmPass, List.foldl_nil, h1] at h3
      obtain rfl := Option.some.inj h3
      rw [h2] at h4; cases h4
  | cons i is ih =>
    have hlt := hi i (by simp)
    have hb : st[i]? = some st[i] := List.getElem?_eq_getElem hlt
    rw [Full.finalizesAny]
    unfold fmPass
    rw [List.foldl_cons, fm_getD hb]
    split_ifs with hd
    · exact ih st hc fun j hj => hi j (by simp [hj])
    · have hd : st[i].horizontal = s.horizontal := (not_not.1 hd).symm
      have hx := extAll_byStroke st i s
      have hlen : (byStroke st i s).length = st.length := (List.Forall₂.length_eq hx).symm
      have ih := ih (byStroke st i s) (hx.crossed hc) fun j hj => by rw [hlen]; exact hi j (by simp [hj])
      change _ ↔ ∃ (k : ℕ) (b b' : Bd), st[k]? = some b ∧ b.value = none ∧ b.horizontal = s.horizontal ∧ (fmPass s is (byStroke st i s))[k]? = some b' ∧ b'.value = some s.value
      cases hf : Full.finalizes st i s with
      | true =>
        rw [Bool.true_or]
        obtain ⟨h1, h2, -⟩ := fm_finalizes_true st i _ s hb hf
        exact iff_of_true rfl ⟨i, _, _, hb, h1, hd, (fm_pass_ext s is _).keep i _ s.value h2 rfl, rfl⟩
      | false =>
        rw [Bool.false_or, ih]
        constructor
        · rintro ⟨k, b, b', h1, h2, h3, h4, h5⟩
          obtain ⟨c, hc1, e⟩ := hx.back k b h1
          refine ⟨k, c, b', hc1, ?_, e.same.1 ▸ h3, h4, h5⟩
          rcases e with rfl | ⟨hn, _⟩
          · exact h2
          · exact hn
        · rintro ⟨k, b, b', h1, h2, h3, h4, h5⟩
          exact ⟨k, b, b', fm_finalizes_false st i _ s hc hb hd hf k b h1 h3, h2, h3, h4, h5⟩

theorem fm_used (s : Line) (is : List ℕ) (st : State) (hc : Crossed st) (hi : ∀ i ∈ is, i < st.length) (h : Full.finalizesAny s is st = true) :
    ∃ (i : ℕ) (b : Bd), (fmPass s is st)[i]? = some b ∧ b.horizontal = s.horizontal ∧ b.value = some s.value ∧ b.width = s.width ∧ b.color = s.color ∧ b.reference = false ∧
      b.lo - 1 ≤ s.value ∧ s.value ≤ b.hi + 1 ∧ ∃ p q, (fmPass s is st)[b.lb]? = some p ∧ (fmPass s is st)[b.ub]? = some q ∧ ¬ (p.hi < s.low ∧ s.up < q.lo) := by
  induction is generalizing st with
  | nil => rw [Full.finalizesAny] at h; cases h
  | cons i is ih =>
    have hlt := hi i (by simp)
    have hb : st[i]? = some st[i] := List.getElem?_eq_getElem hlt
    rw [Full.finalizesAny] at h
    have e : fmPass s (i :: is) st = fmPass s is (if s.horizontal ≠ st[i].horizontal then st else byStroke st i s) := by
      unfold fmPass
      rw [List.foldl_cons, fm_getD hb]
    rw [fm_getD hb] at h
    rw [e]
    split_ifs at h ⊢ with hd
    · exact ih st hc (fun j hj => hi j (by simp [hj])) h
    · have hd : st[i].horizontal = s.horizontal := (not_not.1 hd).symm
      have hx := extAll_byStroke st i s
      have hlen : (byStroke st i s).length = st.length := (List.Forall₂.length_eq hx).symm
      cases hf : Full.finalizes st i s with
      | true =>
        obtain ⟨h1, h2, h3, h4⟩ := fm_finalizes_true st i _ s hb hf
        obtain ⟨⟨p, hp, -⟩, ⟨q, hq, -⟩⟩ := hc _ (List.mem_of_getElem? hb)
        have hx2 := hx.trans (fm_pass_ext s is (byStroke st i s))
        obtain ⟨p', hp', ep⟩ := hx2.get _ p hp
        obtain ⟨q', hq', eq⟩ := hx2.get _ q hq
        rw [fm_getD hp, fm_getD hq] at h4
        refine ⟨i, _, (fm_pass_ext s is _).keep i _ s.value h2 rfl, hd, rfl, rfl, rfl, rfl, h3.1, h3.2, p', q', hp', hq', ?_⟩
        rw [ep.same.2.2.1, eq.same.2.1]
        exact h4
      | false =>
        rw [hf, Bool.false_or] at h
        exact ih (byStroke st i s) (hx.crossed hc) (fun j hj => by rw [hlen]; exact hi j (by simp [hj])) h

/-! ## The lines marked -/

theorem fm_one (st : State) (s : Line) (h : s.determined = false) : byStrokes st [s] = fmPass s (List.range st.length) st := by
  unfold byStrokes fmPass
  simp [h]

theorem fm_one_det (st : State) (s : Line) (h : s.determined = true) : byStrokes st [s] = st := by
  unfold byStrokes
  simp [h]

theorem fm_cons (st : State) (s : Line) (l : List Line) : byStrokes st (s :: l) = byStrokes (byStrokes st [s]) l := by
  unfold byStrokes
  simp

theorem fm_append (st : State) (a b : List Line) : byStrokes st (a ++ b) = byStrokes (byStrokes st a) b := by
  unfold byStrokes
  rw [List.foldl_append]

theorem fm_horizontal (s : Table.St) : s.horizontal = decide (LineIsHorizontal s) := rfl

theorem fm_line (ty : Full.Types) (s : Table.St) : (Full.lineOf ty s).horizontal = decide (LineIsHorizontal s) ∧ (Full.lineOf ty s).value = linePos s ∧
    (Full.lineOf ty s).low = lineFrom s ∧ (Full.lineOf ty s).up = lineTo s ∧ (Full.lineOf ty s).width = s.width ∧ (Full.lineOf ty s).color = s.color ∧
    ((Full.lineOf ty s).determined = true ↔ Full.Sh.stroke s ∈ ty.done ∨ Full.Sh.stroke s ∈ ty.styled) := by
  have hd : ty.determined (Full.Sh.stroke s) = true ↔ Full.Sh.stroke s ∈ ty.done ∨ Full.Sh.stroke s ∈ ty.styled := by
    unfold Full.Types.determined
    rw [Bool.or_eq_true, decide_eq_true_eq, decide_eq_true_eq]
  unfold Full.lineOf linePos lineFrom lineTo
  rw [fm_horizontal]
  by_cases h : LineIsHorizontal s
  · rw [if_pos h, if_pos h, if_pos h, if_pos (decide_eq_true h)]
    exact ⟨(decide_eq_true h).symm, rfl, rfl, rfl, rfl, rfl, hd⟩
  · rw [if_neg h, if_neg h, if_neg h, if_neg (by simp [h])]
    exact ⟨(decide_eq_false h).symm, rfl, rfl, rfl, rfl, rfl, hd⟩

theorem fm_gives (ty : Full.Types) (s : Table.St) (st : State) (hc : Crossed st) (hd : (Full.lineOf ty s).determined = false) :
    Full.finalizesAny (Full.lineOf ty s) (List.range st.length) st = true ↔ GivesPosition st (byStrokes st [Full.lineOf ty s]) s := by
  rw [fm_any _ _ _ hc fun i hi => List.mem_range.1 hi, fm_one _ _ hd]
  obtain ⟨e1, e2, -⟩ := fm_line ty s
  unfold GivesPosition
  rw [e1, e2]
  refine exists_congr fun i => exists_congr fun b => exists_congr fun b' => and_congr Iff.rfl (and_congr Iff.rfl (and_congr ?_ Iff.rfl))
  by_cases h : LineIsHorizontal s <;> simp [h]

theorem fm_marks (ty : Full.Types) (l : List Table.St) (st : State) (hc : Crossed st) (s : Table.St) :
    s ∈ Full.borderMarks ty st l ↔ ∃ pre post, l = pre ++ s :: post ∧ Full.Sh.stroke s ∉ ty.done ∧ Full.Sh.stroke s ∉ ty.styled ∧
      GivesPosition (byStrokes st (pre.map (Full.lineOf ty))) (byStrokes st ((pre ++ [s]).map (Full.lineOf ty))) s := by
  induction l generalizing st with
  | nil => simp [Full.borderMarks]
  | cons a l ih =>
    rw [Full.borderMarks, List.mem_append, ih _ ((extAll_byStrokes st [Full.lineOf ty a]).crossed hc)]
    have hh : s ∈ (if (!(Full.lineOf ty a).determined && Full.finalizesAny (Full.lineOf ty a) (List.range st.length) st) = true then [a] else []) ↔
        a = s ∧ Full.Sh.stroke s ∉ ty.done ∧ Full.Sh.stroke s ∉ ty.styled ∧ GivesPosition st (byStrokes st [Full.lineOf ty s]) s := by
      have key : (!(Full.lineOf ty a).determined && Full.finalizesAny (Full.lineOf ty a) (List.range st.length) st) = true ↔
          Full.Sh.stroke a ∉ ty.done ∧ Full.Sh.stroke a ∉ ty.styled ∧ GivesPosition st (byStrokes st [Full.lineOf ty a]) a := by
        rw [Bool.and_eq_true, Bool.not_eq_true', ← and_assoc]
        have hdet := (fm_line ty a).2.2.2.2.2.2
        cases hd : (Full.lineOf ty a).determined with
        | true =>
          have := hdet.1 hd
          constructor
          · rintro ⟨h, -⟩; cases h
          · rintro ⟨⟨h1, h2⟩, -⟩
            rcases this with h | h
            · exact absurd h h1
            · exact absurd h h2
        | false =>
          rw [hd] at hdet
          rw [fm_gives ty a st hc hd]
          have h0 : ¬ (Full.Sh.stroke a ∈ ty.done ∨ Full.Sh.stroke a ∈ ty.styled) := fun h => by cases hdet.2 h
          exact and_congr (iff_of_true rfl (not_or.1 h0)) Iff.rfl
      split_ifs with hk
      · rw [List.mem_singleton]
        constructor
        · rintro rfl; exact ⟨rfl, key.1 hk⟩
        · rintro ⟨h, -⟩; exact h.symm
      · constructor
        · intro h; cases h
        · rintro ⟨rfl, h⟩; exact absurd (key.2 h) hk
    rw [hh]
    constructor
    · rintro (⟨rfl, h1, h2, h3⟩ | ⟨pre, post, rfl, h1, h2, h3⟩)
      · exact ⟨[], l, rfl, h1, h2, by simpa [byStrokes] using h3⟩
      · refine ⟨a :: pre, post, rfl, h1, h2, ?_⟩
        rw [List.cons_append, List.map_cons, List.map_cons, fm_cons st, fm_cons st]
        exact h3
    · rintro ⟨pre, post, he, h1, h2, h3⟩
      cases pre with
      | nil =>
        rw [List.nil_append] at he
        injection he with e1 e2
        subst e1
        exact Or.inl ⟨rfl, h1, h2, by simpa [byStrokes] using h3⟩
      | cons x pre =>
        rw [List.cons_append] at he
        injection he with e1 e2
        subst e1
        refine Or.inr ⟨pre, post, e2, h1, h2, ?_⟩
        rw [List.cons_append, List.map_cons, List.map_cons, fm_cons st, fm_cons st] at h3
        exact h3

theorem fm_marks_used (ty : Full.Types) (l : List Table.St) (st : State) (hc : Crossed st) (s : Table.St) (h : s ∈ Full.borderMarks ty st l) :
    UsedBy (byStrokes st (l.map (Full.lineOf ty))) s := by
  induction l generalizing st with
  | nil => simp [Full.borderMarks] at h
  | cons a l ih =>
    rw [List.map_cons, fm_cons]
    rw [Full.borderMarks, List.mem_append] at h
    rcases h with h | h
    · split_ifs at h with hk
      · rw [List.mem_singleton] at h
        subst h
        rw [Bool.and_eq_true, Bool.not_eq_true'] at hk
        obtain ⟨hd, hk⟩ := hk
        obtain ⟨i, b, h1, h2, h3, h4, h5, h6, h7, h8, p, q, hp, hq, h9⟩ := fm_used _ _ _ hc (fun i hi => List.mem_range.1 hi) hk
        rw [← fm_one st _ hd] at h1 hp hq
        obtain ⟨e1, e2, e3, e4, e5, e6, -⟩ := fm_line ty s
        have hx := extAll_byStrokes (byStrokes st [Full.lineOf ty s]) (l.map (Full.lineOf ty))
        obtain ⟨p', hp', ep⟩ := hx.get _ p hp
        obtain ⟨q', hq', eq⟩ := hx.get _ q hq
        rw [e2] at h3 h7 h8
        rw [e3, e4] at h9
        refine ⟨i, b, p', q', hx.keep i b _ h1 h3, hp', hq', ?_, h3, h4.trans e5, h5.trans e6, h6, h7, h8, ?_⟩
        · rw [h2, e1, decide_eq_true_eq]
        · rw [ep.same.2.2.1, eq.same.2.1]
          by_contra hn
          rw [not_or, not_le, not_le] at hn
          exact h9 hn
      · cases h
    · exact ih _ ((extAll_byStrokes st [Full.lineOf ty a]).crossed hc) h

theorem fm_usedBy_ext {st st' : State} {s : Table.St} (h : UsedBy st s) (hx : ExtAll st st') : UsedBy st' s := by
  obtain ⟨i, b, p, q, h1, hp, hq, h2, h3, h4, h5, h6, h7, h8, h9⟩ := h
  obtain ⟨p', hp', ep⟩ := hx.get _ p hp
  obtain ⟨q', hq', eq⟩ := hx.get _ q hq
  exact ⟨i, b, p', q', hx.keep i b _ h1 h3, hp', hq', h2, h3, h4, h5, h6, h7, h8, by rw [ep.same.2.2.1, eq.same.2.1]; exact h9⟩

/-! ## Theorems -/

/-- The borders of a candidate before any line is considered: those of the division with the auxiliary ones. -/
def fmStart (c : Full.Cfg) (box : Rect) (boxes : List Rect) (ls : List El) : Option State :=
  (Stream.borders c.base.lay.iter (ls.length + 1) box boxes ls).map (addDummies c.base.order)

/-- The lines considered: the borders candidates of the layout in the space left for the table. -/
def fmLines (box : Rect) (boxes : List Rect) (ls : List El) (sub : Full.Sub) : List Table.St :=
  sub.strokes.filter fun s => (Stream.outerBox box boxes ls).round.contains s.bbox

/-- **C105**: a drawn line is marked as a border while a borderless table is looked for iff it was not used before (as border or as text style) and, at its turn, gave its position
to a border of the table that was still open. -/
theorem C105_border_marks (c : Full.Cfg) (ty : Full.Types) (box : Rect) (sub : Full.Sub) (boxes : List Rect) (ls : List El) (st : State)
    (hst : fmStart c box boxes ls = some st) (r : List Full.Found × Full.Types) (h : Full.streamTable c ty box sub boxes ls = .ok r) (s : Table.St) :
    Full.Sh.stroke s ∈ r.2.done ↔ Full.Sh.stroke s ∈ ty.done ∨
      ∃ pre post, fmLines box boxes ls sub = pre ++ s :: post ∧ Full.Sh.stroke s ∉ ty.done ∧ Full.Sh.stroke s ∉ ty.styled ∧
        GivesPosition (byStrokes st (pre.map (Full.lineOf ty))) (byStrokes st ((pre ++ [s]).map (Full.lineOf ty))) s := by
  unfold fmStart at hst
  rw [Option.map_eq_some_iff] at hst
  obtain ⟨st0, h0, rfl⟩ := hst
  have hc := addDummies_crossed c.base.order st0 (borders_crossed _ _ _ _ _ _ h0)
  rw [← fm_marks ty _ _ hc s]
  unfold Full.streamTable at h
  rw [h0] at h
  dsimp only at h
  split at h
  · cases h
  · rename_i t ht
    obtain rfl := Except.ok.inj h
    have hm : ∀ l : List (Rect × ℕ), Full.Sh.stroke s ∉ l.map fun f => Full.Sh.fill f.1 f.2 := by
      intro l hl
      obtain ⟨f, -, hf⟩ := List.mem_map.1 hl
      cases hf
    have hb : ∀ l : List Table.St, Full.Sh.stroke s ∈ l.map Full.Sh.stroke ↔ s ∈ l := by
      intro l
      rw [List.mem_map]
      constructor
      · rintro ⟨x, hx, e⟩; injection e with e; exact e ▸ hx
      · intro hx; exact ⟨s, hx, rfl⟩
    dsimp only
    split_ifs
    · unfold Full.Types.mark
      simp only [List.mem_append, hm, or_false, hb]
      rfl
    · unfold Full.Types.mark
      simp only [List.mem_append, hb]
      rfl

/-- **C105**: every line newly marked is used: among the borders of the table as they are placed finally, one has the position, width and colour of the line, and it is drawn. -/
theorem C105_marked_used (c : Full.Cfg) (ty : Full.Types) (box : Rect) (sub : Full.Sub) (boxes : List Rect) (ls : List El) (st : State)
    (hst : Stream.borders c.base.lay.iter (ls.length + 1) box boxes ls = some st) (r : List Full.Found × Full.Types) (h : Full.streamTable c ty box sub boxes ls = .ok r)
    (s : Table.St) (h1 : Full.Sh.stroke s ∈ r.2.done) (h2 : Full.Sh.stroke s ∉ ty.done) (fills : List Rect) :
    s ∈ sub.strokes ∧ UsedBy (Border.finalize c.base.order ((fmLines box boxes ls sub).map (Full.lineOf ty)) fills st) s := by
  have hc := addDummies_crossed c.base.order st (borders_crossed _ _ _ _ _ _ hst)
  have h3 := (C105_border_marks c ty box sub boxes ls _ (by unfold fmStart; rw [hst]; rfl) r h s).1 h1
  have h3 := h3.resolve_left h2
  constructor
  · obtain ⟨pre, post, e, -⟩ := h3
    have : s ∈ fmLines box boxes ls sub := by rw [e]; simp
    exact (List.mem_filter.1 this).1
  · rw [← fm_marks ty _ _ hc s] at h3
    refine fm_usedBy_ext (fm_marks_used ty _ _ hc s h3) ?_
    unfold Border.finalize
    exact (extAll_byStrokes _ _).trans ((extAll_byLayout _ _).trans (extAll_byLayout _ _))

/-! ## Examples -/

/-- Two rows of two texts; a line of 1pt between the rows, one far above (in another block's space), one already used. -/
def fmTexts : List El := [⟨⟨50, 100, 100, 110⟩, .leftRight⟩, ⟨⟨200, 100, 250, 110⟩, .leftRight⟩, ⟨⟨50, 130, 100, 140⟩, .leftRight⟩, ⟨⟨200, 130, 250, 140⟩, .leftRight⟩]

def fmStroke (x0 x1 y : ℚ) : Table.St := ⟨x0, y, x1, y, ⟨x0, y - 1 / 2, x1, y + 1 / 2⟩, 1, 0⟩

def fmSub : Full.Sub := ⟨[], [fmStroke 40 260 122, fmStroke 40 260 30, fmStroke 40 260 95, fmStroke 40 260 125], []⟩

def fmRun : Option (List (List Full.CellInfo) × List Table.St) :=
  (Full.streamTable ⟨⟨⟨id, 1 / 10, 5⟩, 2, 6, id⟩, 1 / 2⟩ ⟨[], [.stroke (fmStroke 40 260 95)]⟩ ⟨0, 0, 400, 600⟩ fmSub
    [⟨50, 40, 250, 60⟩, ⟨50, 100, 250, 140⟩] fmTexts).toOption.map fun r => (r.1.map Full.Found.cells, r.2.done.filterMap fun s => match s with | .stroke s => some s | _ => none)

/-- Non-vacuity: only the line between the rows is used: it separates the cells (and its ends fix the sides). The one above (y = 95) is used for text already, the second one
between the rows comes too late. -/
example : (fmStart ⟨⟨⟨id, 1 / 10, 5⟩, 2, 6, id⟩, 1 / 2⟩ ⟨0, 0, 400, 600⟩ [⟨50, 40, 250, 60⟩, ⟨50, 100, 250, 140⟩] fmTexts).isSome = true ∧
    fmRun = some ([[⟨⟨40, 80, 150, 122⟩, 0, 0, 1, 0, none⟩, ⟨⟨150, 80, 260, 122⟩, 0, 0, 1, 0, none⟩, ⟨⟨40, 122, 150, 370⟩, 1, 0, 0, 0, none⟩,
      ⟨⟨150, 122, 260, 370⟩, 1, 0, 0, 0, none⟩]], [fmStroke 40 260 122]) := by
  refine ⟨by decide +kernel, by decide +kernel⟩

end Props
