import Verif.Stream
import Verif.Spec.Stream
import Verif.Props.Graph
import Verif.Props.Element
import Verif.Props.Border
import Verif.Props.TightBorder
import Mathlib.Data.List.Basic
/-! # C76-C78: the borders of stream tables -/
namespace Props
open Stream Geom Py Spec Border

/-! ## Termination -/

theorem groups_spec {α : Type} (iter : List ℕ → List ℕ) (hi : ∀ l, (iter l).Perm l) (f : α → α → Bool) (xs : List α) :
    (groups iter f xs).flatten.Perm xs ∧ ∀ g ∈ groups iter f xs, g ≠ [] := by
  obtain ⟨gs, h1, h2, h3⟩ := C21_elements_conserved iter hi f xs
  unfold groups
  rw [h1]
  exact ⟨h2, h3⟩

theorem perm_flatten_sortBy {α κ : Type} [LinearOrder κ] (key : List α → κ) (gs : List (List α)) :
    (sortBy key gs).flatten.Perm gs.flatten := (sortBy_perm key gs).flatten

theorem columns_perm (iter : List ℕ → List ℕ) (hi : ∀ l, (iter l).Perm l) (ls : List El) :
    (columns iter ls).flatten.Perm ls ∧ ∀ g ∈ columns iter ls, g ≠ [] := by
  have h := groups_spec iter hi (fun a b : El => a.verticallyAlign b 0 false) ls
  exact ⟨(perm_flatten_sortBy _ _).trans h.1, fun g hg => h.2 g ((mem_sortBy _ _ _).1 hg)⟩

theorem rows_perm (iter : List ℕ → List ℕ) (hi : ∀ l, (iter l).Perm l) (ls : List El) :
    (rows iter ls).flatten.Perm ls ∧ ∀ g ∈ rows iter ls, g ≠ [] := by
  have h := groups_spec iter hi (fun a b : El => a.horizontallyAlign b (1 / 10) true) ls
  exact ⟨(perm_flatten_sortBy _ _).trans h.1, fun g hg => h.2 g ((mem_sortBy _ _ _).1 hg)⟩

theorem length_le_flatten {α : Type} (gs : List (List α)) (g : List α) (h : g ∈ gs) : g.length ≤ gs.flatten.length := by
  induction gs with
  | nil => simp at h
  | cons a gs ih =>
    rw [List.flatten_cons, List.length_append]
    rcases List.mem_cons.1 h with rfl | h
    · omega
    · have := ih h; omega

theorem length_lt_flatten {α : Type} (gs : List (List α)) (hne : ∀ g ∈ gs, g ≠ []) (h2 : 2 ≤ gs.length) (g : List α) (h : g ∈ gs) :
    g.length < gs.flatten.length := by
  have key : ∀ g' ∈ gs, 0 < g'.length := fun g' hg' => List.length_pos_iff.2 (hne g' hg')
  match gs, h2 with
  | a :: b :: rest, _ =>
    have ha := key a (by simp)
    have hb := key b (by simp)
    simp only [List.flatten_cons, List.length_append]
    rcases List.mem_cons.1 h with rfl | h
    · omega
    · have := length_le_flatten (b :: rest) g h
      simp only [List.flatten_cons, List.length_append] at this
      omega

/-- Two calls agreeing on the rows give the same loop. -/
theorem rowLoop_total (call : Call) (ref : Bool) (B left right : ℕ) (rs : List (List El)) (top : ℕ) (st : State)
    (h : ∀ r ∈ rs, ∀ T B L R st, ∃ st', call r T B L R st = some st') : ∃ st', rowLoop call ref B left right top rs st = some st' := by
  induction rs generalizing top st with
  | nil => exact ⟨st, rfl⟩
  | cons r rs ih =>
    cases rs with
    | nil => exact h r (by simp) _ _ _ _ _
    | cons q rest =>
      obtain ⟨s1, h1⟩ := h r (by simp) top st.length left right (st ++ [bd true (hull r).y1 (hull q).y0 left right ref])
      obtain ⟨s2, h2⟩ := ih st.length s1 (fun r hr => h r (by simp [hr]))
      exact ⟨s2, by unfold rowLoop; rw [h1]; exact h2⟩

theorem rowLoop_congr (call call' : Call) (ref : Bool) (B left right : ℕ) (rs : List (List El)) (top : ℕ) (st : State)
    (h : ∀ r ∈ rs, call r = call' r) : rowLoop call ref B left right top rs st = rowLoop call' ref B left right top rs st := by
  induction rs generalizing top st with
  | nil => rfl
  | cons r rs ih =>
    cases rs with
    | nil => unfold rowLoop; rw [h r (by simp)]
    | cons q rest =>
      unfold rowLoop
      rw [h r (by simp)]
      congr 1
      funext s
      exact ih st.length s (fun r hr => h r (by simp [hr]))

theorem colLoop_total (iter : List ℕ → List ℕ) (call : Call) (ref : Bool) (T B R : ℕ) (cs : List (List El)) (left : ℕ) (st : State)
    (h : ∀ c ∈ cs, ∀ left right st, ∃ st', colWork iter call ref T B left right c st = some st') :
    ∃ st', colLoop iter call ref T B R left cs st = some st' := by
  induction cs generalizing left st with
  | nil => exact ⟨st, rfl⟩
  | cons c cs ih =>
    cases cs with
    | nil => exact h c (by simp) _ _ _
    | cons d rest =>
      obtain ⟨s1, h1⟩ := h c (by simp) left st.length (st ++ [bd false (hull c).x1 (hull d).x0 T B false])
      obtain ⟨s2, h2⟩ := ih st.length s1 (fun r hr => h r (by simp [hr]))
      exact ⟨s2, by unfold colLoop; rw [h1]; exact h2⟩

theorem colLoop_congr (iter : List ℕ → List ℕ) (call call' : Call) (ref : Bool) (T B R : ℕ) (cs : List (List El)) (left : ℕ) (st : State)
    (h : ∀ c ∈ cs, ∀ left right st, colWork iter call ref T B left right c st = colWork iter call' ref T B left right c st) :
    colLoop iter call ref T B R left cs st = colLoop iter call' ref T B R left cs st := by
  induction cs generalizing left st with
  | nil => rfl
  | cons c cs ih =>
    cases cs with
    | nil => exact h c (by simp) _ _ _
    | cons d rest =>
      unfold colLoop
      rw [h c (by simp)]
      congr 1
      funext s
      exact ih st.length s (fun r hr => h r (by simp [hr]))

/-- Rows needing a recursive call are strictly smaller than the lines. -/
theorem row_smaller (iter : List ℕ → List ℕ) (hi : ∀ l, (iter l).Perm l) (ls c r : List El) (hc : c ∈ columns iter ls)
    (h1 : (rows iter c).length ≠ 1) (hr : r ∈ rows iter c) : r.length < ls.length ∧ 1 ≤ r.length := by
  have hC := columns_perm iter hi ls
  have hR := rows_perm iter hi c
  have h2 : 2 ≤ (rows iter c).length := by
    have : 0 < (rows iter c).length := List.length_pos_of_mem hr
    omega
  have a := length_lt_flatten _ hR.2 h2 r hr
  have b := length_le_flatten _ c hc
  rw [hR.1.length_eq] at a
  rw [hC.1.length_eq] at b
  exact ⟨by omega, List.length_pos_iff.2 (hR.2 r hr)⟩

theorem inner_total (iter : List ℕ → List ℕ) (hi : ∀ l, (iter l).Perm l) (n : ℕ) (ls : List El) (h1 : ls.length ≤ n) (h2 : 1 ≤ n)
    (T B L R : ℕ) (st : State) : ∃ st', inner iter n ls T B L R st = some st' := by
  induction n generalizing ls T B L R st with
  | zero => omega
  | succ n ih =>
    unfold inner
    apply colLoop_total
    intro c hc left right st
    unfold colWork
    by_cases h : (rows iter c).length = 1
    · rw [if_pos h]; exact ⟨st, rfl⟩
    · rw [if_neg h]
      apply rowLoop_total
      intro r hr T B L R st
      have := row_smaller iter hi ls c r hc h hr
      exact ih r (by omega) (by omega) T B L R st

theorem inner_succ (iter : List ℕ → List ℕ) (hi : ∀ l, (iter l).Perm l) (n : ℕ) (ls : List El) (h1 : ls.length ≤ n) (h2 : 1 ≤ n) :
    inner iter (n + 1) ls = inner iter n ls := by
  induction n generalizing ls with
  | zero => omega
  | succ n ih =>
    funext T B L R st
    rw [inner, inner]
    apply colLoop_congr
    intro c hc left right st
    unfold colWork
    by_cases h : (rows iter c).length = 1
    · rw [if_pos h, if_pos h]
    · rw [if_neg h, if_neg h]
      apply rowLoop_congr
      intro r hr
      have := row_smaller iter hi ls c r hc h hr
      exact ih r (by omega) (by omega)

/-- **C76**: dividing the lines of a stream table into columns and rows, and these again, ends for every set of lines: no more nested calls
than there are lines, and the result is the same whatever larger depth is allowed. -/
theorem C76_division_ends (iter : List ℕ → List ℕ) (hi : ∀ l, (iter l).Perm l) (ls : List El) (T B L R : ℕ) (st : State) :
    ∃ st', ∀ n, max 1 ls.length ≤ n → inner iter n ls T B L R st = some st' := by
  obtain ⟨st', h⟩ := inner_total iter hi (max 1 ls.length) ls (by omega) (by omega) T B L R st
  refine ⟨st', fun n hn => ?_⟩
  induction n, hn using Nat.le_induction with
  | base => exact h
  | succ n hn ih => rw [inner_succ iter hi n ls (by omega) (by omega)]; exact ih

/-! ## Columns and rows are separated -/

theorem group_congr {α : Type} (iter : List ℕ → List ℕ) (f g : α → α → Bool) (xs : List α)
    (h : ∀ a ∈ xs, ∀ b ∈ xs, f a b = g a b) : Graph.group iter f xs = Graph.group iter g xs := by
  have : Graph.relatedPairs f xs = Graph.relatedPairs g xs := by
    unfold Graph.relatedPairs
    apply List.flatMap_congr
    intro i _
    apply List.filterMap_congr
    intro j _
    split
    · cases hi : xs[i]? with
      | none => rfl
      | some a =>
        cases hj : xs[j]? with
        | none => rfl
        | some b => simp only []; rw [h a (List.mem_of_getElem? hi) b (List.mem_of_getElem? hj)]
    · rfl
  unfold Graph.group
  rw [this]

theorem exists_min {α : Type} (f : α → ℚ) (l : List α) (h : l ≠ []) : ∃ a ∈ l, ∀ b ∈ l, f a ≤ f b := by
  induction l with
  | nil => exact absurd rfl h
  | cons x l ih =>
    by_cases hl : l = []
    · subst hl; exact ⟨x, by simp, by simp⟩
    · obtain ⟨a, ha, hm⟩ := ih hl
      rcases le_total (f x) (f a) with hx | hx
      · refine ⟨x, by simp, ?_⟩
        intro b hb
        rcases List.mem_cons.1 hb with rfl | hb
        · exact le_refl _
        · exact hx.trans (hm b hb)
      · refine ⟨a, by simp [ha], ?_⟩
        intro b hb
        rcases List.mem_cons.1 hb with rfl | hb
        · exact hx
        · exact hm b hb

/-- Box of a group of text lines. -/
theorem hull_spec (g : List El) (hne : g ≠ []) (h : ∀ l ∈ g, Proper l.bbox ∧ Tenths l.bbox) :
    (∀ l ∈ g, Covers (hull g) l.bbox) ∧ (∃ l ∈ g, l.bbox.x0 = (hull g).x0) ∧ (∃ l ∈ g, l.bbox.y0 = (hull g).y0) ∧
      (∃ l ∈ g, l.bbox.x1 = (hull g).x1) ∧ (∃ l ∈ g, l.bbox.y1 = (hull g).y1) := by
  have hh := C24_collection_bbox_partial (g.map El.bbox) (by simpa using hne) (by
    intro r hr
    obtain ⟨l, hl, rfl⟩ := List.mem_map.1 hr
    exact h l hl)
  have hc : ∀ l ∈ g, Covers (hull g) l.bbox := fun l hl => hh.1 l.bbox (List.mem_map.2 ⟨l, hl, rfl⟩)
  have hs : ∀ r : Rect, (∀ l ∈ g, Covers r l.bbox) → Covers r (hull g) := by
    intro r hr
    refine hh.2 r ?_
    intro q hq
    obtain ⟨l, hl, rfl⟩ := List.mem_map.1 hq
    exact hr l hl
  refine ⟨hc, ?_, ?_, ?_, ?_⟩
  · obtain ⟨a, ha, hm⟩ := exists_min (fun l : El => l.bbox.x0) g hne
    have := hs { hull g with x0 := a.bbox.x0 } (fun l hl => ⟨hm l hl, (hc l hl).2.1, (hc l hl).2.2.1, (hc l hl).2.2.2⟩)
    exact ⟨a, ha, le_antisymm this.1 (hc a ha).1⟩
  · obtain ⟨a, ha, hm⟩ := exists_min (fun l : El => l.bbox.y0) g hne
    have := hs { hull g with y0 := a.bbox.y0 } (fun l hl => ⟨(hc l hl).1, hm l hl, (hc l hl).2.2.1, (hc l hl).2.2.2⟩)
    exact ⟨a, ha, le_antisymm this.2.1 (hc a ha).2.1⟩
  · obtain ⟨a, ha, hm⟩ := exists_min (fun l : El => -l.bbox.x1) g hne
    have := hs { hull g with x1 := a.bbox.x1 } (fun l hl => ⟨(hc l hl).1, (hc l hl).2.1, by linarith [hm l hl], (hc l hl).2.2.2⟩)
    exact ⟨a, ha, le_antisymm (hc a ha).2.2.1 this.2.2.1⟩
  · obtain ⟨a, ha, hm⟩ := exists_min (fun l : El => -l.bbox.y1) g hne
    have := hs { hull g with y1 := a.bbox.y1 } (fun l hl => ⟨(hc l hl).1, (hc l hl).2.1, (hc l hl).2.2.1, by linarith [hm l hl]⟩)
    exact ⟨a, ha, le_antisymm (hc a ha).2.2.2 this.2.2.2⟩

/-- Connected groups of intervals that are pairwise apart are ordered on the line. -/
theorem groups_ordered (gs : List (List El)) (lo hi : El → ℚ) (m M : List El → ℚ) (A Lk : El → El → Prop)
    (hm : ∀ g ∈ gs, (∃ a ∈ g, lo a = m g) ∧ ∃ a ∈ g, hi a = M g)
    (hA : ∀ a b, A a b → hi a ≤ lo b) (hv : ∀ g ∈ gs, ∀ a ∈ g, lo a < hi a)
    (hap : gs.Pairwise fun g h => ∀ a ∈ g, ∀ b ∈ h, A a b ∨ A b a)
    (hlink : ∀ g ∈ gs, ∀ a ∈ g, ∀ b ∈ g, Relation.ReflTransGen (fun x y => x ∈ g ∧ y ∈ g ∧ Lk x y) a b)
    (hstep : ∀ x y b, lo b < hi b → A x b → Lk x y → A b y → False) :
    (sortBy m gs).Pairwise fun g h => M g ≤ m h := by
  have key : ∀ g ∈ gs, ∀ h ∈ gs, (∀ a ∈ g, ∀ b ∈ h, A a b ∨ A b a) → m g ≤ m h → M g ≤ m h := by
    intro g hg h hh hab hle
    obtain ⟨a0, ha0, e0⟩ := (hm g hg).1
    obtain ⟨b0, hb0, f0⟩ := (hm h hh).1
    obtain ⟨a1, ha1, e1⟩ := (hm g hg).2
    have h0 : A a0 b0 := by
      rcases hab a0 ha0 b0 hb0 with h' | h'
      · exact h'
      · exfalso
        have := hA _ _ h'
        have := hv h hh b0 hb0
        linarith
    have : ∀ a, Relation.ReflTransGen (fun x y => x ∈ g ∧ y ∈ g ∧ Lk x y) a0 a → A a b0 := by
      intro a hr
      induction hr with
      | refl => exact h0
      | tail _ hbc ih =>
        rcases hab _ hbc.2.1 b0 hb0 with h' | h'
        · exact h'
        · exact absurd h' (fun h' => hstep _ _ b0 (hv h hh b0 hb0) ih hbc.2.2 h')
    have := hA _ _ (this a1 (hlink g hg a0 ha0 a1 ha1))
    linarith
  have hsym : gs.Pairwise fun g h => (m g ≤ m h → M g ≤ m h) ∧ (m h ≤ m g → M h ≤ m g) := by
    have : gs.Pairwise fun g h => (g ∈ gs ∧ h ∈ gs) ∧ ∀ a ∈ g, ∀ b ∈ h, A a b ∨ A b a := by
      rw [List.pairwise_iff_forall_sublist] at hap ⊢
      intro a b hs
      exact ⟨⟨hs.subset (by simp), hs.subset (by simp)⟩, hap hs⟩
    refine this.imp ?_
    rintro g h ⟨⟨hg, hh⟩, hab⟩
    exact ⟨key g hg h hh hab, key h hh g hg fun a ha b hb => (hab b hb a ha).symm⟩
  have hp := (sortBy_perm m gs).symm.pairwise hsym (fun {x y} h => ⟨h.2, h.1⟩)
  refine (hp.and (sortBy_pairwise m gs)).imp ?_
  rintro g h ⟨⟨h1, _⟩, h2⟩
  exact h1 h2

theorem overlapEnough_iff (p q : ℚ × ℚ) (f : ℚ) :
    El.overlapEnough p q f = true ↔ f * min (p.2 - p.1) (q.2 - q.1) ≤ min p.2 q.2 - max p.1 q.1 := by
  unfold El.overlapEnough
  simp only [decide_eq_true_eq]
  have h1 : max p.2 q.2 + min p.2 q.2 = p.2 + q.2 := max_add_min _ _
  have h2 : max p.1 q.1 + min p.1 q.1 = p.1 + q.1 := max_add_min _ _
  constructor <;> intro h <;> linarith

/-- Columns lie one beside the other. -/
theorem columns_spec (iter : List ℕ → List ℕ) (hi : ∀ l, (iter l).Perm l) (ls : List El)
    (h : ∀ l ∈ ls, Proper l.bbox ∧ Tenths l.bbox) : (columns iter ls).Pairwise fun c d => (hull c).x1 ≤ (hull d).x0 := by
  obtain ⟨gs, hg, hp, hpw, hne⟩ := C21_groups iter hi (fun a b : El => a.verticallyAlign b 0 false)
    (fun a b => C25_vertical_symm_partial a b 0 false (by simp)) ls
  have hcols : columns iter ls = sortBy (fun g => (hull g).x0) gs := by unfold columns groups; rw [hg]
  rw [hcols]
  have hgood : ∀ g ∈ gs, ∀ l ∈ g, Proper l.bbox ∧ Tenths l.bbox := fun g hgm l hl => h l (hp.subset (List.mem_flatten.2 ⟨g, hgm, hl⟩))
  have hal : ∀ a b : El, Proper a.bbox → Proper b.bbox → (a.verticallyAlign b 0 false = true ↔
      max a.bbox.x0 b.bbox.x0 ≤ min a.bbox.x1 b.bbox.x1) := by
    intro a b ha hb
    unfold El.verticallyAlign
    simp only [El.truthy, truthy_of_proper _ ha, truthy_of_proper _ hb, Bool.not_true, Bool.or_self, Bool.false_eq_true, if_false,
      overlapEnough_iff, El.ext]
    simp
  refine groups_ordered gs (fun l => l.bbox.x0) (fun l => l.bbox.x1) (fun g => (hull g).x0) (fun g => (hull g).x1)
    (fun a b => a.bbox.x1 < b.bbox.x0) (fun a b => a.bbox.x0 < a.bbox.x1 ∧ b.bbox.x0 < b.bbox.x1 ∧ b.bbox.x0 ≤ a.bbox.x1) ?_
    (fun a b h => le_of_lt h) (fun g hgm a ha => (hgood g hgm a ha).1.1) ?_ ?_ ?_
  · intro g hgm
    have := hull_spec g (hne g hgm).1 (hgood g hgm)
    exact ⟨this.2.1, this.2.2.2.1⟩
  · rw [List.pairwise_iff_forall_sublist] at hpw ⊢
    intro g k hs a ha b hb
    have hga := hgood g (hs.subset (by simp)) a ha
    have hgb := hgood k (hs.subset (by simp)) b hb
    have := hpw hs a ha b hb
    have hn : ¬ max a.bbox.x0 b.bbox.x0 ≤ min a.bbox.x1 b.bbox.x1 := by
      rw [← hal a b hga.1 hgb.1, this]; simp
    have h1 := hga.1.1
    have h2 := hgb.1.1
    rw [not_le, min_lt_iff, lt_max_iff, lt_max_iff] at hn
    rcases hn with (hn | hn) | (hn | hn)
    · linarith
    · exact Or.inl hn
    · exact Or.inr hn
    · linarith
  · intro g hgm a ha b hb
    have := (hne g hgm).2 a ha b hb
    refine Relation.ReflTransGen.mono ?_ _ _ this
    rintro x y ⟨hx, hy, hxy⟩
    have hgx := hgood g hgm x hx
    have hgy := hgood g hgm y hy
    rw [hal x y hgx.1 hgy.1] at hxy
    refine ⟨hx, hy, hgx.1.1, hgy.1.1, ?_⟩
    exact (le_max_right _ _).trans (hxy.trans (min_le_left _ _))
  · rintro x y b hb h1 ⟨_, _, h2⟩ h3
    linarith

/-- Rows of horizontal text lie one below the other. -/
theorem rows_spec (iter : List ℕ → List ℕ) (hi : ∀ l, (iter l).Perm l) (ls : List El) (h : TextLines ls) (hc : ClearRows ls) :
    (rows iter ls).Pairwise fun c d => (hull c).y1 ≤ (hull d).y0 := by
  obtain ⟨gs, hg, hp, hpw, hne⟩ := C21_groups iter hi (fun a b : El => a.horizontallyAlign b (1 / 10) false)
    (fun a b => C25_horizontal_symm_partial a b (1 / 10) false (by simp)) ls
  have hrows : rows iter ls = sortBy (fun g => (hull g).y0) gs := by
    unfold rows groups
    rw [group_congr iter _ (fun a b : El => a.horizontallyAlign b (1 / 10) false), hg]
    intro a ha b _
    unfold El.horizontallyAlign El.horizontal
    simp [(h a ha).2.2]
  rw [hrows]
  have hmem : ∀ g ∈ gs, ∀ l ∈ g, l ∈ ls := fun g hgm l hl => hp.subset (List.mem_flatten.2 ⟨g, hgm, hl⟩)
  have hgood : ∀ g ∈ gs, ∀ l ∈ g, Proper l.bbox ∧ Tenths l.bbox := fun g hgm l hl =>
    ⟨(h l (hmem g hgm l hl)).1, (h l (hmem g hgm l hl)).2.1⟩
  have hal : ∀ a b : El, Proper a.bbox → Proper b.bbox → (a.horizontallyAlign b (1 / 10) false = true ↔
      (1 / 10) * min a.bbox.height b.bbox.height ≤ min a.bbox.y1 b.bbox.y1 - max a.bbox.y0 b.bbox.y0) := by
    intro a b ha hb
    unfold El.horizontallyAlign
    simp only [El.truthy, truthy_of_proper _ ha, truthy_of_proper _ hb, Bool.not_true, Bool.or_self, Bool.false_eq_true, if_false,
      overlapEnough_iff, El.ext]
    rfl
  refine groups_ordered gs (fun l => l.bbox.y0) (fun l => l.bbox.y1) (fun g => (hull g).y0) (fun g => (hull g).y1)
    (fun a b => a.bbox.y1 ≤ b.bbox.y0) (fun a b => b.bbox.y0 < a.bbox.y1) ?_
    (fun a b h => h) (fun g hgm a ha => (hgood g hgm a ha).1.2) ?_ ?_ ?_
  · intro g hgm
    have := hull_spec g (hne g hgm).1 (hgood g hgm)
    exact ⟨this.2.2.1, this.2.2.2.2⟩
  · rw [List.pairwise_iff_forall_sublist] at hpw ⊢
    intro g k hs a ha b hb
    have hga := hgood g (hs.subset (by simp)) a ha
    have hgb := hgood k (hs.subset (by simp)) b hb
    have hf := hpw hs a ha b hb
    rcases hc a (hmem g (hs.subset (by simp)) a ha) b (hmem k (hs.subset (by simp)) b hb) with h' | h'
    · rw [← hal a b hga.1 hgb.1, hf] at h'
      cases h'
    · exact h'
  · intro g hgm a ha b hb
    have := (hne g hgm).2 a ha b hb
    refine Relation.ReflTransGen.mono ?_ _ _ this
    rintro x y ⟨hx, hy, hxy⟩
    have hgx := hgood g hgm x hx
    have hgy := hgood g hgm y hy
    rw [hal x y hgx.1 hgy.1] at hxy
    refine ⟨hx, hy, ?_⟩
    have e1 : 0 < min x.bbox.height y.bbox.height := by
      rw [lt_min_iff]
      unfold Rect.height
      exact ⟨by linarith [hgx.1.2], by linarith [hgy.1.2]⟩
    have e2 := le_max_right x.bbox.y0 y.bbox.y0
    have e3 := min_le_left x.bbox.y1 y.bbox.y1
    linarith
  · intro x y b hb h1 h2 h3
    linarith

/-! ## Invariants of the division -/

/-- The borders so far are kept, except for being real or not. -/
def Frame (st st' : State) : Prop :=
  ∀ (i : ℕ) (b : Bd), st[i]? = some b → ∃ b' : Bd, st'[i]? = some b' ∧ b'.horizontal = b.horizontal ∧ b'.lo = b.lo ∧ b'.hi = b.hi ∧
    b'.lb = b.lb ∧ b'.ub = b.ub ∧ b'.value = b.value ∧ (b.reference = false → b'.reference = false)

theorem Frame.refl (st : State) : Frame st st := fun _ b h => ⟨b, h, rfl, rfl, rfl, rfl, rfl, rfl, id⟩

theorem Frame.trans {a b c : State} (h1 : Frame a b) (h2 : Frame b c) : Frame a c := by
  intro i x hx
  obtain ⟨y, hy, e1, e2, e3, e4, e5, e6, e7⟩ := h1 i x hx
  obtain ⟨z, hz, f1, f2, f3, f4, f5, f6, f7⟩ := h2 i y hy
  exact ⟨z, hz, f1.trans e1, f2.trans e2, f3.trans e3, f4.trans e4, f5.trans e5, f6.trans e6, fun h => f7 (e7 h)⟩

theorem frame_append (st ds : State) : Frame st (st ++ ds) := by
  intro i b hb
  obtain ⟨hi, rfl⟩ := List.getElem?_eq_some_iff.mp hb
  exact ⟨st[i], by rw [List.getElem?_append_left hi]; exact hb, rfl, rfl, rfl, rfl, rfl, rfl, id⟩

theorem frame_setReal (st : State) (is : List ℕ) : Frame st (setReal st is) := by
  unfold setReal
  induction is generalizing st with
  | nil => exact Frame.refl st
  | cons a is ih =>
    rw [List.foldl_cons]
    refine Frame.trans ?_ (ih _)
    intro i b hb
    rw [List.getElem?_modify, hb]
    by_cases h : a = i
    · exact ⟨{ b with reference := false }, by simp [h], rfl, rfl, rfl, rfl, rfl, rfl, fun _ => rfl⟩
    · exact ⟨b, by simp [h], rfl, rfl, rfl, rfl, rfl, rfl, id⟩

theorem length_setReal (st : State) (is : List ℕ) : (setReal st is).length = st.length := by
  unfold setReal
  induction is generalizing st with
  | nil => rfl
  | cons a is ih => rw [List.foldl_cons, ih, List.length_modify]

/-- The lines `ls` lie between four borders, and the other lines of the table outside of them. -/
def Boxed (all : List El) (st : State) (ls : List El) (T B L R : ℕ) : Prop :=
  ∃ t b l r : Bd, (st[T]? = some t ∧ st[B]? = some b ∧ st[L]? = some l ∧ st[R]? = some r) ∧
    (t.horizontal = true ∧ b.horizontal = true ∧ l.horizontal = false ∧ r.horizontal = false) ∧
    (t.lo ≤ t.hi ∧ b.lo ≤ b.hi ∧ l.lo ≤ l.hi ∧ r.lo ≤ r.hi) ∧
    (∀ o ∈ ls, t.hi ≤ o.bbox.y0 ∧ o.bbox.y1 ≤ b.lo ∧ l.hi ≤ o.bbox.x0 ∧ o.bbox.x1 ≤ r.lo) ∧
    ∀ o ∈ all, o ∈ ls ∨ o.bbox.y1 ≤ t.lo ∨ b.hi ≤ o.bbox.y0 ∨ o.bbox.x1 ≤ l.lo ∨ r.hi ≤ o.bbox.x0

/-- No line of the table lies in the way of the border, wherever it and its two ends are placed in their ranges. -/
def Clear (all : List El) (st : State) (b : Bd) : Prop :=
  b.value = none ∧ b.lo ≤ b.hi ∧ ∃ p q : Bd, st[b.lb]? = some p ∧ st[b.ub]? = some q ∧ p.horizontal = !b.horizontal ∧
    q.horizontal = !b.horizontal ∧ p.value = none ∧ q.value = none ∧
    ∀ o ∈ all, if b.horizontal then o.bbox.y1 ≤ b.lo ∨ b.hi ≤ o.bbox.y0 ∨ o.bbox.x1 ≤ p.lo ∨ q.hi ≤ o.bbox.x0
      else o.bbox.x1 ≤ b.lo ∨ b.hi ≤ o.bbox.x0 ∨ o.bbox.y1 ≤ p.lo ∨ q.hi ≤ o.bbox.y0

/-- All borders clear. -/
def AllClear (all : List El) (st : State) : Prop := ∀ b ∈ st, Clear all st b

theorem Boxed.frame {all : List El} {st st' : State} {ls : List El} {T B L R : ℕ} (h : Boxed all st ls T B L R) (hf : Frame st st') :
    Boxed all st' ls T B L R := by
  obtain ⟨t, b, l, r, ⟨h1, h2, h3, h4⟩, ⟨k1, k2, k3, k4⟩, ⟨m1, m2, m3, m4⟩, hin, hout⟩ := h
  obtain ⟨t', t0, t1, t2, t3, -⟩ := hf T t h1
  obtain ⟨b', b0, b1, b2, b3, -⟩ := hf B b h2
  obtain ⟨l', l0, l1, l2, l3, -⟩ := hf L l h3
  obtain ⟨r', r0, r1, r2, r3, -⟩ := hf R r h4
  refine ⟨t', b', l', r', ⟨t0, b0, l0, r0⟩, ⟨t1.trans k1, b1.trans k2, l1.trans k3, r1.trans k4⟩, ?_, ?_, ?_⟩
  · rw [t2, t3, b2, b3, l2, l3, r2, r3]; exact ⟨m1, m2, m3, m4⟩
  · rw [t3, b2, l3, r2]; exact hin
  · rw [t2, b3, l2, r3]; exact hout

theorem Boxed.congr {all : List El} {st : State} {ls ls' : List El} {T B L R : ℕ} (h : Boxed all st ls T B L R) (he : ∀ o, o ∈ ls' ↔ o ∈ ls) :
    Boxed all st ls' T B L R := by
  obtain ⟨t, b, l, r, h1, h2, h3, hin, hout⟩ := h
  refine ⟨t, b, l, r, h1, h2, h3, fun o ho => hin o ((he o).1 ho), fun o ho => ?_⟩
  rw [he o]
  exact hout o ho

theorem Clear.congr {all : List El} {st st' : State} {b b' : Bd} (h : Clear all st b) (hf : Frame st st')
    (e : b'.horizontal = b.horizontal ∧ b'.lo = b.lo ∧ b'.hi = b.hi ∧ b'.lb = b.lb ∧ b'.ub = b.ub ∧ b'.value = b.value) : Clear all st' b' := by
  obtain ⟨h1, h2, p, q, hp, hq, hp1, hq1, hp2, hq2, h3⟩ := h
  obtain ⟨e1, e2, e3, e4, e5, e6⟩ := e
  obtain ⟨p', p0, p1, p2, p3, -, -, p4, -⟩ := hf _ p hp
  obtain ⟨q', q0, q1, q2, q3, -, -, q4, -⟩ := hf _ q hq
  refine ⟨e6.trans h1, by rw [e2, e3]; exact h2, p', q', by rw [e4]; exact p0, by rw [e5]; exact q0, by rw [p1, hp1, e1],
    by rw [q1, hq1, e1], p4.trans hp2, q4.trans hq2, ?_⟩
  rw [e1, e2, e3, p2, q3]
  exact h3

/-- Every border of `st'` comes from `st`: clear borders stay clear. -/
theorem AllClear.frame {all : List El} {st st' : State} (h : AllClear all st) (hf : Frame st st') (hl : st'.length = st.length) :
    AllClear all st' := by
  intro b' hb'
  obtain ⟨i, hi⟩ := List.getElem?_of_mem hb'
  obtain ⟨hlt, -⟩ := List.getElem?_eq_some_iff.mp hi
  obtain ⟨b'', h0, h1, h2, h3, h4, h5, h6, -⟩ := hf i st[i] (List.getElem?_eq_getElem (by omega))
  rw [hi, Option.some.injEq] at h0
  subst h0
  exact (h st[i] (List.getElem_mem _)).congr hf ⟨h1, h2, h3, h4, h5, h6⟩

theorem AllClear.append {all : List El} {st : State} {b : Bd} (h : AllClear all st) (hb : Clear all (st ++ [b]) b) :
    AllClear all (st ++ [b]) := by
  intro x hx
  rcases List.mem_append.1 hx with hx | hx
  · exact (h x hx).congr (frame_append st [b]) ⟨rfl, rfl, rfl, rfl, rfl, rfl⟩
  · rw [List.mem_singleton] at hx; subst hx; exact hb

/-- The four borders around have no position yet. -/
theorem value_of_allClear {all : List El} {st : State} (h : AllClear all st) (i : ℕ) (b : Bd) (hb : st[i]? = some b) : b.value = none :=
  (h b (List.mem_of_getElem? hb)).1

/-- A vertical border between two parts. -/
theorem split_v {all : List El} {st : State} {c rest : List El} {T B L R : ℕ} (hac : AllClear all st) (h : Boxed all st (c ++ rest) T B L R)
    (x0 x1 : ℚ) (hx : x0 ≤ x1) (hc : ∀ o ∈ c, o.bbox.x1 ≤ x0) (hr : ∀ o ∈ rest, x1 ≤ o.bbox.x0)
    (ex0 : ∃ o ∈ c, o.bbox.x1 = x0) (ex1 : ∃ o ∈ rest, o.bbox.x0 = x1)
    (hv : ∀ o ∈ c ++ rest, o.bbox.x0 < o.bbox.x1) (ref : Bool) :
    Boxed all (st ++ [bd false x0 x1 T B ref]) c T B L st.length ∧ Boxed all (st ++ [bd false x0 x1 T B ref]) rest T B st.length R ∧
      AllClear all (st ++ [bd false x0 x1 T B ref]) := by
  obtain ⟨t, b, l, r, ⟨h1, h2, h3, h4⟩, ⟨k1, k2, k3, k4⟩, ⟨m1, m2, m3, m4⟩, hin, hout⟩ := h
  have hnew : (st ++ [bd false x0 x1 T B ref])[st.length]? = some (bd false x0 x1 T B ref) := by simp
  have keep : ∀ (i : ℕ) (y : Bd), st[i]? = some y → (st ++ [bd false x0 x1 T B ref])[i]? = some y := by
    intro i y hy
    obtain ⟨hi, -⟩ := List.getElem?_eq_some_iff.mp hy
    rw [List.getElem?_append_left hi]; exact hy
  have hL : l.lo ≤ x0 := by
    obtain ⟨o, ho, e⟩ := ex0
    have := (hin o (by simp [ho])).2.2.1
    have := hv o (by simp [ho])
    linarith
  have hR : x1 ≤ r.hi := by
    obtain ⟨o, ho, e⟩ := ex1
    have := (hin o (by simp [ho])).2.2.2
    have := hv o (by simp [ho])
    linarith
  refine ⟨⟨t, b, l, bd false x0 x1 T B ref, ⟨keep _ _ h1, keep _ _ h2, keep _ _ h3, hnew⟩, ⟨k1, k2, k3, rfl⟩, ⟨m1, m2, m3, hx⟩, ?_, ?_⟩,
    ⟨t, b, bd false x0 x1 T B ref, r, ⟨keep _ _ h1, keep _ _ h2, hnew, keep _ _ h4⟩, ⟨k1, k2, rfl, k4⟩, ⟨m1, m2, hx, m4⟩, ?_, ?_⟩, ?_⟩
  · intro o ho
    have := hin o (by simp [ho])
    exact ⟨this.1, this.2.1, this.2.2.1, hc o ho⟩
  · intro o ho
    rcases hout o ho with h | h | h | h | h
    · rcases List.mem_append.1 h with h | h
      · exact Or.inl h
      · exact Or.inr (Or.inr (Or.inr (Or.inr (hr o h))))
    · exact Or.inr (Or.inl h)
    · exact Or.inr (Or.inr (Or.inl h))
    · exact Or.inr (Or.inr (Or.inr (Or.inl h)))
    · exact Or.inr (Or.inr (Or.inr (Or.inr (hR.trans h))))
  · intro o ho
    have := hin o (by simp [ho])
    exact ⟨this.1, this.2.1, hr o ho, this.2.2.2⟩
  · intro o ho
    rcases hout o ho with h | h | h | h | h
    · rcases List.mem_append.1 h with h | h
      · exact Or.inr (Or.inr (Or.inr (Or.inl (hc o h))))
      · exact Or.inl h
    · exact Or.inr (Or.inl h)
    · exact Or.inr (Or.inr (Or.inl h))
    · exact Or.inr (Or.inr (Or.inr (Or.inl (h.trans hL))))
    · exact Or.inr (Or.inr (Or.inr (Or.inr h)))
  · refine hac.append ⟨rfl, hx, t, b, keep _ _ h1, keep _ _ h2, by simp [k1, bd], by simp [k2, bd], value_of_allClear hac _ _ h1,
      value_of_allClear hac _ _ h2, ?_⟩
    intro o ho
    simp only [bd, Bool.false_eq_true, if_false]
    rcases hout o ho with h | h | h | h | h
    · rcases List.mem_append.1 h with h | h
      · exact Or.inl (hc o h)
      · exact Or.inr (Or.inl (hr o h))
    · exact Or.inr (Or.inr (Or.inl h))
    · exact Or.inr (Or.inr (Or.inr h))
    · exact Or.inl (h.trans hL)
    · exact Or.inr (Or.inl (hR.trans h))

/-- A horizontal border between two parts. -/
theorem split_h {all : List El} {st : State} {c rest : List El} {T B L R : ℕ} (hac : AllClear all st) (h : Boxed all st (c ++ rest) T B L R)
    (y0 y1 : ℚ) (hy : y0 ≤ y1) (hc : ∀ o ∈ c, o.bbox.y1 ≤ y0) (hr : ∀ o ∈ rest, y1 ≤ o.bbox.y0)
    (ex0 : ∃ o ∈ c, o.bbox.y1 = y0) (ex1 : ∃ o ∈ rest, o.bbox.y0 = y1)
    (hv : ∀ o ∈ c ++ rest, o.bbox.y0 < o.bbox.y1) (ref : Bool) :
    Boxed all (st ++ [bd true y0 y1 L R ref]) c T st.length L R ∧ Boxed all (st ++ [bd true y0 y1 L R ref]) rest st.length B L R ∧
      AllClear all (st ++ [bd true y0 y1 L R ref]) := by
  obtain ⟨t, b, l, r, ⟨h1, h2, h3, h4⟩, ⟨k1, k2, k3, k4⟩, ⟨m1, m2, m3, m4⟩, hin, hout⟩ := h
  have hnew : (st ++ [bd true y0 y1 L R ref])[st.length]? = some (bd true y0 y1 L R ref) := by simp
  have keep : ∀ (i : ℕ) (y : Bd), st[i]? = some y → (st ++ [bd true y0 y1 L R ref])[i]? = some y := by
    intro i y hy
    obtain ⟨hi, -⟩ := List.getElem?_eq_some_iff.mp hy
    rw [List.getElem?_append_left hi]; exact hy
  have hT : t.lo ≤ y0 := by
    obtain ⟨o, ho, e⟩ := ex0
    have := (hin o (by simp [ho])).1
    have := hv o (by simp [ho])
    linarith
  have hB : y1 ≤ b.hi := by
    obtain ⟨o, ho, e⟩ := ex1
    have := (hin o (by simp [ho])).2.1
    have := hv o (by simp [ho])
    linarith
  refine ⟨⟨t, bd true y0 y1 L R ref, l, r, ⟨keep _ _ h1, hnew, keep _ _ h3, keep _ _ h4⟩, ⟨k1, rfl, k3, k4⟩, ⟨m1, hy, m3, m4⟩, ?_, ?_⟩,
    ⟨bd true y0 y1 L R ref, b, l, r, ⟨hnew, keep _ _ h2, keep _ _ h3, keep _ _ h4⟩, ⟨rfl, k2, k3, k4⟩, ⟨hy, m2, m3, m4⟩, ?_, ?_⟩, ?_⟩
  · intro o ho
    have := hin o (by simp [ho])
    exact ⟨this.1, hc o ho, this.2.2.1, this.2.2.2⟩
  · intro o ho
    rcases hout o ho with h | h | h | h | h
    · rcases List.mem_append.1 h with h | h
      · exact Or.inl h
      · exact Or.inr (Or.inr (Or.inl (hr o h)))
    · exact Or.inr (Or.inl h)
    · exact Or.inr (Or.inr (Or.inl (hB.trans h)))
    · exact Or.inr (Or.inr (Or.inr (Or.inl h)))
    · exact Or.inr (Or.inr (Or.inr (Or.inr h)))
  · intro o ho
    have := hin o (by simp [ho])
    exact ⟨hr o ho, this.2.1, this.2.2.1, this.2.2.2⟩
  · intro o ho
    rcases hout o ho with h | h | h | h | h
    · rcases List.mem_append.1 h with h | h
      · exact Or.inr (Or.inl (hc o h))
      · exact Or.inl h
    · exact Or.inr (Or.inl (h.trans hT))
    · exact Or.inr (Or.inr (Or.inl h))
    · exact Or.inr (Or.inr (Or.inr (Or.inl h)))
    · exact Or.inr (Or.inr (Or.inr (Or.inr h)))
  · refine hac.append ⟨rfl, hy, l, r, keep _ _ h3, keep _ _ h4, by simp [k3, bd], by simp [k4, bd], value_of_allClear hac _ _ h3,
      value_of_allClear hac _ _ h4, ?_⟩
    intro o ho
    simp only [bd, if_true]
    rcases hout o ho with h | h | h | h | h
    · rcases List.mem_append.1 h with h | h
      · exact Or.inl (hc o h)
      · exact Or.inr (Or.inl (hr o h))
    · exact Or.inl (h.trans hT)
    · exact Or.inr (Or.inl (hB.trans h))
    · exact Or.inr (Or.inr (Or.inl h))
    · exact Or.inr (Or.inr (Or.inr h))

/-- A border between two lines, long enough for both (`real`: not only for reference; vertical ones are never). -/
def Sep (real : Bool) (st : State) (a b : El) : Prop :=
  ∃ (i : ℕ) (x p q : Bd), st[i]? = some x ∧ st[x.lb]? = some p ∧ st[x.ub]? = some q ∧
    ((real = true ∨ x.horizontal = false) → x.reference = false) ∧
    if x.horizontal then ((a.bbox.y1 ≤ x.lo ∧ x.hi ≤ b.bbox.y0) ∨ (b.bbox.y1 ≤ x.lo ∧ x.hi ≤ a.bbox.y0)) ∧
        p.hi ≤ a.bbox.x0 ∧ p.hi ≤ b.bbox.x0 ∧ a.bbox.x1 ≤ q.lo ∧ b.bbox.x1 ≤ q.lo
      else ((a.bbox.x1 ≤ x.lo ∧ x.hi ≤ b.bbox.x0) ∨ (b.bbox.x1 ≤ x.lo ∧ x.hi ≤ a.bbox.x0)) ∧
        p.hi ≤ a.bbox.y0 ∧ p.hi ≤ b.bbox.y0 ∧ a.bbox.y1 ≤ q.lo ∧ b.bbox.y1 ≤ q.lo

theorem Sep.weaken {st : State} {a b : El} {real : Bool} (h : Sep real st a b) : Sep false st a b := by
  obtain ⟨i, x, p, q, h1, h2, h3, hr, h4⟩ := h
  exact ⟨i, x, p, q, h1, h2, h3, fun h => hr (Or.inr (h.resolve_left (by simp))), h4⟩

theorem Sep.symm {st : State} {a b : El} {real : Bool} (h : Sep real st a b) : Sep real st b a := by
  obtain ⟨i, x, p, q, h1, h2, h3, hr, h4⟩ := h
  refine ⟨i, x, p, q, h1, h2, h3, hr, ?_⟩
  split_ifs at h4 ⊢ <;> exact ⟨h4.1.symm, h4.2.2.1, h4.2.1, h4.2.2.2.2, h4.2.2.2.1⟩

theorem Sep.frame {st st' : State} {a b : El} {real : Bool} (h : Sep real st a b) (hf : Frame st st') : Sep real st' a b := by
  obtain ⟨i, x, p, q, h1, h2, h3, hr, h4⟩ := h
  obtain ⟨x', x0, x1, x2, x3, x4, x5, x6, x7⟩ := hf i x h1
  obtain ⟨p', p0, p1, p2, p3, -⟩ := hf _ p h2
  obtain ⟨q', q0, q1, q2, q3, -⟩ := hf _ q h3
  refine ⟨i, x', p', q', x0, by rw [x4]; exact p0, by rw [x5]; exact q0, by rw [x1]; exact fun h => x7 (hr h), ?_⟩
  rw [x1, x2, x3, p3, q2]
  exact h4

/-- Both lines in an undivided part of `ls`. -/
def Together (ls : List El) (a b : El) : Prop := ∃ g, (∀ x ∈ g, x ∈ ls) ∧ a ∈ g ∧ b ∈ g ∧ Undivided g

/-- What a step of the division guarantees. -/
def Post (all : List El) (ls : List El) (st st' : State) : Prop :=
  Frame st st' ∧ AllClear all st' ∧ ∀ a ∈ ls, ∀ b ∈ ls, Sep false st' a b ∨ Together ls a b

def CallSpec (all : List El) (call : Call) (ls : List El) : Prop :=
  ∀ T B L R st st', call ls T B L R st = some st' → Boxed all st ls T B L R → AllClear all st → Post all ls st st'

def Good (ls : List El) : Prop := ∀ l ∈ ls, Proper l.bbox ∧ Tenths l.bbox

theorem hull_y (g : List El) (hne : g ≠ []) (h : Good g) : (hull g).y0 ≤ (hull g).y1 ∧ (hull g).x0 ≤ (hull g).x1 := by
  have hs := hull_spec g hne h
  obtain ⟨l, hl, -⟩ := hs.2.1
  have := hs.1 l hl
  have hp := (h l hl).1
  exact ⟨by linarith [this.2.1, this.2.2.2, hp.2], by linarith [this.1, this.2.2.1, hp.1]⟩

theorem rowLoop_spec (all : List El) (call : Call) (ref : Bool) (B left right : ℕ) (rs : List (List El)) (top : ℕ) (st st' : State)
    (hne : ∀ r ∈ rs, r ≠ []) (hgood : ∀ r ∈ rs, Good r) (ho : rs.Pairwise fun c d => (hull c).y1 ≤ (hull d).y0)
    (hcall : ∀ r ∈ rs, CallSpec all call r) (hb : Boxed all st rs.flatten top B left right) (hac : AllClear all st)
    (h : rowLoop call ref B left right top rs st = some st') : Post all rs.flatten st st' ∧
      (ref = false → ∀ a ∈ rs.flatten, ∀ b ∈ rs.flatten, Sep true st' a b ∨ ∃ r ∈ rs, a ∈ r ∧ b ∈ r) := by
  induction rs generalizing top st with
  | nil =>
    simp only [rowLoop, Option.some.injEq] at h
    subst h
    exact ⟨⟨Frame.refl _, hac, by simp⟩, by simp⟩
  | cons r rs ih =>
    cases rs with
    | nil =>
      simp only [rowLoop] at h
      have := hcall r (by simp) _ _ _ _ _ _ h (by simpa using hb) hac
      exact ⟨by simpa using this, fun _ a ha b hb => Or.inr ⟨r, by simp, by simpa using ha, by simpa using hb⟩⟩
    | cons q rest =>
      simp only [rowLoop, Option.bind_eq_some_iff] at h
      obtain ⟨s1, h1, h2⟩ := h
      have hr := hull_spec r (hne r (by simp)) (hgood r (by simp))
      have hq := hull_spec q (hne q (by simp)) (hgood q (by simp))
      rw [List.pairwise_cons] at ho
      have hrq := ho.1 q (by simp)
      have hafter : ∀ o ∈ (q :: rest).flatten, (hull q).y0 ≤ o.bbox.y0 := by
        intro o ho'
        rw [List.flatten_cons, List.mem_append] at ho'
        rcases ho' with ho' | ho'
        · exact (hq.1 o ho').2.1
        · obtain ⟨k, hk, hok⟩ := List.mem_flatten.1 ho'
          have e1 := (List.pairwise_cons.1 ho.2).1 k hk
          have e2 := ((hull_spec k (hne k (by simp [hk])) (hgood k (by simp [hk]))).1 o hok).2.1
          have e3 := (hull_y q (hne q (by simp)) (hgood q (by simp))).1
          linarith
      rw [List.flatten_cons] at hb
      have hv : ∀ o ∈ r ++ (q :: rest).flatten, o.bbox.y0 < o.bbox.y1 := by
        intro o ho'
        rcases List.mem_append.1 ho' with ho' | ho'
        · exact (hgood r (by simp) o ho').1.2
        · obtain ⟨k, hk, hok⟩ := List.mem_flatten.1 ho'
          exact (hgood k (by simp [List.mem_cons.1 hk]) o hok).1.2
      have hsp := split_h hac hb (hull r).y1 (hull q).y0 hrq (fun o ho' => (hr.1 o ho').2.2.2) hafter hr.2.2.2.2
        (by obtain ⟨o, ho', e⟩ := hq.2.2.1; exact ⟨o, by simp [ho'], e⟩) hv ref
      have p1 := hcall r (by simp) _ _ _ _ _ _ h1 hsp.1 hsp.2.2
      have p2 := ih st.length s1 (fun k hk => hne k (by simp [List.mem_cons.1 hk])) (fun k hk => hgood k (by simp [List.mem_cons.1 hk])) ho.2
        (fun k hk => hcall k (by simp [List.mem_cons.1 hk])) (hsp.2.1.frame p1.1) p1.2.1 h2
      obtain ⟨p2, p3⟩ := p2
      have key : ∀ a ∈ r, ∀ b ∈ (q :: rest).flatten, Sep (!ref) st' a b := by
        intro a ha b hb'
        obtain ⟨t, bb, l, r', ⟨_, _, i3, i4⟩, _, _, hin, _⟩ := hb
        have ia := hin a (by simp [ha])
        have ib := hin b (by rw [List.mem_append]; exact Or.inr hb')
        have : Sep (!ref) (st ++ [bd true (hull r).y1 (hull q).y0 left right ref]) a b := by
          have keep : ∀ (i : ℕ) (y : Bd), st[i]? = some y → (st ++ [bd true (hull r).y1 (hull q).y0 left right ref])[i]? = some y := by
            intro i y hy
            obtain ⟨hi, -⟩ := List.getElem?_eq_some_iff.mp hy
            rw [List.getElem?_append_left hi]; exact hy
          refine ⟨st.length, bd true (hull r).y1 (hull q).y0 left right ref, l, r', by simp, keep _ _ i3, keep _ _ i4, by simp [bd], ?_⟩
          simp only [bd, if_true]
          exact ⟨Or.inl ⟨(hr.1 a ha).2.2.2, hafter b hb'⟩, ia.2.2.1, ib.2.2.1, ia.2.2.2, ib.2.2.2⟩
        exact this.frame (p1.1.trans p2.1)
      have lift1 : ∀ a b, Together r a b → Together (r :: q :: rest).flatten a b := by
        rintro a b ⟨g, hg, hh⟩
        exact ⟨g, fun x hx => by rw [List.flatten_cons]; exact List.mem_append_left _ (hg x hx), hh⟩
      have lift2 : ∀ a b, Together (q :: rest).flatten a b → Together (r :: q :: rest).flatten a b := by
        rintro a b ⟨g, hg, hh⟩
        exact ⟨g, fun x hx => by rw [List.flatten_cons]; exact List.mem_append_right _ (hg x hx), hh⟩
      refine ⟨⟨(frame_append _ _).trans (p1.1.trans p2.1), p2.2.1, ?_⟩, ?_⟩
      · intro a ha b hb'
        rw [List.flatten_cons, List.mem_append] at ha hb'
        rcases ha with ha | ha <;> rcases hb' with hb' | hb'
        · rcases p1.2.2 a ha b hb' with h' | h'
          · exact Or.inl (h'.frame p2.1)
          · exact Or.inr (lift1 _ _ h')
        · exact Or.inl (key a ha b hb').weaken
        · exact Or.inl (key b hb' a ha).symm.weaken
        · rcases p2.2.2 a ha b hb' with h' | h'
          · exact Or.inl h'
          · exact Or.inr (lift2 _ _ h')
      · intro href a ha b hb'
        subst href
        rw [List.flatten_cons, List.mem_append] at ha hb'
        rcases ha with ha | ha <;> rcases hb' with hb' | hb'
        · exact Or.inr ⟨r, by simp, ha, hb'⟩
        · exact Or.inl (key a ha b hb')
        · exact Or.inl (key b hb' a ha).symm
        · rcases p3 rfl a ha b hb' with h' | ⟨k, hk, h'⟩
          · exact Or.inl h'
          · exact Or.inr ⟨k, by simp [List.mem_cons.1 hk], h'⟩

def ColSpec (iter : List ℕ → List ℕ) (all : List El) (call : Call) (ref : Bool) (T B : ℕ) (c : List El) : Prop :=
  ∀ L R st st', colWork iter call ref T B L R c st = some st' → Boxed all st c T B L R → AllClear all st → Post all c st st' ∧
    (ref = false → ∀ a ∈ c, ∀ b ∈ c, Sep true st' a b ∨ ∃ r ∈ rows iter c, a ∈ r ∧ b ∈ r)

theorem colLoop_spec (iter : List ℕ → List ℕ) (all : List El) (call : Call) (ref : Bool) (T B R : ℕ) (cs : List (List El)) (left : ℕ) (st st' : State)
    (hne : ∀ r ∈ cs, r ≠ []) (hgood : ∀ r ∈ cs, Good r) (ho : cs.Pairwise fun c d => (hull c).x1 ≤ (hull d).x0)
    (hcall : ∀ r ∈ cs, ColSpec iter all call ref T B r) (hb : Boxed all st cs.flatten T B left R) (hac : AllClear all st)
    (h : colLoop iter call ref T B R left cs st = some st') : Post all cs.flatten st st' ∧
      (ref = false → ∀ a ∈ cs.flatten, ∀ b ∈ cs.flatten, Sep true st' a b ∨ ∃ c ∈ cs, ∃ r ∈ rows iter c, a ∈ r ∧ b ∈ r) := by
  induction cs generalizing left st with
  | nil =>
    simp only [colLoop, Option.some.injEq] at h
    subst h
    exact ⟨⟨Frame.refl _, hac, by simp⟩, by simp⟩
  | cons r cs ih =>
    cases cs with
    | nil =>
      simp only [colLoop] at h
      have := hcall r (by simp) _ _ _ _ h (by simpa using hb) hac
      exact ⟨by simpa using this.1, fun href a ha b hb => (this.2 href a (by simpa using ha) b (by simpa using hb)).imp id fun hh => ⟨r, by simp, hh⟩⟩
    | cons q rest =>
      simp only [colLoop, Option.bind_eq_some_iff] at h
      obtain ⟨s1, h1, h2⟩ := h
      have hr := hull_spec r (hne r (by simp)) (hgood r (by simp))
      have hq := hull_spec q (hne q (by simp)) (hgood q (by simp))
      rw [List.pairwise_cons] at ho
      have hrq := ho.1 q (by simp)
      have hafter : ∀ o ∈ (q :: rest).flatten, (hull q).x0 ≤ o.bbox.x0 := by
        intro o ho'
        rw [List.flatten_cons, List.mem_append] at ho'
        rcases ho' with ho' | ho'
        · exact (hq.1 o ho').1
        · obtain ⟨k, hk, hok⟩ := List.mem_flatten.1 ho'
          have e1 := (List.pairwise_cons.1 ho.2).1 k hk
          have e2 := ((hull_spec k (hne k (by simp [hk])) (hgood k (by simp [hk]))).1 o hok).1
          have e3 := (hull_y q (hne q (by simp)) (hgood q (by simp))).2
          linarith
      rw [List.flatten_cons] at hb
      have hv : ∀ o ∈ r ++ (q :: rest).flatten, o.bbox.x0 < o.bbox.x1 := by
        intro o ho'
        rcases List.mem_append.1 ho' with ho' | ho'
        · exact (hgood r (by simp) o ho').1.1
        · obtain ⟨k, hk, hok⟩ := List.mem_flatten.1 ho'
          exact (hgood k (by simp [List.mem_cons.1 hk]) o hok).1.1
      have hsp := split_v hac hb (hull r).x1 (hull q).x0 hrq (fun o ho' => (hr.1 o ho').2.2.1) hafter hr.2.2.2.1
        (by obtain ⟨o, ho', e⟩ := hq.2.1; exact ⟨o, by simp [ho'], e⟩) hv false
      have p1 := hcall r (by simp) _ _ _ _ h1 hsp.1 hsp.2.2
      have p2 := ih st.length s1 (fun k hk => hne k (by simp [List.mem_cons.1 hk])) (fun k hk => hgood k (by simp [List.mem_cons.1 hk])) ho.2
        (fun k hk => hcall k (by simp [List.mem_cons.1 hk])) (hsp.2.1.frame p1.1.1) p1.1.2.1 h2
      obtain ⟨p1, p1'⟩ := p1
      obtain ⟨p2, p3⟩ := p2
      have key : ∀ a ∈ r, ∀ b ∈ (q :: rest).flatten, Sep true st' a b := by
        intro a ha b hb'
        obtain ⟨t, bb, l, r', ⟨i1, i2, _, _⟩, _, _, hin, _⟩ := hb
        have ia := hin a (by simp [ha])
        have ib := hin b (by rw [List.mem_append]; exact Or.inr hb')
        have : Sep true (st ++ [bd false (hull r).x1 (hull q).x0 T B false]) a b := by
          have keep : ∀ (i : ℕ) (y : Bd), st[i]? = some y → (st ++ [bd false (hull r).x1 (hull q).x0 T B false])[i]? = some y := by
            intro i y hy
            obtain ⟨hi, -⟩ := List.getElem?_eq_some_iff.mp hy
            rw [List.getElem?_append_left hi]; exact hy
          refine ⟨st.length, bd false (hull r).x1 (hull q).x0 T B false, t, bb, by simp, keep _ _ i1, keep _ _ i2, by simp [bd], ?_⟩
          simp only [bd, Bool.false_eq_true, if_false]
          exact ⟨Or.inl ⟨(hr.1 a ha).2.2.1, hafter b hb'⟩, ia.1, ib.1, ia.2.1, ib.2.1⟩
        exact this.frame (p1.1.trans p2.1)
      have lift1 : ∀ a b, Together r a b → Together (r :: q :: rest).flatten a b := by
        rintro a b ⟨g, hg, hh⟩
        exact ⟨g, fun x hx => by rw [List.flatten_cons]; exact List.mem_append_left _ (hg x hx), hh⟩
      have lift2 : ∀ a b, Together (q :: rest).flatten a b → Together (r :: q :: rest).flatten a b := by
        rintro a b ⟨g, hg, hh⟩
        exact ⟨g, fun x hx => by rw [List.flatten_cons]; exact List.mem_append_right _ (hg x hx), hh⟩
      refine ⟨⟨(frame_append _ _).trans (p1.1.trans p2.1), p2.2.1, ?_⟩, ?_⟩
      · intro a ha b hb'
        rw [List.flatten_cons, List.mem_append] at ha hb'
        rcases ha with ha | ha <;> rcases hb' with hb' | hb'
        · rcases p1.2.2 a ha b hb' with h' | h'
          · exact Or.inl (h'.frame p2.1)
          · exact Or.inr (lift1 _ _ h')
        · exact Or.inl (key a ha b hb').weaken
        · exact Or.inl (key b hb' a ha).symm.weaken
        · rcases p2.2.2 a ha b hb' with h' | h'
          · exact Or.inl h'
          · exact Or.inr (lift2 _ _ h')
      · intro href a ha b hb'
        rw [List.flatten_cons, List.mem_append] at ha hb'
        rcases ha with ha | ha <;> rcases hb' with hb' | hb'
        · rcases p1' href a ha b hb' with h' | h'
          · exact Or.inl (h'.frame p2.1)
          · exact Or.inr ⟨r, by simp, h'⟩
        · exact Or.inl (key a ha b hb')
        · exact Or.inl (key b hb' a ha).symm
        · rcases p3 href a ha b hb' with h' | ⟨k, hk, h'⟩
          · exact Or.inl h'
          · exact Or.inr ⟨k, by simp [List.mem_cons.1 hk], h'⟩

/-! The columns and rows are linked groups. -/

theorem vAlign_iff (a b : El) (ha : Proper a.bbox) (hb : Proper b.bbox) : a.verticallyAlign b 0 false = true ↔ ShareColumn a b := by
  unfold El.verticallyAlign ShareColumn
  simp only [El.truthy, truthy_of_proper _ ha, truthy_of_proper _ hb, Bool.not_true, Bool.or_self, Bool.false_eq_true, if_false,
    overlapEnough_iff, El.ext]
  simp

theorem hAlign_iff (a b : El) (hd : a.dir = .leftRight) (ha : Proper a.bbox) (hb : Proper b.bbox) (td : Bool) :
    a.horizontallyAlign b (1 / 10) td = true ↔ ShareRow a b := by
  unfold El.horizontallyAlign ShareRow
  simp only [El.truthy, truthy_of_proper _ ha, truthy_of_proper _ hb, Bool.not_true, Bool.or_self, Bool.false_eq_true, if_false,
    overlapEnough_iff, El.ext, El.horizontal, hd]
  simp [Rect.height]

theorem columns_linked (iter : List ℕ → List ℕ) (hi : ∀ l, (iter l).Perm l) (ls : List El) (h : Good ls) :
    ∀ c ∈ columns iter ls, ∀ a ∈ c, ∀ b ∈ c, Chain ShareColumn c a b := by
  obtain ⟨gs, hg, hp, hpw, hne⟩ := C21_groups iter hi (fun a b : El => a.verticallyAlign b 0 false)
    (fun a b => C25_vertical_symm_partial a b 0 false (by simp)) ls
  have hcols : columns iter ls = sortBy (fun g => (hull g).x0) gs := by unfold columns groups; rw [hg]
  rw [hcols]
  intro c hc a ha b hb
  have hc' := (mem_sortBy _ _ _).1 hc
  have := (hne c hc').2 a ha b hb
  refine Relation.ReflTransGen.mono ?_ _ _ this
  rintro x y ⟨hx, hy, hxy⟩
  refine ⟨hx, hy, (vAlign_iff x y ?_ ?_).1 hxy⟩
  · exact (h x (hp.subset (List.mem_flatten.2 ⟨c, hc', hx⟩))).1
  · exact (h y (hp.subset (List.mem_flatten.2 ⟨c, hc', hy⟩))).1

theorem rows_linked (iter : List ℕ → List ℕ) (hi : ∀ l, (iter l).Perm l) (ls : List El) (h : TextLines ls) :
    ∀ c ∈ rows iter ls, ∀ a ∈ c, ∀ b ∈ c, Chain ShareRow c a b := by
  obtain ⟨gs, hg, hp, hpw, hne⟩ := C21_groups iter hi (fun a b : El => a.horizontallyAlign b (1 / 10) false)
    (fun a b => C25_horizontal_symm_partial a b (1 / 10) false (by simp)) ls
  have hrows : rows iter ls = sortBy (fun g => (hull g).y0) gs := by
    unfold rows groups
    rw [group_congr iter _ (fun a b : El => a.horizontallyAlign b (1 / 10) false), hg]
    intro a ha b _
    unfold El.horizontallyAlign El.horizontal
    simp [(h a ha).2.2]
  rw [hrows]
  intro c hc a ha b hb
  have hc' := (mem_sortBy _ _ _).1 hc
  have := (hne c hc').2 a ha b hb
  refine Relation.ReflTransGen.mono ?_ _ _ this
  rintro x y ⟨hx, hy, hxy⟩
  have ex := h x (hp.subset (List.mem_flatten.2 ⟨c, hc', hx⟩))
  have ey := h y (hp.subset (List.mem_flatten.2 ⟨c, hc', hy⟩))
  exact ⟨hx, hy, (hAlign_iff x y ex.2.2 ex.1 ey.1 _).1 hxy⟩

theorem chain_congr (f : El → El → Prop) (g g' : List El) (h : ∀ x ∈ g, x ∈ g') (a b : El) (hc : Chain f g a b) : Chain f g' a b :=
  Relation.ReflTransGen.mono (fun _ _ hxy => ⟨h _ hxy.1, h _ hxy.2.1, hxy.2.2⟩) _ _ hc

theorem inner_spec (iter : List ℕ → List ℕ) (hi : ∀ l, (iter l).Perm l) (all : List El) (n : ℕ) (ls : List El) (ht : TextLines ls)
    (hc : ClearRows ls) : ∀ T B L R st st', inner iter n ls T B L R st = some st' → Boxed all st ls T B L R → AllClear all st →
      Post all ls st st' ∧ (3 ≤ (columns iter ls).length → ∀ a ∈ ls, ∀ b ∈ ls, Sep true st' a b ∨ ∃ c ∈ columns iter ls, ∃ r ∈ rows iter c, a ∈ r ∧ b ∈ r) := by
  induction n generalizing ls with
  | zero => intro T B L R st st' h; simp [inner] at h
  | succ n ih =>
    intro T B L R st st' h hb hac
    have hgood : Good ls := fun l hl => ⟨(ht l hl).1, (ht l hl).2.1⟩
    have hC := columns_perm iter hi ls
    unfold inner at h
    simp only [] at h
    have hmemC : ∀ c ∈ columns iter ls, ∀ x ∈ c, x ∈ ls := fun c hc' x hx => hC.1.subset (List.mem_flatten.2 ⟨c, hc', hx⟩)
    have hst : Frame st (if 2 ≤ (columns iter ls).length then setReal st [T, B, L, R] else st) ∧
        AllClear all (if 2 ≤ (columns iter ls).length then setReal st [T, B, L, R] else st) := by
      split
      · exact ⟨frame_setReal _ _, hac.frame (frame_setReal _ _) (length_setReal _ _)⟩
      · exact ⟨Frame.refl _, hac⟩
    have hpost := colLoop_spec iter all (inner iter n) (decide ((columns iter ls).length ≤ 2)) T B R (columns iter ls) L _ st' hC.2
      (fun c hc' x hx => hgood x (hmemC c hc' x hx)) (columns_spec iter hi ls hgood) ?_ ((hb.frame hst.1).congr fun o => hC.1.mem_iff) hst.2 h
    · obtain ⟨hpost, hreal⟩ := hpost
      refine ⟨⟨hst.1.trans hpost.1, hpost.2.1, ?_⟩, fun h3 a ha b hb' =>
        hreal (by simp; omega) a (hC.1.mem_iff.2 ha) b (hC.1.mem_iff.2 hb')⟩
      intro a ha b hb'
      rcases hpost.2.2 a (hC.1.mem_iff.2 ha) b (hC.1.mem_iff.2 hb') with h' | ⟨g, hg, hh⟩
      · exact Or.inl h'
      · exact Or.inr ⟨g, fun x hx => hC.1.mem_iff.1 (hg x hx), hh⟩
    · intro c hc' L R st st' h hb hac
      have htc : TextLines c := fun l hl => ht l (hmemC c hc' l hl)
      have hcc : ClearRows c := fun a ha b hb => hc a (hmemC c hc' a ha) b (hmemC c hc' b hb)
      have hR := rows_perm iter hi c
      have hmemR : ∀ r ∈ rows iter c, ∀ x ∈ r, x ∈ c := fun r hr x hx => hR.1.subset (List.mem_flatten.2 ⟨r, hr, hx⟩)
      unfold colWork at h
      by_cases h1 : (rows iter c).length = 1
      · rw [if_pos h1, Option.some.injEq] at h
        subst h
        obtain ⟨r, hr⟩ := List.length_eq_one_iff.1 h1
        have hrc : ∀ z, z ∈ r ↔ z ∈ c := by
          intro z
          have := hR.1.mem_iff (a := z)
          rw [hr] at this
          simpa using this
        refine ⟨⟨Frame.refl _, hac, fun a ha b hb' => Or.inr ⟨c, fun x hx => hx, ha, hb', ?_⟩⟩, fun _ a ha b hb' =>
          Or.inr ⟨r, by rw [hr]; simp, (hrc a).2 ha, (hrc b).2 hb'⟩⟩
        intro x hx y hy
        refine ⟨columns_linked iter hi ls hgood c hc' x hx y hy, ?_⟩
        exact chain_congr _ r c (fun z hz => (hrc z).1 hz) x y
          (rows_linked iter hi c htc r (by rw [hr]; simp) x ((hrc x).2 hx) y ((hrc y).2 hy))
      · rw [if_neg h1] at h
        have := rowLoop_spec all (inner iter n) _ B L R (rows iter c) T st st' hR.2
          (fun r hr x hx => hgood x (hmemC c hc' x (hmemR r hr x hx))) (rows_spec iter hi c htc hcc)
          (fun r hr T B L R st st' h1 h2 h3 => (ih r (fun l hl => htc l (hmemR r hr l hl))
            (fun a ha b hb => hcc a (hmemR r hr a ha) b (hmemR r hr b hb)) T B L R st st' h1 h2 h3).1)
          (hb.congr fun o => hR.1.mem_iff) hac h
        obtain ⟨this, hreal⟩ := this
        refine ⟨⟨this.1, this.2.1, ?_⟩, fun href a ha b hb' => hreal href a (hR.1.mem_iff.2 ha) b (hR.1.mem_iff.2 hb')⟩
        intro a ha b hb'
        rcases this.2.2 a (hR.1.mem_iff.2 ha) b (hR.1.mem_iff.2 hb') with h' | ⟨g, hg, hh⟩
        · exact Or.inl h'
        · exact Or.inr ⟨g, fun x hx => hR.1.mem_iff.1 (hg x hx), hh⟩

/-! ## The whole table -/

theorem boundaries_le (Y1 y0 y1 : ℚ) (bs : List Rect) (lo : ℚ) (h0 : lo ≤ y0) (h1 : y1 ≤ Y1) :
    (boundaries Y1 y0 y1 lo bs).1 ≤ y0 ∧ y1 ≤ (boundaries Y1 y0 y1 lo bs).2 := by
  induction bs generalizing lo with
  | nil => exact ⟨h0, h1⟩
  | cons b bs ih =>
    unfold boundaries
    simp only []
    have hlo : (if b.y1 < y0 then b.y1 else lo) ≤ y0 := by split_ifs with h; exacts [le_of_lt h, h0]
    by_cases hb : y1 < b.y0
    · rw [if_pos hb]; exact ⟨hlo, le_of_lt hb⟩
    · rw [if_neg hb]; exact ih _ hlo

theorem tableBox_covers (ls : List El) (l : El) (hl : l ∈ ls) : Covers (tableBox ls) l.bbox :=
  ⟨minOf_le _ _ (List.mem_map_of_mem (f := fun l : El => l.bbox.x0) hl), minOf_le _ _ (List.mem_map_of_mem (f := fun l : El => l.bbox.y0) hl),
    le_maxOf _ _ (List.mem_map_of_mem (f := fun l : El => l.bbox.x1) hl), le_maxOf _ _ (List.mem_map_of_mem (f := fun l : El => l.bbox.y1) hl)⟩

theorem tableBox_in (ls : List El) (hne : ls ≠ []) (r : Rect) (h : ∀ l ∈ ls, Covers r l.bbox) : Covers r (tableBox ls) := by
  refine ⟨?_, ?_, ?_, ?_⟩
  · obtain ⟨l, hl, e⟩ := List.mem_map.1 (minOf_mem (ls.map fun l : El => l.bbox.x0) (by simpa using hne))
    show _ ≤ Table.minOf _; rw [← e]; exact (h l hl).1
  · obtain ⟨l, hl, e⟩ := List.mem_map.1 (minOf_mem (ls.map fun l : El => l.bbox.y0) (by simpa using hne))
    show _ ≤ Table.minOf _; rw [← e]; exact (h l hl).2.1
  · obtain ⟨l, hl, e⟩ := List.mem_map.1 (maxOf_mem (ls.map fun l : El => l.bbox.x1) (by simpa using hne))
    show Table.maxOf _ ≤ _; rw [← e]; exact (h l hl).2.2.1
  · obtain ⟨l, hl, e⟩ := List.mem_map.1 (maxOf_mem (ls.map fun l : El => l.bbox.y1) (by simpa using hne))
    show Table.maxOf _ ≤ _; rw [← e]; exact (h l hl).2.2.2

theorem outerBox_covers (page : Rect) (blocks : List Rect) (ls : List El) (hne : ls ≠ []) (h : ∀ l ∈ ls, Covers page l.bbox) :
    Covers (outerBox page blocks ls) (tableBox ls) := by
  have hp := tableBox_in ls hne page h
  have hb := boundaries_le page.y1 (tableBox ls).y0 (tableBox ls).y1 blocks page.y0 hp.2.1 hp.2.2.2
  exact ⟨hp.1, hb.1, hp.2.2.1, hb.2⟩

theorem outer_spec (ls : List El) (o : Rect) (h : Covers o (tableBox ls)) :
    AllClear ls (outer (tableBox ls) o) ∧ Boxed ls (outer (tableBox ls) o) ls 0 1 2 3 := by
  have hc := tableBox_covers ls
  constructor
  · intro b hb
    simp only [outer, List.mem_cons, List.not_mem_nil, or_false] at hb
    rcases hb with rfl | rfl | rfl | rfl
    · exact ⟨rfl, h.2.1, _, _, rfl, rfl, rfl, rfl, rfl, rfl, fun l hl => Or.inr (Or.inl (hc l hl).2.1)⟩
    · exact ⟨rfl, h.2.2.2, _, _, rfl, rfl, rfl, rfl, rfl, rfl, fun l hl => Or.inl (hc l hl).2.2.2⟩
    · exact ⟨rfl, h.1, _, _, rfl, rfl, rfl, rfl, rfl, rfl, fun l hl => Or.inr (Or.inl (hc l hl).1)⟩
    · exact ⟨rfl, h.2.2.1, _, _, rfl, rfl, rfl, rfl, rfl, rfl, fun l hl => Or.inl (hc l hl).2.2.1⟩
  · exact ⟨_, _, _, _, ⟨rfl, rfl, rfl, rfl⟩, ⟨rfl, rfl, rfl, rfl⟩, ⟨h.2.1, h.2.2.2, h.1, h.2.2.1⟩,
      fun l hl => ⟨(hc l hl).2.1, (hc l hl).2.2.2, (hc l hl).1, (hc l hl).2.2.1⟩, fun l hl => Or.inl hl⟩

/-- The borders of a table of text lines. -/
theorem borders_spec (iter : List ℕ → List ℕ) (hi : ∀ l, (iter l).Perm l) (page : Rect) (blocks : List Rect) (ls : List El) (hne : ls ≠ [])
    (ht : TextLines ls) (hc : ClearRows ls) (hp : ∀ l ∈ ls, Covers page l.bbox) (n : ℕ) (st : State) (h : borders iter n page blocks ls = some st) :
    AllClear ls st ∧ (∀ a ∈ ls, ∀ b ∈ ls, Sep false st a b ∨ Together ls a b) ∧
    (3 ≤ (columns iter ls).length → ∀ a ∈ ls, ∀ b ∈ ls, Sep true st a b ∨ ∃ c ∈ columns iter ls, ∃ r ∈ rows iter c, a ∈ r ∧ b ∈ r) := by
  have ho := outer_spec ls _ (outerBox_covers page blocks ls hne hp)
  have := inner_spec iter hi ls n ls ht hc 0 1 2 3 _ st h ho.2 ho.1
  exact ⟨this.1.2.1, this.1.2.2, this.2⟩

/-- A placed border lies in its range, up to 1. -/
theorem pos_in_range (b b' : Bd) (h : Ext b b') (hv : b.value = none) (hr : b.lo ≤ b.hi) : b.lo - 1 ≤ b'.pos ∧ b'.pos ≤ b.hi + 1 := by
  unfold Bd.pos
  rcases h with rfl | ⟨_, _, _, _, _, _, _, v, h1, h2⟩
  · rw [hv]; simp only [Option.getD_none]; constructor <;> linarith
  · rw [h1]; exact h2

theorem beside_of_clear (all : List El) (st fin : State) (b b' : Bd) (hcl : Clear all st b) (he : Ext b b')
    (hx : ∀ (i : ℕ) (x : Bd), st[i]? = some x → ∃ x', fin[i]? = some x' ∧ Ext x x') (hac : AllClear all st)
    (s : (ℚ × ℚ × ℚ × ℚ) × ℚ × ℕ) (hs : toStroke fin b' = some s) : ∀ l ∈ all, Beside 1 s.1 l.bbox := by
  obtain ⟨hv, hr, p, q, hp, hq, hp1, hq1, hp2, hq2, hcl⟩ := hcl
  obtain ⟨p', hp', ep⟩ := hx _ p hp
  obtain ⟨q', hq', eq⟩ := hx _ q hq
  have rb := pos_in_range b b' he hv hr
  have rp := pos_in_range p p' ep hp2 (hac p (List.mem_of_getElem? hp)).2.1
  have rq := pos_in_range q q' eq hq2 (hac q (List.mem_of_getElem? hq)).2.1
  have hb : b'.horizontal = b.horizontal ∧ b'.lb = b.lb ∧ b'.ub = b.ub := by
    rcases he with rfl | ⟨_, h1, _, _, h2, h3, _⟩
    · exact ⟨rfl, rfl, rfl⟩
    · exact ⟨h1, h2, h3⟩
  unfold toStroke at hs
  by_cases href : b'.reference = true
  · rw [if_pos href] at hs; cases hs
  · rw [if_neg href] at hs
    simp only [Option.some.injEq] at hs
    rw [hb.1, hb.2.1, hb.2.2, List.getD_eq_getElem?_getD, List.getD_eq_getElem?_getD, hp', hq', Option.getD_some, Option.getD_some] at hs
    intro l hl
    have hcl := hcl l hl
    unfold Beside
    rw [← hs]
    by_cases hh : b.horizontal = true
    · rw [if_pos hh] at hcl ⊢
      simp only []
      rcases hcl with h | h | h | h
      · exact Or.inr (Or.inr (Or.inl (by linarith)))
      · exact Or.inr (Or.inr (Or.inr (by linarith)))
      · exact Or.inl (by linarith)
      · exact Or.inr (Or.inl (by linarith))
    · rw [if_neg hh] at hcl ⊢
      simp only []
      rcases hcl with h | h | h | h
      · exact Or.inl (by linarith)
      · exact Or.inr (Or.inl (by linarith))
      · exact Or.inr (Or.inr (Or.inl (by linarith)))
      · exact Or.inr (Or.inr (Or.inr (by linarith)))

/-- **C77** (partial): no border of a stream table runs through a line of its text (up to 1pt), wherever explicit strokes and fillings have moved
the borders: for horizontal lines of text on the page whose rows are clear, every border found between the lines and around them is drawn
beside every line. *Missing*: lines overlapping vertically by less than a tenth of their height (`C77_refuted_overlapping`); reference borders
added afterwards (`C77_refuted_reference`); vertical text. -/
theorem C77_text_not_cut_partial (iter : List ℕ → List ℕ) (hi : ∀ l, (iter l).Perm l) (page : Rect) (blocks : List Rect) (ls : List El)
    (hne : ls ≠ []) (ht : TextLines ls) (hc : ClearRows ls) (hp : ∀ l ∈ ls, Covers page l.bbox) :
    ∃ st, (∀ n ≥ max 1 ls.length, borders iter n page blocks ls = some st) ∧
      ∀ (order : List (ℚ × ℚ) → List (ℚ × ℚ)) (strokes : List Line) (fills : List Rect) (i : ℕ) (b : Bd) (s : (ℚ × ℚ × ℚ × ℚ) × ℚ × ℕ),
        i < st.length → (finalize order strokes fills st)[i]? = some b → toStroke (finalize order strokes fills st) b = some s →
        ∀ l ∈ ls, Beside 1 s.1 l.bbox := by
  obtain ⟨st, hst⟩ := C76_division_ends iter hi ls 0 1 2 3 (outer (tableBox ls) (outerBox page blocks ls))
  refine ⟨st, fun n hn => hst n hn, ?_⟩
  intro order strokes fills i b s hlt hb hs
  have hsp := borders_spec iter hi page blocks ls hne ht hc hp _ st (hst _ (le_refl _))
  have hx := (C63_reference_borders order strokes fills st).1
  obtain ⟨b', hb', he⟩ := hx i st[i] (List.getElem?_eq_getElem hlt)
  rw [hb, Option.some.injEq] at hb'
  subst hb'
  exact beside_of_clear ls st _ st[i] b (hsp.1 _ (List.getElem_mem _)) he hx hsp.1 s hs

theorem dummies_stay (order : List (ℚ × ℚ) → List (ℚ × ℚ)) (st : State) (i : ℕ) (hi : st.length ≤ i) (b : Bd)
    (hb : (finalize order [] [] st)[i]? = some b) : b.reference = true := by
  obtain ⟨ds, hds, hd⟩ := addDummies_append order st
  have hfin : finalize order [] [] st = byLayout (byLayout (st ++ ds) (open_ true (st ++ ds))) (open_ false (st ++ ds)) := by
    unfold finalize
    rw [hds]
    rfl
  have hopen : ∀ h : Bool, i ∉ open_ h (st ++ ds) := by
    intro h hm
    unfold open_ at hm
    dsimp only at hm
    rw [List.mem_filter, List.mem_range] at hm
    obtain ⟨h1, h2⟩ := hm
    rw [List.getD_eq_getElem?_getD, List.getElem?_eq_getElem h1, Option.getD_some] at h2
    simp only [Bool.and_eq_true, Bool.not_eq_true', Bool.or_eq_false_iff, beq_iff_eq] at h2
    rw [List.getElem_append_right hi] at h2
    have hlen : i - st.length < ds.length := by have := List.length_append (as := st) (bs := ds); omega
    have := (hd _ (List.getElem_mem hlen)).2.1
    rw [this] at h2
    simp at h2
  rw [hfin] at hb
  unfold byLayout at hb
  rw [layoutLoop_other _ _ i (hopen false), layoutLoop_other _ _ i (hopen true), List.getElem?_append_right hi] at hb
  exact (hd b (List.mem_of_getElem? hb)).2.1

/-- **C77** (partial): in a stream table without explicit strokes and fillings, *all* lines drawn run beside the text. *Missing*: as above. -/
theorem C77_borderless_partial (iter : List ℕ → List ℕ) (hi : ∀ l, (iter l).Perm l) (page : Rect) (blocks : List Rect) (ls : List El)
    (hne : ls ≠ []) (ht : TextLines ls) (hc : ClearRows ls) (hp : ∀ l ∈ ls, Covers page l.bbox)
    (order : List (ℚ × ℚ) → List (ℚ × ℚ)) (n : ℕ) (st : State) (hst : borders iter n page blocks ls = some st) :
    ∀ b ∈ finalize order [] [] st, ∀ s, toStroke (finalize order [] [] st) b = some s → ∀ l ∈ ls, Beside 1 s.1 l.bbox := by
  intro b hb s hs
  have hsp := borders_spec iter hi page blocks ls hne ht hc hp _ st hst
  have hx := (C63_reference_borders order [] [] st).1
  obtain ⟨i, hi'⟩ := List.getElem?_of_mem hb
  by_cases hlt : i < st.length
  · obtain ⟨b', hb', he⟩ := hx i st[i] (List.getElem?_eq_getElem hlt)
    rw [hi', Option.some.injEq] at hb'
    subst hb'
    exact beside_of_clear ls st _ st[i] b (hsp.1 _ (List.getElem_mem _)) he hx hsp.1 s hs
  · have := dummies_stay order st i (not_lt.1 hlt) b hi'
    unfold toStroke at hs
    rw [if_pos this] at hs
    cases hs

theorem tenths_den_iff (r : Rect) : Tenths r ↔ (r.x0 * 10).den = 1 ∧ (r.y0 * 10).den = 1 ∧ (r.x1 * 10).den = 1 ∧ (r.y1 * 10).den = 1 := by
  have e : ∀ q : ℚ, q.den = 1 → ((q.num : ℤ) : ℚ) = q := fun q h => Rat.coe_int_num_of_den_eq_one h
  constructor
  · rintro ⟨a, b, c, d, rfl⟩
    have f : ∀ n : ℤ, ((n : ℚ) / 10 * 10).den = 1 := by
      intro n
      rw [div_mul_cancel₀ _ (by norm_num : (10 : ℚ) ≠ 0)]
      rfl
    exact ⟨f a, f b, f c, f d⟩
  · rintro ⟨h1, h2, h3, h4⟩
    refine ⟨(r.x0 * 10).num, (r.y0 * 10).num, (r.x1 * 10).num, (r.y1 * 10).num, ?_⟩
    rw [e _ h1, e _ h2, e _ h3, e _ h4]
    simp

instance (r : Rect) : Decidable (Tenths r) := decidable_of_iff _ (tenths_den_iff r).symm

instance (ls : List El) : Decidable (TextLines ls) := by unfold TextLines; infer_instance

instance (tol : ℚ) (seg : ℚ × ℚ × ℚ × ℚ) (r : Rect) : Decidable (Beside tol seg r) := by unfold Beside; infer_instance

/-- A line of text (for examples). -/
def tln (x0 y0 x1 y1 : ℚ) : El := ⟨⟨x0, y0, x1, y1⟩, .leftRight⟩

/-- A table of three columns; the first one has two lines. -/
def threeCols : List El := [tln 50 100 90 110, tln 50 120 90 130, tln 150 100 190 110, tln 250 100 290 110]

/-- Non-vacuity: the hypotheses hold of the table above, its borders are found, and some are drawn. -/
example : TextLines threeCols ∧ ClearRows threeCols ∧ (∀ l ∈ threeCols, Covers ⟨0, 0, 600, 800⟩ l.bbox) ∧
    ((borders id 4 ⟨0, 0, 600, 800⟩ [⟨50, 50, 290, 60⟩, ⟨50, 200, 290, 210⟩] threeCols).map fun st =>
      (finalize id [] [] st).filterMap fun b => (toStroke (finalize id [] [] st) b).map Prod.fst) =
    some [(25, 80, 445, 80), (25, 165, 445, 165), (25, 80, 25, 165), (445, 80, 445, 165), (120, 80, 120, 165), (25, 115, 120, 115),
      (220, 80, 220, 165)] := by
  refine ⟨by decide +kernel, by decide +kernel, by decide +kernel, by decide +kernel⟩

/-- **C77** (refuted): lines of one column overlapping by less than a tenth of their height are taken for two rows, and the border between them is
drawn through both: here 4.5pt inside each. -/
theorem C77_refuted_overlapping : ∃ (ls : List El) (st : State) (b : Bd) (s : (ℚ × ℚ × ℚ × ℚ) × ℚ × ℕ), TextLines ls ∧
    (∀ l ∈ ls, Covers ⟨0, 0, 600, 800⟩ l.bbox) ∧ borders id ls.length ⟨0, 0, 600, 800⟩ [] ls = some st ∧ b ∈ finalize id [] [] st ∧
    toStroke (finalize id [] [] st) b = some s ∧ ∃ l ∈ ls, ¬ Beside 4 s.1 l.bbox := by
  refine ⟨[tln 50 100 90 200, tln 50 191 90 291, tln 150 100 190 110, tln 250 100 290 110],
    (borders id 4 ⟨0, 0, 600, 800⟩ [] [tln 50 100 90 200, tln 50 191 90 291, tln 150 100 190 110, tln 250 100 290 110]).getD [],
    ⟨true, 200, 191, 2, 4, false, none, 0, 0⟩, ((25, 391 / 2, 120, 391 / 2), 0, 0), ?_⟩
  decide +kernel

/-- **C77** (refuted): a stroke in one column only (x from 40 to 100) decides the auxiliary borders of all columns at the same height: a border is
drawn through the middle of a line of text in the second column, where the page has none. -/
theorem C77_refuted_reference : ∃ (ls : List El) (st : State) (stroke : Line) (b : Bd) (s : (ℚ × ℚ × ℚ × ℚ) × ℚ × ℕ), TextLines ls ∧ ClearRows ls ∧
    (∀ l ∈ ls, Covers ⟨0, 0, 600, 800⟩ l.bbox) ∧ stroke.horizontal = true ∧ (∀ l ∈ ls, 150 ≤ l.bbox.x0 ∨ l.bbox.x1 ≤ 100) ∧ stroke.up ≤ 100 ∧
    borders id ls.length ⟨0, 0, 600, 800⟩ [] ls = some st ∧ b ∈ finalize id [stroke] [] st ∧
    toStroke (finalize id [stroke] [] st) b = some s ∧ ∃ l ∈ ls, ¬ Beside 14 s.1 l.bbox := by
  refine ⟨[tln 50 100 90 110, tln 50 120 90 130, tln 150 100 190 130, tln 250 100 290 110],
    (borders id 4 ⟨0, 0, 600, 800⟩ [] [tln 50 100 90 110, tln 50 120 90 130, tln 150 100 190 130, tln 250 100 290 110]).getD [],
    ⟨true, 40, 100, 115, 1, 0, false⟩,
    ⟨true, 110, 120, 4, 6, false, some 115, 1, 0⟩, ((100, 115, 220, 115), 1, 0), ?_⟩
  decide +kernel

/-! ## C78: completeness -/

theorem parts_of_sep (all : List El) (real : Bool) (st fin : State) (a b : El) (hac : AllClear all st) (h : Sep real st a b)
    (hx : ∀ (i : ℕ) (x : Bd), st[i]? = some x → ∃ x', fin[i]? = some x' ∧ Ext x x') :
    ∃ (i : ℕ) (x p q : Bd), fin[i]? = some x ∧ fin[x.lb]? = some p ∧ fin[x.ub]? = some q ∧
      ((real = true ∨ x.horizontal = false) → x.reference = false) ∧ Parts 1 x.horizontal x.pos p.pos q.pos a.bbox b.bbox := by
  obtain ⟨i, x, p, q, h1, h2, h3, hr, h4⟩ := h
  obtain ⟨x', hx', ex⟩ := hx i x h1
  obtain ⟨p', hp', ep⟩ := hx _ p h2
  obtain ⟨q', hq', eq⟩ := hx _ q h3
  have cx := hac x (List.mem_of_getElem? h1)
  have cp := hac p (List.mem_of_getElem? h2)
  have cq := hac q (List.mem_of_getElem? h3)
  have rb := pos_in_range x x' ex cx.1 cx.2.1
  have rp := pos_in_range p p' ep cp.1 cp.2.1
  have rq := pos_in_range q q' eq cq.1 cq.2.1
  have hb : x'.horizontal = x.horizontal ∧ x'.lb = x.lb ∧ x'.ub = x.ub ∧ (x.reference = false → x'.reference = false) := by
    rcases ex with rfl | ⟨_, h1, _, _, h2, h3, h4, _⟩
    · exact ⟨rfl, rfl, rfl, id⟩
    · exact ⟨h1, h2, h3, fun _ => h4⟩
  refine ⟨i, x', p', q', hx', by rw [hb.2.1]; exact hp', by rw [hb.2.2.1]; exact hq', by rw [hb.1]; exact fun h => hb.2.2.2 (hr h), ?_⟩
  unfold Parts
  rw [hb.1]
  by_cases hh : x.horizontal = true
  · rw [if_pos hh] at h4 ⊢
    refine ⟨h4.1.imp (fun h => ⟨by linarith [h.1], by linarith [h.2]⟩) (fun h => ⟨by linarith [h.1], by linarith [h.2]⟩), ?_, ?_⟩
    · rw [le_min_iff]; exact ⟨by linarith [h4.2.1], by linarith [h4.2.2.1]⟩
    · rw [max_le_iff]; exact ⟨by linarith [h4.2.2.2.1], by linarith [h4.2.2.2.2]⟩
  · rw [if_neg hh] at h4 ⊢
    refine ⟨h4.1.imp (fun h => ⟨by linarith [h.1], by linarith [h.2]⟩) (fun h => ⟨by linarith [h.1], by linarith [h.2]⟩), ?_, ?_⟩
    · rw [le_min_iff]; exact ⟨by linarith [h4.2.1], by linarith [h4.2.2.1]⟩
    · rw [max_le_iff]; exact ⟨by linarith [h4.2.2.2.1], by linarith [h4.2.2.2.2]⟩

/-- **C78** (partial): the division is complete: any two lines of the table that no border parts (in its final position, up to 1pt, whatever the
strokes and fillings) belong to a set of lines which neither a vertical nor a horizontal gap divides; borders between columns are
never mere references. *Missing*: horizontal borders between rows of at most two columns are references (by intention); lines
overlapping slightly and vertical text, as in C77. -/
theorem C78_cells_undivided_partial (iter : List ℕ → List ℕ) (hi : ∀ l, (iter l).Perm l) (page : Rect) (blocks : List Rect) (ls : List El)
    (hne : ls ≠ []) (ht : TextLines ls) (hc : ClearRows ls) (hp : ∀ l ∈ ls, Covers page l.bbox)
    (order : List (ℚ × ℚ) → List (ℚ × ℚ)) (strokes : List Line) (fills : List Rect) (n : ℕ) (st : State)
    (hst : borders iter n page blocks ls = some st) :
    ∀ a ∈ ls, ∀ b ∈ ls, (∃ (i : ℕ) (x p q : Bd), (finalize order strokes fills st)[i]? = some x ∧ (finalize order strokes fills st)[x.lb]? = some p ∧
        (finalize order strokes fills st)[x.ub]? = some q ∧ (x.horizontal = false → x.reference = false) ∧
        Parts 1 x.horizontal x.pos p.pos q.pos a.bbox b.bbox) ∨
      ∃ g : List El, (∀ x ∈ g, x ∈ ls) ∧ a ∈ g ∧ b ∈ g ∧ Undivided g := by
  intro a ha b hb
  have hsp := borders_spec iter hi page blocks ls hne ht hc hp _ st hst
  have hx := (C63_reference_borders order strokes fills st).1
  rcases hsp.2.1 a ha b hb with h | h
  · obtain ⟨i, x, p, q, h1, h2, h3, h4, h5⟩ := parts_of_sep ls false st _ a b hsp.1 h hx
    exact Or.inl ⟨i, x, p, q, h1, h2, h3, fun h => h4 (Or.inr h), h5⟩
  · exact Or.inr h

theorem chain_in_column (iter : List ℕ → List ℕ) (hi : ∀ l, (iter l).Perm l) (ls : List El) (h : Good ls) (c : List El)
    (hc : c ∈ columns iter ls) (a b : El) (ha : a ∈ c) (hb : b ∈ c) : Chain ShareColumn ls a b :=
  chain_congr _ c ls (fun x hx => (columns_perm iter hi ls).1.subset (List.mem_flatten.2 ⟨c, hc, hx⟩)) a b (columns_linked iter hi ls h c hc a ha b hb)

/-- **C78** (partial): in a table of at least three columns (three lines no two of which are linked by lines sharing a column), lines are parted
by a drawn border, vertical or horizontal, unless they belong to one column and one row. *Missing*: as above. -/
theorem C78_three_columns_partial (iter : List ℕ → List ℕ) (hi : ∀ l, (iter l).Perm l) (page : Rect) (blocks : List Rect) (ls : List El)
    (ht : TextLines ls) (hc : ClearRows ls) (hp : ∀ l ∈ ls, Covers page l.bbox)
    (u v w : El) (hu : u ∈ ls) (hv : v ∈ ls) (hw : w ∈ ls) (huv : ¬ Chain ShareColumn ls u v) (huw : ¬ Chain ShareColumn ls u w)
    (hvw : ¬ Chain ShareColumn ls v w)
    (order : List (ℚ × ℚ) → List (ℚ × ℚ)) (strokes : List Line) (fills : List Rect) (n : ℕ) (st : State)
    (hst : borders iter n page blocks ls = some st) :
    ∀ a ∈ ls, ∀ b ∈ ls, (∃ (i : ℕ) (x p q : Bd), (finalize order strokes fills st)[i]? = some x ∧ (finalize order strokes fills st)[x.lb]? = some p ∧
        (finalize order strokes fills st)[x.ub]? = some q ∧ (toStroke (finalize order strokes fills st) x).isSome = true ∧
        Parts 1 x.horizontal x.pos p.pos q.pos a.bbox b.bbox) ∨
      (Chain ShareColumn ls a b ∧ Chain ShareRow ls a b) := by
  have hne : ls ≠ [] := by rintro rfl; simp at hu
  have hgood : Good ls := fun l hl => ⟨(ht l hl).1, (ht l hl).2.1⟩
  have hC := columns_perm iter hi ls
  have h3 : 3 ≤ (columns iter ls).length := by
    have get : ∀ x ∈ ls, ∃ i, ∃ h : i < (columns iter ls).length, x ∈ (columns iter ls)[i] := by
      intro x hx
      obtain ⟨c, hc', hxc⟩ := List.mem_flatten.1 (hC.1.mem_iff.2 hx)
      obtain ⟨i, hi', rfl⟩ := List.mem_iff_getElem.1 hc'
      exact ⟨i, hi', hxc⟩
    obtain ⟨i, hi1, eu⟩ := get u hu
    obtain ⟨j, hj1, ev⟩ := get v hv
    obtain ⟨k, hk1, ew⟩ := get w hw
    have ij : i ≠ j := by
      rintro rfl; exact huv (chain_in_column iter hi ls hgood _ (List.getElem_mem hi1) u v eu ev)
    have ik : i ≠ k := by
      rintro rfl; exact huw (chain_in_column iter hi ls hgood _ (List.getElem_mem hi1) u w eu ew)
    have jk : j ≠ k := by
      rintro rfl; exact hvw (chain_in_column iter hi ls hgood _ (List.getElem_mem hj1) v w ev ew)
    omega
  intro a ha b hb
  have hsp := borders_spec iter hi page blocks ls hne ht hc hp _ st hst
  have hx := (C63_reference_borders order strokes fills st).1
  rcases hsp.2.2 h3 a ha b hb with h | ⟨c, hc', r, hr, har, hbr⟩
  · obtain ⟨i, x, p, q, h1, h2, h3, h4, h5⟩ := parts_of_sep ls true st _ a b hsp.1 h hx
    refine Or.inl ⟨i, x, p, q, h1, h2, h3, ?_, h5⟩
    unfold toStroke
    simp [h4 (Or.inl rfl)]
  · refine Or.inr ⟨?_, ?_⟩
    · have hmem := (rows_perm iter hi c).1
      exact chain_in_column iter hi ls hgood c hc' a b (hmem.subset (List.mem_flatten.2 ⟨r, hr, har⟩)) (hmem.subset (List.mem_flatten.2 ⟨r, hr, hbr⟩))
    · refine chain_congr _ r ls ?_ a b (rows_linked iter hi c ?_ r hr a har b hbr)
      · intro x hx'
        exact hC.1.subset (List.mem_flatten.2 ⟨c, hc', (rows_perm iter hi c).1.subset (List.mem_flatten.2 ⟨r, hr, hx'⟩)⟩)
      · intro l hl
        exact ht l (hC.1.subset (List.mem_flatten.2 ⟨c, hc', hl⟩))

theorem not_chain (f : El → El → Prop) (ls : List El) (P : El → Prop) (h : ∀ x ∈ ls, ∀ y ∈ ls, P x → f x y → P y) (a b : El) (ha : P a) (hb : ¬ P b) :
    ¬ Chain f ls a b := by
  intro hc
  have : P b := by
    induction hc with
    | refl => exact ha
    | tail _ hxy ih => exact h _ hxy.1 _ hxy.2.1 (by_contra fun hn => (by
        have := ih hn; exact hn this)) hxy.2.2
  exact hb this

/-- Non-vacuity: the three columns of the table above are not linked. -/
example : ¬ Chain ShareColumn threeCols (tln 50 100 90 110) (tln 150 100 190 110) ∧
    ¬ Chain ShareColumn threeCols (tln 50 100 90 110) (tln 250 100 290 110) ∧
    ¬ Chain ShareColumn threeCols (tln 150 100 190 110) (tln 250 100 290 110) := by
  refine ⟨not_chain _ _ (fun x => x.bbox.x1 ≤ 100) ?_ _ _ ?_ ?_, not_chain _ _ (fun x => x.bbox.x1 ≤ 100) ?_ _ _ ?_ ?_,
    not_chain _ _ (fun x => x.bbox.x1 ≤ 200) ?_ _ _ ?_ ?_⟩ <;> (try unfold ShareColumn) <;> decide +kernel

end Props
