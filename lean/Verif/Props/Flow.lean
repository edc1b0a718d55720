import Verif.Spec.Flow
import Verif.Props.Detect
/-! # C107: when a text block is in flow layout -/

namespace Props
open Geom Py Spec

/-- Positions of consecutive groups. -/
def ivals {α : Type} : ℕ → List (List α) → List (List ℕ)
  | _, [] => []
  | s, r :: rs => List.range' s r.length :: ivals (s + r.length) rs

theorem ivals_flatten {α : Type} (rs : List (List α)) (s : ℕ) : (ivals s rs).flatten = List.range' s rs.flatten.length := by
  induction rs generalizing s with
  | nil => rfl
  | cons r rs ih =>
    unfold ivals
    rw [List.flatten_cons, ih, List.flatten_cons, List.length_append, List.range'_append_1]

theorem ivals_items {α : Type} (rs : List (List α)) (pre : List α) (s : ℕ) (hs : s = pre.length) :
    List.Forall₂ (fun (g : List ℕ) r => g.map (fun i => (pre ++ rs.flatten)[i]?) = r.map some) (ivals s rs) rs := by
  induction rs generalizing pre s with
  | nil => exact List.Forall₂.nil
  | cons r rs ih =>
    unfold ivals
    refine List.Forall₂.cons ?_ ?_
    · refine List.ext_getElem? fun k => ?_
      rw [List.getElem?_map, List.getElem?_map]
      by_cases hk : k < r.length
      · rw [List.getElem?_range' hk, List.getElem?_eq_getElem hk]
        simp only [Option.map_some, List.flatten_cons]
        rw [List.getElem?_append_right (by omega), List.getElem?_append_left (by omega), ← List.getElem?_eq_getElem hk]
        congr 2
        omega
      · rw [List.getElem?_eq_none (by simp; omega), List.getElem?_eq_none (by omega)]
        rfl
    · have := ih (pre ++ r) (s + r.length) (by rw [List.length_append, hs])
      rwa [List.append_assoc] at this

theorem forall2_mem_left {α β : Type} {R : α → β → Prop} {xs : List α} {ys : List β} (h : List.Forall₂ R xs ys) : ∀ x ∈ xs, ∃ y ∈ ys, R x y := by
  induction h with
  | nil => simp
  | cons h _ ih =>
    intro x hx
    rcases List.mem_cons.1 hx with rfl | hx
    · exact ⟨_, List.mem_cons_self, h⟩
    · obtain ⟨y, hy, hr⟩ := ih x hx
      exact ⟨y, List.mem_cons_of_mem _ hy, hr⟩

theorem forall2_mem_right {α β : Type} {R : α → β → Prop} {xs : List α} {ys : List β} (h : List.Forall₂ R xs ys) : ∀ y ∈ ys, ∃ x ∈ xs, R x y := by
  induction h with
  | nil => simp
  | cons h _ ih =>
    intro x hx
    rcases List.mem_cons.1 hx with rfl | hx
    · exact ⟨_, List.mem_cons_self, h⟩
    · obtain ⟨y, hy, hr⟩ := ih x hx
      exact ⟨y, List.mem_cons_of_mem _ hy, hr⟩

theorem forall2_pairwise {α β : Type} {R : α → β → Prop} {P : β → β → Prop} {Q : α → α → Prop} (hPQ : ∀ a b a' b', R a b → R a' b' → P b b' → Q a a')
    {xs : List α} {ys : List β} (h : List.Forall₂ R xs ys) (hp : ys.Pairwise P) : xs.Pairwise Q := by
  induction h with
  | nil => exact List.Pairwise.nil
  | cons h hs ih =>
    rw [List.pairwise_cons] at hp ⊢
    refine ⟨fun a' ha' => ?_, ih hp.2⟩
    obtain ⟨y, hy, hr⟩ := forall2_mem_left hs a' ha'
    exact hPQ _ _ _ _ h hr (hp.1 y hy)

/-- Grouping a list made of consecutive cliques that are not related to one another gives these cliques. -/
theorem groups_rows {α : Type} (iter : List ℕ → List ℕ) (hi : SetOrder iter) (f : α → α → Bool) (rows : List (List α)) (hne : ∀ r ∈ rows, r ≠ [])
    (hin : ∀ r ∈ rows, r.Pairwise fun a b => f a b = true) (hout : rows.Pairwise fun r r' => ∀ a ∈ r, ∀ b ∈ r', f a b = false) (g : List α) :
    g ∈ Stream.groups iter f rows.flatten ↔ g ∈ rows := by
  have hfl := ivals_flatten rows 0
  have hit : List.Forall₂ (fun (g : List ℕ) r => g.map (fun i => (rows.flatten)[i]?) = r.map some) (ivals 0 rows) rows := by
    simpa using ivals_items rows [] 0 rfl
  obtain ⟨gs, e1, e2⟩ := components_of_pairs rows.flatten.length (Graph.relatedPairs f rows.flatten) (Graph.relatedPairs_lt f rows.flatten)
  rw [← List.range_eq_range'] at hfl
  have hsort : (ivals 0 rows).flatten.Pairwise (· < ·) := by rw [hfl]; exact List.pairwise_lt_range
  rw [List.pairwise_flatten] at hsort
  -- elements of an interval
  have hel : ∀ h ∈ ivals 0 rows, ∃ r ∈ rows, h.map (fun i => (rows.flatten)[i]?) = r.map some := forall2_mem_left hit
  have hR : ∀ i j, ((i, j) ∈ Graph.relatedPairs f rows.flatten ↔ i < j ∧ At rows.flatten f i j) := fun i j => by
    rw [Graph.mem_relatedPairs]; rfl
  have hpw : (ivals 0 rows).Pairwise fun h h' => ∀ i ∈ h, ∀ j ∈ h', ¬ At rows.flatten f i j := by
    refine forall2_pairwise (P := fun r r' => ∀ a ∈ r, ∀ b ∈ r', f a b = false) ?_ hit hout
    rintro h r h' r' e e' hf i hi j hj ⟨a, b, ha, hb, hab⟩
    have m1 : some a ∈ r.map some := by rw [← e, List.mem_map]; exact ⟨i, hi, ha⟩
    have m2 : some b ∈ r'.map some := by rw [← e', List.mem_map]; exact ⟨j, hj, hb⟩
    rw [List.mem_map] at m1 m2
    obtain ⟨a', m1, rfl'⟩ := m1
    obtain ⟨b', m2, rfl''⟩ := m2
    rw [Option.some.inj rfl'] at m1
    rw [Option.some.inj rfl''] at m2
    rw [hf a m1 b m2] at hab
    cases hab
  have hcomp : Components rows.flatten.length (fun i j => (i, j) ∈ Graph.relatedPairs f rows.flatten) (ivals 0 rows) := by
    refine ⟨by rw [hfl], ?_, ?_⟩
    · intro h hh he
      obtain ⟨r, hr, e⟩ := hel h hh
      rw [he] at e
      exact hne r hr (by simpa using e.symm)
    · intro h hh a ha b
      have hmem : ∀ i ∈ h, i < rows.flatten.length := fun i hi' => by
        have : i ∈ (ivals 0 rows).flatten := List.mem_flatten.2 ⟨h, hh, hi'⟩
        rw [hfl] at this
        exact List.mem_range.1 this
      have hlink : ∀ i ∈ h, ∀ j ∈ h, i < j → (i, j) ∈ Graph.relatedPairs f rows.flatten := by
        intro i hi' j hj hij
        rw [hR]
        refine ⟨hij, ?_⟩
        obtain ⟨r, hr, e⟩ := hel h hh
        have hp : (r.map some).Pairwise fun x y => ∀ a b, x = some a → y = some b → f a b = true := by
          rw [List.pairwise_map]
          exact (hin r hr).imp fun hab a b ea eb => by rw [← Option.some.inj ea, ← Option.some.inj eb]; exact hab
        rw [← e, List.pairwise_map] at hp
        have hboth := hp.and (hsort.1 h hh)
        obtain ⟨k, hk, rfl⟩ := List.getElem_of_mem hi'
        obtain ⟨m, hm, rfl⟩ := List.getElem_of_mem hj
        have hkm : k < m := by
          by_contra hc
          rcases Nat.eq_or_lt_of_le (not_lt.1 hc) with he | hl
          · subst he; exact lt_irrefl _ hij
          · exact absurd (List.pairwise_iff_getElem.1 hboth m k hm hk hl).2 (by omega)
        have := (List.pairwise_iff_getElem.1 hboth k m hk hm hkm).1
        have q1 := hmem _ hi'
        have q2 := hmem _ hj
        exact ⟨_, _, List.getElem?_eq_getElem q1, List.getElem?_eq_getElem q2, this _ _ (List.getElem?_eq_getElem q1) (List.getElem?_eq_getElem q2)⟩
      constructor
      · intro hb
        rcases Nat.lt_trichotomy a b with hlt | rfl | hlt
        · exact Relation.ReflTransGen.single ⟨hmem a ha, hmem b hb, Or.inl (hlink a ha b hb hlt)⟩
        · exact Relation.ReflTransGen.refl
        · exact Relation.ReflTransGen.single ⟨hmem a ha, hmem b hb, Or.inr (hlink b hb a ha hlt)⟩
      · intro hl
        unfold Linked at hl
        induction hl with
        | refl => exact ha
        | @tail x y _ hxy ih =>
          obtain ⟨_, hy, hxy⟩ := hxy
          have hyf : y ∈ (ivals 0 rows).flatten := by rw [hfl]; exact List.mem_range.2 hy
          obtain ⟨h', hh', hyh'⟩ := List.mem_flatten.1 hyf
          obtain ⟨p, hp, rfl⟩ := List.getElem_of_mem hh
          obtain ⟨q, hq, rfl⟩ := List.getElem_of_mem hh'
          rcases Nat.lt_trichotomy p q with hlt | rfl | hlt
          · have h1 := List.pairwise_iff_getElem.1 hpw p q hp hq hlt
            have h2 := List.pairwise_iff_getElem.1 hsort.2 p q hp hq hlt
            rcases hxy with h3 | h3
            · exact absurd ((hR _ _).1 h3).2 (h1 x ih y hyh')
            · exact absurd ((hR _ _).1 h3).1 (by have := h2 x ih y hyh'; omega)
          · exact hyh'
          · have h1 := List.pairwise_iff_getElem.1 hpw q p hq hp hlt
            have h2 := List.pairwise_iff_getElem.1 hsort.2 q p hq hp hlt
            rcases hxy with h3 | h3
            · exact absurd ((hR _ _).1 h3).1 (by have := h2 y hyh' x ih; omega)
            · exact absurd ((hR _ _).1 h3).2 (h1 y hyh' x ih)
  -- a group in iteration order is its interval
  have hiter : ∀ g ∈ gs, ∀ h ∈ ivals 0 rows, g.Perm h → iter g = h := by
    intro g hg h hh hgh
    have nd : h.Nodup := (hsort.1 h hh).imp fun hab => by omega
    have h1 := hi g
    exact List.Perm.eq_of_pairwise (fun a b _ _ hab hba => by omega) (h1.2 (hgh.nodup_iff.2 nd)) (hsort.1 h hh) (h1.1.trans hgh)
  have hitem : ∀ h ∈ ivals 0 rows, ∀ r ∈ rows, h.map (fun i => (rows.flatten)[i]?) = r.map some → h.filterMap (fun i => (rows.flatten)[i]?) = r := by
    intro h _ r _ e
    have : h.filterMap (fun i => (rows.flatten)[i]?) = (h.map (fun i => (rows.flatten)[i]?)).filterMap id := by rw [List.filterMap_map]; rfl
    rw [this, e, List.filterMap_map]
    simp
  unfold Stream.groups Graph.group
  rw [e1]
  dsimp only
  rw [List.mem_map]
  constructor
  · rintro ⟨g0, hg0, rfl⟩
    obtain ⟨h, hh, hp⟩ := C21_unique _ _ gs _ e2 hcomp g0 hg0
    obtain ⟨r, hr, e⟩ := hel h hh
    rw [hiter g0 hg0 h hh hp, hitem h hh r hr e]
    exact hr
  · intro hr
    obtain ⟨h, hh, e⟩ := forall2_mem_right hit g hr
    obtain ⟨g0, hg0, hp⟩ := C21_unique _ _ _ gs hcomp e2 h hh
    refine ⟨g0, hg0, ?_⟩
    rw [hiter g0 hg0 h hh hp.symm, hitem h hh g hr e]

variable {σ : Type}

/-- **C107** (partial): for a text block whose lines are listed row by row, rows from top to bottom and lines from left to right, the block is in
flow layout exactly if the lines of each row belong together. -/
theorem C107_flow_partial (iter : List ℕ → List ℕ) (hi : SetOrder iter) (tol sep : ℚ) (ht0 : 0 < tol) (ht1 : tol ≤ 1) (rows : List (List (Lns.Ln σ)))
    (hrow : ∀ r ∈ rows, PrintedRow r) (hbelow : rows.Pairwise fun r r' => ∀ a ∈ r, ∀ b ∈ r', a.bbox.y1 ≤ b.bbox.y0) :
    Stream.isFlow iter tol sep rows.flatten = true ↔ ∀ r ∈ rows, BelongsTogether sep r := by
  have hprop : ∀ r ∈ rows, ∀ l ∈ r, Proper l.bbox := by
    intro r hr l hl
    obtain ⟨t, b, htb, hl'⟩ := (hrow r hr).level
    refine ⟨(hrow r hr).wide l hl, ?_⟩
    rw [(hl' l hl).1, (hl' l hl).2]; exact htb
  have hgr := groups_rows iter hi (fun a b : Lns.Ln σ => a.el.horizontallyAlign b.el tol true && !a.el.verticallyAlign b.el (19 / 20) true) rows
    (fun r hr => (hrow r hr).nonempty)
    (fun r hr => (hrow r hr).apart.imp_of_mem fun {a b} ha hb hab => by
      obtain ⟨t, bt, htb, hl'⟩ := (hrow r hr).level
      have qa := hprop r hr a ha
      have qb := hprop r hr b hb
      rw [Bool.and_eq_true, Bool.not_eq_true']
      constructor
      · unfold El.horizontallyAlign
        simp only [El.truthy, Lns.Ln.el, truthy_of_proper _ qa, truthy_of_proper _ qb, Bool.not_true, Bool.or_self, Bool.false_eq_true, if_false, if_true,
          overlapEnough_iff, El.ext, El.horizontal, (hrow r hr).horizontal a ha]
        simp only [(hl' a ha).1, (hl' a ha).2, (hl' b hb).1, (hl' b hb).2]
        simp
        nlinarith
      · rw [← Bool.not_eq_true]
        intro hal
        unfold El.verticallyAlign at hal
        simp only [El.truthy, Lns.Ln.el, truthy_of_proper _ qa, truthy_of_proper _ qb, Bool.not_true, Bool.or_self, Bool.false_eq_true, if_false, if_true,
          overlapEnough_iff, El.ext, El.horizontal, (hrow r hr).horizontal a ha] at hal
        simp at hal
        have w1 := (hrow r hr).wide a ha
        have w2 := (hrow r hr).wide b hb
        have q3 : min a.bbox.x1 b.bbox.x1 ≤ max a.bbox.x0 b.bbox.x0 := (min_le_left _ _).trans (hab.trans (le_max_right _ _))
        have q4 : 0 < min (a.bbox.x1 - a.bbox.x0) (b.bbox.x1 - b.bbox.x0) := lt_min (by linarith) (by linarith)
        linarith)
    (hbelow.imp_of_mem fun {r r'} hr hr' hrr a ha b hb => by
      have qa := hprop r hr a ha
      have qb := hprop r' hr' b hb
      rw [Bool.and_eq_false_iff]
      left
      rw [← Bool.not_eq_true]
      intro hal
      unfold El.horizontallyAlign at hal
      simp only [El.truthy, Lns.Ln.el, truthy_of_proper _ qa, truthy_of_proper _ qb, Bool.not_true, Bool.or_self, Bool.false_eq_true, if_false, if_true,
        overlapEnough_iff, El.ext, El.horizontal, (hrow r hr).horizontal a ha] at hal
      simp at hal
      have q1 := qa.2
      have q2 := qb.2
      have hab := hrr a ha b hb
      have q3 : min a.bbox.y1 b.bbox.y1 ≤ max a.bbox.y0 b.bbox.y0 := (min_le_left _ _).trans (hab.trans (le_max_right _ _))
      have q4 : 0 < min (a.bbox.y1 - a.bbox.y0) (b.bbox.y1 - b.bbox.y0) := lt_min (by linarith) (by linarith)
      have := mul_pos ht0 q4
      linarith)
  have hdir : Coll.textDirection (rows.flatten.map Lns.Ln.el) = .leftRight := by
    unfold Coll.textDirection
    have hall : ∀ e ∈ rows.flatten.map Lns.Ln.el, e.dir = .leftRight := by
      intro e he
      obtain ⟨l, hl, rfl⟩ := List.mem_map.1 he
      obtain ⟨r, hr, hlr⟩ := List.mem_flatten.1 hl
      exact (hrow r hr).horizontal l hlr
    generalize rows.flatten.map Lns.Ln.el = es at hall
    match es with
    | [] => rfl
    | e :: es =>
      dsimp only
      split_ifs
      · exact hall e List.mem_cons_self
      · rfl
  unfold Stream.isFlow
  rw [List.all_eq_true, hdir]
  simp only [hgr]
  refine forall₂_congr fun r hr => ?_
  have hR := hrow r hr
  match r, hR, hprop r hr with
  | [], _, _ => simp [BelongsTogether]
  | [_], _, _ => simp [BelongsTogether]
  | l :: m :: ls, hR, hP =>
    dsimp only
    obtain ⟨t, bt, htb, hl'⟩ := hR.level
    have hrowT : (l :: m :: ls).all (fun x => x.el.inSameRow l.el) = true := by
      rw [List.all_eq_true]
      intro x hx
      have hl0 : l ∈ l :: m :: ls := List.mem_cons_self
      unfold El.inSameRow
      simp only [El.truthy, Lns.Ln.el, truthy_of_proper _ (hP l hl0), El.ext, El.horizontal, hR.horizontal x hx, hR.horizontal l hl0, (hl' x hx).1, (hl' x hx).2,
        (hl' l hl0).1, (hl' l hl0).2]
      simp
      linarith
    rw [hrowT, Bool.and_true, Bool.and_eq_true]
    have hpid : (l :: m :: ls).all (fun x => Lns.sameParent x l) = true ↔ ∃ p, ∀ x ∈ l :: m :: ls, x.pid = some p := by
      rw [List.all_eq_true]
      unfold Lns.sameParent
      constructor
      · intro h
        have h0 := h l List.mem_cons_self
        cases hp : l.pid with
        | none => rw [hp] at h0; simp at h0
        | some p =>
          refine ⟨p, fun x hx => ?_⟩
          have hx' := h x hx
          cases hq : x.pid with
          | none => rw [hq] at hx'; simp at hx'
          | some q =>
            rw [hq] at hx'
            simp only [decide_eq_true_eq] at hx'
            rw [hx', hp]
      · rintro ⟨p, hp⟩ x hx
        rw [hp x hx, hp l List.mem_cons_self]
        simp
    have hgap : (((l :: m :: ls).zip (m :: ls)).all fun p => decide (|p.2.bbox.x0 - p.1.bbox.x1| < sep)) = true ↔
        (l :: m :: ls).IsChain fun a b => b.bbox.x0 - a.bbox.x1 < sep := by
      have hap := hR.apart
      clear hpid hrowT hl' hP hR hdir hgr hr
      generalize m :: ls = ms at hap
      induction ms generalizing l with
      | nil => simp
      | cons b ms ih =>
        rw [List.pairwise_cons] at hap
        rw [List.isChain_cons_cons, List.zip_cons_cons, List.all_cons, Bool.and_eq_true, decide_eq_true_eq]
        refine and_congr ?_ (ih b hap.2)
        have : 0 ≤ b.bbox.x0 - l.bbox.x1 := sub_nonneg.2 (hap.1 b List.mem_cons_self)
        show |b.bbox.x0 - l.bbox.x1| < sep ↔ _
        rw [abs_of_nonneg this]
    simp only [if_true]
    rw [hpid, hgap]
    simp [BelongsTogether]

/-- A line of the examples. -/
def flLine (x0 x1 y : ℚ) (p : ℕ) : Lns.Ln Unit := ⟨⟨x0, y, x1, y + 10⟩, .leftRight, some p, []⟩

/-- Non-vacuity: two rows, the first of two lines 3 points apart. -/
example : Stream.isFlow (fun l => l.insertionSort (· ≤ ·)) (1 / 10) 5 [flLine 10 50 100 1, flLine 53 90 100 1, flLine 10 90 112 1] = true := by
  have := (C107_flow_partial (σ := Unit) (fun l => l.insertionSort (· ≤ ·)) (fun l => ⟨List.perm_insertionSort _ l, fun hn => by
    have h1 : (l.insertionSort (· ≤ ·)).Pairwise (· ≤ ·) := List.pairwise_insertionSort _ l
    have h2 : (l.insertionSort (· ≤ ·)).Nodup := (List.perm_insertionSort _ l).nodup_iff.2 hn
    exact (h1.and h2).imp fun ⟨a, b⟩ => lt_of_le_of_ne a b⟩) (1 / 10) 5 (by norm_num) (by norm_num)
    [[flLine 10 50 100 1, flLine 53 90 100 1], [flLine 10 90 112 1]] (by
      intro r hr
      simp only [List.mem_cons, List.not_mem_nil, or_false] at hr
      rcases hr with rfl | rfl
      · refine ⟨by simp, by simp [flLine], ⟨100, 110, by norm_num, ?_⟩, ?_, ?_⟩ <;> simp [flLine] <;> norm_num
      · refine ⟨by simp, by simp [flLine], ⟨112, 122, by norm_num, ?_⟩, ?_, ?_⟩ <;> simp [flLine] <;> norm_num) (by simp [flLine]; norm_num)).2 (by
      intro r hr
      simp only [List.mem_cons, List.not_mem_nil, or_false] at hr
      rcases hr with rfl | rfl
      · intro _
        exact ⟨⟨1, by simp [flLine]⟩, by simp [flLine]; norm_num⟩
      · intro h; simp at h)
  simpa using this

/-- **C107** refuted in general: the answer depends on the order in which the lines of a row are listed. The two lines of the block touch (2 points
apart), but if the right one is listed first the distance is measured between the outer edges. -/
theorem C107_refuted_order : Stream.isFlow id (1 / 10) 5 [flLine 10 98 100 1, flLine 100 150 100 1] = true ∧
    Stream.isFlow id (1 / 10) 5 [flLine 100 150 100 1, flLine 10 98 100 1] = false := by decide +kernel

end Props
