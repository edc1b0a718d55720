import Verif.Props.LayoutOnce
/-! # Nested layouts: every character and image exactly once (C84) -/

namespace Props
open Py Geom Spec Assign Lay

section Tabs
variable {α : Type}

mutual
/-- Boxes of all tables, at every nesting. -/
def bTabs : Blk α → List Rect
  | .text _ _ => []
  | .table r cs => r :: cellsTabs cs
def cellsTabs : List (Rect × List (Blk α)) → List Rect
  | [] => []
  | (_, bs) :: cs => tabs bs ++ cellsTabs cs
def tabs : List (Blk α) → List Rect
  | [] => []
  | b :: bs => bTabs b ++ tabs bs
end

theorem ly_tabs_mem {bs : List (Blk α)} {t : Rect} : t ∈ tabs bs ↔ ∃ b ∈ bs, t ∈ bTabs b := by
  induction bs with
  | nil => simp [tabs]
  | cons b bs ih => simp [tabs, ih]

theorem ly_cellsTabs_mem {cs : List (Rect × List (Blk α))} {t : Rect} : t ∈ cellsTabs cs ↔ ∃ c ∈ cs, t ∈ tabs c.2 := by
  induction cs with
  | nil => simp [cellsTabs]
  | cons c cs ih => obtain ⟨r, bs⟩ := c; simp [cellsTabs, ih]

theorem ly_mk_tabs (id : ℕ) (ls : List (Ln α)) : bTabs (mkText id ls) = [] := by unfold mkText; rw [bTabs]

theorem ly_cell_tabs (id : ℕ) (cell : Rect) (b : Blk α) {t : Rect} (h : t ∈ tabs (assignCell id cell b)) : t ∈ bTabs b := by
  unfold assignCell at h
  split_ifs at h
  · obtain ⟨x, hx, hxt⟩ := ly_tabs_mem.1 h
    obtain ⟨hx, _⟩ := ly_real_mem.1 hx
    rw [List.mem_singleton] at hx; subst hx; exact hxt
  · simp [tabs] at h
  · cases b with
    | table _ _ => simp [tabs] at h
    | text _ _ =>
      dsimp only at h
      obtain ⟨x, hx, hxt⟩ := ly_tabs_mem.1 h
      obtain ⟨hx, _⟩ := ly_real_mem.1 hx
      rw [List.mem_singleton] at hx; subst hx
      rw [ly_mk_tabs] at hxt; simp at hxt

theorem ly_assignBlock_tabs (boxes : List Rect) (b : Blk α) (r : List (List (Blk α)) × List (Blk α)) (h : assignBlock boxes b = .ok r) :
    (∀ g ∈ r.1, ∀ x ∈ g, ∀ t ∈ bTabs x, t ∈ bTabs b) ∧ ∀ x ∈ r.2, ∀ t ∈ bTabs x, t ∈ bTabs b := by
  cases b with
  | table rr cs =>
    unfold assignBlock at h
    dsimp only at h
    cases hw : assignWhole rr boxes with
    | none =>
      rw [hw] at h
      simp only [Except.ok.injEq] at h
      subst h
      refine ⟨?_, by simp⟩
      intro g hg
      obtain ⟨_, _, rfl⟩ := List.mem_map.1 hg
      simp
    | some i =>
      rw [hw] at h
      simp only [Except.ok.injEq] at h
      subst h
      refine ⟨?_, by simp⟩
      intro g hg
      obtain ⟨j, hj, rfl⟩ := List.mem_mapIdx.1 hg
      split_ifs <;> simp
  | text rr ls =>
    unfold assignBlock at h
    dsimp only at h
    cases ha : assignText rr ls boxes ls with
    | error e => rw [ha] at h; cases h
    | ok p =>
      rw [ha] at h
      simp only [Except.ok.injEq] at h
      subst h
      refine ⟨?_, ?_⟩
      · intro g hg x hx t ht
        obtain ⟨k, hk', rfl⟩ := List.mem_iff_getElem.1 hg
        rw [List.getElem_zipWith] at hx
        split_ifs at hx
        · simp at hx
        · rw [List.mem_singleton] at hx; subst hx; exact ht
        · rw [List.mem_singleton] at hx; subst hx; rw [ly_mk_tabs] at ht; simp at ht
      · intro x hx t ht
        rw [List.mem_singleton] at hx; subst hx; rw [ly_mk_tabs] at ht; simp at ht

theorem ly_assignTables_tabs (nid : ℕ → ℕ → ℕ → ℕ) (ts : List Tab) (bs r : List (Blk α)) (ho : assignTables nid ts bs = .ok r) :
    ∀ t ∈ tabs r, t ∈ tabs bs ∨ ∃ u ∈ ts, t = u.box := by
  unfold assignTables at ho
  split_ifs at ho with h0
  · simp only [Except.ok.injEq] at ho; subst ho; exact fun t h => Or.inl h
  cases hm : bs.mapM (assignBlock (ts.map Tab.box)) with
  | error e => rw [hm] at ho; cases ho
  | ok rs =>
    rw [hm] at ho
    simp only [Except.ok.injEq] at ho
    subst ho
    have hrs : ∀ q ∈ rs, (∀ g ∈ q.1, ∀ x ∈ g, ∀ t ∈ bTabs x, t ∈ tabs bs) ∧ ∀ x ∈ q.2, ∀ t ∈ bTabs x, t ∈ tabs bs := by
      intro q hq
      obtain ⟨b, hb, hbq⟩ := ly_mapM_mem _ _ hm q hq
      obtain ⟨h1, h2⟩ := ly_assignBlock_tabs _ b q hbq
      exact ⟨fun g hg x hx t ht => ly_tabs_mem.2 ⟨b, hb, h1 g hg x hx t ht⟩, fun x hx t ht => ly_tabs_mem.2 ⟨b, hb, h2 x hx t ht⟩⟩
    intro t ht
    obtain ⟨x, hx, ht⟩ := ly_tabs_mem.1 ht
    have hx := (ly_sort_perm _).subset hx
    obtain ⟨hx, _⟩ := ly_real_mem.1 hx
    rcases List.mem_append.1 hx with hx | hx
    · obtain ⟨q, hq, hx⟩ := List.mem_flatMap.1 hx
      exact Or.inl ((hrs q hq).2 x hx t ht)
    · obtain ⟨u, hu, rfl⟩ := List.mem_map.1 hx
      have hum : u.1 ∈ ts := (List.mem_zipIdx' hu).2 ▸ List.getElem_mem _
      unfold fillTable at ht
      rw [bTabs, List.mem_cons] at ht
      rcases ht with rfl | ht
      · exact Or.inr ⟨u.1, hum, rfl⟩
      · left
        obtain ⟨c, hc, ht⟩ := ly_cellsTabs_mem.1 ht
        obtain ⟨c', _, rfl⟩ := List.mem_map.1 hc
        dsimp only at ht
        obtain ⟨y, hy, ht⟩ := ly_tabs_mem.1 ht
        replace hy := (ly_arrange_perm _ _).subset hy
        unfold cellLayout at hy
        obtain ⟨⟨b, i⟩, hb, hy⟩ := List.mem_flatMap.1 hy
        have hbm := (List.mem_zipIdx' hb).2 ▸ List.getElem_mem _
        have htb := ly_cell_tabs _ _ b (ly_tabs_mem.2 ⟨y, hy, ht⟩)
        obtain ⟨q, hq, hbq⟩ := List.mem_flatMap.1 hbm
        rw [List.getD_eq_getElem?_getD] at hbq
        cases hqt : q.1[u.2]? with
        | none => rw [hqt] at hbq; simp at hbq
        | some g =>
          rw [hqt] at hbq
          exact (hrs q hq).1 g (List.mem_of_getElem? hqt) b hbq t htb

theorem ly_splitBack_tabs (c : Cfg) (bs r : List (Blk α)) (ho : Lay.splitBack c bs = .ok r) : ∀ t ∈ tabs r, t ∈ tabs bs := by
  unfold Lay.splitBack at ho
  cases hs : Lns.splitBack c.iter ((bs.filter (flow c)).flatMap Blk.lines) with
  | error e => rw [hs] at ho; cases ho
  | ok gs =>
    rw [hs] at ho
    simp only [Except.ok.injEq] at ho
    subst ho
    intro t ht
    obtain ⟨x, hx, ht⟩ := ly_tabs_mem.1 ht
    have hx := (ly_sort_perm _).subset hx
    obtain ⟨hx, _⟩ := ly_real_mem.1 hx
    rcases List.mem_append.1 hx with hx | hx
    · exact ly_tabs_mem.2 ⟨x, List.mem_of_mem_filter hx, ht⟩
    · obtain ⟨g, _, rfl⟩ := List.mem_map.1 hx
      rw [ly_mk_tabs] at ht; simp at ht

/-- Real boxes everywhere. -/
def DeepFine (bs : List (Blk α)) : Prop := (∀ t ∈ texts bs, TextOK t) ∧ ∀ t ∈ tabs bs, Proper t

theorem ly_deep_fine {bs : List (Blk α)} (h : DeepFine bs) : ∀ b ∈ bs, BlkFine b := by
  intro b hb
  cases b with
  | text r ls => exact h.1 _ (ly_mem_texts.2 ⟨_, hb, by simp [Blk.texts]⟩)
  | table r cs => exact h.2 r (ly_tabs_mem.2 ⟨_, hb, by simp [bTabs]⟩)

theorem ly_sub_items {R : List (Blk α) → List (Blk α) → Prop} (hR : ∀ a b, R a b → (items b).Perm (items a)) {bs r : List (Blk α)}
    (h : List.Forall₂ (SubParsed R) bs r) : (items r).Perm (items bs) := by
  induction h with
  | nil => exact List.Perm.refl _
  | @cons a b la lb hab _ ih =>
    rw [ly_items, ly_items, List.flatMap_cons, List.flatMap_cons, ← ly_items, ← ly_items]
    refine List.Perm.append ?_ ih
    cases hab with
    | text b ls => exact List.Perm.refl _
    | table b cs cs' hcs =>
      rw [ly_bItems_table, ly_bItems_table]
      induction hcs with
      | nil => exact List.Perm.refl _
      | cons hab' _ ihc =>
        rw [List.flatMap_cons, List.flatMap_cons]
        exact (hR _ _ hab'.2).append ihc

variable {c : Cfg} {D : Detect α} {nid : Ids} {page : Rect} {input : List (Blk α)}

/-- The tables found in the run on the page fit. -/
def AllFit (c : Cfg) (D : Detect α) (nid : Ids) (page : Rect) (input : List (Blk α)) : Prop :=
  ∀ path box s ss bs ts, Reached c D nid page input path box (s :: ss) bs → D path box s bs = .ok ts → Fits ts bs

theorem ly_stages_once (hF : AllFit c D nid page input) (path : List ℕ) (box : Rect) (ss : List ℕ) (bs r : List (Blk α))
    (hre : Reached c D nid page input path box ss bs) (hok : DeepFine bs) (ho : stages D nid path box ss bs = .ok r) :
    (items r).Perm (items bs) ∧ DeepFine r ∧ Reached c D nid page input path box [] r := by
  induction ss generalizing bs with
  | nil => simp only [stages, Except.ok.injEq] at ho; subst ho; exact ⟨List.Perm.refl _, hok, hre⟩
  | cons s ss ih =>
    unfold stages at ho
    cases hd : D path box s bs with
    | error e => rw [hd] at ho; cases ho
    | ok ts =>
      rw [hd] at ho
      dsimp only at ho
      cases ha : assignTables (nid path s) ts bs with
      | error e => rw [ha] at ho; cases ho
      | ok bs' =>
        rw [ha] at ho
        dsimp only at ho
        have hfit := hF path box s ss bs ts hre hd
        have hdeep : DeepFine bs' := by
          refine ⟨ly_all_assignTables ly_textOK_closed _ ts bs hok.1 bs' ha, ?_⟩
          intro t ht
          rcases ly_assignTables_tabs _ ts bs bs' ha t ht with h | ⟨u, hu, rfl⟩
          · exact hok.2 t h
          · exact hfit.box u hu
        obtain ⟨h1, h2⟩ := ih bs' (hre.stage hd ha) hdeep ho
        exact ⟨h1.trans (ly_assignTables_items _ ts bs hfit (ly_deep_fine hok) bs' ha), h2⟩

theorem ly_parse_once (hi : ∀ l, (c.iter l).Perm l) (hF : AllFit c D nid page input) (depth : ℕ) (path : List ℕ) (box : Rect) (ss : List ℕ)
    (bs r : List (Blk α)) (hre : Reached c D nid page input path box ss bs) (hok : DeepFine bs) (ho : parse c D nid depth path box ss bs = .ok r) :
    (items r).Perm (items bs) := by
  induction depth generalizing path box ss bs r with
  | zero => cases ho
  | succ n ih =>
    unfold parse level at ho
    cases hst : stages D nid path box ss bs with
    | error e => rw [hst] at ho; cases ho
    | ok b1 =>
      rw [hst] at ho
      dsimp only at ho
      obtain ⟨p1, d1, r1⟩ := ly_stages_once hF path box ss bs b1 hre hok hst
      obtain ⟨b2, hb2, hq2⟩ := ly_all_splitBack c hi ly_textOK_closed b1 d1.1
      have d2 : DeepFine b2 := ⟨hq2, fun t ht => d1.2 t (ly_splitBack_tabs c b1 b2 hb2 t ht)⟩
      have p2 := ly_splitBack_items c hi b1 (ly_deep_fine d1) b2 hb2
      rw [hb2] at ho
      dsimp only at ho
      refine (ly_sub_items (R := fun a b => (items b).Perm (items a)) (fun _ _ h => h) ?_).trans (p2.trans p1)
      refine ly_parseTables _ _ b2 0 ?_ r ho
      intro k tb cs hk j cc hj bs' hsub
      have hmk := List.mem_of_getElem? hk
      have hmj := List.mem_of_getElem? hj
      refine ih _ _ _ _ _ ?_ ?_ hsub
      · have := r1.cell (i := 0 + k) (j := j) (r := tb) (cs := cs) (cb := cc.1) (sub := cc.2) hb2 (by rw [Nat.zero_add]; exact hk) hj
        exact this
      · refine ⟨fun t ht => d2.1 t (ly_mem_texts.2 ⟨_, hmk, ?_⟩), fun t ht => d2.2 t (ly_tabs_mem.2 ⟨_, hmk, ?_⟩)⟩
        · rw [Blk.texts, ly_cells_flatMap, List.mem_flatMap]; exact ⟨cc, hmj, ht⟩
        · rw [bTabs]; exact List.mem_cons_of_mem _ (ly_cellsTabs_mem.2 ⟨cc, hmj, ht⟩)

/-- **C84**: if at each stage and nesting the tables found fit the blocks they are found among, the parsed page holds exactly the characters and images
of the input, each exactly once. Partial: tables that do not fit lose or repeat content (`C84_refuted_lost`, `C84_refuted_twice`). -/
theorem C84_exactly_once_partial (c : Cfg) (hi : ∀ l, (c.iter l).Perm l) (D : Detect α) (nid : Ids) (depth : ℕ) (page : Rect) (bs r : List (Blk α))
    (htext : ∀ b ∈ bs, b.isText = true) (hok : ∀ t ∈ texts bs, TextOK t)
    (hfit : ∀ path box s ss bs' ts, Reached c D nid page bs path box (s :: ss) bs' → D path box s bs' = .ok ts → Fits ts bs')
    (ho : parsePage c D nid depth page bs = .ok r) : (items r).Perm (items bs) := by
  refine ly_parse_once hi hfit depth [] page [0, 1, 2] bs r .start ⟨hok, ?_⟩ ho
  intro t ht
  obtain ⟨b, hb, ht⟩ := ly_tabs_mem.1 ht
  cases b with
  | text _ _ => simp [bTabs] at ht
  | table _ _ => have := htext _ hb; simp [Blk.isText] at this

end Tabs

/-! ## Examples -/

section Examples

/-- A table found on the page by the stream stage, none elsewhere. -/
def oneTable {α : Type} (T : Tab) : Detect α := fun path _ s _ => .ok (if path = [] ∧ s = 2 then [T] else [])

def exCfg : Cfg := ⟨id, 1 / 10, 5⟩

def exIds : Ids := fun _ _ _ _ _ => 0

/-- A line of one span of characters. -/
def exLine {α : Type} (b : Rect) (cs : List (Rect × α)) : Ln α := ⟨b, .leftRight, some 7, [(b, .text b cs)]⟩

theorem ly_oneTable_reached {α : Type} (T : Tab) (page : Rect) (input : List (Blk α)) (path : List ℕ) (box : Rect) (ss : List ℕ) (bs : List (Blk α))
    (h : Reached exCfg (oneTable T) exIds page input path box ss bs) (hp : path = []) :
    (ss = [0, 1, 2] ∨ ss = [1, 2] ∨ ss = [2]) ∧ bs = input ∨ ss = [] := by
  induction h with
  | start => exact Or.inl ⟨Or.inl rfl, rfl⟩
  | @stage path box s ss bs ts bs' _ hd ha ih =>
    subst hp
    rcases ih rfl with ⟨h1, rfl⟩ | h1
    · have step : s ≠ 2 → bs' = bs := by
        intro hs
        simp only [oneTable, hs, and_false, if_false, Except.ok.injEq] at hd
        subst hd
        simpa [assignTables] using ha.symm
      rcases h1 with h1 | h1 | h1 <;> simp only [List.cons.injEq] at h1 <;> obtain ⟨rfl, rfl⟩ := h1
      · exact Or.inl ⟨by simp, step (by decide)⟩
      · exact Or.inl ⟨by simp, step (by decide)⟩
      · exact Or.inr rfl
    · cases h1
  | cell => simp at hp

theorem ly_oneTable_fits {α : Type} (T : Tab) (page : Rect) (input : List (Blk α)) (hf : Fits [T] input) :
    ∀ path box s ss bs ts, Reached exCfg (oneTable T) exIds page input path box (s :: ss) bs → oneTable T path box s bs = .ok ts → Fits ts bs := by
  intro path box s ss bs ts hr hd
  unfold oneTable at hd
  simp only [Except.ok.injEq] at hd
  subst hd
  split_ifs with h
  · rcases ly_oneTable_reached T page input path box _ bs hr h.1 with ⟨_, rfl⟩ | h'
    · exact hf
    · cases h'
  · constructor <;> simp

/-- A title above a table of two cells; the block in the table has a line in each cell. -/
def exPage : List (Blk ℕ) :=
  [.text ⟨10, 10, 90, 20⟩ [exLine ⟨10, 10, 90, 20⟩ [(⟨10, 10, 50, 20⟩, 1), (⟨50, 10, 90, 20⟩, 2)]],
   .text ⟨10, 30, 90, 40⟩ [exLine ⟨10, 30, 40, 40⟩ [(⟨10, 30, 40, 40⟩, 3)], exLine ⟨60, 30, 90, 40⟩ [(⟨60, 30, 90, 40⟩, 4)]]]

def exTable : Tab := ⟨⟨0, 25, 100, 45⟩, [⟨0, 25, 50, 45⟩, ⟨50, 25, 100, 45⟩], false⟩

theorem ly_ex_real {r : Rect} (h : r.x0 < r.x1 ∧ r.y0 < r.y1 ∧ Rect.round r = r) : RealBox r :=
  ⟨⟨h.1, h.2.1⟩, h.2.2 ▸ st_round_is_tenths r⟩

theorem ly_ex_line {α : Type} {b : Rect} {cs : List (Rect × α)} (h : b.x0 < b.x1 ∧ b.y0 < b.y1 ∧ Rect.round b = b)
    (hc : ∀ c ∈ cs, (c.1.x0 < c.1.x1 ∧ c.1.y0 < c.1.y1 ∧ Rect.round c.1 = c.1) ∧ Covers b c.1) : LineOK (exLine b cs) := by
  refine ⟨ly_ex_real h, ?_⟩
  intro s hs
  simp only [exLine, List.mem_singleton] at hs
  subst hs
  exact ⟨rfl, ⟨ly_ex_real h, fun c hcm => ⟨ly_ex_real (hc c hcm).1, (hc c hcm).2⟩⟩, ⟨le_refl _, le_refl _, le_refl _, le_refl _⟩⟩

theorem ly_ex_ok : ∀ t ∈ texts exPage, TextOK t := by
  intro t ht
  simp only [exPage, texts, Blk.texts, List.cons_append, List.nil_append, List.mem_cons, List.not_mem_nil, or_false] at ht
  rcases ht with rfl | rfl
  · refine ⟨ly_ex_real (by decide +kernel), ?_⟩
    intro l hl
    simp only [List.mem_singleton] at hl
    subst hl
    exact ⟨ly_ex_line (by decide +kernel) (by decide +kernel), by decide +kernel⟩
  · refine ⟨ly_ex_real (by decide +kernel), ?_⟩
    intro l hl
    simp only [List.mem_cons, List.not_mem_nil, or_false] at hl
    rcases hl with rfl | rfl
    · exact ⟨ly_ex_line (by decide +kernel) (by decide +kernel), by decide +kernel⟩
    · exact ⟨ly_ex_line (by decide +kernel) (by decide +kernel), by decide +kernel⟩

theorem ly_ex_fits : Fits [exTable] exPage := by
  constructor
  · decide +kernel
  · decide +kernel
  · exact List.pairwise_singleton _ _
  · intro t ht
    simp only [List.mem_singleton] at ht
    subst ht
    refine List.pairwise_pair.2 ?_
    unfold Apart
    decide +kernel
  · intro r ls h t ht
    simp only [List.mem_singleton] at ht
    subst ht
    simp only [exPage, List.mem_cons, Blk.text.injEq, List.not_mem_nil, or_false] at h
    rcases h with ⟨rfl, rfl⟩ | ⟨rfl, rfl⟩ <;> decide +kernel
  · intro r ls h t ht
    simp only [List.mem_singleton] at ht
    subst ht
    unfold Mostly
    simp only [exPage, List.mem_cons, Blk.text.injEq, List.not_mem_nil, or_false] at h
    rcases h with ⟨rfl, rfl⟩ | ⟨rfl, rfl⟩ <;> decide +kernel
  · intro r cs h
    simp [exPage] at h

/-- Whether the run on the page succeeds with the given items, a table among the blocks. -/
def exRun (T : Tab) (bs : List (Blk ℕ)) (res : List ℕ) : Bool :=
  match parsePage exCfg (oneTable T) exIds 3 ⟨0, 0, 100, 100⟩ bs with
  | .ok r => decide (items r = res) && r.any fun b => !b.isText
  | .error _ => false

/-- The hypotheses of `C84_exactly_once_partial` and of C83 are met by a page with a title and a table of two cells. -/
example : (∀ l, (exCfg.iter l).Perm l) ∧ (∀ b ∈ exPage, b.isText = true) ∧ (∀ t ∈ texts exPage, TextOK t) ∧
    (∀ path box s ss bs ts, Reached exCfg (oneTable exTable) exIds ⟨0, 0, 100, 100⟩ exPage path box (s :: ss) bs →
      oneTable exTable path box s bs = .ok ts → Fits ts bs) ∧ exRun exTable exPage [1, 2, 3, 4] = true :=
  ⟨fun _ => List.Perm.refl _, by decide, ly_ex_ok, ly_oneTable_fits _ _ _ ly_ex_fits, by decide +kernel⟩

/-- C84 (refuted for tables that do not fit): a character over the corner of four cells is lost. -/
theorem C84_refuted_lost : exRun ⟨⟨0, 0, 100, 100⟩, [⟨0, 0, 50, 50⟩, ⟨50, 0, 100, 50⟩, ⟨0, 50, 50, 100⟩, ⟨50, 50, 100, 100⟩], false⟩
    [.text ⟨40, 40, 60, 60⟩ [exLine ⟨40, 40, 60, 60⟩ [(⟨40, 40, 60, 60⟩, 1)]]] [] = true := by
  decide +kernel

/-- C84 (refuted for tables that do not fit): a character half in one and half in the next cell is in the document twice. -/
theorem C84_refuted_twice : exRun ⟨⟨0, 0, 100, 20⟩, [⟨0, 0, 50, 20⟩, ⟨50, 0, 100, 20⟩], false⟩
    [.text ⟨20, 5, 80, 15⟩ [exLine ⟨20, 5, 80, 15⟩ [(⟨20, 5, 40, 15⟩, 1), (⟨40, 5, 60, 15⟩, 2), (⟨60, 5, 80, 15⟩, 3)]]] [1, 2, 2, 3] = true := by
  decide +kernel

end Examples
end Props
