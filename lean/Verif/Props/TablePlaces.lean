import Verif.Props.TableText
import Verif.Props.WholeTable
import Verif.Props.FullColours
/-! # C127: where the text and the table of a page are in the document -/

namespace Props
open Geom Py Pipe Spec

section Places127
open Spacing (VB)

theorem tq_split {α β : Type} {R : α → β → Prop} (as bs : List α) (ms : List β) (h : List.Forall₂ R (as ++ bs) ms) :
    ∃ m₁ m₂, ms = m₁ ++ m₂ ∧ List.Forall₂ R as m₁ ∧ List.Forall₂ R bs m₂ := by
  induction as generalizing ms with
  | nil => exact ⟨[], ms, rfl, .nil, h⟩
  | cons a as ih =>
    rw [List.cons_append] at h
    obtain ⟨m, ms', h1, h2, rfl⟩ := List.forall₂_cons_left_iff.1 h
    obtain ⟨m₁, m₂, rfl, h3, h4⟩ := ih _ h2
    exact ⟨m :: m₁, m₂, rfl, .cons h1 h3, h4⟩

/-- The measures of text blocks. -/
theorem tq_measured (c : Pose.Cfg) (box : Rect) (ts : List TextTriple) (hl : ∀ t ∈ ts, Laid t) (ms : List (VB × Option Pose.Form))
    (h : List.Forall₂ (fun b m => Pose.measure c box b = .ok m) (ts.map fun t => .text t.1 t.2.1 t.2.2) ms) :
    (ms.map Prod.fst).map (fun v => v.bbox.y1 + halfBorder v) = (ts.map fun t => bottomOf t.2.1) ∧
      (ms.map Prod.fst).map blkTol = (ts.map fun t => (t.2.1.length + 2 : ℚ) / 20) ∧ tableHeights (ms.map Prod.fst) = [] := by
  rw [List.forall₂_map_left_iff] at h
  induction h with
  | nil => exact ⟨rfl, rfl, rfl⟩
  | @cons t m ts ms hm _ ih =>
    obtain ⟨i1, i2, i3⟩ := ih fun t h => hl t (by simp [h])
    have ht := hl t (by simp)
    obtain ⟨k1, k2, k3, -⟩ := ps_measure c box ht m hm
    have hr := ps_rows ht m.1 k3
    obtain ⟨l, l1, l2⟩ := ps_last ht
    have hh : halfBorder m.1 = 0 := by unfold halfBorder; rw [k1]
    refine ⟨?_, ?_, ?_⟩
    · rw [List.map_cons, List.map_cons, List.map_cons, i1]
      congr 1
      unfold bottomOf
      rw [hh, k2, l1, add_zero, Option.map_some, Option.getD_some, l2]
    · rw [List.map_cons, List.map_cons, List.map_cons, i2]
      congr 1
      unfold blkTol drift
      rw [k1, hr]
      simp
    · unfold tableHeights at i3 ⊢
      rw [List.map_cons, List.filter_cons_of_neg (by rw [k1]; simp)]
      exact i3

/-- Text and a table are set as a flow. -/
theorem tq_stacked (c : Pose.Cfg) (box : Rect) (ts : List TextTriple) (hl : ∀ t ∈ ts, Laid t) (ms : List (VB × Option Pose.Form))
    (h : List.Forall₂ (fun b m => Pose.measure c box b = .ok m) (ts.map fun t => .text t.1 t.2.1 t.2.2) ms) (T : VB) (hT : T.kind = .table) (hend : Spacing.hi true T.bbox ≤ Spacing.hi true box)
    (hts : ∀ t ∈ ts, t.1.y1 ≤ Spacing.lo true T.bbox - halfBorder T) (vs : List VB) (tail : Stacked true box (Spacing.hi true T.bbox + halfBorder T) (some .table) vs)
    (ref : ℚ) (prev : Option Spacing.Kind) (hp : prev ≠ some .table) (href : prev ≠ none → ref ≤ Spacing.lo true T.bbox - halfBorder T)
    (hno : prev = none → ts = [] → Spacing.lo true T.bbox - halfBorder T = ref ∨ ref + 7 / 10 ≤ Spacing.lo true T.bbox - halfBorder T) :
    Stacked true box ref prev (ms.map Prod.fst ++ T :: vs) := by
  rw [List.forall₂_map_left_iff] at h
  induction h generalizing ref prev with
  | nil =>
    rw [List.map_nil, List.nil_append]
    unfold Stacked
    refine ⟨?_, by rw [hT]; exact tail⟩
    rw [hT]
    dsimp only
    refine ⟨hend, ?_⟩
    cases prev with
    | none => exact hno rfl rfl
    | some k =>
      cases k with
      | table => exact absurd rfl hp
      | text => exact href (by simp)
      | image => exact href (by simp)
  | @cons t m ts ms hm _ ih =>
    have ht := hl t (by simp)
    have h1 := (ps_stacked c box [t] (by simpa using ht) [m] (.cons hm .nil) ref prev).1
    obtain ⟨k1, k2, -⟩ := ps_measure c box ht m hm
    rw [List.map_cons, List.cons_append]
    unfold Stacked
    rw [List.map_cons] at h1
    unfold Stacked at h1
    refine ⟨h1.1, ?_⟩
    have hh : halfBorder m.1 = 0 := by unfold halfBorder; rw [k1]
    have hhi : Spacing.hi true m.1.bbox + halfBorder m.1 = t.1.y1 := by rw [hh, k2, add_zero]; rfl
    rw [hhi, k1]
    exact ih (fun t h => hl t (by simp [h])) (fun t h => hts t (by simp [h])) _ _ (by simp) (fun _ => hts t (by simp)) (by simp)

/-- The paragraphs written for text blocks. -/
theorem tq_shown (ts : List TextTriple) (rest : List Deco.Blk) (vs : List VB) (xs : List Pose.Blk) (hlen : ts.length + rest.length = vs.length)
    (h : List.Forall₂ Flown ((ts.map (fun t => Deco.Blk.text t.1 t.2.1 t.2.2) ++ rest).zip vs) xs) :
    ∃ (qs : List Pose.Par) (ys : List Pose.Blk), Pose.blocks xs = qs.map Docx.Block.text ++ Pose.blocks ys ∧ List.Forall₂ ShowsRows qs (ts.map fun t => t.2.1) ∧
      List.Forall₂ Flown (rest.zip (vs.drop ts.length)) ys := by
  induction ts generalizing vs xs with
  | nil => exact ⟨[], xs, rfl, .nil, h⟩
  | cons t ts ih =>
    cases vs with
    | nil => simp at hlen
    | cons v vs =>
      rw [List.map_cons, List.cons_append, List.zip_cons_cons] at h
      obtain ⟨x, xs', h1, h2, rfl⟩ := List.forall₂_cons_left_iff.1 h
      obtain ⟨qs, ys, e1, e2, e3⟩ := ih vs xs' (by simp only [List.length_cons] at hlen; omega) h2
      obtain ⟨s, hx⟩ := h1
      cases x with
      | table _ _ _ _ _ => exact absurd hx (by simp [Flows])
      | text q =>
        obtain ⟨-, -, -, h4, -⟩ := hx
        refine ⟨q :: qs, ys, ?_, .cons h4 e2, e3⟩
        simp only [Pose.blocks, Pose.block, e1, List.map_cons, List.cons_append]

theorem tq_plain_cells (cs : List (Full.Cell × List Deco.Blk)) : Deco.plainCells cs = cs.map fun x => (x.1, Deco.plain x.2) := by
  induction cs with
  | nil => rfl
  | cons x cs ih =>
    obtain ⟨c, bs⟩ := x
    simp only [Deco.plainCells, ih, List.map_cons]

theorem tq_each_of {P : List (Lay.Ln Tok) → Styl.TBlock → Prop} (cs : List (Full.Cell × List Deco.Blk)) (h : EachTextOf P cs) : ∀ x ∈ cs, EachTextIn P x.2 := by
  induction cs with
  | nil => intro x hx; cases hx
  | cons y cs ih =>
    obtain ⟨c, bs⟩ := y
    simp only [EachTextOf] at h
    intro x hx
    rcases List.mem_cons.1 hx with rfl | hx
    · exact h.1
    · exact ih h.2 x hx

theorem tq_same_of (cs : List (Full.Cell × List Deco.Blk)) (h : cellsSame cs) : ∀ x ∈ cs, blksSame x.2 := by
  induction cs with
  | nil => intro x hx; cases hx
  | cons y cs ih =>
    obtain ⟨c, bs⟩ := y
    simp only [cellsSame] at h
    intro x hx
    rcases List.mem_cons.1 hx with rfl | hx
    · exact h.1
    · exact ih h.2 x hx

/-- A cell of a grid: text blocks with the lines within it; the area inside its borders (those in the first column may have no left one). -/
structure CellLaid (X Y : ℕ → ℚ) (W : ℚ) (i j : ℕ) (L : List (Lay.Ln Tok)) (x : Full.Cell × List Deco.Blk) (ts : List TextTriple) (a : ℚ) : Prop where
  texts : x.2 = ts.map fun t => .text t.1 t.2.1 t.2.2
  laid : ∀ t ∈ ts, Laid t
  lines : (ts.flatMap fun t => t.2.1).Perm (L.filter fun l => Covers (gridCell X Y i j) l.bbox)
  order : (ts.flatMap fun t => t.2.1).Pairwise fun l m => Above l.bbox m.bbox
  working : x.1.info.working = ⟨a, Y i + W / 2, X (j + 1) - W / 2, Y (i + 1) - W / 2⟩
  left : a = X j + W / 2 ∨ j = 0 ∧ a = X j
  box : x.1.info.box = gridCell X Y i j
  borders : x.1.info.top = W ∧ x.1.info.right = W ∧ x.1.info.bottom = W ∧ (x.1.info.left = W ∨ j = 0 ∧ x.1.info.left = 0)

variable {X Y : ℕ → ℚ} {r k : ℕ} {W gap : ℚ}

/-- The layout of a page with a grid: text, the table, text. -/
theorem tq_deco (c : Whole.Cfg) (hc : Sane c) (hg : Grid X Y r k W gap) (hw : WideFor c.full W gap) (h5 : 5 ≤ gap) {π : Type} (p : Deco.Page π) (depth : ℕ) (hp : GridPage c X Y r k W p.whole)
    (js : List Raw) (hjs : cleanUp c.pipe p.box p.raw = .ok (js, [])) (d)
    (hd : Deco.layout c.full p.uri p.ids (depth + 2) p.work p.shapes (js.map fun b => .text b.bbox b.lines) = .ok d) :
    ∃ (ts₁ ts₂ : List TextTriple) (cells : List (Full.Cell × List Deco.Blk)),
      d.1 = ts₁.map (fun t => .text t.1 t.2.1 t.2.2) ++ .table (gridBox X Y r k) (fullGrid r k) cells :: ts₂.map (fun t => .text t.1 t.2.1 t.2.2) ∧
      (∀ t ∈ ts₁ ++ ts₂, Laid t) ∧ Pose.firstTop (fullGrid r k) cells = .ok W ∧ (∀ t ∈ ts₁, t.1.y1 < Y 0 - W / 2) ∧
      (ts₁.flatMap fun t => t.2.1).Perm ((js.flatMap Lns.Blk.lines).filter fun l => l.bbox.y1 < Y 0) ∧ (ts₁.flatMap fun t => t.2.1).Pairwise (fun l m => Above l.bbox m.bbox) ∧
      (ts₂.flatMap fun t => t.2.1).Perm ((js.flatMap Lns.Blk.lines).filter fun l => Y r < l.bbox.y0) ∧ (ts₂.flatMap fun t => t.2.1).Pairwise (fun l m => Above l.bbox m.bbox) ∧
      cells.length = r * k ∧ ∀ i < r, ∀ j < k, ∃ x ts a, cells[i * k + j]? = some x ∧ CellLaid X Y W i j (js.flatMap Lns.Blk.lines) x ts a ∧
        Coloured (innerCell X Y W i j) p.shapes ((js.flatMap Lns.Blk.lines).map fun l => l.bbox) x.1.info.bg := by
  have h0 : 0 ≤ gap := by linarith
  obtain ⟨js', j1, j2, j3, j4, j5⟩ := wt_page c hc.blank hc.order hc.overlap hc.merging hg h0 p.whole hp
  obtain ⟨rfl, -⟩ := Prod.mk.inj (Except.ok.inj (hjs.symm.trans j1))
  obtain ⟨others, hdr⟩ := hp.drawn
  have hdr' := wt_drawn c hc.blank hg h0 p.whole hp js j2 others hdr
  obtain ⟨A, cells, D, ty, e1, e2, e3, e4, e5, f, ty0, ty1, sub, others', g1, g2, g3, rfl, g5, g6⟩ := fy_grid_core c.full hc.order hc.tol hc.conn hc.clear hc.border (Deco.format p.uri) p.ids depth
    p.work hg hw.conn hw.border hw.clear hw.width others p.shapes _ hdr' j3 j4
  have hfl : (js.map fun b => Full.Blk.text b.bbox b.lines).flatMap Full.Blk.lines = js.flatMap Lns.Blk.lines := by
    rw [List.flatMap_map]
    rfl
  rw [hfl] at e3 e4
  have href := sy_refines c.full p.uri p.ids (depth + 2) [] p.work [0, 1, 2]
    ⟨Full.sortBlocks (js.map fun b => .text b.bbox b.lines), Full.mkSub (Full.sortBlocks (js.map fun b => .text b.bbox b.lines)) p.shapes, ⟨[], []⟩⟩
  unfold Deco.layout at hd
  rw [hd] at href
  have hplain : Deco.plain d.1 = A ++ .table (gridBox X Y r k) (fullGrid r k) cells :: D := by
    have := (Except.ok.inj (href.trans e1 : (Except.ok (Deco.plain d.1, d.2) : Except Err _) = .ok _))
    exact (Prod.mk.inj this).1
  have hS : ∀ s ∈ p.shapes, Tenths s.bbox := fun s hs => (hdr.real s hs).2
  have hb : ∀ b ∈ Full.sortBlocks (js.map fun b => Full.Blk.text b.bbox b.lines), EachCell (CellDrawn p.shapes) b := by
    intro b hb
    obtain ⟨x, -, rfl⟩ := List.mem_map.1 ((ft_sort_perm _).subset hb)
    exact cs_text _ _ _
  have hbox := tq_each _ (tq_parse p.shapes hS c.full hc.order p.uri p.ids (depth + 2) [] p.work [0, 1, 2] _ hb (cs_mkSub p.shapes _ _ fun s hs => hs) d hd)
  have hsame := tq_same _ (sx_parse c.full p.uri p.ids (depth + 2) [] p.work [0, 1, 2] _ d hd)
  obtain ⟨as, ds', hd1, ha, hrest⟩ := tq_plain_append d.1 _ _ hplain
  cases ds' with
  | nil => cases hrest
  | cons tb ds =>
    simp only [Deco.plain] at hrest
    obtain ⟨htb, hD⟩ := List.cons.inj hrest
    cases tb with
    | text _ _ _ => cases htb
    | table b g cs =>
      simp only [Deco.Blk.plain, Full.Blk.table.injEq] at htb
      obtain ⟨rfl, rfl, hcs⟩ := htb
      obtain ⟨ts₁, k1, k2⟩ := tq_plain_texts as A ha e3.1
      obtain ⟨ts₂, m1, m2⟩ := tq_plain_texts ds D hD e4.1
      have hlaid : ∀ t : TextTriple, Deco.Blk.text t.1 t.2.1 t.2.2 ∈ d.1 → Full.Blk.text t.1 t.2.1 ∈ A ++ D → Laid t := by
        intro t h1 h2
        obtain ⟨q1, q2⟩ := e2.1 _ h2
        have hok : ∀ l ∈ t.2.1, LineOK l := fun l hl => (q1.boxes.2 l hl).1
        have b1 := hbox _ h1
        have b2 := hsame _ h1
        simp only [EachText] at b1
        simp only [blkSame] at b2
        exact ⟨q1.toLineText, q2, b1 hok, b2 hok⟩
      have fl : ∀ ts : List TextTriple, (ts.map fun t => Full.Blk.text t.1 t.2.1).flatMap Full.Blk.lines = ts.flatMap fun t => t.2.1 := by
        intro ts
        rw [List.flatMap_map]
        rfl
      have hl1 : ∀ t ∈ ts₁, Laid t := fun t ht => hlaid t (by rw [hd1, k1]; exact List.mem_append_left _ (List.mem_map_of_mem ht)) (by rw [k2]; exact List.mem_append_left _ (List.mem_map_of_mem ht))
      have hl2 : ∀ t ∈ ts₂, Laid t := fun t ht => hlaid t (by rw [hd1, m1]; exact List.mem_append_right _ (List.mem_cons_of_mem _ (List.mem_map_of_mem ht)))
        (by rw [m2]; exact List.mem_append_right _ (List.mem_map_of_mem ht))
      unfold ShowsDown at e3 e4
      rw [k2, fl] at e3
      rw [m2, fl] at e4
      refine ⟨ts₁, ts₂, cs, by rw [hd1, k1, m1], ?_, ?_, ?_, e3.2.1, e3.2.2, e4.2.1, e4.2.2, ?_, ?_⟩
      · intro t ht
        rcases List.mem_append.1 ht with ht | ht
        · exact hl1 t ht
        · exact hl2 t ht
      · -- the first cell
        have hinfo : (cells.map fun x => x.1.info) = f.cells := g6
        obtain ⟨r', hr'⟩ := Nat.exists_eq_add_of_le hg.rows
        obtain ⟨k', hk'⟩ := Nat.exists_eq_add_of_le hg.cols
        have hfull : fullGrid r k = (true :: List.replicate k' true) :: List.replicate r' (List.replicate k true) := by
          unfold fullGrid
          rw [hr', hk', Nat.add_comm 1 r', Nat.add_comm 1 k', List.replicate_succ, List.replicate_succ]
        rw [hfull]
        have hbox2 : (cells.map fun x => x.1.info.box) = gridCells X Y r k := e5.1
        cases cs with
        | nil =>
          exfalso
          rw [← hcs] at hbox2
          have hne : gridCell X Y 0 0 ∈ gridCells X Y r k := by
            unfold gridCells
            exact List.mem_flatMap.2 ⟨0, List.mem_range.2 hg.rows, List.mem_map.2 ⟨0, List.mem_range.2 hg.cols, rfl⟩⟩
          rw [← hbox2] at hne
          simp [Deco.plainCells] at hne
        | cons x cs =>
          obtain ⟨c0, bs0⟩ := x
          simp only [Deco.plainCells] at hcs
          have hm : c0.info ∈ f.cells := by
            rw [← hinfo, ← hcs]
            simp
          have key := (fb_lattice c.full hc.order hc.conn hc.clear (by linarith [hc.border]) hg hw.conn hw.border hw.clear h5 _ others' g2 g3 ty0 f ty1 g1 g5 c0.info hm).1
          obtain ⟨_, _, _, _, _, htop, _⟩ := key
          show Except.ok c0.info.top = Except.ok W
          rw [htop]
      · intro t ht
        obtain ⟨l, l1, l2⟩ := ps_last (hl1 t ht)
        rw [← l2]
        have hl : l ∈ ts₁.flatMap fun t => t.2.1 := List.mem_flatMap.2 ⟨t, ht, List.mem_of_getLast? l1⟩
        obtain ⟨h1, h2⟩ := List.mem_filter.1 (e3.2.1.subset hl)
        rw [decide_eq_true_eq] at h2
        obtain ⟨B, hB, hlB⟩ := List.mem_flatMap.1 h1
        have hBm : Full.Blk.text B.bbox B.lines ∈ js.map fun b => Full.Blk.text b.bbox b.lines := List.mem_map_of_mem hB
        have hcov : Covers B.bbox l.bbox := ((j3.text _ hBm).boxes.2 l hlB).2
        have hyy := rg_leY hg h0 0 r (by omega) (le_refl _)
        have hpr := (hl1 t ht).line.boxes.2 l (List.mem_of_getLast? l1)
        have hpos := hpr.1.1.1.2
        rcases j3.place _ hBm with h | h | h
        · have := hcov.2.2.2
          dsimp only [Full.Blk.bbox] at h
          linarith
        · have := hcov.2.1
          dsimp only [Full.Blk.bbox] at h
          have := hg.width
          linarith
        · have := hcov.2.1
          have := h.2.1
          dsimp only [Full.Blk.bbox, gridBox] at this
          linarith
      · have := congrArg List.length e5.1
        rw [wh_gridCells_length, ← hcs, tq_plain_cells, List.length_map, List.length_map] at this
        exact this
      · intro i hi j hj
        have hlen : cs.length = r * k := by
          have := congrArg List.length e5.1
          rw [wh_gridCells_length, ← hcs, tq_plain_cells, List.length_map, List.length_map] at this
          exact this
        have hlt : i * k + j < cs.length := by
          rw [hlen]
          calc i * k + j < i * k + k := by omega
            _ = (i + 1) * k := by ring
            _ ≤ r * k := Nat.mul_le_mul_right k hi
        obtain ⟨x, hx⟩ : ∃ x, cs[i * k + j]? = some x := ⟨_, List.getElem?_eq_getElem hlt⟩
        have hxm := List.mem_of_getElem? hx
        have hxc : (x.1, Deco.plain x.2) ∈ cells := by
          rw [← hcs, tq_plain_cells]
          exact List.mem_map.2 ⟨x, hxm, rfl⟩
        have hbx : x.1.info.box = gridCell X Y i j := by
          have := congrArg (fun l => l[i * k + j]?) e5.1
          rw [← hcs, tq_plain_cells, List.map_map] at this
          rw [wh_gridCells X Y r k i j hi hj, List.getElem?_map, hx] at this
          exact Option.some.inj this
        have hsh := e5.2 _ hxc
        have hpl := e2.2 _ hxc
        rw [show ((x.1, Deco.plain x.2) : Full.Cell × List (Full.Blk Tok)).1 = x.1 from rfl, hbx, hfl] at hsh
        obtain ⟨ts, t1, t2⟩ := tq_plain_texts x.2 _ rfl hsh.1
        have hflt : (Deco.plain x.2).flatMap Full.Blk.lines = ts.flatMap fun t => t.2.1 := by rw [t2, fl]
        have hcellbox := tq_each_of cs (by have := hbox (.table (gridBox X Y r k) (fullGrid r k) cs) (by rw [hd1]; simp); simpa only [EachText] using this) x hxm
        have hcellsame := tq_same_of cs (by have := hsame (.table (gridBox X Y r k) (fullGrid r k) cs) (by rw [hd1]; simp); simpa only [blkSame] using this) x hxm
        have hinf : x.1.info ∈ f.cells := by
          have hinfo : (cells.map fun x => x.1.info) = f.cells := g6
          rw [← hinfo]
          exact List.mem_map.2 ⟨_, hxc, rfl⟩
        obtain ⟨i', hi', j', hj', hb', k1', k2', k3', k4', k5'⟩ := (fb_lattice c.full hc.order hc.conn hc.clear (by linarith [hc.border]) hg hw.conn hw.border hw.clear h5 _ others' g2 g3 ty0 f ty1 g1 g5 x.1.info hinf).1
        have hlaidc : ∀ t ∈ ts, Laid t := by
          intro t ht
          have hm1 : Deco.Blk.text t.1 t.2.1 t.2.2 ∈ x.2 := by rw [t1]; exact List.mem_map_of_mem ht
          have hm2 : Full.Blk.text t.1 t.2.1 ∈ Deco.plain x.2 := by rw [t2]; exact List.mem_map_of_mem ht
          obtain ⟨q1, q2⟩ := hpl _ hm2
          have hok : ∀ l ∈ t.2.1, LineOK l := fun l hl => (q1.boxes.2 l hl).1
          have b1 := tq_each _ hcellbox _ hm1
          have b2 := tq_same _ hcellsame _ hm1
          simp only [EachText] at b1
          simp only [blkSame] at b2
          exact ⟨q1.toLineText, q2, b1 hok, b2 hok⟩
        have hleft : x.1.info.left = W ∨ j = 0 ∧ x.1.info.left = 0 := by
          by_cases hj0 : j = 0
          · rcases k5' with h | h
            · exact .inl h
            · exact .inr ⟨hj0, h⟩
          · left
            refine k4' ?_
            rintro rfl
            rw [hbx] at hb'
            have hx0 : X j = X 0 := congrArg Rect.x0 hb'
            have := rg_gap hg h0 0 j (by omega) (by omega)
            linarith
        have hcol := fq_colours c.full hc.order hc.conn hc.clear hc.border hg hw.conn hw.border hw.clear h5 others p.shapes _ hdr' j3 f ty0 ty1 others' g1 g2 g3 g5 x.1.info hinf i hi j hj hbx
        unfold lineRects at hcol
        rw [hfl] at hcol
        refine ⟨x, ts, x.1.info.box.x0 + x.1.info.left / 2, hx, ⟨t1, hlaidc, ?_, ?_, ?_, ?_, hbx, k1', k2', k3', hleft⟩, hcol⟩
        · rw [← hflt]; exact hsh.2.1
        · rw [← hflt]; exact hsh.2.2
        · unfold Full.CellInfo.working
          rw [k1', k2', k3', hbx]
          rfl
        · rw [hbx]
          rcases hleft with h | ⟨h, h'⟩
          · left; rw [h]; rfl
          · right; rw [h']; exact ⟨h, by show X j + 0 / 2 = X j; ring⟩

theorem tq_grid_lines (c : Pose.Cfg) (f : Fmt) (p : Pose.Page) : linesOn c.whole.ws (withFormats c f p) = ((pageBlocks c.whole.ws (withFormats c f p).whole).flatMap Lns.Blk.lines).map fun l => (stripLine c.whole.ws l).1 := by
  unfold linesOn bareLines
  rw [List.map_flatMap]

theorem tq_leaves (qs : List Pose.Par) (before : ℚ) (rows) (qs' : List Pose.Par) :
    ofBlocks (qs.map Docx.Block.text ++ .table before rows :: qs'.map Docx.Block.text) = qs.map Tree.text ++ .table (ofBlockRows rows) :: qs'.map Tree.text := by
  rw [wh_ofBlocks_append, ps_leaves]
  simp only [ofBlocks, ps_leaves]

/-- **C127** (partial: pages with one drawn grid and horizontal text in one column above and below it, one line in each row, as C108; the grid at least 5pt wide and high in each cell, so that its
borders are found). The section of such a page has paragraphs, the table, and paragraphs; the paragraphs show groups of the lines above and below the grid, from top to bottom. If a word processor puts all of
them one below the other, starting below the top margin, the bottom of each paragraph is the bottom of its last line on the page, and the bottom of the table that of its border, up to 0.05pt for each line above and
the two distances of each paragraph, and 0.1pt for the table. *Missing*: a table less than 0.7pt below the top of the working area, see `C53_refuted_gaps_and_overlaps`. -/
theorem C127_table_places_partial (c : Pose.Cfg) (hc : Sane c.whole) (f : Fmt) (hg : Grid X Y r k W gap) (hw : WideFor c.whole.full W gap) (h5 : 5 ≤ gap) (depth : ℕ) (s0 : Pose.Sect)
    (pages : List Pose.Page) (d : Docx.Doc Pose.Par Sp Pose.Sect) (h : Pose.convert c (depth + 2) s0 pages = .ok d) (i : ℕ) (p : Pose.Page) (s : Pose.Sect × List (Docx.Item Pose.Par Sp Pose.Sect))
    (hp : pages[i]? = some p) (hs : (sectionsOf d)[i]? = some s) (hgp : GridPage c.whole X Y r k W (withFormats c f p).whole) (hbot : Y r ≤ (p.workOf c (cleaned c p)).y1)
    (htop : Y 0 - W / 2 = (p.workOf c (cleaned c p)).y0 ∨ (p.workOf c (cleaned c p)).y0 + 7 / 10 ≤ Y 0 - W / 2 ∨ ∃ l ∈ linesOn c.whole.ws (withFormats c f p), l.bbox.y1 < Y 0) :
    ∃ (qs₁ qs₂ : List Pose.Par) (L₁ L₂ : List (List (Lay.Ln Tok))) (rows : List (List (Option (List (Spec.Tree Pose.Par))))),
      ofItems s.2 = qs₁.map Tree.text ++ .table rows :: qs₂.map Tree.text ∧ List.Forall₂ ShowsRows qs₁ L₁ ∧ List.Forall₂ ShowsRows qs₂ L₂ ∧
      L₁.flatten.Perm ((linesOn c.whole.ws (withFormats c f p)).filter fun l => l.bbox.y1 < Y 0) ∧ L₁.flatten.Pairwise (fun l m => Above l.bbox m.bbox) ∧
      L₂.flatten.Perm ((linesOn c.whole.ws (withFormats c f p)).filter fun l => Y r < l.bbox.y0) ∧ L₂.flatten.Pairwise (fun l m => Above l.bbox m.bbox) ∧
      (bodyEnds s.1.margin.top [Y r - Y 0 + W] s.2).length = L₁.length + 1 + L₂.length ∧
      ∀ n y e, (bodyEnds s.1.margin.top [Y r - Y 0 + W] s.2)[n]? = some y → (L₁.map bottomOf ++ (Y r + W / 2) :: L₂.map bottomOf)[n]? = some e →
        |y - e| ≤ rounding ((L₁ ++ [] :: L₂).take (n + 1)) := by
  have h0 : 0 ≤ gap := by linarith
  obtain ⟨dd, h1, h2, h3, h4⟩ := tq_section c (depth + 2) s0 pages d h i p s hp hs
  obtain ⟨js, j1, j2, -⟩ := wt_page c.whole hc.blank hc.order hc.overlap hc.merging hg h0 (withFormats c f p).whole hgp
  have j1' : cleanUp c.whole.pipe p.box p.raw = .ok (js, []) := j1
  have hcl : cleaned c p = js := by
    unfold cleaned
    rw [j1']
  unfold Pose.parsePage at h1
  rw [j1'] at h1
  dsimp only at h1
  rw [← hcl] at h1
  cases hd : Deco.layout c.whole.full p.uri p.ids (depth + 2) (p.workOf c (cleaned c p)) p.shapes ((cleaned c p).map fun b => .text b.bbox b.lines) with
  | error e => rw [hd] at h1; cases h1
  | ok dl =>
    rw [hd] at h1
    dsimp only at h1
    cases hx : Pose.layout c (p.workOf c (cleaned c p)) dl.1 with
    | error e => rw [hx] at h1; cases h1
    | ok xs =>
      rw [hx] at h1
      obtain rfl := (Except.ok.inj h1).symm
      obtain ⟨ts₁, ts₂, cells, e1, e2, e3, e4, e5, e6, e7, e8, -⟩ := tq_deco c.whole hc hg hw h5 (withFormats c f p) depth hgp js j1 dl (by rw [← hcl]; exact hd)
      have hl1 : ∀ t ∈ ts₁, Laid t := fun t ht => e2 t (List.mem_append_left _ ht)
      have hl2 : ∀ t ∈ ts₂, Laid t := fun t ht => e2 t (List.mem_append_right _ ht)
      rw [e1] at hx
      have hL : ∀ b ∈ ts₁.map (fun t => Deco.Blk.text t.1 t.2.1 t.2.2) ++ .table (gridBox X Y r k) (fullGrid r k) cells :: ts₂.map (fun t => .text t.1 t.2.1 t.2.2), LaidBlk b := by
        intro b hb
        rcases List.mem_append.1 hb with hb | hb
        · obtain ⟨t, ht, rfl⟩ := List.mem_map.1 hb
          exact hl1 t ht
        · rcases List.mem_cons.1 hb with rfl | hb
          · trivial
          · obtain ⟨t, ht, rfl⟩ := List.mem_map.1 hb
            exact hl2 t ht
      have hH : Pose.horizontal (ts₁.map (fun t => Deco.Blk.text t.1 t.2.1 t.2.2) ++ .table (gridBox X Y r k) (fullGrid r k) cells :: ts₂.map (fun t => .text t.1 t.2.1 t.2.2)) = true := by
        have e : ∀ b ∈ ts₁.map (fun t => Deco.Blk.text t.1 t.2.1 t.2.2) ++ .table (gridBox X Y r k) (fullGrid r k) cells :: ts₂.map (fun t => .text t.1 t.2.1 t.2.2), (Pose.el b).dir = .leftRight := by
          intro b hb
          rcases List.mem_append.1 hb with hb | hb
          · obtain ⟨t, ht, rfl⟩ := List.mem_map.1 hb
            exact ps_dir (hl1 t ht)
          · rcases List.mem_cons.1 hb with rfl | hb
            · rfl
            · obtain ⟨t, ht, rfl⟩ := List.mem_map.1 hb
              exact ps_dir (hl2 t ht)
        unfold Pose.horizontal
        rw [decide_eq_true_eq]
        generalize (ts₁.map (fun t => Deco.Blk.text t.1 t.2.1 t.2.2) ++ .table (gridBox X Y r k) (fullGrid r k) cells :: ts₂.map (fun t => .text t.1 t.2.1 t.2.2)) = B at e
        cases B with
        | nil => rfl
        | cons t bs =>
          simp only [List.map_cons, Coll.textDirection]
          split_ifs
          · exact e t (by simp)
          · rfl
      obtain ⟨ms, q1, q2, q3⟩ := tq_page c _ _ hL hH xs hx
      obtain ⟨m₁, m', rfl, a1, a2⟩ := tq_split _ _ _ q1
      obtain ⟨mt, m₂, a3, a4, rfl⟩ := List.forall₂_cons_left_iff.1 a2
      have hmt : mt = (⟨.table, gridBox X Y r k, ⟨Rect.zero, .leftRight⟩, [], W, true⟩, none) := by
        unfold Pose.measure at a3
        dsimp only at a3
        rw [e3] at a3
        exact (Except.ok.inj a3).symm
      obtain ⟨b1, b2, b3⟩ := tq_measured c _ ts₁ hl1 m₁ a1
      obtain ⟨c1, c2, c3⟩ := tq_measured c _ ts₂ hl2 m₂ a4
      have hhalf : halfBorder mt.1 = W / 2 := by rw [hmt]; rfl
      have hlo : Spacing.lo true mt.1.bbox = Y 0 := by rw [hmt]; rfl
      have hhi : Spacing.hi true mt.1.bbox = Y r := by rw [hmt]; rfl
      have hy1 : Spacing.hi true (p.workOf c (cleaned c p)) = (p.workOf c (cleaned c p)).y1 := rfl
      have hvs : (m₁ ++ mt :: m₂).map Prod.fst = m₁.map Prod.fst ++ mt.1 :: m₂.map Prod.fst := by rw [List.map_append, List.map_cons]
      have hst := tq_stacked c (p.workOf c (cleaned c p)) ts₁ hl1 m₁ a1 mt.1 (by rw [hmt]) (by rw [hhi, hy1]; exact hbot)
        (fun t ht => by rw [hlo, hhalf]; exact (e4 t ht).le) (m₂.map Prod.fst)
        (ps_stacked c _ ts₂ hl2 m₂ (by rw [List.forall₂_map_left_iff] at a4; exact a4) _ _).1 (p.workOf c (cleaned c p)).y0 none (by simp) (by simp) (by
          intro _ hnil
          rw [hlo, hhalf]
          rcases htop with ht | ht | ⟨l, hl, hl2⟩
          · exact .inl ht
          · exact .inr ht
          · exfalso
            rw [hnil] at e5
            rw [tq_grid_lines] at hl
            have hl' := j2.symm.subset hl
            have := e5.symm.subset (List.mem_filter.2 ⟨hl', by rw [decide_eq_true_eq]; exact hl2⟩)
            simp at this)
      rw [← hvs] at hst
      -- the written blocks
      obtain ⟨qs₁, ys, d1, d2, d3⟩ := tq_shown ts₁ _ _ xs (by
        rw [hvs, List.length_append, List.length_cons, List.length_cons, List.length_map, List.length_map, List.length_map]
        have := a1.length_eq; have := a4.length_eq
        simp only [List.length_map] at *
        omega) q2
      have hlen1 : ts₁.length = m₁.length := by have := a1.length_eq; simpa using this
      rw [hvs, hlen1, List.drop_left' (by simp), List.zip_cons_cons] at d3
      obtain ⟨xt, zs, d4, d5, rfl⟩ := List.forall₂_cons_left_iff.1 d3
      have hlen2 : ts₂.length = m₂.length := by have := a4.length_eq; simpa using this
      obtain ⟨qs₂, ws, d6, d7, d8⟩ := tq_shown ts₂ [] (m₂.map Prod.fst) zs (by simp [hlen2]) (by rw [List.append_nil]; exact d5)
      rw [List.zip_nil_left] at d8
      obtain rfl := List.forall₂_nil_left_iff.1 d8
      obtain ⟨sp, d9⟩ := d4
      cases xt with
      | text _ => exact absurd d9 (by simp [Flows])
      | table b' ind before g' cs' =>
        simp only [Pose.blocks, Pose.block, d6, List.append_nil] at d1
        have hwork : s.1.margin.top = (p.workOf c (cleaned c p)).y0 := by
          rw [h2]
          show (p.margin c (cleaned c p)).top = 0 + (p.margin c (cleaned c p)).top
          rw [zero_add]
        have hheights : tableHeights ((m₁ ++ mt :: m₂).map Prod.fst) = [Y r - Y 0 + W] := by
          rw [hvs]
          unfold tableHeights at b3 c3 ⊢
          rw [List.filter_append, List.map_append, b3, List.filter_cons_of_pos (by rw [hmt]; rfl), List.map_cons, c3, hhalf, hlo, hhi]
          simp only [List.nil_append, List.cons.injEq, and_true]
          ring
        obtain ⟨r1, r2⟩ := q3 hst (List.replicate (Docx.trailing (Pose.blocks xs).reverse) (.para none (some Docx.minLineSpacing) []) : List (Docx.Item Pose.Par Sp Pose.Sect))
          (fun i hi => ⟨_, _, List.eq_of_mem_replicate hi⟩)
        have hbody : bodyEnds s.1.margin.top [Y r - Y 0 + W] s.2 = bodyEnds (p.workOf c (cleaned c p)).y0 (tableHeights ((m₁ ++ mt :: m₂).map Prod.fst))
            (Docx.renderBlocks false (Pose.blocks xs) false ++ (List.replicate (Docx.trailing (Pose.blocks xs).reverse) (.para none (some Docx.minLineSpacing) []) : List (Docx.Item Pose.Par Sp Pose.Sect))) := by
          rw [h4, hwork, hheights]
          rfl
        rw [← hbody] at r1 r2
        refine ⟨qs₁, qs₂, ts₁.map fun t => t.2.1, ts₂.map fun t => t.2.1, ofBlockRows (Pipe.place g' (Pose.cellBlocks cs')), ?_, d2, d7, ?_, ?_, ?_, ?_, ?_, ?_⟩
        · rw [h3]
          dsimp only
          rw [d1]
          exact tq_leaves _ _ _ _
        · rw [← List.flatMap_def, tq_grid_lines]
          exact e5.trans (j2.filter _)
        · rw [← List.flatMap_def]; exact e6
        · rw [← List.flatMap_def, tq_grid_lines]
          exact e7.trans (j2.filter _)
        · rw [← List.flatMap_def]; exact e8
        · rw [r1]
          simp only [List.length_append, List.length_map, List.length_cons]
          omega
        · intro n y e hy he
          have hA : ((m₁ ++ mt :: m₂).map Prod.fst).map (fun v => v.bbox.y1 + halfBorder v) = (ts₁.map fun t => t.2.1).map bottomOf ++ (Y r + W / 2) :: (ts₂.map fun t => t.2.1).map bottomOf := by
            rw [hvs, List.map_append, b1, List.map_cons, c1, hhalf, List.map_map, List.map_map]
            congr 2
            rw [hmt]; rfl
          have hB : ((m₁ ++ mt :: m₂).map Prod.fst).map blkTol = ((ts₁.map fun t => t.2.1) ++ [] :: (ts₂.map fun t => t.2.1)).map fun ls => (ls.length + 2 : ℚ) / 20 := by
            have ht : blkTol mt.1 = ((([] : List (Lay.Ln Tok)).length : ℕ) + 2 : ℚ) / 20 := by
              rw [hmt]
              unfold blkTol drift
              dsimp only
              rw [if_pos rfl, List.length_nil]
              norm_num
            rw [hvs, List.map_append, b2, List.map_cons, c2, ht, List.map_append, List.map_cons, List.map_map, List.map_map]
            rfl
          rw [← hA, List.getElem?_map] at he
          obtain ⟨v, hv, rfl⟩ := Option.map_eq_some_iff.1 he
          have := r2 n y v hy hv
          unfold rounding
          rw [List.map_take, ← hB, ← List.map_take]
          exact this

/-- The page of C108. -/
def tqPage : Pose.Page := ⟨⟨0, 0, 400, 600⟩, whRaw, fyShapes, fun _ => "u", fun _ _ _ _ _ => 0⟩

theorem tq_ex_work : tqPage.workOf poCfg (cleaned poCfg tqPage) = ⟨0, 0, 400, 600⟩ := by decide +kernel

theorem tq_ex_page : GridPage poCfg.whole (fun j => 100 + 100 * j) (fun i => 100 + 50 * i) 2 2 1 (withFormats poCfg ppFmt tqPage).whole := by
  obtain ⟨h1, h2, h3, h4, h5, h6, h7, h8, h9⟩ := wh_ex_page
  refine ⟨h1, h2, ?_, h4, ?_, ?_, ?_, h8, h9⟩
  · change ∀ b ∈ _, ∀ l ∈ Lns.Blk.lines b, (tqPage.workOf poCfg (cleaned poCfg tqPage)).x0 ≤ l.bbox.x0 ∧ l.bbox.x1 ≤ (tqPage.workOf poCfg (cleaned poCfg tqPage)).x1
    rw [tq_ex_work]
    exact h3
  · change ∀ s ∈ fyShapes, (tqPage.workOf poCfg (cleaned poCfg tqPage)).x0 ≤ s.bbox.x0 ∧ s.bbox.x1 ≤ (tqPage.workOf poCfg (cleaned poCfg tqPage)).x1
    rw [tq_ex_work]
    exact h5
  · change _ < ((tqPage.workOf poCfg (cleaned poCfg tqPage)).x0 + (tqPage.workOf poCfg (cleaned poCfg tqPage)).x1) / 2
    rw [tq_ex_work]
    exact h6
  · change ((tqPage.workOf poCfg (cleaned poCfg tqPage)).x0 + (tqPage.workOf poCfg (cleaned poCfg tqPage)).x1) / 2 ≤ _
    rw [tq_ex_work]
    exact h7

/-- The bottoms of what is in a document, section by section. -/
def tqEnds (heights : List ℚ) (d : Except Err (Docx.Doc Pose.Par Sp Pose.Sect)) : Option (List (List ℚ)) :=
  d.toOption.map fun d => (sectionsOf d).map fun s => bodyEnds s.1.margin.top heights s.2

/-- Non-vacuity: the page of C108, twice, meets the hypotheses; the title ends at 30, the table (with its border) at 200.5, the footer at 410. -/
example : Sane poCfg.whole ∧ Grid (fun j => 100 + 100 * j) (fun i => 100 + 50 * i) 2 2 1 7 ∧ WideFor poCfg.whole.full 1 7 ∧
    GridPage poCfg.whole (fun j => 100 + 100 * j) (fun i => 100 + 50 * i) 2 2 1 (withFormats poCfg ppFmt tqPage).whole ∧ (200 : ℚ) ≤ (tqPage.workOf poCfg (cleaned poCfg tqPage)).y1 ∧
    (tqPage.workOf poCfg (cleaned poCfg tqPage)).y0 + 7 / 10 ≤ 100 - 1 / 2 ∧
    tqEnds [101] (Pose.convert poCfg 4 ⟨0, 0, ⟨0, 0, 0, 0⟩⟩ [tqPage, tqPage]) = some [[30, 401 / 2, 410], [30, 401 / 2, 410]] := by
  refine ⟨wh_ex_sane, fy_ex_grid, wh_ex_wide, tq_ex_page, by rw [tq_ex_work]; norm_num, by rw [tq_ex_work]; norm_num, by decide +kernel⟩

end Places127
end Props
