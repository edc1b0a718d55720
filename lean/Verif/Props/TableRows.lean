import Verif.Props.TablePlaces
import Verif.Props.LineBreaks
import Verif.Spec.TableRows
/-! # C128: the rows of the text around a table -/

namespace Props
open Geom Py Pipe Spec

section Rows128
open Spacing (VB)

/-- A block as it is written, with the formats of the layout with the given box. -/
def WrittenIn (c : Pose.Cfg) (box : Rect) : Deco.Blk → Pose.Blk → Prop
  | .text b ls s, .text q => ∃ f sp, Pose.horizontalSpacing c box (Lay.Blk.text b ls).el.horizontal b (Pose.tlines ls s) = .ok f ∧ q = Pose.paragraph b (Pose.tlines ls s) sp f
  | .table b g cs, .table b' ind _ g' cs' => b' = b ∧ ind = b.x0 - box.x0 ∧ g' = g ∧ Pose.cells c cs = .ok cs'
  | _, _ => False

theorem tr_one (c : Pose.Cfg) (box : Rect) (b : Deco.Blk) (m : VB × Option Pose.Form) (hm : Pose.measure c box b = .ok m) (sp : Spacing.Sp) (x : Pose.Blk)
    (h : Pose.one c box (sp, m.2) b = .ok x) : WrittenIn c box b x := by
  cases b with
  | text b ls s =>
    unfold Pose.measure at hm
    dsimp only at hm
    cases hf : Pose.horizontalSpacing c box (Lay.Blk.text b ls).el.horizontal b (Pose.tlines ls s) with
    | error e => rw [hf] at hm; cases hm
    | ok f =>
      rw [hf] at hm
      dsimp only at hm
      cases ht : Pose.tlines ls s with
      | nil => rw [ht] at hm; cases hm
      | cons l r =>
        rw [ht] at hm
        obtain rfl := Except.ok.inj hm
        unfold Pose.one at h
        obtain rfl := Except.ok.inj h
        exact ⟨f, sp, hf, rfl⟩
  | table b g cs =>
    unfold Pose.measure at hm
    dsimp only at hm
    cases ht : Pose.firstTop g cs with
    | error e => rw [ht] at hm; cases hm
    | ok t =>
      rw [ht] at hm
      obtain rfl := Except.ok.inj hm
      unfold Pose.one at h
      cases hcs : Pose.cells c cs with
      | error e => rw [hcs] at h; cases h
      | ok r =>
        rw [hcs] at h
        obtain rfl := Except.ok.inj h
        exact ⟨rfl, rfl, rfl, hcs⟩

theorem tr_go (c : Pose.Cfg) (box : Rect) (bs : List Deco.Blk) (ms : List (VB × Option Pose.Form)) (hm : List.Forall₂ (fun b m => Pose.measure c box b = .ok m) bs ms)
    (ps : List (VB × Spacing.Sp)) (hp : ps.length = ms.length) (xs : List Pose.Blk) (h : Pose.go c box (List.zipWith (fun s m => (s.2, m.2)) ps ms) bs = .ok xs) :
    List.Forall₂ (WrittenIn c box) bs xs := by
  induction hm generalizing ps xs with
  | nil =>
    obtain rfl := Except.ok.inj h
    exact .nil
  | @cons b m bs ms hb hm ih =>
    cases ps with
    | nil => cases hp
    | cons p ps =>
      rw [List.zipWith_cons_cons] at h
      unfold Pose.go at h
      rw [List.headD_cons, List.tail_cons] at h
      cases h1 : Pose.one c box (p.2, m.2) b with
      | error e => rw [h1] at h; cases h
      | ok x =>
        rw [h1] at h
        dsimp only at h
        cases h2 : Pose.go c box (List.zipWith (fun s m => (s.2, m.2)) ps ms) bs with
        | error e => rw [h2] at h; cases h
        | ok r =>
          rw [h2] at h
          obtain rfl := Except.ok.inj h
          exact .cons (tr_one c box b m hb _ _ h1) (ih ps (by simpa using hp) _ h2)

/-- What is written for a layout. -/
theorem tr_layout (c : Pose.Cfg) (box : Rect) (bs : List Deco.Blk) (xs : List Pose.Blk) (h : Pose.layout c box bs = .ok xs) : List.Forall₂ (WrittenIn c box) bs xs := by
  unfold Pose.layout at h
  cases h1 : Pose.forms c box bs with
  | error e => rw [h1] at h; cases h
  | ok fs =>
    rw [h1] at h
    dsimp only at h
    unfold Pose.forms at h1
    cases hm : bs.mapM (Pose.measure c box) with
    | error e => rw [hm] at h1; cases h1
    | ok ms =>
      rw [hm] at h1
      obtain rfl := Except.ok.inj h1
      refine tr_go c box bs ms (pp_mapM_forall _ _ hm) _ ?_ xs h
      have := congrArg List.length (po_spacing (Pose.horizontal bs) box (ms.map Prod.fst))
      simpa using this

/-- What is written for the cells of a table. -/
theorem tr_cells (c : Pose.Cfg) (cs : List (Full.Cell × List Deco.Blk)) (xs : List (Full.Cell × List Pose.Blk)) (h : Pose.cells c cs = .ok xs) :
    List.Forall₂ (fun a b => b.1 = a.1 ∧ Pose.layout c a.1.info.working a.2 = .ok b.2) cs xs := by
  induction cs generalizing xs with
  | nil =>
    unfold Pose.cells at h
    obtain rfl := Except.ok.inj h
    exact .nil
  | cons a cs ih =>
    obtain ⟨k, bs⟩ := a
    unfold Pose.cells at h
    cases h1 : Pose.forms c k.info.working bs with
    | error e => rw [h1] at h; cases h
    | ok fs =>
      rw [h1] at h
      dsimp only at h
      cases h2 : Pose.go c k.info.working fs bs with
      | error e => rw [h2] at h; cases h
      | ok x =>
        rw [h2] at h
        dsimp only at h
        cases h3 : Pose.cells c cs with
        | error e => rw [h3] at h; cases h
        | ok r =>
          rw [h3] at h
          obtain rfl := Except.ok.inj h
          refine .cons ⟨rfl, ?_⟩ (ih r h3)
          unfold Pose.layout
          rw [h1]
          exact h2

theorem tr_text (c : Pose.Cfg) (hi : ∀ l, (c.whole.full.base.lay.iter l).Perm l) (hl0 : 0 ≤ c.left) (hr0 : 0 ≤ c.right) (box : Rect) (t : TextTriple) (ht : Laid t)
    (hin : ∀ l ∈ t.2.1, box.x0 ≤ l.bbox.x0 ∧ l.bbox.x1 ≤ box.x1) (x : Pose.Blk) (h : WrittenIn c box (.text t.1 t.2.1 t.2.2) x) :
    ∃ q, x = .text q ∧ InPlace c box.x0 box.x1 q t.2.1 := by
  cases x with
  | table _ _ _ _ _ => exact absurd h (by simp [WrittenIn])
  | text q =>
    obtain ⟨f, sp, h1, rfl⟩ := h
    have hh : (Lay.Blk.text t.1 t.2.1).el.horizontal = true := by unfold El.horizontal; rw [ps_dir ht]; rfl
    rw [hh] at h1
    refine ⟨_, rfl, ?_, hz_count ht sp f (hz_spacing c hi box ht f h1).1 _ _, ?_, t.1, ht.line.hull, lb_paragraph c hi box ht hin sp f h1⟩
    · unfold ShowsRows
      rw [po_paragraph t.1 t.2.1 t.2.2 (ps_length ht) sp f, List.map_map]
      exact ht.same
    · intro i y l hy hl
      exact hz_paragraph c hi hl0 hr0 box ht hin sp f h1 i y l hy hl

theorem tr_texts (c : Pose.Cfg) (hi : ∀ l, (c.whole.full.base.lay.iter l).Perm l) (hl0 : 0 ≤ c.left) (hr0 : 0 ≤ c.right) (box : Rect) (ts : List TextTriple) (ht : ∀ t ∈ ts, Laid t)
    (hin : ∀ l ∈ ts.flatMap fun t => t.2.1, box.x0 ≤ l.bbox.x0 ∧ l.bbox.x1 ≤ box.x1) (xs : List Pose.Blk)
    (h : List.Forall₂ (WrittenIn c box) (ts.map fun t => .text t.1 t.2.1 t.2.2) xs) :
    ∃ qs : List Pose.Par, Pose.blocks xs = qs.map Docx.Block.text ∧ List.Forall₂ (InPlace c box.x0 box.x1) qs (ts.map fun t => t.2.1) := by
  induction ts generalizing xs with
  | nil =>
    obtain rfl := List.forall₂_nil_left_iff.1 h
    exact ⟨[], rfl, .nil⟩
  | cons t ts ih =>
    rw [List.map_cons] at h
    obtain ⟨x, xs', h1, h2, rfl⟩ := List.forall₂_cons_left_iff.1 h
    obtain ⟨q, rfl, hq⟩ := tr_text c hi hl0 hr0 box t (ht t (by simp)) (fun l hl => hin l (by rw [List.flatMap_cons]; exact List.mem_append_left _ hl)) x h1
    obtain ⟨qs, e1, e2⟩ := ih (fun t h => ht t (by simp [h])) (fun l hl => hin l (by rw [List.flatMap_cons]; exact List.mem_append_right _ hl)) xs' h2
    refine ⟨q :: qs, ?_, .cons hq e2⟩
    simp only [Pose.blocks, Pose.block, e1, List.map_cons]

theorem tr_blocks_append (xs ys : List Pose.Blk) : Pose.blocks (xs ++ ys) = Pose.blocks xs ++ Pose.blocks ys := by
  induction xs with
  | nil => rfl
  | cons x xs ih => simp only [List.cons_append, Pose.blocks, ih]

variable {X Y : ℕ → ℚ} {r k : ℕ} {W gap : ℚ}

/-- A line of the page is in the working area, blanks at its ends taken off. -/
theorem tr_within (c : Pose.Cfg) (hws : c.whole.ws ' ' = true) (f : Fmt) (p : Pose.Page) (hgp : GridPage c.whole X Y r k W (withFormats c f p).whole) (l : Lay.Ln Tok) (hl : l ∈ linesOn c.whole.ws (withFormats c f p)) :
    (p.workOf c (cleaned c p)).x0 ≤ l.bbox.x0 ∧ l.bbox.x1 ≤ (p.workOf c (cleaned c p)).x1 := by
  rw [tq_grid_lines] at hl
  obtain ⟨l', hl', rfl⟩ := List.mem_map.1 hl
  obtain ⟨b, hb, hlb⟩ := List.mem_flatMap.1 hl'
  have h1 : (p.workOf c (cleaned c p)).x0 ≤ l'.bbox.x0 ∧ l'.bbox.x1 ≤ (p.workOf c (cleaned c p)).x1 := hgp.lines b hb l' hlb
  have h2 := wc_strip_line c.whole.ws hws l' ((hgp.raw b (List.mem_of_mem_filter hb)).boxes.2 l' hlb).1
  exact ⟨h1.1.trans h2.1, h2.2.2.1.trans h1.2⟩

/-- **C128** (partial: pages as C127). The section of such a page has paragraphs, the table, and paragraphs, showing groups of the lines above and below the grid; if a word processor sets these
paragraphs between the margins of the section, their rows start where the lines do on the page (as C122 says), and their lines are broken where they have to be (as C126 says): the table in between
changes neither. -/
theorem C128_around_table_partial (c : Pose.Cfg) (hc : Sane c.whole) (hl0 : 0 ≤ c.left) (hr0 : 0 ≤ c.right) (f : Fmt) (hg : Grid X Y r k W gap) (hw : WideFor c.whole.full W gap) (h5 : 5 ≤ gap) (depth : ℕ)
    (s0 : Pose.Sect) (pages : List Pose.Page) (d : Docx.Doc Pose.Par Sp Pose.Sect) (h : Pose.convert c (depth + 2) s0 pages = .ok d) (i : ℕ) (p : Pose.Page)
    (s : Pose.Sect × List (Docx.Item Pose.Par Sp Pose.Sect)) (hp : pages[i]? = some p) (hs : (sectionsOf d)[i]? = some s) (hgp : GridPage c.whole X Y r k W (withFormats c f p).whole) :
    ∃ (qs₁ qs₂ : List Pose.Par) (L₁ L₂ : List (List (Lay.Ln Tok))) (rows : List (List (Option (List (Spec.Tree Pose.Par))))),
      ofItems s.2 = qs₁.map Tree.text ++ .table rows :: qs₂.map Tree.text ∧
      L₁.flatten.Perm ((linesOn c.whole.ws (withFormats c f p)).filter fun l => l.bbox.y1 < Y 0) ∧ L₁.flatten.Pairwise (fun l m => Above l.bbox m.bbox) ∧
      L₂.flatten.Perm ((linesOn c.whole.ws (withFormats c f p)).filter fun l => Y r < l.bbox.y0) ∧ L₂.flatten.Pairwise (fun l m => Above l.bbox m.bbox) ∧
      List.Forall₂ (InPlace c s.1.margin.left (s.1.width - s.1.margin.right)) (qs₁ ++ qs₂) (L₁ ++ L₂) := by
  have h0 : 0 ≤ gap := by linarith
  obtain ⟨dd, h1, h2, h3, -⟩ := tq_section c (depth + 2) s0 pages d h i p s hp hs
  obtain ⟨js, j1, j2, -⟩ := wt_page c.whole hc.blank hc.order hc.overlap hc.merging hg h0 (withFormats c f p).whole hgp
  have j1' : cleanUp c.whole.pipe p.box p.raw = .ok (js, []) := j1
  have hcl : cleaned c p = js := by
    unfold cleaned
    rw [j1']
  unfold Pose.parsePage at h1
  rw [j1'] at h1
  dsimp only at h1
  rw [← hcl] at h1
  cases hd : Deco.layout c.whole.full p.uri p.ids (depth + 2) (p.workOf c (cleaned c p)) p.shapes ((cleaned c p).map fun b => .text b.bbox b.lines) with
  | error e => rw [hd] at h1; cases h1
  | ok dl =>
    rw [hd] at h1
    dsimp only at h1
    cases hx : Pose.layout c (p.workOf c (cleaned c p)) dl.1 with
    | error e => rw [hx] at h1; cases h1
    | ok xs =>
      rw [hx] at h1
      obtain rfl := (Except.ok.inj h1).symm
      obtain ⟨ts₁, ts₂, cells, e1, e2, e3, e4, e5, e6, e7, e8, -⟩ := tq_deco c.whole hc hg hw h5 (withFormats c f p) depth hgp js j1 dl (by rw [← hcl]; exact hd)
      have p1 : (ts₁.flatMap fun t => t.2.1).Perm ((linesOn c.whole.ws (withFormats c f p)).filter fun l => l.bbox.y1 < Y 0) := by
        rw [tq_grid_lines]
        exact e5.trans (j2.filter _)
      have p2 : (ts₂.flatMap fun t => t.2.1).Perm ((linesOn c.whole.ws (withFormats c f p)).filter fun l => Y r < l.bbox.y0) := by
        rw [tq_grid_lines]
        exact e7.trans (j2.filter _)
      have w1 : ∀ l ∈ ts₁.flatMap fun t => t.2.1, (p.workOf c (cleaned c p)).x0 ≤ l.bbox.x0 ∧ l.bbox.x1 ≤ (p.workOf c (cleaned c p)).x1 :=
        fun l hl => tr_within c hc.blank f p hgp l (List.mem_of_mem_filter (p1.subset hl))
      have w2 : ∀ l ∈ ts₂.flatMap fun t => t.2.1, (p.workOf c (cleaned c p)).x0 ≤ l.bbox.x0 ∧ l.bbox.x1 ≤ (p.workOf c (cleaned c p)).x1 :=
        fun l hl => tr_within c hc.blank f p hgp l (List.mem_of_mem_filter (p2.subset hl))
      have hwr := tr_layout c _ _ xs hx
      rw [e1] at hwr
      obtain ⟨x₁, x', rfl, a1, a2⟩ := tq_split _ _ _ hwr
      obtain ⟨xt, x₂, a3, a4, rfl⟩ := List.forall₂_cons_left_iff.1 a2
      obtain ⟨qs₁, b1, b2⟩ := tr_texts c hc.order hl0 hr0 _ ts₁ (fun t ht => e2 t (List.mem_append_left _ ht)) w1 x₁ a1
      obtain ⟨qs₂, b3, b4⟩ := tr_texts c hc.order hl0 hr0 _ ts₂ (fun t ht => e2 t (List.mem_append_right _ ht)) w2 x₂ a4
      have ex0 : s.1.margin.left = (p.workOf c (cleaned c p)).x0 := by
        rw [h2]
        show (p.margin c (cleaned c p)).left = 0 + (p.margin c (cleaned c p)).left
        rw [zero_add]
      have ex1 : s.1.width - s.1.margin.right = (p.workOf c (cleaned c p)).x1 := by
        rw [h2]
        rfl
      cases xt with
      | text _ => exact absurd a3 (by simp [WrittenIn])
      | table b' ind before g' cs' =>
        refine ⟨qs₁, qs₂, ts₁.map fun t => t.2.1, ts₂.map fun t => t.2.1, ofBlockRows (Pipe.place g' (Pose.cellBlocks cs')), ?_, ?_, ?_, ?_, ?_, ?_⟩
        · rw [h3]
          dsimp only
          rw [tr_blocks_append, b1]
          simp only [Pose.blocks, Pose.block, b3]
          exact tq_leaves _ _ _ _
        · rw [← List.flatMap_def]; exact p1
        · rw [← List.flatMap_def]; exact e6
        · rw [← List.flatMap_def]; exact p2
        · rw [← List.flatMap_def]; exact e8
        · rw [ex0, ex1]
          exact List.rel_append b2 b4

/-- For the paragraphs of a document outside tables: where the rows start if each of them is one line of the given width, and the line breaks. -/
def trStarts (w : ℚ) (d : Except Err (Docx.Doc Pose.Par Sp Pose.Sect)) : Option (List (List (List ℚ × List Bool))) :=
  d.toOption.map fun d => (sectionsOf d).map fun s => (ofItems s.2).filterMap fun
    | .text q => some (rowStarts s.1.margin.left (s.1.width - s.1.margin.right) q [⟨⟨0, 0, w, 10⟩, .leftRight, none, []⟩], breaksAfter q.content)
    | _ => none

/-- Non-vacuity: the page of C108, twice, meets the hypotheses; its title and its footer start at 20, as on the page. -/
example : Sane poCfg.whole ∧ 0 ≤ poCfg.left ∧ 0 ≤ poCfg.right ∧ Grid (fun j => 100 + 100 * j) (fun i => 100 + 50 * i) 2 2 1 7 ∧ WideFor poCfg.whole.full 1 7 ∧
    GridPage poCfg.whole (fun j => 100 + 100 * j) (fun i => 100 + 50 * i) 2 2 1 (withFormats poCfg ppFmt tqPage).whole ∧
    trStarts 280 (Pose.convert poCfg 4 ⟨0, 0, ⟨0, 0, 0, 0⟩⟩ [tqPage, tqPage]) = some [[([20], [false]), ([20], [false])], [([20], [false]), ([20], [false])]] := by
  refine ⟨wh_ex_sane, by decide +kernel, by decide +kernel, fy_ex_grid, wh_ex_wide, tq_ex_page, by decide +kernel⟩

end Rows128
end Props
