import Verif.Styled
import Verif.Props.Decor
import Verif.Props.WholePlain
import Verif.Props.DrawPlain
import Verif.Spec.Styled
/-! # C117: decorations and links of a page of text in the document -/

namespace Props
open Geom Py Pipe Spec

section Refine

theorem sy_cells (sub : ℕ → Full.Types → Full.Cell → List (Full.Blk Tok) → Except Err (List Deco.Blk × Full.Types))
    (sub' : ℕ → Full.Types → Full.Cell → List (Full.Blk Tok) → Except Err (List (Full.Blk Tok) × Full.Types))
    (h : ∀ i ty cell bs, (sub i ty cell bs).map (fun r => (Deco.plain r.1, r.2)) = sub' i ty cell bs) (i : ℕ) (ty : Full.Types) (cs : List (Full.Cell × List (Full.Blk Tok))) :
    (Deco.parseCells sub i ty cs).map (fun r => (Deco.plainCells r.1, r.2)) = Full.parseCells sub' i ty cs := by
  induction cs generalizing i ty with
  | nil => simp [Deco.parseCells, Full.parseCells, Deco.plainCells, Except.map]
  | cons c cs ih =>
    unfold Deco.parseCells Full.parseCells
    rw [← h i ty c.1 c.2]
    cases sub i ty c.1 c.2 with
    | error e => rfl
    | ok r =>
      dsimp only [Except.map]
      rw [← ih (i + 1) r.2]
      cases Deco.parseCells sub (i + 1) r.2 cs with
      | error e => rfl
      | ok q => simp [Except.map, Deco.plainCells]

theorem sy_tables (sub : ℕ → ℕ → Full.Types → Full.Cell → List (Full.Blk Tok) → Except Err (List Deco.Blk × Full.Types))
    (sub' : ℕ → ℕ → Full.Types → Full.Cell → List (Full.Blk Tok) → Except Err (List (Full.Blk Tok) × Full.Types))
    (h : ∀ i j ty cell bs, (sub i j ty cell bs).map (fun r => (Deco.plain r.1, r.2)) = sub' i j ty cell bs) (i : ℕ) (ty : Full.Types) (ts : List Styl.TBlock) (bs : List (Full.Blk Tok)) :
    (Deco.parseTables sub i ty ts bs).map (fun r => (Deco.plain r.1, r.2)) = Full.parseTables sub' i ty bs := by
  induction bs generalizing i ty ts with
  | nil => simp [Deco.parseTables, Full.parseTables, Deco.plain, Except.map]
  | cons b bs ih =>
    cases b with
    | text b ls =>
      unfold Deco.parseTables Full.parseTables
      rw [← ih (i + 1) ty ts.tail]
      cases Deco.parseTables sub (i + 1) ty ts.tail bs with
      | error e => rfl
      | ok r => simp [Except.map, Deco.plain, Deco.Blk.plain]
    | table b g cs =>
      unfold Deco.parseTables Full.parseTables
      rw [← sy_cells (sub i) (sub' i) (h i) 0 ty cs]
      cases Deco.parseCells (sub i) 0 ty cs with
      | error e => rfl
      | ok q =>
        dsimp only [Except.map]
        rw [← ih (i + 1) q.2 ts]
        cases Deco.parseTables sub (i + 1) q.2 ts bs with
        | error e => rfl
        | ok r => simp [Except.map, Deco.plain, Deco.Blk.plain]

/-- Without its styles, the layout with styled text is the layout of `Full.lean`, for the text format of the code. -/
theorem sy_refines (c : Full.Cfg) (uri : Rect → String) (nid : Lay.Ids) (depth : ℕ) (path : List ℕ) (box : Rect) (ss : List ℕ) (st : Full.State Tok) :
    (Deco.parse c uri nid depth path box ss st).map (fun r => (Deco.plain r.1, r.2)) = Full.parse c (Deco.format uri) nid depth path box ss st := by
  induction depth generalizing path box ss st with
  | zero => rfl
  | succ depth ih =>
    unfold Deco.parse Full.parse
    cases Full.stages c nid path box ss st with
    | error e => rfl
    | ok st' =>
      dsimp only
      cases Full.splitBack c.base.lay st'.blocks with
      | error e => rfl
      | ok bs => exact sy_tables _ _ (fun i j ty cell sub => ih _ _ _ _) _ _ _ _

end Refine

section Areas
variable {π : Type}

theorem sy_marks (l : Styl.TLine) : lineMarks l = itemMarks l.items := by
  unfold lineMarks itemMarks
  refine List.flatMap_congr fun i _ => ?_
  cases i <;> rfl

/-- The candidates of a page on which no table was found are what is drawn on the page. -/
theorem sy_areas (p : Deco.Page π) (bs : List (Full.Blk Tok)) (hw : ∀ b c, Full.Sh.fill b c ∈ p.shapes → ((Full.shadingOf (Full.textBlocks bs) (.fill b c)).isNone = true ↔ c ≠ Full.white)) :
    (((Deco.candidates ⟨bs, Full.mkSub bs p.shapes, ⟨[], []⟩⟩ ⟨bs, Full.mkSub bs p.shapes, ⟨[], []⟩⟩).map (Deco.shape p.uri ⟨[], []⟩)).map areaOf) = drawnAreas p := by
  unfold Deco.candidates drawnAreas
  dsimp only [Full.mkSub]
  rw [List.map_map, List.map_append, List.map_append]
  congr 1
  · congr 1
    · unfold Deco.lines
      generalize p.shapes = sh
      induction sh with
      | nil => rfl
      | cons s sh ih =>
        cases s with
        | stroke s => rw [List.filter_cons_of_pos rfl, List.map_cons, ih, List.filterMap_cons]; rfl
        | fill b c => rw [List.filter_cons_of_neg (by simp), ih, List.filterMap_cons_none rfl]
        | link b => rw [List.filter_cons_of_neg (by simp), ih, List.filterMap_cons_none rfl]
    · unfold Deco.highlights
      revert hw
      generalize p.shapes = sh
      intro hw
      induction sh with
      | nil => rfl
      | cons s sh ih =>
        have ih := ih fun b c h => hw b c (by simp [h])
        cases s with
        | stroke s => rw [List.filter_cons_of_neg (by simp), ih, List.filterMap_cons_none rfl]
        | link b => rw [List.filter_cons_of_neg (by simp), ih, List.filterMap_cons_none rfl]
        | fill b c =>
          have h := hw b c (by simp)
          by_cases hc : c = Full.white
          · rw [List.filter_cons, if_neg (by intro hh; exact h.1 hh hc), ih, List.filterMap_cons, hc]; rfl
          · rw [List.filter_cons, if_pos (h.2 hc), List.map_cons, ih, List.filterMap_cons]
            dsimp only
            rw [if_neg hc]
            simp [areaOf, Deco.shape, Deco.typeOf, Deco.colorOf, Full.Sh.bbox]
  · unfold Deco.links
    generalize p.shapes = sh
    induction sh with
    | nil => rfl
    | cons s sh ih =>
      cases s with
      | link b => rw [List.filter_cons_of_pos rfl, List.map_cons, ih, List.filterMap_cons]; rfl
      | fill b c => rw [List.filter_cons_of_neg (by simp), ih, List.filterMap_cons_none rfl]
      | stroke b => rw [List.filter_cons_of_neg (by simp), ih, List.filterMap_cons_none rfl]

/-- Without types, shapes are new. -/
theorem sy_new (uri : Rect → String) (s : Full.Sh) : (Deco.shape uri ⟨[], []⟩ s).type = .undefined ∨ (Deco.shape uri ⟨[], []⟩ s).type = .hyperlink := by
  cases s with
  | stroke s => left; simp [Deco.shape, Deco.typeOf]
  | fill b c => left; simp [Deco.shape, Deco.typeOf]
  | link b => right; rfl

theorem sy_paragraph (f : Fmt) (t : TBlk) (s : Styl.TBlock) : parMarks (Deco.paragraph f t s) = s.lines.flatMap lineMarks := by
  have h : ∀ p : Deco.Par, parMarks p = (Props.contents p).flatMap itemMarks := by
    intro p
    unfold parMarks Props.contents
    induction p with
    | nil => rfl
    | cons o p ih => cases o <;> simp [List.flatMap_cons, ih]
  rw [h]
  unfold Deco.paragraph
  rw [C51_lines_once_in_order, List.map_map, List.flatMap_map]
  exact ly_zipIdx_flatMap _ _ _ fun l _ i => (sy_marks l).symm

/-- Text blocks with their styled lines. -/
def syStyled : List Styl.TBlock → List (Full.Blk Tok) → List Deco.Blk
  | _, [] => []
  | ts, b :: bs => .text b.bbox b.lines (ts.headD ⟨b.bbox, []⟩) :: syStyled ts.tail bs

theorem sy_text_tables (sub : ℕ → ℕ → Full.Types → Full.Cell → List (Full.Blk Tok) → Except Err (List Deco.Blk × Full.Types)) (i : ℕ) (ty : Full.Types) (ts : List Styl.TBlock)
    (bs : List (Full.Blk Tok)) (h : ∀ b ∈ bs, b.isText = true) : Deco.parseTables sub i ty ts bs = .ok (syStyled ts bs, ty) := by
  induction bs generalizing i ts with
  | nil => rfl
  | cons b bs ih =>
    cases b with
    | table _ _ _ => cases h _ List.mem_cons_self
    | text b ls =>
      unfold Deco.parseTables
      rw [ih _ _ fun x hx => h x (by simp [hx])]
      rfl

theorem sy_shown (f : Fmt) (g : Styl.TLine → List (ℕ ⊕ (Text.Chr × Look × List Mark))) (ts : List Styl.TBlock) (bs : List (Full.Blk Tok)) (h : ∀ b ∈ bs, b.isText = true)
    (he : ts.map (fun b => b.lines.map lineMarks) = (Deco.texts bs).map fun b => b.lines.map g) :
    (∀ t ∈ ofBlocks (Deco.blocks f (syStyled ts bs)), ∃ q, t = .text q) ∧
    (leaves (ofBlocks (Deco.blocks f (syStyled ts bs)))).flatMap parMarks = (bs.flatMap Full.Blk.lines).flatMap fun l => g (Deco.line l) := by
  induction bs generalizing ts with
  | nil => simp [syStyled, Deco.blocks, ofBlocks, leaves]
  | cons b bs ih =>
    cases b with
    | table _ _ _ => cases h _ List.mem_cons_self
    | text b ls =>
      cases ts with
      | nil => cases he
      | cons t ts =>
        obtain ⟨e1, e2⟩ := List.cons.inj he
        obtain ⟨i1, i2⟩ := ih ts (fun x hx => h x (by simp [hx])) e2
        simp only [syStyled, List.headD_cons, List.tail_cons, Deco.blocks, Deco.block, ofBlocks, leaves]
        refine ⟨?_, ?_⟩
        · intro t ht
          rcases List.mem_cons.1 ht with rfl | ht
          · exact ⟨_, rfl⟩
          · exact i1 t ht
        · rw [List.flatMap_cons, i2, sy_paragraph, List.flatMap_cons, List.flatMap_append]
          congr 1
          dsimp only at e1
          rw [List.flatMap_def, e1, List.map_map]
          rfl

theorem sy_section (c : Whole.Cfg) (depth : ℕ) (p0 : π) (pages : List (Deco.Page π)) (d : Docx.Doc Deco.Par Sp π) (h : Deco.convert c depth p0 pages = .ok d)
    (i : ℕ) (p : Deco.Page π) (s : π × List (Docx.Item Deco.Par Sp π)) (hp : pages[i]? = some p) (hs : (sectionsOf d)[i]? = some s) :
    ∃ dd, Deco.parsePage c depth p = .ok dd ∧ ofItems s.2 = ofBlocks dd.blocks := by
  unfold Deco.convert at h
  cases hm : pages.mapM (Deco.parsePage c depth) with
  | error e => rw [hm] at h; cases h
  | ok ds =>
    rw [hm] at h
    obtain rfl := Except.ok.inj h
    have hall := pp_mapM_forall pages ds hm
    have hdne : ds ≠ [] := by
      rintro rfl
      rw [List.forall₂_nil_right_iff.1 hall] at hp
      cases hp
    have hsec := C31_one_section_per_page p0 ds hdne
    obtain ⟨hi1, rfl⟩ := List.getElem?_eq_some_iff.1 hp
    have hi2 : i < ds.length := hall.length_eq ▸ hi1
    refine ⟨ds[i], by simpa using hall.get hi1 hi2, ?_⟩
    have := congrArg (fun l => l[i]?) hsec
    simp only [List.getElem?_map, hs, List.getElem?_eq_getElem hi2, Option.map_some, Option.some.injEq] at this
    exact (Prod.mk.inj this).2

end Areas

section Main
variable {π : Type}

theorem sy_texts (bs : List (Full.Blk Tok)) (h : ∀ b ∈ bs, b.isText = true) : Deco.texts bs = bs.map fun b => ⟨b.bbox, b.lines.map Deco.line⟩ := by
  induction bs with
  | nil => rfl
  | cons b bs ih =>
    cases b with
    | table _ _ _ => cases h _ List.mem_cons_self
    | text b ls => unfold Deco.texts; rw [ih fun x hx => h x (by simp [hx])]; rfl

/-- Parsing a decorated page: which shapes are looked at, which blocks are styled, and what becomes of them. -/
theorem sy_page (c : Whole.Cfg) (hc : Sane c) (depth : ℕ) (p : Deco.Page π) (hd : Decorated c p) :
    ∃ (rects : List Text.Shape) (r : List (Full.Blk Tok)), rects.map areaOf = drawnAreas p ∧ (∀ x ∈ rects, x.type = .undefined ∨ x.type = .hyperlink) ∧
      (∀ b ∈ r, b.isText = true) ∧ (r.flatMap Full.Blk.lines).Perm (linesOn c.ws p) ∧ (r.flatMap Full.Blk.lines).Pairwise (fun l m => Above l.bbox m.bbox) ∧
      Fine IsMark (rects.map areaOf) (Deco.texts r) ∧ AllDefinite (rects.map areaOf) (Deco.texts r) ∧ OneBlock (rects.map areaOf) (Deco.texts r) ∧
      Deco.parsePage c (depth + 1) p = .ok ⟨p.props, Deco.blocks p.fmt (syStyled (Styl.blocksFormat rects (Deco.texts r)).2 r), []⟩ := by
  have hp := hd.page
  obtain ⟨js, g2, hjl, e3, hsame, hperm⟩ := wp_clean c hc p.whole hp.raw hp.text hp.floats
  set bs := js.map fun b => Full.Blk.text b.bbox b.lines with hbs
  have hharm := wp_same_harmless hsame hp.drawn
  obtain ⟨hst, hS⟩ := fw_stages c.full hc.order hc.tol hc.conn hc.clear hc.border p.ids p.work p.shapes bs e3 hharm
    (fun r hr => hp.within r ((wp_same_boxes hsame p.shapes r).1 hr)) (by
      obtain ⟨e, he, x, hx, h⟩ := hp.columns
      exact ⟨e, (wp_same_boxes hsame p.shapes e).2 he, x, (wp_same_boxes hsame p.shapes x).2 hx, h⟩)
  set S := Full.sortBlocks bs with hSd
  have hSp : S.Perm bs := ft_sort_perm bs
  have htx : ∀ b ∈ S, b.isText = true := fun b hb => (e3.text b (hSp.subset hb)).text
  obtain ⟨r, k1, k2, k3, k4, k5, k6, k7⟩ := ft_split_source c.full.base.lay hc.order hc.tol S hS
  have htr : ∀ b ∈ r, b.isText = true := by
    intro b hb
    by_contra hcon
    have : b ∈ S.filter fun b => !b.isText := k4.subset (List.mem_filter.2 ⟨hb, by simpa using hcon⟩)
    obtain ⟨m1, m2⟩ := List.mem_filter.1 this
    rw [htx b m1] at m2
    cases m2
  obtain ⟨-, s2, s3⟩ := ft_shows r _ k2 htr (k3.imp And.left) (k5.trans (hSp.flatMap_right _))
  have hfl : bs.flatMap Full.Blk.lines = js.flatMap Lns.Blk.lines := by
    rw [hbs, List.flatMap_map]
    rfl
  have hlines : (linesOn c.ws p) = ((pageBlocks c.ws p.whole).flatMap Lns.Blk.lines).map fun l => (stripLine c.ws l).1 := by
    unfold linesOn bareLines
    rw [List.map_flatMap]
  have hLperm : (r.flatMap Full.Blk.lines).Perm (linesOn c.ws p) := by
    rw [hlines]
    refine s2.trans ?_
    rw [hfl]
    exact hperm
  have hLmem : ∀ b ∈ r, ∀ l ∈ b.lines, l ∈ linesOn c.ws p := fun b hb l hl => hLperm.subset (List.mem_flatMap.2 ⟨b, hb, hl⟩)
  have hsrc : ∀ b ∈ r, ∃ y ∈ bareBlocks c.ws p.whole, (∀ l ∈ b.lines, l ∈ y.lines) ∧ Covers y.bbox b.bbox := by
    intro b hb
    obtain ⟨s, hs, -, h1, h2⟩ := k6 b hb (htr b hb)
    obtain ⟨y, hy, e, hy2⟩ := hsame.1 s (hSp.subset hs)
    exact ⟨y, hy, fun l hl => (hy2 l).1 (h1 l hl), e ▸ h2⟩
  have hown : ∀ y ∈ bareBlocks c.ws p.whole, ∃ id, ∀ l ∈ y.lines, l.pid = some id := by
    intro y hy
    obtain ⟨b0, hb0, rfl⟩ := List.mem_map.1 hy
    have := (wp_strip hp.text (fun b hb => hp.raw b (List.mem_of_mem_filter hb)) c.ws hc.blank).own (stripBlock c.ws b0) (List.mem_map_of_mem hb0)
    rw [wc_strip_lines] at this
    exact this
  have hshade : ∀ b k, Full.Sh.fill b k ∈ p.shapes → ((Full.shadingOf (Full.textBlocks S) (.fill b k)).isNone = true ↔ k ≠ Full.white) := by
    intro b k hk
    have hx : (Full.shadingOf (Full.textBlocks S) (.fill b k)).isNone = !Shapes.determined (Full.Sh.fill b k).shp (Full.textBlocks S) := by
      unfold Full.shadingOf
      dsimp only
      split_ifs with h <;> simp [h]
    rw [hx]
    constructor
    · rintro h rfl
      obtain ⟨l, hl, hcov⟩ := hd.white b hk
      have hl' : l ∈ bs.flatMap Full.Blk.lines := by rw [hfl]; exact hperm.symm.subset (hlines ▸ hl)
      obtain ⟨x, hx, hlx⟩ := List.mem_flatMap.1 hl'
      rw [fy_background b (hharm.real _ hk).1 _ bs (fun b hb => (e3.text b hb).toLineText) ⟨x, hx, l, hlx, hcov⟩] at h
      cases h
    · intro hne
      rcases hharm.fills b k hk with h | h
      · exact absurd h hne
      · rw [fw_not_shading S (fun x hx => e3.text x (hSp.subset hx)) b k fun x hx => h x (hSp.subset hx)]
        rfl
  have hareas := sy_areas p S hshade
  set rects := (Deco.candidates ⟨S, Full.mkSub S p.shapes, ⟨[], []⟩⟩ ⟨S, Full.mkSub S p.shapes, ⟨[], []⟩⟩).map (Deco.shape p.uri ⟨[], []⟩) with hrects
  refine ⟨rects, r, hareas, ?_, htr, hLperm, s3, ?_, ?_, ?_, ?_⟩
  · intro x hx
    obtain ⟨s, -, rfl⟩ := List.mem_map.1 hx
    exact sy_new _ _
  · rw [hareas, sy_texts r htr]
    refine ⟨?_, ?_⟩
    · intro a ha
      have hreal := hharm.real
      unfold drawnAreas at ha
      rw [List.mem_append, List.mem_append] at ha
      rcases ha with (ha | ha) | ha <;> obtain ⟨s, hs, he⟩ := List.mem_filterMap.1 ha <;> cases s <;> simp only [reduceCtorEq] at he
      · obtain rfl := Option.some.inj he
        exact hreal _ hs
      · split_ifs at he
        obtain rfl := Option.some.inj he
        exact hreal _ hs
      · obtain rfl := Option.some.inj he
        exact hreal _ hs
    · intro t ht
      obtain ⟨b, hb, rfl⟩ := List.mem_map.1 ht
      obtain ⟨q1, q2⟩ := k2 b hb (htr b hb)
      refine ⟨q1.boxes.1, ?_, ?_⟩
      · intro l hl
        obtain ⟨l, hl', rfl⟩ := List.mem_map.1 hl
        exact ⟨(q1.boxes.2 l hl').2, hd.lines l (hLmem b hb l hl')⟩
      · rw [List.pairwise_map]
        refine q2.imp_of_mem ?_
        intro l m hl hm h
        have := (q1.boxes.2 l hl).1.1.1.2
        have h' : l.bbox.y1 ≤ m.bbox.y0 := h
        show l.bbox.y0 ≤ m.bbox.y0
        linarith
  · rw [hareas, sy_texts r htr]
    intro t ht l hl s hs a ha
    obtain ⟨b, hb, rfl⟩ := List.mem_map.1 ht
    obtain ⟨l, hl', rfl⟩ := List.mem_map.1 hl
    exact hd.definite l (hLmem b hb l hl') s hs a ha
  · rw [hareas, sy_texts r htr]
    unfold OneBlock
    rw [List.pairwise_map]
    refine k7.imp_of_mem ?_
    intro b b' hb hb' hos a ha hl _ hov
    obtain ⟨y, hy, y1, y2⟩ := hsrc b hb
    obtain ⟨y', hy', y1', y2'⟩ := hsrc b' hb'
    have hne : y ≠ y' := by
      rintro rfl
      obtain ⟨id, hid⟩ := hown y hy
      obtain ⟨l, hl⟩ := List.exists_mem_of_ne_nil _ (k2 b hb (htr b hb)).1.nonempty
      obtain ⟨m, hm⟩ := List.exists_mem_of_ne_nil _ (k2 b' hb' (htr b' hb')).1.nonempty
      exact hos l hl m hm ((hid l (y1 l hl)).trans (hid m (y1' m hm)).symm)
    have := pl_forall hd.one (fun a b h x hx hl ho => h x hx hl ⟨ho.2, ho.1⟩) hy hy' hne a ha hl
    refine this ⟨?_, ?_⟩
    · obtain ⟨o1, o2, o3, o4⟩ := hov.1
      obtain ⟨z1, z2, z3, z4⟩ := y2
      simp only at o1 o2 o3 o4
      exact ⟨by linarith, by linarith, by linarith, by linarith⟩
    · obtain ⟨o1, o2, o3, o4⟩ := hov.2
      obtain ⟨z1, z2, z3, z4⟩ := y2'
      simp only at o1 o2 o3 o4
      exact ⟨by linarith, by linarith, by linarith, by linarith⟩
  · unfold Deco.parsePage
    rw [show cleanUp c.pipe p.box p.raw = .ok (js, []) from g2]
    dsimp only
    unfold Deco.layout Deco.parse
    rw [← hbs, ← hSd, hst]
    dsimp only
    rw [k1]
    dsimp only
    rw [sy_text_tables _ _ _ _ _ htr]
    rfl

/-- **C117** (partial: as C111 and C116). From the extracted page to the document: the section of a page of text on which lines, coloured areas and links are drawn has paragraphs only; they show
the lines of the page from top to bottom, and every character has exactly the decorations and links of the areas it lies under. -/
theorem C117_decorations_partial (c : Whole.Cfg) (hc : Sane c) (depth : ℕ) (p0 : π) (pages : List (Deco.Page π)) (d : Docx.Doc Deco.Par Sp π)
    (h : Deco.convert c (depth + 1) p0 pages = .ok d) (i : ℕ) (p : Deco.Page π) (s : π × List (Docx.Item Deco.Par Sp π))
    (hp : pages[i]? = some p) (hs : (sectionsOf d)[i]? = some s) (hd : Decorated c p) :
    (∀ t ∈ ofItems s.2, ∃ q, t = .text q) ∧ ∃ ls : List (Lay.Ln Tok), ls.Perm (linesOn c.ws p) ∧ ls.Pairwise (fun l m => Above l.bbox m.bbox) ∧
      (leaves (ofItems s.2)).flatMap parMarks = ls.flatMap fun l => lineDecorated (drawnAreas p) (Deco.line l) := by
  obtain ⟨dd, h1, h2⟩ := sy_section c (depth + 1) p0 pages d h i p s hp hs
  obtain ⟨rects, r, e1, e2, e3, e4, e5, e6, e7, e8, e9⟩ := sy_page c hc depth p hd
  rw [e9] at h1
  obtain rfl := Except.ok.inj h1
  have key := C116_decorations_partial rects (Deco.texts r) e6 (fun x hx => (e2 x hx).elim .inl fun h => .inr (.inl h)) e7 e8
  obtain ⟨q1, q2⟩ := sy_shown p.fmt _ _ r e3 key
  rw [h2]
  refine ⟨q1, _, e4, e5, ?_⟩
  rw [← e1]
  exact q2

/-- The runs of a paragraph. -/
theorem sy_runs (f : Fmt) (ts : List Styl.TBlock) (bs : List (Full.Blk Tok)) (hlen : ts.length = bs.length) (q : Deco.Par) (hq : q ∈ leaves (ofBlocks (Deco.blocks f (syStyled ts bs))))
    (is : List Text.Item) (hi : Para.Out.content is ∈ q) : ∃ t ∈ ts, ∃ l ∈ t.lines, l.items = is := by
  induction bs generalizing ts with
  | nil => simp [syStyled, Deco.blocks, ofBlocks, leaves] at hq
  | cons b bs ih =>
    cases ts with
    | nil => simp at hlen
    | cons t ts =>
      simp only [syStyled, List.headD_cons, List.tail_cons, Deco.blocks, Deco.block, ofBlocks, leaves, List.mem_cons] at hq
      rcases hq with rfl | hq
      · have hm : is ∈ Props.contents (Deco.paragraph f (b.bbox, b.lines) t) := by
          unfold Props.contents
          exact List.mem_filterMap.2 ⟨_, hi, rfl⟩
        unfold Deco.paragraph at hm
        rw [C51_lines_once_in_order, List.map_map] at hm
        obtain ⟨x, hx, rfl⟩ := List.mem_map.1 hm
        exact ⟨t, by simp, x.1, (List.mem_zipIdx hx).2.2 ▸ List.getElem_mem _, rfl⟩
      · obtain ⟨t', h1, h2⟩ := ih ts (by simpa using hlen) hq
        exact ⟨t', by simp [h1], h2⟩

/-- **C117** (partial: as C111 and C116), in the docx: every run of such a page is written with an underline exactly if lines are drawn at the bottom of its characters, struck through exactly if
lines are drawn through them, and with a background exactly if they are on coloured areas, in the colour of such a line or area. -/
theorem C117_runs_partial (c : Whole.Cfg) (hc : Sane c) (depth : ℕ) (p0 : π) (pages : List (Deco.Page π)) (d : Docx.Doc Deco.Par Sp π)
    (h : Deco.convert c (depth + 1) p0 pages = .ok d) (i : ℕ) (p : Deco.Page π) (s : π × List (Docx.Item Deco.Par Sp π))
    (hp : pages[i]? = some p) (hs : (sectionsOf d)[i]? = some s) (hd : Decorated c p) (hcol : ∀ a ∈ drawnAreas p, IsColour a.color) :
    ∀ q ∈ leaves (ofItems s.2), ∀ is, Para.Out.content is ∈ q → ∀ r, Text.Item.text r ∈ is → ∀ x ∈ r.chars, ∀ rPr, Run.format r = .ok rPr →
      ∃ l ∈ linesOn c.ws p, ∃ r0, Text.Item.text r0 ∈ (Deco.line l).items ∧ x ∈ r0.chars ∧ lookOf r = lookOf r0 ∧
        (((∃ y ∈ rPr, y.kind = .u) ↔ underlinesIn (marksOver (drawnAreas p) r0.bbox x) ≠ []) ∧
          ∀ y ∈ rPr, y.kind = .u → ∃ k ∈ underlinesIn (marksOver (drawnAreas p) r0.bbox x), Underlines r0.color.toNat k.toNat y) ∧
        (if strikesIn (marksOver (drawnAreas p) r0.bbox x) = [] then Without rPr .strike else The rPr (.strike true)) ∧
        (((∃ y ∈ rPr, isBackground y = true) ↔ highlightsIn (marksOver (drawnAreas p) r0.bbox x) ≠ []) ∧
          ∀ y ∈ rPr, isBackground y = true → ∃ k ∈ highlightsIn (marksOver (drawnAreas p) r0.bbox x), Background k.toNat y) := by
  obtain ⟨dd, h1, h2⟩ := sy_section c (depth + 1) p0 pages d h i p s hp hs
  obtain ⟨rects, R, e1, e2, e3, e4, e5, e6, e7, e8, e9⟩ := sy_page c hc depth p hd
  rw [e9] at h1
  obtain rfl := Except.ok.inj h1
  intro q hq is his r hr x hx rPr hf
  rw [h2] at hq
  have hnew : ∀ x ∈ rects, x.type = .undefined ∨ x.type = .hyperlink ∨ x.type = .border ∨ x.type = .shading := fun x hx => (e2 x hx).elim .inl fun h => .inr (.inl h)
  have key := congrArg List.length (C116_decorations_partial rects (Deco.texts R) e6 hnew e7 e8)
  rw [List.length_map, List.length_map, sy_texts R e3, List.length_map, ← sy_texts R e3] at key
  obtain ⟨t, ht, l, hl, rfl⟩ := sy_runs p.fmt _ R key q hq is his
  have fresh : ∀ b ∈ Deco.texts R, ∀ l ∈ b.lines, ∀ s, Text.Item.text s ∈ l.items → s.style = [] ∧ IsColour s.color := by
    rw [sy_texts R e3]
    intro b hb l hl s hs
    obtain ⟨b, hb', rfl⟩ := List.mem_map.1 hb
    obtain ⟨l, hl', rfl⟩ := List.mem_map.1 hl
    obtain ⟨z, hz, ez⟩ := List.mem_map.1 hs
    obtain ⟨_, z⟩ := z
    cases z with
    | text b cs =>
      simp only [toItem, Text.Item.text.injEq] at ez
      subst ez
      exact ⟨rfl, show (0 : ℤ) ≤ 0 ∧ (0 : ℤ) < 2 ^ 24 by decide⟩
    | image b t => cases t <;> simp [toItem] at ez
  have col : ∀ r ∈ rects, IsColour r.color := by
    intro r hr
    exact hcol (areaOf r) (e1 ▸ List.mem_map_of_mem hr)
  obtain ⟨b0, hb0, l0, hl0, r0, w1, w2, w3, w4⟩ := C116_rendered_partial rects (Deco.texts R) e6 hnew e7 e8 fresh col t ht l hl r hr x hx rPr hf
  rw [sy_texts R e3] at hb0
  obtain ⟨b, hb, rfl⟩ := List.mem_map.1 hb0
  obtain ⟨l0', hl0', rfl⟩ := List.mem_map.1 hl0
  rw [e1] at w4
  exact ⟨l0', e4.subset (List.mem_flatMap.2 ⟨b, hb, hl0'⟩), r0, w1, w2, w3, w4⟩

/-- **C117**: documents of such pages are converted without error, one section for each. -/
theorem C117_converts_partial (c : Whole.Cfg) (hc : Sane c) (depth : ℕ) (p0 : π) (pages : List (Deco.Page π)) (hne : pages ≠ []) (hd : ∀ p ∈ pages, Decorated c p) :
    ∃ d, Deco.convert c (depth + 1) p0 pages = .ok d ∧ (sectionsOf d).length = pages.length := by
  obtain ⟨ds, h1⟩ := ly_mapM_ok (f := Deco.parsePage c (depth + 1)) pages fun p hp => by
    obtain ⟨_, _, _, _, _, _, _, _, _, _, h⟩ := sy_page c hc depth p (hd p hp)
    exact ⟨_, h⟩
  have h2 := (pp_mapM_forall _ _ h1).length_eq
  refine ⟨_, by unfold Deco.convert; rw [h1], ?_⟩
  have hdne : ds ≠ [] := by
    rintro rfl
    exact hne (List.length_eq_zero_iff.1 h2)
  have := congrArg List.length (C31_one_section_per_page p0 ds hdne)
  simpa [h2] using this

end Main

/-! ## A page with an underlined, a struck, a highlighted and a linked character -/

/-- A title "ab " and a block of two lines, "cd" and "ef", extracted in another order. -/
def syRaw : List Raw :=
  [plText 2 ⟨20, 110, 380, 150⟩ [(⟨20, 130, 120, 150⟩, [(⟨20, 130, 60, 150⟩, 'e'), (⟨60, 130, 120, 150⟩, 'f')]), (⟨20, 110, 380, 130⟩, [(⟨20, 110, 200, 130⟩, 'c'), (⟨200, 110, 380, 130⟩, 'd')])],
   plText 1 ⟨20, 20, 310, 30⟩ [(⟨20, 20, 310, 30⟩, [(⟨20, 20, 160, 30⟩, 'a'), (⟨160, 20, 300, 30⟩, 'b'), (⟨300, 20, 310, 30⟩, ' ')])]]

/-- A white background, a red line under "a", a line through "c", "e" on yellow ground, "f" linked. -/
def syPage : Deco.Page ℕ := ⟨⟨0, 0, 400, 600⟩, ⟨0, 0, 400, 600⟩, 3, syRaw,
  [.fill ⟨0, 0, 400, 600⟩ Full.white, .link ⟨58, 131, 120, 149⟩, .fill ⟨20, 131, 62, 150⟩ 0xFFFF00, .stroke ⟨21, 57 / 2, 150, 57 / 2, ⟨21, 28, 150, 29⟩, 1, 0xFF0000⟩,
    .stroke ⟨25, 239 / 2, 180, 239 / 2, ⟨25, 119, 180, 120⟩, 1, 0⟩], fun _ => "f.pdf", fun _ _ _ _ _ => 0, ppFmt⟩

/-- The text of an item. -/
def syTexts : Text.Item → List Text.Span
  | .text s => [s]
  | .image _ _ => []

theorem sy_ex_text : TextPage whCfg syPage.whole := by
  have hb : pageBlocks whCfg.ws syPage.whole = syRaw := by decide +kernel
  refine ⟨?_, ?_, ?_, ⟨?_, ?_, ?_⟩, ?_, ?_⟩
  · intro b hb
    simp only [Deco.Page.whole, syPage, syRaw, List.mem_cons, List.not_mem_nil, or_false] at hb
    rcases hb with rfl | rfl <;> exact plText_ok _ _ _ (pp_ex_text _ _ (by decide +kernel) (by decide +kernel))
  · rw [hb]
    refine ⟨by decide +kernel, ?_, by decide +kernel, by decide +kernel, by unfold Above; decide +kernel⟩
    have : ∀ b ∈ syRaw, ∃ id ∈ [1, 2], ∀ l ∈ b.lines, l.pid = some id := by decide +kernel
    intro b hb
    obtain ⟨id, _, h⟩ := this b hb
    exact ⟨id, h⟩
  · intro bs fs h
    have : noFloats (beforeJoin whCfg.pipe syPage.whole.box syPage.whole.raw) = true := by decide +kernel
    rw [h] at this
    simpa [noFloats] using this
  · have : ∀ s ∈ syPage.shapes, s.bbox.x0 < s.bbox.x1 ∧ s.bbox.y0 < s.bbox.y1 ∧ Rect.round s.bbox = s.bbox := by decide +kernel
    intro s hs
    exact ly_ex_real (this s hs)
  · unfold InLine Covers Near; decide +kernel
  · intro r k h
    simp only [Deco.Page.whole, syPage, List.mem_cons, Full.Sh.fill.injEq, reduceCtorEq, List.not_mem_nil, or_false, false_or] at h
    rcases h with ⟨rfl, rfl⟩ | ⟨rfl, rfl⟩
    · exact Or.inl rfl
    · right; unfold CoversLittle; decide +kernel
  · decide +kernel
  · unfold NotTwoColumns; decide +kernel

theorem sy_ex_decorated : Decorated whCfg syPage := by
  refine ⟨sy_ex_text, ?_, ?_, ?_, by decide +kernel⟩
  · intro b hb
    obtain rfl : b = ⟨0, 0, 400, 600⟩ := by simpa [syPage, Full.white] using hb
    decide +kernel
  · intro l hl
    refine ⟨?_, ?_, ?_⟩
    · revert l; decide +kernel
    · refine ly_ex_real ?_
      revert l; decide +kernel
    · intro i hi
      refine ⟨?_, ?_⟩
      · revert i; revert l; decide +kernel
      · cases i with
        | image b n =>
          exfalso
          have : ∀ l ∈ linesOn whCfg.ws syPage, ∀ i ∈ (Deco.line l).items, (match i with | .image _ _ => false | _ => true) = true := by decide +kernel
          simpa using this l hl _ hi
        | text s =>
          have hreal : ∀ l ∈ linesOn whCfg.ws syPage, ∀ i ∈ (Deco.line l).items, i.bbox.x0 < i.bbox.x1 ∧ i.bbox.y0 < i.bbox.y1 ∧ Rect.round i.bbox = i.bbox := by decide +kernel
          have hrest : ∀ l ∈ linesOn whCfg.ws syPage, ∀ s ∈ (Deco.line l).items.flatMap syTexts,
              ((∀ c ∈ s.chars, c.bbox.x0 < c.bbox.x1 ∧ s.bbox.x0 ≤ c.bbox.x0 ∧ c.bbox.x1 ≤ s.bbox.x1 ∧ c.bbox.y0 = s.bbox.y0 ∧ c.bbox.y1 = s.bbox.y1) ∧
                  s.chars.Pairwise fun c d => c.bbox.x1 ≤ d.bbox.x0) ∧
                (∀ a ∈ drawnAreas syPage, Meets a.box s.bbox → ∀ c ∈ s.chars, a.box.x0 ≠ mid c ∧ a.box.x1 ≠ mid c) ∧
                (∀ a ∈ drawnAreas syPage, IsMark a s.bbox → a.box.y1 ≠ s.bbox.y0 ∧ a.box.y0 ≠ s.bbox.y1) ∧
                ∀ i (hi : i < (drawnAreas syPage).length), Meets (drawnAreas syPage)[i].box s.bbox → (∃ r ∈ (drawnAreas syPage).drop (i + 1), IsMark r s.bbox ∧
                  ∃ c ∈ s.chars, Under r.box c ∧ mid c < (drawnAreas syPage)[i].box.x1 ∧ ¬ Half (drawnAreas syPage)[i].box c) → Clean ((drawnAreas syPage).take i) (drawnAreas syPage)[i].box s := by
            decide +kernel
          obtain ⟨⟨h1, h2⟩, h3, h4, h5⟩ := hrest l hl s (List.mem_flatMap.2 ⟨_, hi, by simp [syTexts]⟩)
          refine ⟨⟨ly_ex_real (hreal l hl _ hi), h1, h2⟩, h3, h4, ?_⟩
          exact fo_splits _ (fun before q later => Meets q.box s.bbox → (∃ r ∈ later, IsMark r s.bbox ∧ ∃ c ∈ s.chars, Under r.box c ∧ mid c < q.box.x1 ∧ ¬ Half q.box c) → Clean before q.box s) h5
  · intro l hl s hs a ha hm
    have : ∀ l ∈ linesOn whCfg.ws syPage, ∀ i ∈ (Deco.line l).items, ∀ a ∈ drawnAreas syPage, Meets a.box i.bbox → Definite a i.bbox := by decide +kernel
    exact this l hl _ hs a ha hm

/-- Non-vacuity: the page meets the hypotheses; here is what its section looks like. -/
example : ∃ d, Deco.convert whCfg 1 0 [syPage] = .ok d ∧ ∀ (i : ℕ) (s : ℕ × List (Docx.Item Deco.Par Sp ℕ)), (sectionsOf d)[i]? = some s →
    (((leaves (ofItems s.2)).flatMap parMarks).filterMap fun | .inl _ => none | .inr (c, _, m) => some (c.c, m)) =
      [('a', [.underline 0xFF0000]), ('b', []), (' ', []), ('c', [.strike 0]), ('d', []), ('e', [.highlight 0xFFFF00]), ('f', [.link "f.pdf"])] := by
  obtain ⟨d, hd, hl⟩ := C117_converts_partial whCfg wh_ex_sane 0 0 [syPage] (by simp) (by intro p hp; rw [List.mem_singleton] at hp; subst hp; exact sy_ex_decorated)
  refine ⟨d, hd, ?_⟩
  intro i s hs
  have hi : i < 1 := by
    have := (List.getElem?_eq_some_iff.1 hs).1
    rw [hl] at this
    simpa using this
  obtain rfl : i = 0 := by omega
  obtain ⟨_, L, h1, h2, h3⟩ := C117_decorations_partial whCfg wh_ex_sane 0 0 [syPage] d hd 0 syPage s rfl hs sy_ex_decorated
  rw [h3]
  -- the order of the lines is determined by their boxes
  have hu := List.Perm.eq_of_pairwise (le := fun l m : Lay.Ln Tok => Above l.bbox m.bbox) (l₁ := L) (l₂ := sortBy (fun l : Lay.Ln Tok => l.bbox.y0) (linesOn whCfg.ws syPage)) ?_ h2 ?_
    (h1.trans (sortBy_perm _ _).symm)
  · rw [hu]; decide +kernel
  · intro a b ha hb h1' h2'
    have : ∀ a ∈ linesOn whCfg.ws syPage, ∀ b ∈ linesOn whCfg.ws syPage, Above a.bbox b.bbox → Above b.bbox a.bbox → False := by unfold Above; decide +kernel
    exact (this a (h1.subset ha) b ((mem_sortBy _ _ _).1 hb) h1' h2').elim
  · unfold Above; decide +kernel

/-- The colours of the page are colours (hypothesis of `C117_runs_partial`). -/
example : ∀ a ∈ drawnAreas syPage, IsColour a.color := by unfold IsColour; decide +kernel

end Props
