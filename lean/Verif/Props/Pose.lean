import Verif.Spec.Pose
import Verif.Props.StyledSound
import Verif.Props.Sound
import Verif.Props.WholeShade
/-! # C120: computed formats change no content -/

namespace Props
open Geom Py Pipe Spec

section Lines
open Pose (TL tlines lns)

theorem po_tlines_snd (ls : List (Lay.Ln Tok)) (s : Styl.TBlock) (h : s.lines.length = ls.length) : (tlines ls s).map Prod.snd = s.lines.map fun l => l.items := by
  unfold tlines
  refine List.ext_getElem (by simp [h]) ?_
  intro i h1 h2
  simp

theorem po_lns (h : Bool) (ls : List TL) (brk : List Bool) : (lns h ls brk).map (fun l => l.content) = ls.map Prod.snd := by
  induction ls generalizing brk with
  | nil => rfl
  | cons l ls ih => simp only [lns, List.map_cons, ih]

/-- What is written of a block: its styled lines. -/
theorem po_paragraph (b : Rect) (ls : List (Lay.Ln Tok)) (s : Styl.TBlock) (h : s.lines.length = ls.length) (sp : Spacing.Sp) (f : Pose.Form) :
    lineTexts (Pose.paragraph b (tlines ls s) sp f).content = s.lines.map fun l => l.items := by
  have := C51_lines_once_in_order _ f.hsp.left (Pose.along f.horizontal b).1 (Para.writtenStops f.hsp) f.hsp.left (lns f.horizontal (tlines ls s) f.breaks)
  rw [po_lns, po_tlines_snd ls s h] at this
  exact this

theorem po_deco (f : Fmt) (t : TBlk) (s : Styl.TBlock) : lineTexts (Deco.paragraph f t s) = s.lines.map fun l => l.items := by
  have := C51_lines_once_in_order _ (f.left t) (f.start t) (f.stops t) (f.left t) (s.lines.zipIdx.map fun l => (⟨f.ext t l.2, l.1.items, f.brk t l.2, f.same t l.2⟩ : Para.Ln _))
  refine Eq.trans this ?_
  rw [List.map_map]
  refine List.ext_getElem (by simp) ?_
  intro i h1 h2
  simp

end Lines

section Layouts

theorem po_length {ls : List (Lay.Ln Tok)} {s : Styl.TBlock} (h : ∀ l ∈ ls, LineOK l) (hs : Same ls s) : s.lines.length = ls.length := by
  simpa using congrArg List.length (hs h)

mutual
theorem po_go (c : Pose.Cfg) (f : Fmt) (box : Rect) (fs : List (Spacing.Sp × Option Pose.Form)) : (bs : List Deco.Blk) → (xs : List Pose.Blk) → Pose.go c box fs bs = .ok xs →
    (∀ t ∈ Lay.texts (Full.erase (Deco.plain bs)), TextOK t) → blksSame bs →
    mapTrees (fun q => lineTexts q.content) (ofBlocks (Pose.blocks xs)) = mapTrees lineTexts (ofBlocks (Deco.blocks f bs))
  | [], xs, h, _, _ => by
    unfold Pose.go at h
    obtain rfl := Except.ok.inj h
    simp [Pose.blocks, Deco.blocks, ofBlocks, mapTrees]
  | b :: bs, xs, h, h1, h2 => by
    unfold Pose.go at h
    cases h3 : Pose.one c box (fs.headD (⟨0, 0, 0⟩, none)) b with
    | error e => rw [h3] at h; cases h
    | ok x =>
      rw [h3] at h
      dsimp only at h
      cases h4 : Pose.go c box fs.tail bs with
      | error e => rw [h4] at h; cases h
      | ok r =>
        rw [h4] at h
        obtain rfl := Except.ok.inj h
        simp only [Deco.plain, Full.erase, Lay.texts, List.mem_append, or_imp, forall_and] at h1
        simp only [blksSame] at h2
        have k1 := po_one c f box _ b x h3 h1.1 h2.1
        have k2 := po_go c f box fs.tail bs r h4 h1.2 h2.2
        simp only [Pose.blocks, Deco.blocks]
        have split : ∀ {α : Type} (y : Docx.Block α) (ys : List (Docx.Block α)), ofBlocks (y :: ys) = ofBlocks [y] ++ ofBlocks ys := by
          intro α y ys
          cases y <;> simp [ofBlocks]
        rw [split (Pose.block x), split (Deco.block f b), sx_trees, sx_trees, List.map_append, List.map_append, ← sx_trees, ← sx_trees, ← sx_trees, ← sx_trees, k1, k2]
theorem po_one (c : Pose.Cfg) (f : Fmt) (box : Rect) (sf : Spacing.Sp × Option Pose.Form) : (b : Deco.Blk) → (x : Pose.Blk) → Pose.one c box sf b = .ok x →
    (∀ t ∈ b.plain.erase.texts, TextOK t) → blkSame b →
    mapTrees (fun q => lineTexts q.content) (ofBlocks [Pose.block x]) = mapTrees lineTexts (ofBlocks [Deco.block f b])
  | .text b ls s, x, h, h1, h2 => by
    obtain ⟨sp, fo⟩ := sf
    cases fo with
    | none => cases h
    | some fo =>
      obtain rfl := Except.ok.inj h
      simp only [Pose.block, Deco.block, ofBlocks, mapTrees]
      rw [po_paragraph b ls s, po_deco]
      have := h1 (b, ls) (by simp [Deco.Blk.plain, Full.Blk.erase, Lay.Blk.texts])
      exact po_length (fun l hl => (this.2 l hl).1) (by simpa only [blkSame] using h2)
  | .table b g cs, x, h, h1, h2 => by
    obtain ⟨sp, fo⟩ := sf
    have h : (match Pose.cells c cs with
      | .error e => Except.error e
      | .ok r => .ok (Pose.Blk.table b (b.x0 - box.x0) sp.before g r)) = .ok x := by
      cases fo <;> exact h
    cases h3 : Pose.cells c cs with
    | error e => rw [h3] at h; cases h
    | ok r =>
      rw [h3] at h
      obtain rfl := Except.ok.inj h
      simp only [Pose.block, Deco.block, ofBlocks, mapTrees]
      rw [sx_rows, sx_rows]
      have key := po_cells c f cs r h3 (by simpa [Deco.Blk.plain, Full.Blk.erase, Lay.Blk.texts] using h1) (by simpa only [blkSame] using h2)
      exact congrArg (fun x => [Tree.table x]) (sx_place _ _ g _ _ key)
theorem po_cells (c : Pose.Cfg) (f : Fmt) : (cs : List (Full.Cell × List Deco.Blk)) → (r : List (Full.Cell × List Pose.Blk)) → Pose.cells c cs = .ok r →
    (∀ t ∈ Lay.cellsTexts (Full.eraseCells (Deco.plainCells cs)), TextOK t) → cellsSame cs →
    (Pose.cellBlocks r).map (fun bs => mapTrees (fun q => lineTexts q.content) (ofBlocks bs)) = (Deco.cells f cs).map fun bs => mapTrees lineTexts (ofBlocks bs)
  | [], r, h, _, _ => by
    unfold Pose.cells at h
    obtain rfl := Except.ok.inj h
    simp [Pose.cellBlocks, Deco.cells]
  | (k, bs) :: cs, r, h, h1, h2 => by
    unfold Pose.cells at h
    cases h3 : Pose.forms c k.info.working bs with
    | error e => rw [h3] at h; cases h
    | ok fs =>
      rw [h3] at h
      dsimp only at h
      cases h4 : Pose.go c k.info.working fs bs with
      | error e => rw [h4] at h; cases h
      | ok x =>
        rw [h4] at h
        dsimp only at h
        cases h5 : Pose.cells c cs with
        | error e => rw [h5] at h; cases h
        | ok q =>
          rw [h5] at h
          obtain rfl := Except.ok.inj h
          simp only [Deco.plainCells, Full.eraseCells, Lay.cellsTexts, List.mem_append, or_imp, forall_and] at h1
          simp only [cellsSame] at h2
          simp only [Pose.cellBlocks, Deco.cells, List.map_cons]
          rw [po_go c f _ fs bs x h4 h1.1 h2.1, po_cells c f cs q h5 h1.2 h2.2]
end

end Layouts

section Pages

/-- The blocks of a cleaned-up page, and what is parsed from them, have real boxes. -/
theorem po_boxes (c : Whole.Cfg) (hi : ∀ l, (c.full.base.lay.iter l).Perm l) (uri : Rect → String) (ids : Lay.Ids) (depth : ℕ) (work : Rect) (shapes : List Full.Sh)
    (js : List Raw) (hjs : ∀ b ∈ js, TextOK (b.bbox, b.lines)) (r) (h : Deco.layout c.full uri ids depth work shapes (js.map fun b => .text b.bbox b.lines) = .ok r) :
    (∀ t ∈ Lay.texts (Full.erase (Deco.plain r.1)), TextOK t) ∧ blksSame r.1 := by
  refine ⟨?_, sx_parse _ _ _ _ _ _ _ _ _ h⟩
  unfold Deco.layout at h
  have href := sy_refines c.full uri ids depth [] work [0, 1, 2]
    ⟨Full.sortBlocks (js.map fun b => .text b.bbox b.lines), Full.mkSub (Full.sortBlocks (js.map fun b => .text b.bbox b.lines)) shapes, ⟨[], []⟩⟩
  rw [h] at href
  have hfull : Full.parsePage c.full (Deco.format uri) ids depth work shapes (js.map fun b => .text b.bbox b.lines) = _ := href.symm
  have e : ∀ bs : List (Full.Blk Tok), Full.erase bs = bs.map Full.Blk.erase := by
    intro bs
    induction bs with
    | nil => simp [Full.erase]
    | cons b bs ih => simp [Full.erase, ih]
  rw [e]
  refine C83_shapes_boxes_nested c.full hi (Deco.format uri) ids depth work shapes _ _ _ ?_ hfull
  intro t ht
  rw [List.map_map] at ht
  have hm : (js.map (Full.Blk.erase ∘ fun b => Full.Blk.text b.bbox b.lines)) = js.map fun b => Lay.Blk.text b.bbox b.lines := by
    apply List.map_congr_left
    intro b _
    simp [Full.Blk.erase]
  rw [hm, pp_texts_map] at ht
  obtain ⟨b, hb, rfl⟩ := List.mem_map.1 ht
  exact hjs b hb

/-- The two pages have the same contents. -/
def SameLines {π : Type} (d : Docx.PageData Pose.Par Sp π) (d' : Docx.PageData Deco.Par Sp π) : Prop :=
  d.props = d'.props ∧ mapTrees (fun q => lineTexts q.content) (ofBlocks d.blocks) = mapTrees lineTexts (ofBlocks d'.blocks) ∧ d.floats = d'.floats

theorem po_page (c : Pose.Cfg) (hws : c.whole.ws ' ' = true) (hi : ∀ l, (c.whole.full.base.lay.iter l).Perm l) (f : Fmt) (depth : ℕ) (p : Pose.Page) (hraw : ∀ b ∈ p.raw, RawOK b)
    (d) (h : Pose.parsePage c depth p = .ok d) : ∃ d', Deco.parsePage c.whole depth (withFormats c f p) = .ok d' ∧ SameLines d d' := by
  obtain ⟨js, fs, bs, -, g2, g3, -, -, -, -⟩ := pp_cleanUp c.whole.pipe hws hi p.box p.raw hraw
  have hc : cleaned c p = js := by unfold cleaned; rw [g2]
  unfold Pose.parsePage at h
  unfold Deco.parsePage
  rw [show cleanUp c.whole.pipe (withFormats c f p).box (withFormats c f p).raw = .ok (js, fs) from g2]
  rw [g2] at h
  dsimp only at h ⊢
  have ew : (withFormats c f p).work = p.workOf c js := by unfold withFormats; rw [hc]
  have es : (withFormats c f p).props = p.sect c js := by unfold withFormats; rw [hc]
  rw [ew, es]
  change ∃ d', (match Deco.layout c.whole.full p.uri p.ids depth (p.workOf c js) p.shapes (js.map fun b => .text b.bbox b.lines) with
    | .error e => Except.error e
    | .ok bs => .ok (⟨p.sect c js, Deco.blocks f bs.1, fs⟩ : Docx.PageData Deco.Par Sp Pose.Sect)) = .ok d' ∧ _
  cases h1 : Deco.layout c.whole.full p.uri p.ids depth (p.workOf c js) p.shapes (js.map fun b => .text b.bbox b.lines) with
  | error e => rw [h1] at h; cases h
  | ok r =>
    rw [h1] at h
    dsimp only at h ⊢
    refine ⟨_, rfl, ?_⟩
    cases h2 : Pose.layout c (p.workOf c js) r.1 with
    | error e => rw [h2] at h; cases h
    | ok x =>
      rw [h2] at h
      obtain rfl := Except.ok.inj h
      obtain ⟨k1, k2⟩ := po_boxes c.whole hi p.uri p.ids depth (p.workOf c js) p.shapes js (fun b hb => (g3 b hb).1) r h1
      refine ⟨rfl, ?_, rfl⟩
      unfold Pose.layout at h2
      cases h3 : Pose.forms c (p.workOf c js) r.1 with
      | error e => rw [h3] at h2; cases h2
      | ok fo => rw [h3] at h2; exact po_go c f _ fo r.1 x h2 k1 k2

end Pages

section Main120
variable {π : Type}

/-- **C120**: computing spacing, indents, alignment, tab stops and line breaks changes no content: whatever is drawn on the pages, the document has the sections, the anchored pictures and, in the
same paragraphs and tables, the same lines of text with the same styles as with any given formats. -/
theorem C120_same_content (c : Pose.Cfg) (hws : c.whole.ws ' ' = true) (hi : ∀ l, (c.whole.full.base.lay.iter l).Perm l) (f : Fmt) (depth : ℕ) (s0 : Pose.Sect) (pages : List Pose.Page)
    (hne : pages ≠ []) (hraw : ∀ p ∈ pages, ∀ b ∈ p.raw, RawOK b) (d : Docx.Doc Pose.Par Sp Pose.Sect) (h : Pose.convert c depth s0 pages = .ok d) :
    ∃ d', Deco.convert c.whole depth s0 (pages.map (withFormats c f)) = .ok d' ∧ floatsOf d.body = floatsOf d'.body ∧
      (sectionsOf d).map (fun s => (s.1, mapTrees (fun q => lineTexts q.content) (ofItems s.2))) = (sectionsOf d').map fun s => (s.1, mapTrees lineTexts (ofItems s.2)) := by
  unfold Pose.convert at h
  cases h1 : pages.mapM (Pose.parsePage c depth) with
  | error e => rw [h1] at h; cases h
  | ok ds =>
    rw [h1] at h
    obtain rfl := Except.ok.inj h
    have key : ∀ (pages : List Pose.Page) (ds : List (Docx.PageData Pose.Par Sp Pose.Sect)), (∀ p ∈ pages, ∀ b ∈ p.raw, RawOK b) → pages.mapM (Pose.parsePage c depth) = .ok ds →
        ∃ ds', (pages.map (withFormats c f)).mapM (Deco.parsePage c.whole depth) = .ok ds' ∧ List.Forall₂ SameLines ds ds' := by
      intro pages ds hraw h1
      replace h1 := pp_mapM_forall _ _ h1
      induction h1 with
      | nil => exact ⟨[], rfl, .nil⟩
      | cons hp _ ih =>
        obtain ⟨d', e1, e2⟩ := po_page c hws hi f depth _ (hraw _ (by simp)) _ hp
        obtain ⟨ds', e3, e4⟩ := ih fun q hq => hraw q (by simp [hq])
        refine ⟨d' :: ds', ?_, .cons e2 e4⟩
        rw [List.map_cons, List.mapM_cons, e1, e3]
        rfl
    obtain ⟨ds', h2, h3⟩ := key pages ds hraw h1
    refine ⟨Docx.makeDoc s0 ds', by unfold Deco.convert; rw [h2], ?_⟩
    have hdne : ds ≠ [] := by
      rintro rfl
      have := (pp_mapM_forall _ _ h1).length_eq
      exact hne (List.length_eq_zero_iff.1 this)
    have hdne' : ds' ≠ [] := by
      rintro rfl
      exact hdne (List.forall₂_nil_right_iff.1 h3)
    clear h1 h2 key h
    refine ⟨?_, ?_⟩
    · rw [pp_floats, pp_floats]
      clear hdne hdne'
      induction h3 with
      | nil => rfl
      | cons h _ ih => rw [List.flatMap_cons, List.flatMap_cons, ih, h.2.2]
    · have e1 := congrArg (List.map fun s => (s.1, mapTrees (fun q => lineTexts q.content) s.2)) (C31_one_section_per_page s0 ds hdne)
      have e2 := congrArg (List.map fun s => (s.1, mapTrees lineTexts s.2)) (C31_one_section_per_page s0 ds' hdne')
      rw [List.map_map, List.map_map] at e1 e2
      refine e1.trans (Eq.trans ?_ e2.symm)
      clear hdne hdne' e1 e2
      induction h3 with
      | nil => rfl
      | cons h _ ih => rw [List.map_cons, List.map_cons, ih]; congr 1; exact Prod.ext h.1 h.2.1

end Main120

section Transfer120

theorem po_toks (p : Par) : parToks p = (lineTexts p).flatMap fun ws => ws.flatMap wordToks := by
  unfold parToks lineTexts
  induction p with
  | nil => rfl
  | cons o p ih =>
    cases o with
    | content a => rw [List.filterMap_cons_some (by rfl), List.flatMap_cons, List.flatMap_cons, ih]
    | tab => rw [List.filterMap_cons_none (by rfl), List.flatMap_cons, ih]; rfl
    | brk => rw [List.filterMap_cons_none (by rfl), List.flatMap_cons, ih]; rfl

theorem po_shows {ws : Char → Bool} {ts ts' : List (Spec.Tree Par)} {ls : List (Lay.Ln Tok)} (h : mapTrees lineTexts ts = mapTrees lineTexts ts') (hs : ShowsLines ws ts' ls) : ShowsLines ws ts ls := by
  obtain ⟨h1, L, h2, h3, h4⟩ := hs
  refine ⟨?_, L, h2, h3, ?_⟩
  · intro t ht
    cases t with
    | text p => exact ⟨p, rfl⟩
    | table rows =>
      exfalso
      have : mapTree lineTexts (.table rows) ∈ ts'.map (mapTree lineTexts) := by
        rw [← sx_trees, ← h, sx_trees]
        exact List.mem_map_of_mem ht
      obtain ⟨t', ht', e⟩ := List.mem_map.1 this
      obtain ⟨p, rfl⟩ := h1 t' ht'
      cases e
  · rw [← h4]
    unfold shownIn
    congr 1
    have key : ∀ ts : List (Spec.Tree Par), (leaves ts).flatMap parToks = (leaves (mapTrees lineTexts ts)).flatMap fun q => q.flatMap fun ws => ws.flatMap wordToks := by
      intro ts
      rw [sx_leaves, List.flatMap_map]
      exact List.flatMap_congr fun p _ => po_toks p
    rw [key, key, h]

theorem po_table {ws : Char → Bool} {X Y : ℕ → ℚ} {r k : ℕ} {ts ts' : List (Spec.Tree Par)} {ls : List (Lay.Ln Tok)} (h : mapTrees lineTexts ts = mapTrees lineTexts ts')
    (hs : TableShown ws X Y r k ls ts') : TableShown ws X Y r k ls ts := by
  obtain ⟨above, rows, below, rfl, h1, h2, h3, h4⟩ := hs
  rw [sx_trees, sx_trees, List.map_append, List.map_cons] at h
  obtain ⟨a, b', rfl, ha, hb⟩ := List.map_eq_append_iff.1 h
  obtain ⟨t, b, rfl, ht, hb1⟩ := List.map_eq_cons_iff.1 hb
  rw [← sx_trees, ← sx_trees] at ha hb1
  cases t with
  | text p => cases ht
  | table rows' =>
    have hr : mapRows lineTexts rows' = mapRows lineTexts rows := by simpa [mapTree] using ht
    rw [sx_maprows, sx_maprows] at hr
    refine ⟨a, rows', b, rfl, po_shows ha h1, po_shows hb1 h2, ?_, ?_⟩
    · rw [← h3]
      simpa using congrArg List.length hr
    · intro i hi
      obtain ⟨row, e1, e2, e3⟩ := h4 i hi
      have e := congrArg (fun l => l[i]?) hr
      simp only [List.getElem?_map, e1, Option.map_some] at e
      obtain ⟨row', e4, e5⟩ := Option.map_eq_some_iff.1 e
      refine ⟨row', e4, ?_, ?_⟩
      · rw [← e2]
        simpa using congrArg List.length e5
      · intro j hj
        obtain ⟨c, c1, c2⟩ := e3 j hj
        have f := congrArg (fun l => l[j]?) e5
        simp only [List.getElem?_map, c1, Option.map_some] at f
        obtain ⟨c', f1, f2⟩ := Option.map_eq_some_iff.1 f
        cases c' with
        | none => cases f2
        | some c' => exact ⟨c', f1, po_shows (Option.some.inj f2) c2⟩

/-- Equal lines are written as equal lines. -/
theorem po_formatted (ws : Char → Bool) {ts : List (Spec.Tree Pose.Par)} {ts' : List (Spec.Tree Deco.Par)} (h : mapTrees (fun q => lineTexts q.content) ts = mapTrees lineTexts ts') :
    mapTrees lineTexts (formatted ws ts) = mapTrees lineTexts (written ws ts') := by
  have key : ∀ p : Deco.Par, lineTexts (p.map (mapOut fun is => is.map (toWord ws))) = (lineTexts p).map fun is => is.map (toWord ws) := by
    intro p
    unfold lineTexts
    induction p with
    | nil => rfl
    | cons o p ih =>
      cases o with
      | content a => rw [List.map_cons, List.filterMap_cons_some (by rfl), List.filterMap_cons_some (by rfl), List.map_cons, ih]
      | tab => rw [List.map_cons, List.filterMap_cons_none (by rfl), List.filterMap_cons_none (by rfl), ih]
      | brk => rw [List.map_cons, List.filterMap_cons_none (by rfl), List.filterMap_cons_none (by rfl), ih]
  unfold formatted written
  rw [sx_comp, sx_comp, sx_comp]
  have e1 : (fun a : Pose.Par => lineTexts (a.content.map (mapOut fun is => is.map (toWord ws)))) = fun a => (fun l : List (List Text.Item) => l.map fun is => is.map (toWord ws)) (lineTexts a.content) := by
    funext a
    exact key _
  have e2 : (fun a : Deco.Par => lineTexts (a.map (mapOut fun is => is.map (toWord ws)))) = fun a => (fun l : List (List Text.Item) => l.map fun is => is.map (toWord ws)) (lineTexts a) := by
    funext a
    exact key _
  rw [e1, e2, ← sx_comp, ← sx_comp lineTexts, h]

/-- What is shown for a page with any given formats is shown with the computed ones. -/
theorem po_section (c : Pose.Cfg) (hws : c.whole.ws ' ' = true) (hi : ∀ l, (c.whole.full.base.lay.iter l).Perm l) (f : Fmt) (depth : ℕ) (s0 : Pose.Sect) (pages : List Pose.Page)
    (hraw : ∀ p ∈ pages, ∀ b ∈ p.raw, RawOK b) (d : Docx.Doc Pose.Par Sp Pose.Sect) (h : Pose.convert c depth s0 pages = .ok d) (i : ℕ) (p : Pose.Page)
    (s : Pose.Sect × List (Docx.Item Pose.Par Sp Pose.Sect)) (hp : pages[i]? = some p) (hs : (sectionsOf d)[i]? = some s) :
    ∃ d' s', Deco.convert c.whole depth s0 (pages.map (withFormats c f)) = .ok d' ∧ (sectionsOf d')[i]? = some s' ∧ s.1 = s'.1 ∧
      mapTrees (fun q => lineTexts q.content) (ofItems s.2) = mapTrees lineTexts (ofItems s'.2) := by
  have hne : pages ≠ [] := by rintro rfl; cases hp
  obtain ⟨d', h1, -, h2⟩ := C120_same_content c hws hi f depth s0 pages hne hraw d h
  have e := congrArg (fun l => l[i]?) h2
  simp only [List.getElem?_map, hs, Option.map_some] at e
  obtain ⟨s', e1, e2⟩ := Option.map_eq_some_iff.1 e.symm
  exact ⟨d', s', h1, e1, (Prod.mk.inj e2).1.symm, (Prod.mk.inj e2).2.symm⟩

theorem po_withFormats (c : Pose.Cfg) (f : Fmt) (pages : List Pose.Page) (hraw : ∀ p ∈ pages, ∀ b ∈ p.raw, RawOK b) : ∀ p ∈ pages.map (withFormats c f), ∀ b ∈ p.raw, RawOK b := by
  intro p hp
  obtain ⟨q, hq, rfl⟩ := List.mem_map.1 hp
  exact hraw q hq

/-- **C120**: one section for each page, with the size of the page and the margins found on it. -/
theorem C120_sections (c : Pose.Cfg) (depth : ℕ) (s0 : Pose.Sect) (pages : List Pose.Page) (hne : pages ≠ []) (d : Docx.Doc Pose.Par Sp Pose.Sect) (h : Pose.convert c depth s0 pages = .ok d) :
    (sectionsOf d).map Prod.fst = pages.map fun p => p.sect c (cleaned c p) := by
  unfold Pose.convert at h
  cases h1 : pages.mapM (Pose.parsePage c depth) with
  | error e => rw [h1] at h; cases h
  | ok ds =>
    rw [h1] at h
    obtain rfl := Except.ok.inj h
    have h2 := pp_mapM_forall _ _ h1
    have hdne : ds ≠ [] := by
      rintro rfl
      exact hne (List.length_eq_zero_iff.1 h2.length_eq)
    have e1 := congrArg (List.map Prod.fst) (C31_one_section_per_page s0 ds hdne)
    rw [List.map_map] at e1
    refine e1.trans ?_
    clear e1 hdne h1 hne h
    induction h2 with
    | nil => rfl
    | cons hp _ ih =>
      rw [List.map_cons, List.map_cons, List.map_cons, ih]
      congr 1
      unfold Pose.parsePage at hp
      unfold cleaned
      split at hp
      · cases hp
      rename_i r hr
      rw [hr]
      split at hp
      · cases hp
      split at hp
      · cases hp
      obtain rfl := Except.ok.inj hp
      rfl

/-- **C120** (C108, partial as there): around and in a drawn table exactly the text of the page that is there; nothing but the page is given. -/
theorem C120_table_partial (c : Pose.Cfg) (hc : Sane c.whole) {X Y : ℕ → ℚ} {r k : ℕ} {W gap : ℚ} (hg : Grid X Y r k W gap) (hw : WideFor c.whole.full W gap) (f : Fmt) (depth : ℕ) (s0 : Pose.Sect)
    (pages : List Pose.Page) (hraw : ∀ p ∈ pages, ∀ b ∈ p.raw, RawOK b) (d : Docx.Doc Pose.Par Sp Pose.Sect) (h : Pose.convert c (depth + 2) s0 pages = .ok d) (i : ℕ) (p : Pose.Page)
    (s : Pose.Sect × List (Docx.Item Pose.Par Sp Pose.Sect)) (hp : pages[i]? = some p) (hs : (sectionsOf d)[i]? = some s)
    (hgp : GridPage c.whole X Y r k W (withFormats c f p).whole) :
    TableShown c.whole.ws X Y r k ((pageBlocks c.whole.ws (withFormats c f p).whole).flatMap Lns.Blk.lines) (formatted c.whole.ws (ofItems s.2)) := by
  obtain ⟨d', s', h1, h2, -, h3⟩ := po_section c hc.blank hc.order f _ s0 pages hraw d h i p s hp hs
  exact po_table (po_formatted _ h3) (C108_styled_partial c.whole hc hg hw depth s0 _ (po_withFormats c f pages hraw) d' h1 i (withFormats c f p) s'
    (by rw [List.getElem?_map, hp]; rfl) h2 hgp)

theorem po_whole (c : Pose.Cfg) (hws : c.whole.ws ' ' = true) (hi : ∀ l, (c.whole.full.base.lay.iter l).Perm l) (f : Fmt) (depth : ℕ) (s0 : Pose.Sect) (pages : List Pose.Page)
    (hraw : ∀ p ∈ pages, ∀ b ∈ p.raw, RawOK b) (d : Docx.Doc Pose.Par Sp Pose.Sect) (h : Pose.convert c depth s0 pages = .ok d) (i : ℕ) (p : Pose.Page)
    (s : Pose.Sect × List (Docx.Item Pose.Par Sp Pose.Sect)) (hp : pages[i]? = some p) (hs : (sectionsOf d)[i]? = some s) :
    ∃ d' s' t, Whole.convert c.whole depth s0 ((pages.map (withFormats c f)).map Deco.Page.whole) = .ok d' ∧ (sectionsOf d')[i]? = some s' ∧
      mapTrees lineTexts (formatted c.whole.ws (ofItems s.2)) = mapTrees lineTexts (written c.whole.ws t) ∧ mapTrees plainPar (written c.whole.ws t) = mapTrees plainPar (ofItems s'.2) := by
  obtain ⟨d1, s1, h1, h2, -, h3⟩ := po_section c hws hi f _ s0 pages hraw d h i p s hp hs
  obtain ⟨d', s', h4, h5, h6⟩ := sx_section c.whole hws hi depth s0 _ (po_withFormats c f pages hraw) d1 h1 i (withFormats c f p) s1 (by rw [List.getElem?_map, hp]; rfl) h2
  exact ⟨d', s', ofItems s1.2, h4, h5, po_formatted _ h3, h6⟩

/-- **C120** (C111, partial as there): the section of a page of text has paragraphs only, which show exactly the lines of the page from top to bottom; nothing but the page is given. -/
theorem C120_text_partial (c : Pose.Cfg) (hc : Sane c.whole) (f : Fmt) (depth : ℕ) (s0 : Pose.Sect) (pages : List Pose.Page) (hraw : ∀ p ∈ pages, ∀ b ∈ p.raw, RawOK b)
    (d : Docx.Doc Pose.Par Sp Pose.Sect) (h : Pose.convert c (depth + 1) s0 pages = .ok d) (i : ℕ) (p : Pose.Page)
    (s : Pose.Sect × List (Docx.Item Pose.Par Sp Pose.Sect)) (hp : pages[i]? = some p) (hs : (sectionsOf d)[i]? = some s) (htp : TextPage c.whole (withFormats c f p).whole) :
    ShowsLines c.whole.ws (formatted c.whole.ws (ofItems s.2)) ((pageBlocks c.whole.ws (withFormats c f p).whole).flatMap Lns.Blk.lines) := by
  obtain ⟨d', s', t, h1, h2, h3, h4⟩ := po_whole c hc.blank hc.order f _ s0 pages hraw d h i p s hp hs
  exact po_shows h3 (sx_shows h4 (C111_text_partial c.whole hc depth s0 _ d' h1 i _ s' (by rw [List.getElem?_map, List.getElem?_map, hp]; rfl) h2 htp))

end Transfer120
end Props

namespace Props
open Geom Py Pipe Spec

section Errors120

theorem po_breaks (edge delta width ratio : ℚ) (hw : width ≠ 0) (ls : List (ℚ × Bool × Bool)) : ∃ r, Para.lineBreaks edge delta width ratio ls = .ok r := by
  match ls with
  | [] => exact ⟨_, rfl⟩
  | [_] => exact ⟨_, rfl⟩
  | (e, same, _) :: (e', same', blank') :: ls =>
    obtain ⟨r, hr⟩ := po_breaks edge delta width ratio hw ((e', same', blank') :: ls)
    simp only [Para.lineBreaks, hr, if_neg hw]
    split
    · exact ⟨_, rfl⟩
    · exact ⟨_, rfl⟩

theorem po_width (h : Bool) {b : Rect} (hb : Proper b) : |(Pose.along h b).2 - (Pose.along h b).1| ≠ 0 := by
  rw [abs_ne_zero]
  unfold Pose.along
  cases h
  · simp only [Bool.false_eq_true, if_false]
    have := hb.2
    intro e; linarith
  · simp only [if_true]
    have := hb.1
    intro e; linarith

/-- Text with a real box always has a format. -/
theorem po_horizontal (c : Pose.Cfg) (hi : ∀ l, (c.whole.full.base.lay.iter l).Perm l) (box : Rect) (h : Bool) (b : Rect) (hb : Proper b) (ls : List Pose.TL) :
    ∃ f, Pose.horizontalSpacing c box h b ls = .ok f := by
  obtain ⟨gs, hg, -⟩ := C21_elements_conserved c.whole.full.base.lay.iter hi (fun x y : Pose.TL => x.1.inSameRow y.1) ls
  unfold Pose.horizontalSpacing
  rw [hg]
  dsimp only
  have key := fun (edge delta : ℚ) ls => po_breaks edge delta |(Pose.along h b).2 - (Pose.along h b).1| c.ratio (po_width h hb) ls
  obtain ⟨r, hr⟩ := key ((fun r : Rect => if (Para.parse (Pose.sign h) c.thr (Pose.along h b) (Pose.along h box) (gs.map fun r => r.map fun l => Pose.along h l.1.bbox) (ls.map fun l => Pose.along h l.1.bbox)).align = .right
      then (Pose.along h r).1 else (Pose.along h r).2) b)
    (let s := Para.parse (Pose.sign h) c.thr (Pose.along h b) (Pose.along h box) (gs.map fun r => r.map fun l => Pose.along h l.1.bbox) (ls.map fun l => Pose.along h l.1.bbox)
     if s.align = .right then s.leftTotal - s.left else s.rightTotal - s.right)
    (Pose.breakLines c.whole.ws (fun r : Rect => if (Para.parse (Pose.sign h) c.thr (Pose.along h b) (Pose.along h box) (gs.map fun r => r.map fun l => Pose.along h l.1.bbox) (ls.map fun l => Pose.along h l.1.bbox)).align = .right
      then (Pose.along h r).1 else (Pose.along h r).2) ls)
  rw [hr]
  exact ⟨_, rfl⟩

theorem po_measure (c : Pose.Cfg) (hi : ∀ l, (c.whole.full.base.lay.iter l).Perm l) (box : Rect) (b : Deco.Blk) (hb : ∀ t ∈ b.plain.erase.texts, TextOK t) (e : Err)
    (h : Pose.measure c box b = .error e) : e = .index := by
  cases b with
  | text b ls s =>
    have hp := (hb (b, ls) (by simp [Deco.Blk.plain, Full.Blk.erase, Lay.Blk.texts])).1.1
    unfold Pose.measure at h
    dsimp only at h
    obtain ⟨f, hf⟩ := po_horizontal c hi box (Lay.Blk.text b ls).el.horizontal b hp (Pose.tlines ls s)
    rw [hf] at h
    cases ht : Pose.tlines ls s with
    | nil => rw [ht] at h; exact (Except.error.inj h).symm
    | cons l r => rw [ht] at h; cases h
  | table b g cs =>
    unfold Pose.measure at h
    dsimp only at h
    cases hf : Pose.firstTop g cs with
    | ok t => rw [hf] at h; cases h
    | error e' =>
      rw [hf] at h
      obtain rfl := Except.error.inj h
      match g, cs with
      | [], _ => exact (Except.error.inj hf).symm
      | [] :: _, _ => exact (Except.error.inj hf).symm
      | (true :: _) :: _, [] => cases hf
      | (true :: _) :: _, c :: _ => cases hf
      | (false :: _) :: _, _ => cases hf

/-- Whether the format is there: for texts, and not for tables. -/
theorem po_measure_ok (c : Pose.Cfg) (box : Rect) (b : Deco.Blk) (m) (h : Pose.measure c box b = .ok m) : (∃ x ls s, b = .text x ls s ∧ m.2.isSome = true) ∨ ∃ x g cs, b = .table x g cs := by
  cases b with
  | table b g cs => exact .inr ⟨_, _, _, rfl⟩
  | text b ls s =>
    refine .inl ⟨_, _, _, rfl, ?_⟩
    unfold Pose.measure at h
    dsimp only at h
    split at h
    · cases h
    · split at h
      · cases h
      · obtain rfl := Except.ok.inj h
        rfl

/-- The formats of a layout: as many as blocks, one for each text. -/
def Formed : List (Spacing.Sp × Option Pose.Form) → List Deco.Blk → Prop := List.Forall₂ fun f b => (∃ x ls s, b = .text x ls s ∧ f.2.isSome = true) ∨ ∃ x g cs, b = .table x g cs

theorem po_setAfter (a : ℚ) (l : List (Spacing.VB × Spacing.Sp)) : (Spacing.setAfter a l).map Prod.fst = l.map Prod.fst := by
  match l with
  | [] => rfl
  | [_] => rfl
  | x :: y :: l =>
    unfold Spacing.setAfter
    rw [List.map_cons, List.map_cons, po_setAfter a (y :: l)]

theorem po_loop (h : Bool) (page : Rect) (bs : List Spacing.VB) (acc : List (Spacing.VB × Spacing.Sp)) (ref : ℚ) :
    (Spacing.loop h page acc ref bs).map Prod.fst = acc.map Prod.fst ++ bs := by
  induction bs generalizing acc ref with
  | nil => simp [Spacing.loop]
  | cons b bs ih =>
    unfold Spacing.loop
    dsimp only
    split
    · rw [ih]; simp
    · rw [ih]; simp
    · split
      · rename_i hl
        rw [ih]; simp
      · split <;> rw [ih] <;> simp [po_setAfter]

theorem po_spacing (h : Bool) (page : Rect) (bs : List Spacing.VB) : (Spacing.parseSpacing h page bs).map Prod.fst = bs := by
  unfold Spacing.parseSpacing
  rw [po_loop]
  rfl

theorem po_forms (c : Pose.Cfg) (box : Rect) (bs : List Deco.Blk) (fs) (h : Pose.forms c box bs = .ok fs) : Formed fs bs := by
  unfold Pose.forms at h
  cases hm : bs.mapM (Pose.measure c box) with
  | error e => rw [hm] at h; cases h
  | ok ms =>
    rw [hm] at h
    obtain rfl := Except.ok.inj h
    have hl := congrArg List.length (po_spacing (Pose.horizontal bs) box (ms.map Prod.fst))
    rw [List.length_map, List.length_map] at hl
    have hf := pp_mapM_forall _ _ hm
    clear hm h
    revert hl
    generalize Spacing.parseSpacing (Pose.horizontal bs) box (ms.map Prod.fst) = ps
    intro hl
    unfold Formed
    induction hf generalizing ps with
    | nil => cases ps <;> exact .nil
    | cons hb _ ih =>
      cases ps with
      | nil => cases hl
      | cons p ps =>
        refine .cons ?_ (ih ps (by simpa using hl))
        exact po_measure_ok c box _ _ hb

theorem po_forms_err (c : Pose.Cfg) (hi : ∀ l, (c.whole.full.base.lay.iter l).Perm l) (box : Rect) (bs : List Deco.Blk) (hb : ∀ t ∈ Lay.texts (Full.erase (Deco.plain bs)), TextOK t) (e : Err)
    (h : Pose.forms c box bs = .error e) : e = .index := by
  unfold Pose.forms at h
  cases hm : bs.mapM (Pose.measure c box) with
  | ok ms => rw [hm] at h; cases h
  | error e' =>
    rw [hm] at h
    obtain rfl := Except.error.inj h
    clear h
    induction bs with
    | nil => cases hm
    | cons b bs ih =>
      simp only [Deco.plain, Full.erase, Lay.texts, List.mem_append, or_imp, forall_and] at hb
      rw [List.mapM_cons] at hm
      cases h1 : Pose.measure c box b with
      | error x =>
        rw [h1] at hm
        obtain rfl := Except.error.inj hm
        exact po_measure c hi box b hb.1 _ h1
      | ok m =>
        rw [h1] at hm
        cases h2 : bs.mapM (Pose.measure c box) with
        | error x =>
          rw [h2] at hm
          obtain rfl := Except.error.inj hm
          exact ih hb.2 h2
        | ok ms => rw [h2] at hm; cases hm

mutual
theorem po_go_err (c : Pose.Cfg) (hi : ∀ l, (c.whole.full.base.lay.iter l).Perm l) (box : Rect) (fs : List (Spacing.Sp × Option Pose.Form)) : (bs : List Deco.Blk) → Formed fs bs →
    (∀ t ∈ Lay.texts (Full.erase (Deco.plain bs)), TextOK t) → (e : Err) → Pose.go c box fs bs = .error e → e = .index
  | [], _, _, e, h => by
    unfold Pose.go at h
    cases h
  | b :: bs, hf, h1, e, h => by
    unfold Pose.go at h
    simp only [Deco.plain, Full.erase, Lay.texts, List.mem_append, or_imp, forall_and] at h1
    obtain ⟨f, fs', hb, hf', rfl⟩ := List.forall₂_cons_right_iff.1 hf
    rw [List.headD_cons, List.tail_cons] at h
    cases h3 : Pose.one c box f b with
    | error e' =>
      rw [h3] at h
      obtain rfl := Except.error.inj h
      exact po_one_err c hi box f b hb h1.1 _ h3
    | ok x =>
      rw [h3] at h
      dsimp only at h
      cases h4 : Pose.go c box fs' bs with
      | error e' =>
        rw [h4] at h
        obtain rfl := Except.error.inj h
        exact po_go_err c hi box fs' bs hf' h1.2 _ h4
      | ok r => rw [h4] at h; cases h
theorem po_one_err (c : Pose.Cfg) (hi : ∀ l, (c.whole.full.base.lay.iter l).Perm l) (box : Rect) (sf : Spacing.Sp × Option Pose.Form) : (b : Deco.Blk) →
    ((∃ x ls s, b = .text x ls s ∧ sf.2.isSome = true) ∨ ∃ x g cs, b = .table x g cs) →
    (∀ t ∈ b.plain.erase.texts, TextOK t) → (e : Err) → Pose.one c box sf b = .error e → e = .index
  | .text b ls s, hf, h1, e, h => by
    obtain ⟨sp, fo⟩ := sf
    cases fo with
    | none =>
      rcases hf with ⟨_, _, _, _, hf⟩ | ⟨_, _, _, hf⟩
      · cases hf
      · cases hf
    | some fo => cases h
  | .table b g cs, hf, h1, e, h => by
    obtain ⟨sp, fo⟩ := sf
    have h : (match Pose.cells c cs with
      | .error e => Except.error e
      | .ok r => .ok (Pose.Blk.table b (b.x0 - box.x0) sp.before g r)) = .error e := by
      cases fo <;> exact h
    cases h3 : Pose.cells c cs with
    | error e' =>
      rw [h3] at h
      obtain rfl := Except.error.inj h
      exact po_cells_err c hi cs (by simpa [Deco.Blk.plain, Full.Blk.erase, Lay.Blk.texts] using h1) _ h3
    | ok r => rw [h3] at h; cases h
theorem po_cells_err (c : Pose.Cfg) (hi : ∀ l, (c.whole.full.base.lay.iter l).Perm l) : (cs : List (Full.Cell × List Deco.Blk)) →
    (∀ t ∈ Lay.cellsTexts (Full.eraseCells (Deco.plainCells cs)), TextOK t) → (e : Err) → Pose.cells c cs = .error e → e = .index
  | [], _, e, h => by
    unfold Pose.cells at h
    cases h
  | (k, bs) :: cs, h1, e, h => by
    unfold Pose.cells at h
    simp only [Deco.plainCells, Full.eraseCells, Lay.cellsTexts, List.mem_append, or_imp, forall_and] at h1
    cases h3 : Pose.forms c k.info.working bs with
    | error e' =>
      rw [h3] at h
      obtain rfl := Except.error.inj h
      exact po_forms_err c hi _ bs h1.1 _ h3
    | ok fs =>
      rw [h3] at h
      dsimp only at h
      cases h4 : Pose.go c k.info.working fs bs with
      | error e' =>
        rw [h4] at h
        obtain rfl := Except.error.inj h
        exact po_go_err c hi _ fs bs (po_forms c _ bs fs h3) h1.1 _ h4
      | ok x =>
        rw [h4] at h
        dsimp only at h
        cases h5 : Pose.cells c cs with
        | error e' =>
          rw [h5] at h
          obtain rfl := Except.error.inj h
          exact po_cells_err c hi cs h1.2 _ h5
        | ok q => rw [h5] at h; cases h
end

theorem po_mapM_error {α β : Type} {f : α → Except Err β} {l : List α} {e : Err} (h : l.mapM f = .error e) : ∃ x ∈ l, f x = .error e := by
  induction l with
  | nil => cases h
  | cons p ps ih =>
    rw [List.mapM_cons] at h
    cases hx : f p with
    | error x =>
      rw [hx] at h
      obtain rfl := Except.error.inj h
      exact ⟨p, by simp, hx⟩
    | ok y =>
      rw [hx] at h
      cases hy : ps.mapM f with
      | error x =>
        rw [hy] at h
        obtain rfl := Except.error.inj h
        obtain ⟨q, hq, hq'⟩ := ih hy
        exact ⟨q, by simp [hq], hq'⟩
      | ok ys => rw [hy] at h; cases h

/-- **C120** (what can go wrong): computing the formats raises nothing new: only the `IndexError` of C58, or Python's `RecursionError`. -/
theorem C120_exceptions (c : Pose.Cfg) (hws : c.whole.ws ' ' = true) (hi : ∀ l, (c.whole.full.base.lay.iter l).Perm l) (depth : ℕ) (s0 : Pose.Sect) (pages : List Pose.Page)
    (hraw : ∀ p ∈ pages, ∀ b ∈ p.raw, RawOK b) (e : Err) (h : Pose.convert c depth s0 pages = .error e) : e = .exn "RecursionError" ∨ e = .index := by
  unfold Pose.convert at h
  cases hm : pages.mapM (Pose.parsePage c depth) with
  | ok ds => rw [hm] at h; cases h
  | error e' =>
    rw [hm] at h
    obtain rfl := Except.error.inj h
    obtain ⟨p, hp, hx⟩ := po_mapM_error hm
    obtain ⟨js, fs, bs, _, g2, g3, _⟩ := pp_cleanUp c.whole.pipe hws hi p.box p.raw (hraw p hp)
    unfold Pose.parsePage at hx
    rw [g2] at hx
    dsimp only at hx
    cases hl : Deco.layout c.whole.full p.uri p.ids depth (p.workOf c js) p.shapes (js.map fun b => .text b.bbox b.lines) with
    | error e =>
      rw [hl] at hx
      obtain rfl := Except.error.inj hx
      have href := sy_refines c.whole.full p.uri p.ids depth [] (p.workOf c js) [0, 1, 2]
        ⟨Full.sortBlocks (js.map fun b => .text b.bbox b.lines), Full.mkSub (Full.sortBlocks (js.map fun b => .text b.bbox b.lines)) p.shapes, ⟨[], []⟩⟩
      unfold Deco.layout at hl
      rw [hl] at href
      refine C83_shapes_exceptions c.whole.full hi (Deco.format p.uri) p.ids depth (p.workOf c js) p.shapes _ ?_ e href.symm
      intro t ht
      rw [List.map_map] at ht
      have hm : (js.map (Full.Blk.erase ∘ fun b => Full.Blk.text b.bbox b.lines)) = js.map fun b => Lay.Blk.text b.bbox b.lines := by
        apply List.map_congr_left
        intro b _
        simp [Full.Blk.erase]
      rw [hm, pp_texts_map] at ht
      obtain ⟨b, hb, rfl⟩ := List.mem_map.1 ht
      exact (g3 b hb).1
    | ok r =>
      rw [hl] at hx
      dsimp only at hx
      obtain ⟨k1, -⟩ := po_boxes c.whole hi p.uri p.ids depth (p.workOf c js) p.shapes js (fun b hb => (g3 b hb).1) r hl
      cases h2 : Pose.layout c (p.workOf c js) r.1 with
      | ok x => rw [h2] at hx; cases hx
      | error e =>
        rw [h2] at hx
        obtain rfl := Except.error.inj hx
        refine .inr ?_
        unfold Pose.layout at h2
        cases h3 : Pose.forms c (p.workOf c js) r.1 with
        | error e' =>
          rw [h3] at h2
          obtain rfl := Except.error.inj h2
          exact po_forms_err c hi _ _ k1 _ h3
        | ok fo =>
          rw [h3] at h2
          exact po_go_err c hi _ fo r.1 (po_forms c _ _ fo h3) k1 _ h2

end Errors120

section Sound120

theorem po_parLines (p : Par) : parLines p = (lineTexts p).map fun ws => ws.flatMap wordToks := by
  unfold parLines lineTexts
  induction p with
  | nil => rfl
  | cons o p ih =>
    cases o with
    | content a => rw [List.filterMap_cons_some (by rfl), List.filterMap_cons_some (by rfl), List.map_cons, ih]
    | tab => rw [List.filterMap_cons_none (by rfl), List.filterMap_cons_none (by rfl), ih]
    | brk => rw [List.filterMap_cons_none (by rfl), List.filterMap_cons_none (by rfl), ih]

theorem po_plainLines (p : Par) : parLines p = lineTexts (plainPar p) := by
  unfold parLines lineTexts plainPar
  rw [List.filterMap_map]
  congr 1
  funext o
  cases o <;> rfl

/-- **C120** (C113): nothing in the document that is not on its page. Each line of text in a paragraph, in or outside of tables at any nesting, is made of lines of the page, in their order. -/
theorem C120_nothing_invented (c : Pose.Cfg) (hws : c.whole.ws ' ' = true) (hi : ∀ l, (c.whole.full.base.lay.iter l).Perm l) (depth : ℕ) (s0 : Pose.Sect) (pages : List Pose.Page)
    (hraw : ∀ p ∈ pages, ∀ b ∈ p.raw, RawOK b) (d : Docx.Doc Pose.Par Sp Pose.Sect) (h : Pose.convert c depth s0 pages = .ok d) (i : ℕ) (p : Pose.Page)
    (s : Pose.Sect × List (Docx.Item Pose.Par Sp Pose.Sect)) (hp : pages[i]? = some p) (hs : (sectionsOf d)[i]? = some s) :
    ∀ par ∈ leaves (formatted c.whole.ws (ofItems s.2)), ∀ ts ∈ parLines par, MadeOf (pageLines c.whole.ws p.box p.raw) ts := by
  obtain ⟨f⟩ : Nonempty Fmt := ⟨⟨fun _ _ => (false, []), fun _ => 0, fun _ => 0, fun _ => [], fun _ _ => (0, 0), fun _ _ => false, fun _ _ => false, fun _ => 0, fun _ _ => []⟩⟩
  obtain ⟨d', s', t, h1, h2, h3, h4⟩ := po_whole c hws hi f depth s0 pages hraw d h i p s hp hs
  obtain ⟨dd, h5, h6⟩ := wh_section c.whole depth s0 _ d' h1 i (withFormats c f p).whole s' (by rw [List.getElem?_map, List.getElem?_map, hp]; rfl) h2
  obtain ⟨-, k, -⟩ := so_page c.whole hws hi depth (withFormats c f p).whole (hraw p (List.mem_of_getElem? hp)) dd h5
  rw [← h6] at k
  intro par hpar ts hts
  have e1 : (leaves (formatted c.whole.ws (ofItems s.2))).map parLines = (leaves (written c.whole.ws t)).map parLines := by
    have := congrArg (fun x => (leaves x).map fun l => l.map fun ws => ws.flatMap wordToks) h3
    simp only [sx_leaves, List.map_map] at this
    simpa only [Function.comp_def, ← po_parLines] using this
  have e2 : (leaves (written c.whole.ws t)).map parLines = (leaves (ofItems s'.2)).map parLines := by
    have := congrArg (fun x => (leaves x).map lineTexts) h4
    simp only [sx_leaves, List.map_map] at this
    simpa only [Function.comp_def, ← po_plainLines] using this
  have hm := List.mem_map_of_mem (f := parLines) hpar
  rw [e1, e2] at hm
  obtain ⟨q, hq, e⟩ := List.mem_map.1 hm
  rw [← e] at hts
  exact k q hq ts hts

/-- **C120** (C119): every decoration of a run comes from a line, area or link drawn on the page. -/
theorem C120_decorations_drawn (c : Pose.Cfg) (hws : c.whole.ws ' ' = true) (hi : ∀ l, (c.whole.full.base.lay.iter l).Perm l) (depth : ℕ) (s0 : Pose.Sect) (pages : List Pose.Page)
    (hraw : ∀ p ∈ pages, ∀ b ∈ p.raw, RawOK b) (d : Docx.Doc Pose.Par Sp Pose.Sect) (h : Pose.convert c depth s0 pages = .ok d) (i : ℕ) (p : Pose.Page)
    (s : Pose.Sect × List (Docx.Item Pose.Par Sp Pose.Sect)) (hp : pages[i]? = some p) (hs : (sectionsOf d)[i]? = some s) (hS : ∀ s ∈ p.shapes, Tenths s.bbox) :
    ∀ q ∈ leaves (ofItems s.2), ∀ sp ∈ parSpans q.content, ∀ st ∈ sp.style, ∃ sh ∈ p.shapes, ∃ horizontal, Decorates p.uri horizontal sh st sp.bbox := by
  obtain ⟨f⟩ : Nonempty Fmt := ⟨⟨fun _ _ => (false, []), fun _ => 0, fun _ => 0, fun _ => [], fun _ _ => (0, 0), fun _ _ => false, fun _ _ => false, fun _ => 0, fun _ _ => []⟩⟩
  obtain ⟨d', s', h1, h2, -, h3⟩ := po_section c hws hi f depth s0 pages hraw d h i p s hp hs
  have k := C119_drawn c.whole hws hi depth s0 _ d' h1 i (withFormats c f p) s' (by rw [List.getElem?_map, hp]; rfl) h2 (hraw p (List.mem_of_getElem? hp)) hS
  have espan : ∀ q : Deco.Par, parSpans q = (lineTexts q).flatMap fun is => is.filterMap fun | .text s => some s | _ => none := by
    intro q
    unfold parSpans lineTexts
    induction q with
    | nil => rfl
    | cons o p ih =>
      cases o with
      | content a =>
        rw [List.filterMap_cons_some (by rfl), List.flatMap_cons, List.flatMap_cons]
        exact congrArg₂ (· ++ ·) rfl ih
      | tab =>
        rw [List.filterMap_cons_none (by rfl), List.flatMap_cons]
        exact ih
      | brk =>
        rw [List.filterMap_cons_none (by rfl), List.flatMap_cons]
        exact ih
  intro q hq sp hsp st hst
  have e := congrArg leaves h3
  rw [sx_leaves, sx_leaves] at e
  have hm := List.mem_map_of_mem (f := fun q : Pose.Par => lineTexts q.content) hq
  rw [e] at hm
  obtain ⟨q', hq', e'⟩ := List.mem_map.1 hm
  refine k q' hq' sp ?_ st hst
  rw [espan] at hsp ⊢
  rw [e']
  exact hsp

end Sound120
end Props

namespace Props
open Geom Py Pipe Spec

section Example120

/-- Settings, with the default thresholds of the paragraph formats and margins. -/
def poCfg : Pose.Cfg := ⟨whCfg, 1, 1, 2, 1 / 10, 1 / 2, 1 / 2⟩

/-- The page of decorated text of C117. -/
def poText : Pose.Page := ⟨⟨0, 0, 400, 600⟩, syRaw, syPage.shapes, syPage.uri, syPage.ids⟩

/-- The page with a table of C119. -/
def poTable : Pose.Page := ⟨⟨0, 0, 400, 600⟩, whRaw, ssPage.shapes, ssPage.uri, ssPage.ids⟩

/-- The formats of a document, section by section: alignment, indents, distances. -/
def poForms (d : Except Err (Docx.Doc Pose.Par Sp Pose.Sect)) : Option (List (Pose.Sect × List (Para.Align × (ℚ × ℚ × ℚ) × ℚ × ℚ × ℚ))) :=
  d.toOption.map fun d => (sectionsOf d).map fun s => (s.1, (leaves (ofItems s.2)).map fun q => (q.align, q.indents, q.space.before, q.space.after, q.space.line))

/-- The texts of a document, section by section. -/
def poTexts (d : Except Err (Docx.Doc Pose.Par Sp Pose.Sect)) : Option (List (List (List (List (List Char × List Text.Style))))) :=
  d.toOption.map fun d => (sectionsOf d).map fun s => (leaves (ofItems s.2)).map fun q => (lineTexts q.content).map fun is => (is.flatMap syTexts).map fun x => (x.text, x.style)

theorem po_ex_text : TextPage poCfg.whole (withFormats poCfg ppFmt poText).whole := by
  have e : poText.workOf poCfg (cleaned poCfg poText) = ⟨0, 0, 400, 600⟩ := by decide +kernel
  obtain ⟨h1, h2, h3, h4, h5, h6⟩ := sy_ex_text
  refine ⟨h1, h2, h3, h4, ?_, ?_⟩
  · change ∀ r : Rect, r ∈ _ → (poText.workOf poCfg (cleaned poCfg poText)).x0 ≤ r.x0 ∧ r.x1 ≤ (poText.workOf poCfg (cleaned poCfg poText)).x1
    rw [e]
    exact h5
  · change NotTwoColumns (((poText.workOf poCfg (cleaned poCfg poText)).x0 + (poText.workOf poCfg (cleaned poCfg poText)).x1) / 2) _
    rw [e]
    exact h6

set_option synthInstance.maxSize 1024 in
/-- Non-vacuity: both pages meet the hypotheses and are converted; what the first one becomes. -/
example : (∀ p ∈ [poText, poTable], ∀ b ∈ p.raw, RawOK b) ∧ (∀ p ∈ [poText, poTable], ∀ s ∈ p.shapes, Tenths s.bbox) ∧ TextPage poCfg.whole (withFormats poCfg ppFmt poText).whole ∧
    (Pose.convert poCfg 3 ⟨0, 0, ⟨0, 0, 0, 0⟩⟩ [poText, poTable]).toOption.isSome = true ∧
    poForms (Pose.convert poCfg 3 ⟨0, 0, ⟨0, 0, 0, 0⟩⟩ [poText]) = some [(⟨400, 600, ⟨0, 0, 0, 0⟩⟩, [(.left, (20, 20, 0), 20, 0, 10), (.left, (20, 20, 0), 80, 0, 20)])] ∧
    poTexts (Pose.convert poCfg 3 ⟨0, 0, ⟨0, 0, 0, 0⟩⟩ [poText]) = some [[[[(['a'], [⟨.underline, 0xFF0000, none⟩]), (['b', ' '], [])]],
      [[(['c'], [⟨.strike, 0, none⟩]), (['d'], [])], [(['e'], [⟨.highlight, 0xFFFF00, none⟩]), (['f'], [⟨.hyperlink, 0, some "f.pdf"⟩])]]]] := by
  refine ⟨?_, ?_, po_ex_text, by decide +kernel, by decide +kernel, by decide +kernel⟩
  · intro p hp
    simp only [List.mem_cons, List.not_mem_nil, or_false] at hp
    rcases hp with rfl | rfl
    · exact sy_ex_text.raw
    · exact wh_ex_page.raw
  · have : ∀ p ∈ [poText, poTable], ∀ s ∈ p.shapes, Rect.round s.bbox = s.bbox := by decide +kernel
    intro p hp s hs
    rw [tenths_iff]
    exact this p hp s hs

end Example120
end Props
