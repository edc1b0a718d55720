import Verif.Spec.Sound
import Verif.Props.DrawTable
import Verif.Props.DrawPlain
/-! # C113: nothing in the document that is not on its page; what can go wrong -/

namespace Props
open Geom Py Spec Pipe Assign

section SClean

theorem so_lstrip (ws : Char → Bool) (s : Sp) : ((lstripSpan ws s).1.items).Sublist s.items := by
  cases s with
  | image b t => exact List.Sublist.refl _
  | text b cs =>
    simp only [lstripSpan]
    split_ifs
    · exact (List.drop_sublist _ _).map _
    · exact List.Sublist.refl _

theorem so_rstrip (ws : Char → Bool) (s : Sp) : ((rstripSpan ws s).1.items).Sublist s.items := by
  cases s with
  | image b t => exact List.Sublist.refl _
  | text b cs =>
    simp only [rstripSpan]
    split_ifs
    · exact (List.take_sublist _ _).map _
    · exact List.Sublist.refl _

theorem so_stripLine (ws : Char → Bool) (l : Lay.Ln Tok) : (Lay.lineItems (stripLine ws l).1).Sublist (Lay.lineItems l) := by
  unfold stripLine
  split
  · exact List.Sublist.refl _
  · rename_i s ss hsp
    dsimp only
    split
    · unfold Lay.lineItems respan
      dsimp only
      rw [hsp, List.flatMap_cons, List.flatMap_cons]
      exact (so_lstrip ws s.2).append (List.Sublist.refl _)
    · split
      · unfold Lay.lineItems respan
        dsimp only
        conv_rhs => rw [hsp, ← List.dropLast_append_getLast (l := s :: ss) (by simp)]
        rw [List.flatMap_append, List.flatMap_append]
        refine (List.Sublist.refl _).append ?_
        simp only [List.flatMap_cons, List.flatMap_nil, List.append_nil]
        exact so_rstrip ws _
      · exact List.Sublist.refl _

/-- Joined lines are lines one after the other. -/
theorem so_join (ov mg : ℚ) (ls : List (Lay.Ln Tok)) (h : ∀ l ∈ ls, LineOK l) :
    ∀ l ∈ Lns.join ov mg ls, ∃ ms : List (Lay.Ln Tok), (∀ m ∈ ms, m ∈ ls) ∧ Lay.lineItems l = ms.flatMap Lay.lineItems := by
  intro l hl
  have hgs : ∀ l ∈ Lns.sort ls, LineGood l := fun l hl => pp_line_good (h l ((C67_permutation ls).subset hl))
  obtain ⟨parts, h1, _, _, h3⟩ := ln_joinSorted ov mg (Lns.sort ls) hgs
  unfold Lns.join at hl
  rw [h3] at hl
  obtain ⟨p, hp, hm⟩ := List.mem_filterMap.1 hl
  have hsub : ∀ l ∈ p, l ∈ ls := fun l hl => (C67_permutation _).subset ((ln_keptAll_sub ov _).subset
    (by rw [← h1]; exact List.mem_flatten.2 ⟨p, hp, hl⟩))
  refine ⟨p, hsub, ?_⟩
  cases p with
  | nil => simp [lnMerge] at hm
  | cons c cs =>
    simp only [lnMerge, Option.some.injEq] at hm
    subst hm
    have hf : ((cs.flatMap Lns.Ln.spans).filter fun s => s.1.truthy) = cs.flatMap Lns.Ln.spans := by
      rw [List.filter_eq_self]
      intro s hs
      obtain ⟨l', hl', hs⟩ := List.mem_flatMap.1 hs
      have := (h l' (hsub l' (by simp [hl']))).2 s hs
      rw [this.1]; exact ly_real_truthy (ly_span_real this.2.1)
    have hspans : (c.add (cs.flatMap Lns.Ln.spans)).spans = c.spans ++ cs.flatMap Lns.Ln.spans := by rw [ly_add_spans_eq, hf]
    unfold Lay.lineItems
    rw [hspans, List.flatMap_append, List.flatMap_cons, List.flatMap_assoc]

/-- Joining blocks: lines of the blocks one after the other. -/
theorem so_join_blocks (iter : List ℕ → List ℕ) (hi : ∀ l, (iter l).Perm l) (ov mg : ℚ) (bs js : List Raw) (hb : ∀ b ∈ bs, b.bbox = Rect.zero ∨ RawOK b)
    (h : Lns.joinHorizontally iter ov mg bs = .ok js) : ∀ j ∈ js, ∀ l ∈ j.lines, ∃ ms : List (Lay.Ln Tok), (∀ m ∈ ms, m ∈ bs.flatMap Lns.Blk.lines) ∧ Lay.lineItems l = ms.flatMap Lay.lineItems := by
  obtain ⟨gs, h1, h2, _⟩ := C21_elements_conserved iter hi (fun a b : Raw => El.horizontallyAlign ⟨a.bbox, .leftRight⟩ ⟨b.bbox, .leftRight⟩ 0 false) bs
  unfold Lns.joinHorizontally at h
  rw [h1] at h
  obtain rfl := Except.ok.inj h
  intro j hj l hl
  obtain ⟨hj, _⟩ := List.mem_filter.1 hj
  obtain ⟨g, hg, rfl⟩ := List.mem_map.1 hj
  have hgood : ∀ b ∈ g.filter (fun b => b.bbox.truthy), RawOK b := by
    intro b hbg
    obtain ⟨hbg, ht⟩ := List.mem_filter.1 hbg
    rcases hb b (h2.subset (List.mem_flatten.2 ⟨g, hg, hbg⟩)) with e | h
    · rw [e] at ht; cases ht
    · exact h
  have hlines : (Lns.joinedBlock ov mg (g.filter fun b => b.bbox.truthy)).lines = Lns.join ov mg ((g.filter fun b => b.bbox.truthy).flatMap Lns.Blk.lines) := by
    unfold Lns.joinedBlock
    rw [ln_gather _ fun b hb l hl => pp_line_good ((hgood b hb).boxes.2 l hl).1]
  rw [hlines] at hl
  obtain ⟨ms, m1, m2⟩ := so_join ov mg _ (by
    intro l hl
    obtain ⟨b, hb, hl⟩ := List.mem_flatMap.1 hl
    exact ((hgood b hb).boxes.2 l hl).1) l hl
  refine ⟨ms, ?_, m2⟩
  intro m hm
  obtain ⟨b, hb, hmb⟩ := List.mem_flatMap.1 (m1 m hm)
  exact List.mem_flatMap.2 ⟨b, h2.subset (List.mem_flatten.2 ⟨g, hg, List.mem_of_mem_filter hb⟩), hmb⟩

/-- Clean-up: every line is made of lines of the page, every floating image is on the page. -/
theorem so_clean (c : Pipe.Cfg) (hws : c.ws ' ' = true) (hi : ∀ l, (c.lay.iter l).Perm l) (page : Rect) (raws js : List Raw) (fs : List Sp) (hraw : ∀ b ∈ raws, RawOK b)
    (h : cleanUp c page raws = .ok (js, fs)) :
    (∀ j ∈ js, ∀ l ∈ j.lines, MadeOf (pageLines c.ws page raws) (Lay.lineItems l)) ∧
      ∀ s ∈ fs, ∃ l ∈ pageLines c.ws page raws, Lay.lineItems l = s.items := by
  have hK : (raws.filter (keep c.ws page)).filter (fun b => b.bbox.truthy) = raws.filter fun b => decide (ToConvert c.ws page b) := by
    rw [List.filter_filter]
    apply List.filter_congr
    intro b hb
    have hp := (hraw b hb).boxes.1
    rw [show b.bbox.truthy = true from ly_real_truthy hp, Bool.true_and, Bool.eq_iff_iff, decide_eq_true_eq]
    exact pp_keep c.ws page b hp.1
  obtain ⟨js', fs', bs, g1, g2, _, _, g5, _⟩ := pp_cleanUp c hws hi page raws hraw
  rw [h] at g2
  obtain ⟨rfl, rfl⟩ := Prod.mk.inj (Except.ok.inj g2)
  have hj : Lns.joinHorizontally c.lay.iter c.ov c.mg bs = .ok js := by
    unfold cleanUp at h
    rw [g1] at h
    dsimp only at h
    cases hj : Lns.joinHorizontally c.lay.iter c.ov c.mg bs with
    | error e => rw [hj] at h; cases h
    | ok x =>
      rw [hj] at h
      rw [(Prod.mk.inj (Except.ok.inj h)).1]
  unfold beforeJoin at g1
  rw [hK] at g1
  set K := raws.filter fun b => decide (ToConvert c.ws page b) with hKdef
  have hKok : ∀ b ∈ K, RawOK b := fun b hb => hraw b (List.mem_of_mem_filter hb)
  set S := sortRaw (K.map (stripBlock c.ws)) with hS
  have hSp : S.Perm (K.map (stripBlock c.ws)) := pp_sort_perm _
  have hSok : ∀ b ∈ S, RawOK b := by
    intro b hb
    obtain ⟨b0, hb0, rfl⟩ := List.mem_map.1 (hSp.subset hb)
    exact (pp_stripBlock c.ws hws b0 (hKok b0 hb0)).1
  have himg : ImagesGood S := by
    intro b hb hs
    have hok := hSok b hb
    obtain ⟨s, hs⟩ := Option.isSome_iff_exists.1 hs
    obtain ⟨box, n, l, _, h2, _⟩ := hok.image s hs
    refine ⟨st_proper_ne hok.boxes.1.1, ?_⟩
    rw [h2, List.filter_cons_of_pos (by exact ly_real_truthy (hok.boxes.2 l (by rw [h2]; simp)).1.1)]
    rfl
  obtain ⟨bs', fs', f1, f2, f3, f4⟩ := C71_images_conserved c.gap S himg
  rw [g1] at f1
  obtain ⟨rfl, rfl⟩ := Prod.mk.inj (Except.ok.inj f1)
  have hline : ∀ l ∈ bs.flatMap Lns.Blk.lines, ∃ m ∈ pageLines c.ws page raws, (Lay.lineItems l).Sublist (Lay.lineItems m) := by
    intro l hl
    obtain ⟨b', hb', hl⟩ := List.mem_flatMap.1 hl
    obtain ⟨i, hi', rfl⟩ := List.getElem_of_mem hb'
    have hi2 : i < S.length := f3 ▸ hi'
    obtain ⟨b'', e1, e2, _⟩ := f4 i S[i] (List.getElem?_eq_getElem hi2)
    rw [List.getElem?_eq_getElem hi'] at e1
    obtain rfl := Option.some.inj e1
    rw [e2] at hl
    obtain ⟨b0, hb0, e0⟩ := List.mem_map.1 (hSp.subset (List.getElem_mem hi2))
    rw [← e0, wc_strip_lines] at hl
    obtain ⟨l0, hl0, rfl⟩ := List.mem_map.1 hl
    exact ⟨l0, List.mem_flatMap.2 ⟨b0, hb0, hl0⟩, so_stripLine c.ws l0⟩
  constructor
  · intro j hjm l hl
    obtain ⟨ms, m1, m2⟩ := so_join_blocks c.lay.iter hi c.ov c.mg bs js g5 hj j hjm l hl
    rw [m2]
    clear m2
    induction ms with
    | nil => exact ⟨[], by simp, by simp⟩
    | cons m ms ih =>
      obtain ⟨ns, n1, n2⟩ := ih fun x hx => m1 x (by simp [hx])
      obtain ⟨n, hn, hs⟩ := hline m (m1 m (by simp))
      refine ⟨n :: ns, ?_, ?_⟩
      · intro x hx
        rcases List.mem_cons.1 hx with rfl | hx
        · exact hn
        · exact n1 x hx
      · rw [List.flatMap_cons, List.flatMap_cons]
        exact hs.append n2
  · intro s hs
    have hs' := f2.subset (List.mem_append.2 (.inr hs))
    obtain ⟨b, hb, him⟩ := List.mem_filterMap.1 hs'
    obtain ⟨b0, hb0, rfl⟩ := List.mem_map.1 (hSp.subset hb)
    rw [(pp_stripBlock c.ws hws b0 (hKok b0 hb0)).2.2] at him
    obtain ⟨box, n, l, e1, e2, e3⟩ := (hKok b0 hb0).image s him
    refine ⟨l, List.mem_flatMap.2 ⟨b0, hb0, by rw [e2]; simp⟩, ?_⟩
    unfold Lay.lineItems
    rw [e3]
    simp

end SClean

section SRender

theorem so_place {β : Type} (g : List (List Bool)) (cs : List β) : ∀ r ∈ place g cs, ∀ x, some x ∈ r → x ∈ cs := by
  have row : ∀ (r : List Bool) (cs : List β) (x : β), some x ∈ placeRow r cs → x ∈ cs := by
    intro r
    induction r with
    | nil => intro cs x h; simp [placeRow] at h
    | cons b r ih =>
      intro cs x h
      cases b with
      | false =>
        simp only [placeRow, List.mem_cons, reduceCtorEq, false_or] at h
        exact ih cs x h
      | true =>
        cases cs with
        | nil =>
          simp only [placeRow, List.mem_cons, reduceCtorEq, false_or] at h
          exact ih [] x h
        | cons c cs =>
          simp only [placeRow, List.mem_cons, Option.some.injEq] at h
          rcases h with rfl | h
          · simp
          · exact List.mem_cons_of_mem _ (ih cs x h)
  induction g generalizing cs with
  | nil => intro r h; simp [place] at h
  | cons r0 g ih =>
    intro r h x hx
    rw [place, List.mem_cons] at h
    rcases h with rfl | h
    · exact row _ _ x hx
    · exact List.mem_of_mem_drop (ih _ r h x hx)

theorem so_leaves_rows {α : Type} (rows : List (List (Option (List (Docx.Block α))))) (x : α) (h : x ∈ leavesRows (ofBlockRows rows)) :
    ∃ r ∈ rows, ∃ bs, some bs ∈ r ∧ x ∈ leaves (ofBlocks bs) := by
  have row : ∀ r : List (Option (List (Docx.Block α))), x ∈ leavesRow (ofBlockRow r) → ∃ bs, some bs ∈ r ∧ x ∈ leaves (ofBlocks bs) := by
    intro r
    induction r with
    | nil => intro h; simp [ofBlockRow, leavesRow] at h
    | cons c r ih =>
      intro h
      cases c with
      | none =>
        simp only [ofBlockRow, ofBlockCell, leavesRow, leavesCell, List.nil_append] at h
        obtain ⟨bs, h1, h2⟩ := ih h
        exact ⟨bs, by simp [h1], h2⟩
      | some b =>
        simp only [ofBlockRow, ofBlockCell, leavesRow, leavesCell, List.mem_append] at h
        rcases h with h | h
        · exact ⟨b, by simp, h⟩
        · obtain ⟨bs, h1, h2⟩ := ih h
          exact ⟨bs, by simp [h1], h2⟩
  induction rows with
  | nil => simp [ofBlockRows, leavesRows] at h
  | cons r rows ih =>
    simp only [ofBlockRows, leavesRows, List.mem_append] at h
    rcases h with h | h
    · obtain ⟨bs, h1, h2⟩ := row r h
      exact ⟨r, by simp, bs, h1, h2⟩
    · obtain ⟨r', h1, h2⟩ := ih h
      exact ⟨r', by simp [h1], h2⟩

mutual
theorem so_block (ws : Char → Bool) (f : Fmt) (x : Par) :
    ∀ b : Full.Blk Tok, x ∈ leaves (ofBlocks [Whole.block ws f b]) → ∃ t ∈ b.erase.texts, x = paragraph ws f t
  | .text b ls => by
    intro h
    have : x = paragraph ws f (b, ls) := by simpa [Whole.block, ofBlocks, leaves] using h
    exact ⟨(b, ls), by simp [Full.Blk.erase, Lay.Blk.texts], this⟩
  | .table b g cs => by
    intro h
    simp only [Whole.block, ofBlocks, leaves, List.append_nil] at h
    obtain ⟨r, hr, bs, hbs, hx⟩ := so_leaves_rows _ x h
    obtain ⟨t, ht, e⟩ := so_cells ws f x cs bs (so_place g _ r hr bs hbs) hx
    exact ⟨t, by simp only [Full.Blk.erase, Lay.Blk.texts]; exact ht, e⟩
theorem so_cells (ws : Char → Bool) (f : Fmt) (x : Par) :
    ∀ (cs : List (Full.Cell × List (Full.Blk Tok))) (bs : List (Docx.Block Par)), bs ∈ Whole.cells ws f cs → x ∈ leaves (ofBlocks bs) →
      ∃ t ∈ Lay.cellsTexts (Full.eraseCells cs), x = paragraph ws f t
  | [] => by intro bs h; simp [Whole.cells] at h
  | (c, bs') :: cs => by
    intro bs h hx
    simp only [Whole.cells, List.mem_cons] at h
    rcases h with h | h
    · rw [h] at hx
      obtain ⟨t, ht, e⟩ := so_blocks ws f x bs' hx
      exact ⟨t, by simp only [Full.eraseCells, Lay.cellsTexts, List.mem_append]; exact .inl ht, e⟩
    · obtain ⟨t, ht, e⟩ := so_cells ws f x cs bs h hx
      exact ⟨t, by simp only [Full.eraseCells, Lay.cellsTexts, List.mem_append]; exact .inr ht, e⟩
theorem so_blocks (ws : Char → Bool) (f : Fmt) (x : Par) :
    ∀ bs : List (Full.Blk Tok), x ∈ leaves (ofBlocks (Whole.blocks ws f bs)) → ∃ t ∈ Lay.texts (Full.erase bs), x = paragraph ws f t
  | [] => by intro h; simp [Whole.blocks, ofBlocks, leaves] at h
  | b :: bs => by
    intro h
    have e : ofBlocks (Whole.blocks ws f (b :: bs)) = ofBlocks [Whole.block ws f b] ++ ofBlocks (Whole.blocks ws f bs) := by
      rw [← wh_ofBlocks_append]; simp [Whole.blocks]
    rw [e, pp_leaves_append, List.mem_append] at h
    rcases h with h | h
    · obtain ⟨t, ht, e⟩ := so_block ws f x b h
      exact ⟨t, by simp only [Full.erase, Lay.texts, List.mem_append]; exact .inl ht, e⟩
    · obtain ⟨t, ht, e⟩ := so_blocks ws f x bs h
      exact ⟨t, by simp only [Full.erase, Lay.texts, List.mem_append]; exact .inr ht, e⟩
end

theorem so_erase (bs : List (Full.Blk Tok)) : Full.erase bs = bs.map Full.Blk.erase := by
  induction bs with
  | nil => rfl
  | cons b bs ih => simp [Full.erase, ih]

theorem so_par_lines (ws : Char → Bool) (f : Fmt) (t : TBlk) (h : ∀ l ∈ t.2, LineOK l) (ht : ∀ l ∈ t.2, ∀ s ∈ l.spans, Tagged s.2) : parLines (paragraph ws f t) = t.2.map Lay.lineItems := by
  have e : ∀ p : Par, parLines p = (Props.contents p).map fun w => w.flatMap wordToks := by
    intro p
    unfold parLines Props.contents
    induction p with
    | nil => rfl
    | cons o p ih => cases o <;> simp [ih]
  rw [e]
  unfold paragraph
  rw [C51_lines_once_in_order, List.map_map, List.map_map]
  apply List.ext_getElem?
  intro i
  rw [List.getElem?_map, List.getElem?_map, List.getElem?_zipIdx]
  cases hl : t.2[i]? with
  | none => rfl
  | some l =>
    have hm := List.mem_of_getElem? hl
    simp only [Option.map_some, Function.comp]
    rw [pp_line ws l (h l hm) (ht l hm)]

end SRender

section SPage
variable {π : Type}

/-- The paragraphs of a parsed page, at every nesting, are made of lines of the page. -/
theorem so_page (c : Whole.Cfg) (hws : c.ws ' ' = true) (hi : ∀ l, (c.full.base.lay.iter l).Perm l) (depth : ℕ) (p : Whole.Page π) (hraw : ∀ b ∈ p.raw, RawOK b)
    (d : Docx.PageData Par Sp π) (h : Whole.parsePage c depth p = .ok d) :
    d.props = p.props ∧ (∀ par ∈ leaves (ofBlocks d.blocks), ∀ ts ∈ parLines par, MadeOf (pageLines c.ws p.box p.raw) ts) ∧
      ∀ s ∈ d.floats, ∃ l ∈ pageLines c.ws p.box p.raw, Lay.lineItems l = s.items := by
  obtain ⟨js, fs, bs, _, g2, g3, _⟩ := pp_cleanUp c.pipe hws hi p.box p.raw hraw
  obtain ⟨k1, k2⟩ := so_clean c.pipe hws hi p.box p.raw js fs hraw g2
  unfold Whole.parsePage at h
  rw [g2] at h
  dsimp only at h
  cases hl : Full.parsePage c.full p.styled p.ids depth p.work p.shapes (js.map fun b => .text b.bbox b.lines) with
  | error e => rw [hl] at h; cases h
  | ok r =>
    rw [hl] at h
    obtain rfl := Except.ok.inj h
    refine ⟨rfl, ?_, k2⟩
    dsimp only
    obtain ⟨D, _, hD⟩ := fl_refines c.full p.styled p.ids depth p.work p.shapes (js.map fun b => .text b.bbox b.lines)
    rw [hl] at hD
    have hD' : Lay.parsePage c.full.base.lay D p.ids depth p.work (Lay.sortBlocks ((js.map fun b => Full.Blk.text b.bbox b.lines).map Full.Blk.erase)) = .ok (r.1.map Full.Blk.erase) := hD
    have hm : ((js.map fun b => Full.Blk.text b.bbox b.lines).map Full.Blk.erase) = js.map fun b => Lay.Blk.text b.bbox b.lines := by
      rw [List.map_map]
      apply List.map_congr_left
      intro b _
      simp [Full.Blk.erase]
    have hok : ∀ t ∈ Lay.texts (Lay.sortBlocks ((js.map fun b => Full.Blk.text b.bbox b.lines).map Full.Blk.erase)), TextOK t ∧ (∀ l ∈ t.2, ∀ s ∈ l.spans, Tagged s.2) ∧
        ∃ b ∈ js, t = (b.bbox, b.lines) := by
      intro t ht
      have ht := (fl_texts_sort _).subset ht
      rw [hm, pp_texts_map] at ht
      obtain ⟨b, hb, rfl⟩ := List.mem_map.1 ht
      exact ⟨(g3 b hb).1, (g3 b hb).2, b, hb, rfl⟩
    have h1 := C83_boxes_stay_nested c.full.base.lay hi D p.ids depth p.work _ _ (fun t ht => (hok t ht).1) hD'
    have h2 := ly_parse_closed c.full.base.lay hi D p.ids pp_tagged_closed depth [] p.work [0, 1, 2] _ _ hD' (fun t ht => (hok t ht).2.1)
    have h3 := C83_nothing_invented c.full.base.lay hi D p.ids depth p.work _ _ hD'
    intro par hpar ts hts
    obtain ⟨t, ht, rfl⟩ := so_blocks c.ws p.fmt par r.1 hpar
    rw [so_erase] at ht
    rw [so_par_lines c.ws p.fmt t (fun l hl => ((h1 t ht).2 l hl).1) (h2 t ht)] at hts
    obtain ⟨l, hlt, rfl⟩ := List.mem_map.1 hts
    obtain ⟨l0, hl0, _, hsub⟩ := h3 l (List.mem_flatMap.2 ⟨t, ht, hlt⟩)
    obtain ⟨t0, ht0, hlt0⟩ := List.mem_flatMap.1 hl0
    obtain ⟨_, _, b, hb, rfl⟩ := hok t0 ht0
    obtain ⟨ms, m1, m2⟩ := k1 b hb l0 hlt0
    exact ⟨ms, m1, hsub.trans m2⟩

/-- The shapes of a page are always found. -/
theorem so_draw_page (c : Draw.Cfg) (p : Draw.Page π) : ∃ q, Draw.page c p = .ok q ∧ q.box = p.box ∧ q.props = p.props ∧ (q.raw = p.raw ∨ q.raw = p.raw ++ p.graphics) := by
  obtain ⟨gs, h1, _⟩ := C22_never_raises (1 / 10) (1 / 10) ((Draw.restore p.box p.drawings).map Draw.pathBox)
  unfold Draw.page Draw.shapes Draw.toShapes
  rw [h1]
  dsimp only
  refine ⟨_, rfl, rfl, rfl, ?_⟩
  dsimp only
  split
  · exact .inr rfl
  · exact .inl (List.append_nil _)

theorem so_pages (c : Draw.Cfg) (pages : List (Draw.Page π)) : ∃ qs, pages.mapM (Draw.page c) = .ok qs ∧
    List.Forall₂ (fun p q => q.box = p.box ∧ q.props = p.props ∧ (q.raw = p.raw ∨ q.raw = p.raw ++ p.graphics)) pages qs := by
  obtain ⟨qs, h⟩ := ly_mapM_ok (f := Draw.page c) pages fun p _ => by
    obtain ⟨q, h, _⟩ := so_draw_page c p
    exact ⟨q, h⟩
  refine ⟨qs, h, ?_⟩
  refine (pp_mapM_forall _ _ h).imp ?_
  intro p q hq
  obtain ⟨q', h1, h2⟩ := so_draw_page c p
  rw [hq] at h1
  obtain rfl := Except.ok.inj h1
  exact h2

theorem so_lines_mono (ws : Char → Bool) (page : Rect) (a b : List Raw) : ∀ l ∈ pageLines ws page a, l ∈ pageLines ws page (a ++ b) := by
  intro l hl
  unfold pageLines at hl ⊢
  rw [List.filter_append, List.flatMap_append, List.mem_append]
  exact .inl hl

/-- **C113**: nothing in the document that is not on its page. Whatever is drawn on the pages and whatever their blocks of text and pictures are: there is one section for each page, with
the properties of the page; each line of text in a paragraph of the section, in or outside of tables at any nesting, is made of lines of that page, in their order; every anchored picture is
on a page. -/
theorem C113_nothing_invented (c : Draw.Cfg) (hws : c.whole.ws ' ' = true) (hi : ∀ l, (c.whole.full.base.lay.iter l).Perm l) (depth : ℕ) (p0 : π) (pages : List (Draw.Page π)) (hne : pages ≠ [])
    (hraw : ∀ p ∈ pages, ∀ b ∈ p.raw ++ p.graphics, RawOK b) (d : Docx.Doc Par Sp π) (h : Draw.convertDoc c depth p0 pages = .ok d) :
    (sectionsOf d).length = pages.length ∧
    (∀ (i : ℕ) (p : Draw.Page π) (s : π × List (Docx.Item Par Sp π)), pages[i]? = some p → (sectionsOf d)[i]? = some s →
      s.1 = p.props ∧ ∀ par ∈ leaves (ofItems s.2), ∀ ts ∈ parLines par, MadeOf (pageLines c.whole.ws p.box (p.raw ++ p.graphics)) ts) ∧
    ∀ s ∈ floatsOf d.body, ∃ p ∈ pages, ∃ l ∈ pageLines c.whole.ws p.box (p.raw ++ p.graphics), Lay.lineItems l = s.items := by
  obtain ⟨qs, hq, hpq⟩ := so_pages c pages
  unfold Draw.convertDoc at h
  rw [hq] at h
  dsimp only at h
  have hqok : ∀ (p : Draw.Page π) (q : Whole.Page π), p ∈ pages → (q.box = p.box ∧ q.props = p.props ∧ (q.raw = p.raw ∨ q.raw = p.raw ++ p.graphics)) →
      (∀ b ∈ q.raw, RawOK b) ∧ ∀ l ∈ pageLines c.whole.ws q.box q.raw, l ∈ pageLines c.whole.ws p.box (p.raw ++ p.graphics) := by
    intro p q hp hpq
    obtain ⟨e1, _, e3⟩ := hpq
    rw [e1]
    rcases e3 with e3 | e3
    · rw [e3]
      exact ⟨fun b hb => hraw p hp b (List.mem_append.2 (.inl hb)), so_lines_mono _ _ _ _⟩
    · rw [e3]
      exact ⟨hraw p hp, fun l hl => hl⟩
  have hmade : ∀ {ls ls' : List (Lay.Ln Tok)} {ts : List Tok}, (∀ l ∈ ls, l ∈ ls') → MadeOf ls ts → MadeOf ls' ts := by
    rintro ls ls' ts h ⟨ms, h1, h2⟩
    exact ⟨ms, fun m hm => h m (h1 m hm), h2⟩
  unfold Whole.convert at h
  cases hm : qs.mapM (Whole.parsePage c.whole depth) with
  | error e => rw [hm] at h; cases h
  | ok ds =>
    rw [hm] at h
    obtain rfl := Except.ok.inj h
    have hall := pp_mapM_forall qs ds hm
    have hlen : ds.length = pages.length := hall.length_eq.symm.trans hpq.length_eq.symm
    have hdne : ds ≠ [] := by
      rintro rfl
      exact hne (List.length_eq_zero_iff.1 hlen.symm)
    have hsec := C31_one_section_per_page p0 ds hdne
    have hseclen : (sectionsOf (Docx.makeDoc p0 ds)).length = ds.length := by
      have := congrArg List.length hsec
      simpa using this
    have hget : ∀ (i : ℕ) (p : Draw.Page π) (dd : Docx.PageData Par Sp π), pages[i]? = some p → ds[i]? = some dd →
        ∃ q, (q.box = p.box ∧ q.props = p.props ∧ (q.raw = p.raw ∨ q.raw = p.raw ++ p.graphics)) ∧ Whole.parsePage c.whole depth q = .ok dd := by
      intro i p dd e1 e2
      obtain ⟨i1, rfl⟩ := List.getElem?_eq_some_iff.1 e1
      obtain ⟨i2, rfl⟩ := List.getElem?_eq_some_iff.1 e2
      have i3 : i < qs.length := hpq.length_eq ▸ i1
      exact ⟨qs[i], by simpa using hpq.get i1 i3, by simpa using hall.get i3 i2⟩
    refine ⟨hseclen.trans hlen, ?_, ?_⟩
    · intro i p s e1 e2
      have hi2 : i < ds.length := by
        have := (List.getElem?_eq_some_iff.1 e2).1
        rwa [hseclen] at this
      obtain ⟨q, hpq', hdd⟩ := hget i p ds[i] e1 (List.getElem?_eq_getElem hi2)
      have hp := List.mem_of_getElem? e1
      obtain ⟨k1, k2⟩ := hqok p q hp hpq'
      obtain ⟨m1, m2, _⟩ := so_page c.whole hws hi depth q k1 _ hdd
      have hs : (s.1, ofItems s.2) = (ds[i].props, ofBlocks ds[i].blocks) := by
        have := congrArg (fun l => l[i]?) hsec
        simp only [List.getElem?_map, e2, List.getElem?_eq_getElem hi2, Option.map_some, Option.some.injEq] at this
        exact this
      obtain ⟨s1, s2⟩ := Prod.mk.inj hs
      refine ⟨s1.trans (m1.trans hpq'.2.1), ?_⟩
      rw [s2]
      intro par hpar ts hts
      exact hmade k2 (m2 par hpar ts hts)
    · intro s hs
      rw [pp_floats] at hs
      obtain ⟨dd, hdd, hs⟩ := List.mem_flatMap.1 hs
      obtain ⟨i, hi2, rfl⟩ := List.getElem_of_mem hdd
      have hi1 : i < pages.length := hlen ▸ hi2
      obtain ⟨q, hpq', hdd⟩ := hget i pages[i] ds[i] (List.getElem?_eq_getElem hi1) (List.getElem?_eq_getElem hi2)
      obtain ⟨k1, k2⟩ := hqok _ q (List.getElem_mem hi1) hpq'
      obtain ⟨_, _, m3⟩ := so_page c.whole hws hi depth q k1 _ hdd
      obtain ⟨l, hl, e⟩ := m3 s hs
      exact ⟨_, List.getElem_mem hi1, l, k2 l hl, e⟩

/-- **C113** (what can go wrong): whatever is drawn on the pages, the conversion raises nothing but the `IndexError` of C58 or Python's `RecursionError`. -/
theorem C113_exceptions (c : Draw.Cfg) (hws : c.whole.ws ' ' = true) (hi : ∀ l, (c.whole.full.base.lay.iter l).Perm l) (depth : ℕ) (p0 : π) (pages : List (Draw.Page π))
    (hraw : ∀ p ∈ pages, ∀ b ∈ p.raw ++ p.graphics, RawOK b) (e : Err) (h : Draw.convertDoc c depth p0 pages = .error e) : e = .exn "RecursionError" ∨ e = .index := by
  obtain ⟨qs, hq, hpq⟩ := so_pages c pages
  unfold Draw.convertDoc at h
  rw [hq] at h
  dsimp only at h
  unfold Whole.convert at h
  cases hm : qs.mapM (Whole.parsePage c.whole depth) with
  | ok ds => rw [hm] at h; cases h
  | error e' =>
    rw [hm] at h
    obtain rfl := Except.error.inj h
    clear h
    have : ∃ q ∈ qs, Whole.parsePage c.whole depth q = .error e' := by
      clear hpq hq
      induction qs with
      | nil => cases hm
      | cons p ps ih =>
        rw [List.mapM_cons] at hm
        cases hx : Whole.parsePage c.whole depth p with
        | error x =>
          rw [hx] at hm
          obtain rfl := Except.error.inj hm
          exact ⟨p, by simp, hx⟩
        | ok y =>
          rw [hx] at hm
          cases hy : ps.mapM (Whole.parsePage c.whole depth) with
          | error x =>
            rw [hy] at hm
            obtain rfl := Except.error.inj hm
            obtain ⟨q, hq, hq'⟩ := ih hy
            exact ⟨q, by simp [hq], hq'⟩
          | ok ys => rw [hy] at hm; cases hm
    obtain ⟨q, hqm, hx⟩ := this
    have hqraw : ∀ b ∈ q.raw, RawOK b := by
      obtain ⟨i, hi2, rfl⟩ := List.getElem_of_mem hqm
      have hi1 : i < pages.length := hpq.length_eq ▸ hi2
      have := hpq.get hi1 hi2
      simp only [List.get_eq_getElem] at this
      rcases this.2.2 with e | e
      · rw [e]; exact fun b hb => hraw _ (List.getElem_mem hi1) b (List.mem_append.2 (.inl hb))
      · rw [e]; exact hraw _ (List.getElem_mem hi1)
    obtain ⟨js, fs, bs, _, g2, g3, _⟩ := pp_cleanUp c.whole.pipe hws hi q.box q.raw hqraw
    unfold Whole.parsePage at hx
    rw [g2] at hx
    dsimp only at hx
    cases hl : Full.parsePage c.whole.full q.styled q.ids depth q.work q.shapes (js.map fun b => .text b.bbox b.lines) with
    | ok r => rw [hl] at hx; cases hx
    | error e =>
      rw [hl] at hx
      obtain rfl := Except.error.inj hx
      refine C83_shapes_exceptions c.whole.full hi q.styled q.ids depth q.work q.shapes _ ?_ e hl
      intro t ht
      rw [List.map_map] at ht
      have hm : (js.map (Full.Blk.erase ∘ fun b => Full.Blk.text b.bbox b.lines)) = js.map fun b => Lay.Blk.text b.bbox b.lines := by
        apply List.map_congr_left
        intro b _
        simp [Full.Blk.erase]
      rw [hm, pp_texts_map] at ht
      obtain ⟨b, hb, rfl⟩ := List.mem_map.1 ht
      exact (g3 b hb).1

end SPage

/-! ## Examples -/

theorem so_ex_text (id : ℕ) (b : Rect) (x : Char) (h : b.x0 < b.x1 ∧ b.y0 < b.y1 ∧ Rect.round b = b) : RawOK (plText id b [(b, [(b, x)])]) := by
  have hc : Covers b b := ⟨le_refl _, le_refl _, le_refl _, le_refl _⟩
  refine plText_ok _ _ _ (pp_ex_text _ _ h ?_)
  intro l hl
  rw [List.mem_singleton] at hl
  subst hl
  refine ⟨⟨h, hc⟩, ?_⟩
  intro c hcm
  rw [List.mem_singleton] at hcm
  subst hcm
  exact ⟨h, hc⟩

/-- An image block. -/
def soPic (id n : ℕ) (b : Rect) : Raw := ⟨b, some (.image b (.pic n)), [⟨b, .leftRight, some id, [(b, .image b (.pic n))]⟩]⟩

theorem so_ex_pic (id n : ℕ) (b : Rect) (h : b.x0 < b.x1 ∧ b.y0 < b.y1 ∧ Rect.round b = b) : RawOK (soPic id n b) := by
  have hr : RealBox b := ly_ex_real h
  have hc : Covers b b := ⟨le_refl _, le_refl _, le_refl _, le_refl _⟩
  refine ⟨⟨hr, ?_⟩, ?_, ?_⟩
  · intro l hl
    simp only [soPic, List.mem_singleton] at hl
    subst hl
    refine ⟨⟨hr, ?_⟩, hc⟩
    intro s hs
    simp only [List.mem_singleton] at hs
    subst hs
    exact ⟨rfl, hr, hc⟩
  · intro l hl s hs
    simp only [soPic, List.mem_singleton] at hl
    subst hl
    simp only [List.mem_singleton] at hs
    subst hs
    exact ⟨n, rfl⟩
  · intro s hs
    obtain rfl := Option.some.inj hs
    exact ⟨_, _, _, rfl, rfl, rfl⟩

/-- A page with a title and drawings; `graphics` is the picture of the drawings, if they are found to be a vector graphic. -/
def soPage (drawings : List Path.Raw) : Draw.Page ℕ := ⟨⟨0, 0, 400, 600⟩, ⟨0, 0, 400, 600⟩, 3, [plText 1 ⟨20, 20, 300, 30⟩ [(⟨20, 20, 300, 30⟩, [(⟨20, 20, 300, 30⟩, 'a')])]], drawings, [],
  [soPic 2 9 ⟨100, 100, 200, 150⟩], fun _ _ _ _ _ => 0, fun _ _ _ _ => [], ppFmt⟩

theorem so_ex_raw (drawings : List Path.Raw) : ∀ p ∈ [soPage drawings], ∀ b ∈ p.raw ++ p.graphics, RawOK b := by
  intro p hp b hb
  rw [List.mem_singleton] at hp
  subst hp
  simp only [soPage, List.cons_append, List.nil_append, List.mem_cons, List.not_mem_nil, or_false] at hb
  rcases hb with rfl | rfl
  · exact so_ex_text _ _ _ (by decide +kernel)
  · exact so_ex_pic _ _ _ (by decide +kernel)

/-- A curve. -/
def soCurve : List Path.Raw := [⟨[.c ⟨100, 100⟩ ⟨120, 150⟩ ⟨150, 150⟩ ⟨200, 100⟩], false, 1, some 0, none⟩]

/-- An axis with tick marks. -/
def soAxis : List Path.Raw := [⟨[.l ⟨100, 100⟩ ⟨100, 300⟩], false, 1, some 0, none⟩, ⟨[.l ⟨97, 100⟩ ⟨100, 100⟩], false, 1, some 0, none⟩,
  ⟨[.l ⟨97, 200⟩ ⟨100, 200⟩], false, 1, some 0, none⟩, ⟨[.l ⟨97, 300⟩ ⟨100, 300⟩], false, 1, some 0, none⟩]

/-- What a converted document shows. -/
def soShown (r : Except Err (Docx.Doc Par Sp ℕ)) : Option (List (List (List (List Tok)))) :=
  r.toOption.map fun d => (sectionsOf d).map fun s => (leaves (ofItems s.2)).map parLines

/-- A page with a curve: the picture made of it is in the document, below the title. -/
theorem so_ex_curve : soShown (Draw.convertDoc dwCfg 4 0 [soPage soCurve]) = some [[[[.chr 'a']], [[.pic 9]]]] := by decide +kernel

/-- Without drawings the picture is not looked for. -/
theorem so_ex_none : soShown (Draw.convertDoc dwCfg 4 0 [soPage []]) = some [[[[.chr 'a']]]] := by decide +kernel

/-- The hypotheses of C113 are met: two pages, the second one with a vector graphic. -/
example : ∃ d, Draw.convertDoc dwCfg 4 0 [soPage [], soPage soCurve] = .ok d ∧ (sectionsOf d).length = 2 ∧
    ∀ s : ℕ × List (Docx.Item Par Sp ℕ), (sectionsOf d)[1]? = some s → s.1 = 3 ∧
      ∀ par ∈ leaves (ofItems s.2), ∀ ts ∈ parLines par, MadeOf (pageLines dwCfg.whole.ws ⟨0, 0, 400, 600⟩ ((soPage soCurve).raw ++ (soPage soCurve).graphics)) ts := by
  have h0 : (soShown (Draw.convertDoc dwCfg 4 0 [soPage [], soPage soCurve])).isSome = true := by decide +kernel
  cases hd : Draw.convertDoc dwCfg 4 0 [soPage [], soPage soCurve] with
  | error e => rw [hd] at h0; cases h0
  | ok d =>
    obtain ⟨h1, h2, _⟩ := C113_nothing_invented dwCfg (by decide +kernel) wh_ex_sane.order 4 0 _ (by simp) (by
      intro p hp
      rcases List.mem_cons.1 hp with rfl | hp
      · exact so_ex_raw [] _ (by simp)
      · exact so_ex_raw soCurve _ hp) d hd
    exact ⟨d, rfl, h1, fun s hs => h2 1 (soPage soCurve) s rfl hs⟩

/-- A page with an axis with tick marks is not converted (C58): the exception is the one C113 allows for. -/
theorem so_ex_axis : fpError (Draw.convertDoc dwCfg 4 0 [soPage soAxis]) = some .index := by decide +kernel

/-- The hypotheses of `C113_exceptions` are met by that page. -/
example : ∃ e, Draw.convertDoc dwCfg 4 0 [soPage soAxis] = .error e ∧ (e = .exn "RecursionError" ∨ e = .index) := by
  have h := so_ex_axis
  cases hd : Draw.convertDoc dwCfg 4 0 [soPage soAxis] with
  | ok d => rw [hd] at h; cases h
  | error e => exact ⟨e, rfl, C113_exceptions dwCfg (by decide +kernel) wh_ex_sane.order 4 0 _ (so_ex_raw soAxis) e hd⟩

end Props
