import Verif.Spec.PipePlain
import Verif.Props.Pipe
/-! # C86: pages without tables – lines stay whole, reading order -/

namespace Props
open Geom Py Assign Pipe Spec

section Common
variable {π : Type}

/-- The section of a page in the document. -/
theorem pl_section (c : Pipe.Cfg) (depth : ℕ) (p0 : π) (pages : List (Page π)) (d : Docx.Doc Par Sp π) (h : convert c depth p0 pages = .ok d)
    (i : ℕ) (p : Page π) (s : π × List (Docx.Item Par Sp π)) (hp : pages[i]? = some p) (hs : (sectionsOf d)[i]? = some s) :
    ∃ dd, parsePage c depth p = .ok dd ∧ ofItems s.2 = ofBlocks dd.blocks := by
  unfold convert at h
  cases hm : pages.mapM (parsePage c depth) with
  | error e => rw [hm] at h; cases h
  | ok ds =>
    rw [hm] at h
    obtain rfl := Except.ok.inj h
    have hall := pp_mapM_forall pages ds hm
    have hdne : ds ≠ [] := by
      rintro rfl
      rw [List.forall₂_nil_right_iff.1 hall] at hp
      cases hp
    have hsec := C31_one_section_per_page p0 ds hdne
    obtain ⟨hi1, rfl⟩ := List.getElem?_eq_some_iff.1 hp
    have hi2 : i < ds.length := hall.length_eq ▸ hi1
    refine ⟨ds[i], by simpa using hall.get hi1 hi2, ?_⟩
    have := congrArg (fun l => l[i]?) hsec
    simp only [List.getElem?_map, hs, List.getElem?_eq_getElem hi2, Option.map_some, Option.some.injEq] at this
    exact (Prod.mk.inj this).2

theorem pl_stages {α : Type} (D : Lay.Detect α) (nid : Lay.Ids) (path : List ℕ) (box : Rect) (ss : List ℕ)
    (bs : List (Lay.Blk α)) (hD : ∀ s ∈ ss, D path box s bs = .ok []) : Lay.stages D nid path box ss bs = .ok bs := by
  induction ss with
  | nil => rfl
  | cons s ss ih =>
    unfold Lay.stages
    rw [hD s (by simp)]
    dsimp only
    unfold Lay.assignTables
    rw [if_pos (by rfl)]
    exact ih fun s hs => hD s (by simp [hs])

/-- No table is found among the blocks of the page itself. -/
def NothingFound (c : Pipe.Cfg) (p : Page π) : Prop :=
  ∀ r, cleanUp c p.box p.raw = .ok r → ∀ s ∈ [0, 1, 2], p.detect [] p.work s (r.1.map fun b => .text b.bbox b.lines) = .ok []

theorem pl_nothing (c : Pipe.Cfg) (p : Page π) (h : PlainPage p) : NothingFound c p := fun _ _ _ _ => h.plain _ _ _ _

theorem pl_parseTables {α : Type} (sub : ℕ → ℕ → Rect → List (Lay.Blk α) → Except Err (List (Lay.Blk α))) (bs : List (Lay.Blk α)) (h : ∀ b ∈ bs, b.isText = true)
    (i : ℕ) : Lay.parseTables sub i bs = .ok bs := by
  induction bs generalizing i with
  | nil => rfl
  | cons b bs ih =>
    cases b with
    | table r cs => cases h (.table r cs) (by simp)
    | text r ls =>
      unfold Lay.parseTables
      rw [ih (fun b hb => h b (by simp [hb]))]

theorem pl_split_text {α : Type} (c : Lay.Cfg) (bs r : List (Lay.Blk α)) (h : ∀ b ∈ bs, b.isText = true) (hr : Lay.splitBack c bs = .ok r) :
    ∀ b ∈ r, b.isText = true := by
  unfold Lay.splitBack at hr
  split at hr
  · cases hr
  · obtain rfl := Except.ok.inj hr
    intro b hb
    have hb := (ly_real_mem.1 ((ly_sort_perm _).subset hb)).1
    rcases List.mem_append.1 hb with hb | hb
    · exact h b (List.mem_of_mem_filter hb)
    · obtain ⟨g, _, rfl⟩ := List.mem_map.1 hb
      rfl

/-- Parsing a page without tables. -/
theorem pl_parse (c : Pipe.Cfg) (depth : ℕ) (p : Page π) (hp : NothingFound c p) (dd : Docx.PageData Par Sp π)
    (h : parsePage c depth p = .ok dd) :
    ∃ bs fs js r, beforeJoin c p.box p.raw = .ok (bs, fs) ∧ Lns.joinHorizontally c.lay.iter c.ov c.mg bs = .ok js ∧
      Lay.splitBack c.lay (js.map fun b => .text b.bbox b.lines) = .ok r ∧ (∀ b ∈ r, b.isText = true) ∧ dd.blocks = blocks c.ws p.fmt r := by
  unfold NothingFound at hp
  unfold cleanUp at hp
  unfold parsePage cleanUp at h
  cases hb : beforeJoin c p.box p.raw with
  | error e => rw [hb] at h; cases h
  | ok x =>
    rw [hb] at h hp
    dsimp only at h hp
    cases hj : Lns.joinHorizontally c.lay.iter c.ov c.mg x.1 with
    | error e => rw [hj] at h; cases h
    | ok js =>
      rw [hj] at h hp
      dsimp only at h hp
      have hp := hp _ rfl
      cases depth with
      | zero => cases h
      | succ depth =>
        unfold Lay.parsePage Lay.parse Lay.level at h
        rw [pl_stages _ _ _ _ _ _ hp] at h
        dsimp only at h
        cases hs : Lay.splitBack c.lay (js.map fun b => .text b.bbox b.lines) with
        | error e => rw [hs] at h; cases h
        | ok r =>
          rw [hs] at h
          have ht := pl_split_text c.lay _ r (by intro b hb; obtain ⟨x, _, rfl⟩ := List.mem_map.1 hb; rfl) hs
          dsimp only at h
          rw [pl_parseTables _ r ht] at h
          obtain rfl := Except.ok.inj h
          exact ⟨x.1, x.2, js, r, rfl, hj, hs, ht, rfl⟩

/-- Paragraphs of a layout without tables. -/
theorem pl_leaves (ws : Char → Bool) (f : Fmt) (bs : List (Lay.Blk Tok)) (h : ∀ b ∈ bs, b.isText = true) :
    leaves (ofBlocks (blocks ws f bs)) = (Lay.texts bs).map (paragraph ws f) := by
  induction bs with
  | nil => simp [blocks, ofBlocks, leaves, Lay.texts]
  | cons b bs ih =>
    have ih := ih (fun b hb => h b (by simp [hb]))
    cases b with
    | table r cs => cases h (.table r cs) (by simp)
    | text r ls => simp [blocks, block, ofBlocks, leaves, Lay.texts, Lay.Blk.texts, ih]

/-- The text of a layout without tables. -/
theorem pl_text (ws : Char → Bool) (f : Fmt) (bs : List (Lay.Blk Tok)) (h : ∀ b ∈ bs, b.isText = true)
    (hok : ∀ t ∈ Lay.texts bs, TextOK t ∧ ∀ l ∈ t.2, ∀ s ∈ l.spans, Tagged s.2) :
    (leaves (ofBlocks (blocks ws f bs))).flatMap parToks = Lay.items bs := by
  rw [pl_leaves ws f bs h, List.flatMap_map]
  unfold Lay.items Lay.allLines
  rw [List.flatMap_assoc]
  exact List.flatMap_congr fun t ht => pp_paragraph ws f t (hok t ht).1 (hok t ht).2

/-- Blocks after joining and splitting are fine. -/
theorem pl_ok (c : Pipe.Cfg) (hi : ∀ l, (c.lay.iter l).Perm l) (js : List Raw) (r : List (Lay.Blk Tok))
    (hjs : ∀ r ∈ js, TextOK (r.bbox, r.lines) ∧ ∀ l ∈ r.lines, ∀ s ∈ l.spans, Tagged s.2)
    (hr : Lay.splitBack c.lay (js.map fun b => .text b.bbox b.lines) = .ok r) :
    ∀ t ∈ Lay.texts r, TextOK t ∧ ∀ l ∈ t.2, ∀ s ∈ l.spans, Tagged s.2 := by
  have hok : ∀ t ∈ Lay.texts (js.map fun b => Lay.Blk.text b.bbox b.lines), TextOK t ∧ ∀ l ∈ t.2, ∀ s ∈ l.spans, Tagged s.2 := by
    intro t ht
    rw [pp_texts_map] at ht
    obtain ⟨b, hb, rfl⟩ := List.mem_map.1 ht
    exact hjs b hb
  intro t ht
  obtain ⟨r1, e1, k1⟩ := ly_all_splitBack c.lay hi ly_textOK_closed _ (fun t ht => (hok t ht).1)
  obtain ⟨r2, e2, k2⟩ := ly_all_splitBack c.lay hi pp_tagged_closed _ (fun t ht => (hok t ht).2)
  rw [hr] at e1 e2
  obtain rfl := Except.ok.inj e1
  obtain rfl := Except.ok.inj e2
  exact ⟨k1 t ht, k2 t ht⟩

end Common

section WholeLines
variable {π : Type}

/-- Without overlaps, the spans of a line are consecutive spans of a joined line. -/
theorem pl_join_line (ov mg : ℚ) (hov : 1 / 1000000 < ov) (ls : List (Lay.Ln Tok)) (hg : ∀ l ∈ ls, LineGood l)
    (hno : ls.Pairwise fun a b => ¬ OverlapBy ov a.bbox b.bbox ∧ ¬ OverlapBy ov b.bbox a.bbox) (l : Lay.Ln Tok) (hl : l ∈ ls) :
    ∃ m ∈ Lns.join ov mg ls, l.spans <:+: m.spans := by
  have hgs : ∀ l ∈ Lns.sort ls, LineGood l := fun l hl => hg l ((C67_permutation ls).subset hl)
  have hsym : (Lns.sort ls).Pairwise fun a b => ¬ OverlapBy ov a.bbox b.bbox ∧ ¬ OverlapBy ov b.bbox a.bbox :=
    (C67_permutation ls).symm.pairwise hno (fun h => ⟨h.2, h.1⟩)
  obtain ⟨parts, h1, h2, _, h3⟩ := ln_joinSorted ov mg (Lns.sort ls) hgs
  rw [ln_kept_all hov _ hgs hsym] at h1
  have hl' : l ∈ parts.flatten := by rw [h1]; exact (C67_permutation ls).symm.subset hl
  obtain ⟨q, hq, hlq⟩ := List.mem_flatten.1 hl'
  have hqg : ∀ x ∈ q, LineGood x := fun x hx => hgs x (by rw [← h1]; exact List.mem_flatten.2 ⟨q, hq, hx⟩)
  cases q with
  | nil => cases hlq
  | cons a as =>
    have hsp := ln_add_spans a (as.flatMap Lns.Ln.spans) (by
      intro s hs
      obtain ⟨x, hx, hs⟩ := List.mem_flatMap.1 hs
      exact (hqg x (by simp [hx])).2.2 s hs)
    refine ⟨a.add (as.flatMap Lns.Ln.spans), ?_, ?_⟩
    · unfold Lns.join
      rw [h3]
      exact List.mem_filterMap.2 ⟨a :: as, hq, rfl⟩
    · rw [hsp]
      have : a.spans ++ as.flatMap Lns.Ln.spans = (a :: as).flatMap Lns.Ln.spans := rfl
      rw [this]
      obtain ⟨u, v, e⟩ := List.append_of_mem hlq
      rw [e]
      exact ⟨u.flatMap Lns.Ln.spans, v.flatMap Lns.Ln.spans, by simp⟩

/-- The same for a page. -/
theorem pl_join_page (iter : List ℕ → List ℕ) (hi : ∀ l, (iter l).Perm l) (ov mg : ℚ) (hov : 1 / 1000000 < ov) (bs js : List Raw)
    (hb : ∀ b ∈ bs, b.bbox = Rect.zero ∨ RawOK b)
    (hno : ((bs.filter fun b => decide (b.bbox ≠ Rect.zero)).flatMap Lns.Blk.lines).Pairwise fun a b => ¬ OverlapBy ov a.bbox b.bbox ∧ ¬ OverlapBy ov b.bbox a.bbox)
    (hj : Lns.joinHorizontally iter ov mg bs = .ok js) (b : Raw) (hbm : b ∈ bs) (hbz : b.bbox ≠ Rect.zero) (l : Lay.Ln Tok) (hl : l ∈ b.lines) :
    ∃ j ∈ js, ∃ m ∈ j.lines, l.spans <:+: m.spans := by
  obtain ⟨gs, h1, h2, hnn⟩ := C21_elements_conserved iter hi (fun a b : Raw => El.horizontallyAlign ⟨a.bbox, .leftRight⟩ ⟨b.bbox, .leftRight⟩ 0 false) bs
  unfold Lns.joinHorizontally at hj
  rw [h1] at hj
  obtain rfl := Except.ok.inj hj
  have hfil : ∀ g : List Raw, (g.filter fun b => b.bbox.truthy) = g.filter fun b => decide (b.bbox ≠ Rect.zero) := fun _ => rfl
  obtain ⟨g, hg, hbg⟩ := List.mem_flatten.1 (h2.symm.subset hbm)
  have hok : ∀ b ∈ g.filter (fun b => b.bbox.truthy), RawOK b := by
    intro b hbg
    obtain ⟨hbg, ht⟩ := List.mem_filter.1 hbg
    rcases hb b (h2.subset (List.mem_flatten.2 ⟨g, hg, hbg⟩)) with e | h
    · rw [e] at ht; cases ht
    · exact h
  have hbg' : b ∈ g.filter (fun b => b.bbox.truthy) := List.mem_filter.2 ⟨hbg, decide_eq_true hbz⟩
  have hgl : ∀ b ∈ g.filter (fun b => b.bbox.truthy), ∀ l ∈ b.lines, LineGood l := fun b hb l hl => pp_line_good ((hok b hb).boxes.2 l hl).1
  have hll : l ∈ (g.filter fun b => b.bbox.truthy).flatMap Lns.Blk.lines := List.mem_flatMap.2 ⟨b, hbg', hl⟩
  have hpair : ((g.filter fun b => b.bbox.truthy).flatMap Lns.Blk.lines).Pairwise fun a b => ¬ OverlapBy ov a.bbox b.bbox ∧ ¬ OverlapBy ov b.bbox a.bbox := by
    have hperm : ((gs.flatten.filter fun b => b.bbox.truthy).flatMap Lns.Blk.lines).Perm ((bs.filter fun b => decide (b.bbox ≠ Rect.zero)).flatMap Lns.Blk.lines) :=
      (h2.filter _).flatMap_right _
    have h' := hperm.symm.pairwise hno (fun h => ⟨h.2, h.1⟩)
    refine List.Pairwise.sublist ?_ h'
    obtain ⟨u, v, rfl⟩ := List.append_of_mem hg
    simp only [List.flatten_append, List.flatten_cons, List.filter_append, List.flatMap_append]
    exact List.Sublist.trans (List.sublist_append_left _ _) (List.sublist_append_right _ _)
  obtain ⟨m, hm, hsp⟩ := pl_join_line ov mg hov _ (fun x hx => by
    obtain ⟨b, hb, hx⟩ := List.mem_flatMap.1 hx
    exact hgl b hb x hx) hpair l hll
  refine ⟨Lns.joinedBlock ov mg (g.filter fun b => b.bbox.truthy), ?_, m, ?_, hsp⟩
  · refine List.mem_filter.2 ⟨List.mem_map_of_mem hg, ?_⟩
    exact truthy_of_proper _ (ln_joined_proper ov mg _ (fun b hb => pp_block_good (hok b hb)) l hll)
  · unfold Lns.joinedBlock
    rw [ln_gather _ hgl]
    exact hm

/-- Splitting back keeps the spans of each line. -/
theorem pl_split_line (c : Lay.Cfg) (hi : ∀ l, (c.iter l).Perm l) (bs r : List (Lay.Blk Tok)) (ht : ∀ b ∈ bs, b.isText = true) (hok : ∀ t ∈ Lay.texts bs, TextOK t)
    (hr : Lay.splitBack c bs = .ok r) (b : Lay.Blk Tok) (hb : b ∈ bs) (l : Lay.Ln Tok) (hl : l ∈ b.lines) :
    ∃ t ∈ Lay.texts r, ∃ m ∈ t.2, m.spans = l.spans := by
  obtain ⟨gs, h1, h2, _, _⟩ := C69_split_back c.iter hi ((bs.filter (Lay.flow c)).flatMap Lay.Blk.lines)
  unfold Lay.splitBack at hr
  rw [h1] at hr
  obtain rfl := Except.ok.inj hr
  have hbt : ∀ b ∈ bs, TextOK (b.bbox, b.lines) := by
    intro b hb
    cases b with
    | table r cs => cases ht _ hb
    | text r ls => exact hok _ (ly_mem_texts.2 ⟨_, hb, by simp [Lay.Blk.texts, Lay.Blk.bbox, Lay.Blk.lines]⟩)
  have hfin : ∀ x : Lay.Blk Tok, x.isText = true → x ∈ bs.filter (fun b => !Lay.flow c b) ++ gs.map (Lay.mkText 0) → x.bbox.truthy = true →
      (x.bbox, x.lines) ∈ Lay.texts (Lay.sortBlocks (Lay.real (bs.filter (fun b => !Lay.flow c b) ++ gs.map (Lay.mkText 0)))) := by
    intro x hxt hx htr
    refine ly_mem_texts.2 ⟨x, (ly_sort_perm _).symm.subset (ly_real_mem.2 ⟨hx, htr⟩), ?_⟩
    cases x with
    | table r cs => cases hxt
    | text r ls => simp [Lay.Blk.texts, Lay.Blk.bbox, Lay.Blk.lines]
  cases hf : Lay.flow c b with
  | false =>
    exact ⟨_, hfin b (ht b hb) (List.mem_append_left _ (List.mem_filter.2 ⟨hb, by simp [hf]⟩)) (ly_real_truthy (hbt b hb).1), l, hl, rfl⟩
  | true =>
    have hm : l ∈ gs.flatten := h2.symm.subset (List.mem_flatMap.2 ⟨b, List.mem_filter.2 ⟨hb, hf⟩, hl⟩)
    obtain ⟨g, hg, hlg⟩ := List.mem_flatten.1 hm
    have hgr : ∀ x ∈ g, RealBox x.bbox := by
      intro x hx
      obtain ⟨b', hb', hx⟩ := List.mem_flatMap.1 (h2.subset (List.mem_flatten.2 ⟨g, hg, hx⟩))
      exact ((hbt b' (List.mem_of_mem_filter hb')).2 x hx).1.1
    have hbox := ly_mk_box 0 g hgr
    obtain ⟨_, _, h3⟩ := ly_hull (fun l : Lay.Ln Tok => l.bbox) g hgr Rect.zero (Or.inl rfl)
    have htr : (Lay.mkText 0 g).bbox.truthy = true := by rw [hbox]; exact ly_real_truthy (h3 l hlg).2
    refine ⟨_, hfin (Lay.mkText 0 g) rfl (List.mem_append_right _ (List.mem_map_of_mem hg)) htr, { l with pid := l.pid.or (some 0) }, ?_, rfl⟩
    exact List.mem_map.2 ⟨l, List.mem_filter.2 ⟨hlg, ly_real_truthy (hgr l hlg)⟩, rfl⟩

theorem pl_infix_flatMap {β γ : Type} {a b : List β} (h : a <:+: b) (f : β → List γ) : a.flatMap f <:+: b.flatMap f := by
  obtain ⟨u, v, rfl⟩ := h
  exact ⟨u.flatMap f, v.flatMap f, by simp⟩

theorem pl_infix_mem {β γ : Type} {a : β} {b : List β} (h : a ∈ b) (f : β → List γ) : f a <:+: b.flatMap f := by
  obtain ⟨u, v, rfl⟩ := List.append_of_mem h
  exact ⟨u.flatMap f, v.flatMap f, by simp⟩

/-- **C86**: on a page without tables and without overlapping lines, each line of text stays whole: its visible characters (and pictures) follow each other
without interruption in the text of the section. -/
theorem C86_lines_whole (c : Pipe.Cfg) (hws : c.ws ' ' = true) (hi : ∀ l, (c.lay.iter l).Perm l) (hov : 1 / 1000000 < c.ov) (depth : ℕ) (p0 : π)
    (pages : List (Page π)) (d : Docx.Doc Par Sp π) (h : convert c depth p0 pages = .ok d) (i : ℕ) (p : Page π) (s : π × List (Docx.Item Par Sp π))
    (hp : pages[i]? = some p) (hs : (sectionsOf d)[i]? = some s) (hpl : PlainPage p) (hno : NoOverlap c p)
    (b : Raw) (hb : b ∈ p.raw) (hcv : ToConvert c.ws p.box b) (him : b.image = none) (l : Lay.Ln Tok) (hl : l ∈ b.lines) :
    seen c.ws (Lay.lineItems l) <:+: shownInline c.ws s.2 := by
  obtain ⟨dd, hpp, hso⟩ := pl_section c depth p0 pages d h i p s hp hs
  obtain ⟨bs, fs, js, r, h1, h2, h3, h4, h5⟩ := pl_parse c depth p (pl_nothing c p hpl) dd hpp
  obtain ⟨js', fs', bs', g1, g2, g3, _, g5, _, g7⟩ := pp_cleanUp c hws hi p.box p.raw hpl.raw
  rw [h1] at g1
  obtain ⟨rfl, rfl⟩ := Prod.mk.inj (Except.ok.inj g1)
  have : js' = js := by
    unfold cleanUp at g2
    rw [h1] at g2
    dsimp only at g2
    rw [h2] at g2
    exact (Prod.mk.inj (Except.ok.inj g2)).1.symm
  subst this
  have hok := pl_ok c hi js' r g3 h3
  unfold shownInline
  rw [hso, h5, pl_text c.ws p.fmt r h4 hok]
  have hsb := pp_stripBlock c.ws hws b (hpl.raw b hb)
  have hlines : (stripLine c.ws l).1 ∈ (stripBlock c.ws b).lines := by
    unfold stripBlock
    dsimp only
    split_ifs <;> simp only [List.map_map] <;> exact List.mem_map_of_mem (f := fun l => (stripLine c.ws l).1) hl
  obtain ⟨j, hj, m, hm, e1⟩ := pl_join_page c.lay.iter hi c.ov c.mg hov bs js' g5 (hno bs fs h1) h2 (stripBlock c.ws b) (g7 b hb hcv him)
    (st_proper_ne hsb.1.boxes.1.1) _ hlines
  obtain ⟨t, ht, m', hm', e2⟩ := pl_split_line c.lay hi (js'.map fun b => .text b.bbox b.lines) r
    (by intro b hb; obtain ⟨x, _, rfl⟩ := List.mem_map.1 hb; rfl)
    (by intro t ht; rw [pp_texts_map] at ht; obtain ⟨b, hb, rfl⟩ := List.mem_map.1 ht; exact (g3 b hb).1)
    h3 (.text j.bbox j.lines) (List.mem_map_of_mem hj) m hm
  rw [← (pp_stripLine c.ws hws l).seen]
  have i1 : Lay.lineItems (stripLine c.ws l).1 <:+: Lay.lineItems m' := by
    unfold Lay.lineItems
    rw [e2]
    exact pl_infix_flatMap e1 _
  have i2 : Lay.lineItems m' <:+: Lay.items r := by
    unfold Lay.items Lay.allLines
    exact (pl_infix_mem hm' Lay.lineItems).trans (pl_infix_flatMap (pl_infix_mem ht Prod.snd) _)
  exact List.IsInfix.filter _ (i1.trans i2)

end WholeLines
section Order
variable {π : Type} {σ : Type}

/-- Apart from each other, one above the other. -/
def VSep (a b : Rect) : Prop := Above a b ∨ Above b a

theorem pl_sep_symm {a b : Rect} (h : VSep a b) : VSep b a := h.symm

theorem pl_sep_above {a b : Rect} (ha : Proper a) (hb : Proper b) (h : VSep a b) (hy : a.y0 ≤ b.y0) : Above a b := by
  rcases h with h | h
  · exact h
  · have h1 := ha.2
    have h2 := hb.2
    unfold Above at h
    linarith

theorem pl_dir_ltr (ls : List El) (h : ∀ l ∈ ls, l.dir = .leftRight) : Coll.textDirection ls = .leftRight := by
  unfold Coll.textDirection
  cases ls with
  | nil => rfl
  | cons l ls =>
    dsimp only
    split
    · exact h l (by simp)
    · rfl

theorem pl_not_row {a b : Lns.Ln σ} (ha : Proper a.bbox) (hb : Proper b.bbox) (hd : a.dir = .leftRight) (h : VSep a.bbox b.bbox) : ¬ SameRow b a := by
  rintro ⟨h1, h2⟩
  rw [h1, if_pos hd] at h2
  have h3 := ha.2
  have h4 := hb.2
  rcases h with h | h <;> unfold Above at h <;> linarith [h2.1, h2.2]

/-- Sorting lines one below the other. -/
theorem pl_sort_above (ls : List (Lns.Ln σ)) (hg : ∀ l ∈ ls, Proper l.bbox) (hd : ∀ l ∈ ls, l.dir = .leftRight) (hs : ls.Pairwise fun a b => VSep a.bbox b.bbox) :
    (Lns.sort ls).Pairwise fun a b => Above a.bbox b.bbox := by
  obtain ⟨rs, h1, h2, h3⟩ := C67_rows_partial ls hd
  have hperm := C67_permutation ls
  have hss : (Lns.sort ls).Pairwise fun a b => VSep a.bbox b.bbox := hperm.symm.pairwise hs (fun h => pl_sep_symm h)
  have hmem : ∀ r ∈ rs, ∀ l ∈ r, l ∈ ls := fun r hr l hl => hperm.subset (by rw [h1]; exact List.mem_flatten.2 ⟨r, hr, hl⟩)
  have hone : ∀ r ∈ rs, ∃ l, r = [l] := by
    intro r hr
    obtain ⟨hne, _, r0, hp, hc⟩ := h2 r hr
    have hr0 : r0.Pairwise fun a b => VSep a.bbox b.bbox := by
      refine hp.symm.pairwise ?_ (fun h => pl_sep_symm h)
      refine List.Pairwise.sublist ?_ hss
      rw [h1]
      exact List.sublist_flatten_of_mem hr
    have hlen : r.length = 1 := by
      rw [← hp.length_eq]
      match r0, hc, hr0, hp with
      | [], _, _, hp => exact absurd hp.symm.eq_nil hne
      | [_], _, _, _ => rfl
      | a :: b :: t, hc, hr0, hp =>
        have ha := hmem r hr a (hp.subset (by simp))
        have hb := hmem r hr b (hp.subset (by simp))
        exact absurd (List.isChain_cons_cons.1 hc).1 (pl_not_row (hg a ha) (hg b hb) (hd a ha) (List.rel_of_pairwise_cons hr0 (by simp)))
    exact List.length_eq_one_iff.1 hlen
  have hy : (Lns.sort ls).Pairwise fun a b => a.bbox.y0 ≤ b.bbox.y0 := by
    rw [h1, List.pairwise_flatten]
    refine ⟨?_, h3⟩
    intro r hr
    obtain ⟨l, rfl⟩ := hone r hr
    exact List.pairwise_singleton _ _
  exact (hss.and hy).imp_of_mem fun {a b} ha hb h => pl_sep_above (hg a (hperm.subset ha)) (hg b (hperm.subset hb)) h.1 h.2

theorem pl_no_overlap {ov : ℚ} (hov : 0 < ov) {a b : Rect} (ha : Proper a) (hb : Proper b) (h : VSep a b) : ¬ OverlapBy ov a b := by
  rintro ⟨h1, h2, h3⟩
  have e : min a.y1 b.y1 - max a.y0 b.y0 = 0 := by
    have h5 : min a.y1 b.y1 ≤ max a.y0 b.y0 := by
      rcases h with h | h
      · exact (min_le_left _ _).trans (le_trans h (le_max_right _ _))
      · exact (min_le_right _ _).trans (le_trans h (le_max_left _ _))
    linarith
  rw [e, mul_zero] at h3
  have hpos : 0 < min (a.width * a.height) (b.width * b.height) := by
    unfold Rect.width Rect.height
    exact lt_min (mul_pos (sub_pos.2 ha.1) (sub_pos.2 ha.2)) (mul_pos (sub_pos.2 hb.1) (sub_pos.2 hb.2))
  have := mul_pos hov hpos
  linarith

/-- Lines one below the other are not joined. -/
theorem pl_join_sort (ov mg : ℚ) (hov : 1 / 1000000 < ov) (ls : List (Lns.Ln σ)) (hg : ∀ l ∈ ls, LineGood l) (hd : ∀ l ∈ ls, l.dir = .leftRight)
    (hs : ls.Pairwise fun a b => VSep a.bbox b.bbox) : Lns.join ov mg ls = Lns.sort ls := by
  have hov' : 0 < ov := lt_trans (by norm_num) hov
  have hgs : ∀ l ∈ Lns.sort ls, LineGood l := fun l hl => hg l ((C67_permutation ls).subset hl)
  have hds : ∀ l ∈ Lns.sort ls, l.dir = .leftRight := fun l hl => hd l ((C67_permutation ls).subset hl)
  have hss : (Lns.sort ls).Pairwise fun a b => VSep a.bbox b.bbox := (C67_permutation ls).symm.pairwise hs (fun h => pl_sep_symm h)
  obtain ⟨parts, h1, h2, h4, h3⟩ := ln_joinSorted ov mg (Lns.sort ls) hgs
  rw [ln_kept_all hov _ hgs (hss.imp_of_mem fun {a b} ha hb h =>
    ⟨pl_no_overlap hov' (hgs a ha).1 (hgs b hb).1 h, pl_no_overlap hov' (hgs b hb).1 (hgs a ha).1 (pl_sep_symm h)⟩)] at h1
  unfold Lns.join
  rw [h3, ← h1]
  have hone : ∀ q ∈ parts, ∃ l, q = [l] := by
    intro q hq
    obtain ⟨hne, hrow⟩ := h2 q hq
    have hqs : q.Pairwise fun a b => VSep a.bbox b.bbox := List.Pairwise.sublist (by rw [← h1]; exact List.sublist_flatten_of_mem hq) hss
    have hm : ∀ x ∈ q, x ∈ Lns.sort ls := fun x hx => by rw [← h1]; exact List.mem_flatten.2 ⟨q, hq, hx⟩
    match q, hne, hrow, hqs, hm with
    | [], hne, _, _, _ => exact absurd rfl hne
    | [l], _, _, _, _ => exact ⟨l, rfl⟩
    | a :: b :: t, _, hrow, hqs, hm =>
      exact absurd (List.rel_of_pairwise_cons hrow (by simp : b ∈ b :: t))
        (pl_not_row (hgs a (hm a (by simp))).1 (hgs b (hm b (by simp))).1 (hds a (hm a (by simp))) (List.rel_of_pairwise_cons hqs (by simp)))
  clear h1 h2 h3 h4
  induction parts with
  | nil => rfl
  | cons q qs ih =>
    obtain ⟨l, rfl⟩ := hone q (by simp)
    rw [List.filterMap_cons, List.flatten_cons, ih (fun q hq => hone q (by simp [hq]))]
    simp [lnMerge, ln_add_nil]

/-- The y-range of a box. -/
def InY (B r : Rect) : Prop := B.y0 ≤ r.y0 ∧ r.y1 ≤ B.y1

theorem pl_within {B r : Rect} : lnWithin [B] r ↔ InY B r := by
  unfold lnWithin InY
  simp

theorem pl_sep_in {A B a b : Rect} (ha : InY A a) (hb : InY B b) (h : VSep A B) : VSep a b := by
  rcases h with h | h
  · exact Or.inl (le_trans ha.2 (le_trans h hb.1))
  · exact Or.inr (le_trans hb.2 (le_trans h ha.1))

theorem pl_above_in {A B a b : Rect} (ha : InY A a) (hb : InY B b) (h : Above A B) : Above a b := le_trans ha.2 (le_trans h hb.1)

theorem pl_covers_in {A a : Rect} (h : Covers A a) : InY A a := ⟨h.2.1, h.2.2.2⟩

theorem pl_in_trans {A B C : Rect} (h : InY A B) (h' : InY B C) : InY A C := ⟨h.1.trans h'.1, h'.2.trans h.2⟩

/-- The hull of boxes within a y-range. -/
theorem pl_bbox_in {B : Rect} (hB : RealBox B) (rs : List Rect) (h : ∀ r ∈ rs, RealBox r ∧ InY B r) (hne : rs ≠ []) : InY B (Coll.bbox rs) := by
  have hreal := (pp_bbox rs (fun r hr => (h r hr).1) hne).1
  have key : ∀ (rs : List Rect) (a : Rect), (∀ r ∈ rs, InY B r) → (a = Rect.zero ∨ lnWithin [B] a) → (rs.foldl Rect.union a = Rect.zero ∨ lnWithin [B] (rs.foldl Rect.union a)) := by
    intro rs
    induction rs with
    | nil => intro a _ ha; exact ha
    | cons r rs ih =>
      intro a hr ha
      exact ih _ (fun x hx => hr x (by simp [hx])) (ln_within_union ha (Or.inr (pl_within.2 (hr r (by simp)))))
  rcases key rs Rect.zero (fun r hr => (h r hr).2) (Or.inl rfl) with e | e
  · unfold Coll.bbox at hreal ⊢
    rw [e] at hreal
    exact absurd (show Rect.zero.round = Rect.zero by decide +kernel) (st_proper_ne hreal.1)
  · unfold Coll.bbox
    exact pl_within.1 (ln_within_round (by intro a ha; rw [List.mem_singleton.1 ha]; exact hB.2) e)

/-- The same for a new text block. -/
theorem pl_mk_in {B : Rect} (hB : RealBox B) (g : List (Lay.Ln Tok)) (h : ∀ l ∈ g, RealBox l.bbox ∧ InY B l.bbox) (hne : g ≠ []) :
    RealBox (Lay.mkText 0 g).bbox ∧ InY B (Lay.mkText 0 g).bbox ∧ ∀ l ∈ g, Covers (Lay.mkText 0 g).bbox l.bbox := by
  have hr : ∀ l ∈ g, RealBox l.bbox := fun l hl => (h l hl).1
  rw [ly_mk_box 0 g hr]
  obtain ⟨_, _, h3⟩ := ly_hull (fun l : Lay.Ln Tok => l.bbox) g hr Rect.zero (Or.inl rfl)
  obtain ⟨l, hl⟩ := List.exists_mem_of_ne_nil g hne
  refine ⟨(h3 l hl).2, ?_, fun l hl => (h3 l hl).1⟩
  have := ln_within_fold (g := [B]) (by intro a ha; rw [List.mem_singleton.1 ha]; exact hB.2) (g.map Lns.Ln.bbox) Rect.zero (Or.inl rfl)
    (by intro x hx; obtain ⟨l, hl, rfl⟩ := List.mem_map.1 hx; exact Or.inr (pl_within.2 (h l hl).2))
  rw [List.foldl_map] at this
  rcases this with e | e
  · exact absurd e (st_proper_ne (h3 l hl).2.1)
  · exact pl_within.1 e

theorem pl_lstrip_in (ws : Char → Bool) (hws : ws ' ' = true) (s : Sp) (h : SpanOK s) : InY s.bbox (lstripSpan ws s).1.bbox := by
  cases s with
  | image b t => exact ⟨le_refl _, le_refl _⟩
  | text b cs =>
    simp only [lstripSpan]
    split_ifs with h2
    · obtain ⟨l, r, e1, _, e3, e4⟩ := pp_drop_blanks (fun c : Rect × Tok => c.2.blank ws) cs (pp_two_blanks ws hws cs h2)
      dsimp only
      rw [e4]
      refine pl_bbox_in h.1 _ ?_ (by simpa using e3)
      intro x hx
      obtain ⟨y, hy, rfl⟩ := List.mem_map.1 hx
      have := h.2 y (by rw [e1]; simp [hy])
      exact ⟨this.1, pl_covers_in this.2⟩
    · exact ⟨le_refl _, le_refl _⟩

theorem pl_rstrip_in (ws : Char → Bool) (s : Sp) (h : SpanOK s) (hne : SpanOK (rstripSpan ws s).1) : InY s.bbox (rstripSpan ws s).1.bbox := by
  cases s with
  | image b t => exact ⟨le_refl _, le_refl _⟩
  | text b cs =>
    simp only [rstripSpan] at hne ⊢
    split_ifs at hne ⊢ with h2
    · dsimp only at hne ⊢
      set t := cs.take (cs.length - (cs.length - (cs.reverse.dropWhile fun c => c.2.blank ws).length - 1)) with ht
      refine pl_bbox_in h.1 _ ?_ ?_
      · intro x hx
        obtain ⟨y, hy, rfl⟩ := List.mem_map.1 hx
        have := h.2 y (List.mem_of_mem_take hy)
        exact ⟨this.1, pl_covers_in this.2⟩
      · intro e
        have hz : (Span.text (Coll.bbox (t.map Prod.fst)) t : Sp).bbox = Rect.zero := by
          show Coll.bbox (t.map Prod.fst) = Rect.zero
          rw [e]; decide +kernel
        exact st_proper_ne (ly_span_real hne).1 hz
    · exact ⟨le_refl _, le_refl _⟩

/-- Stripping keeps the y-range, direction and origin of a line. -/
theorem pl_strip_line (ws : Char → Bool) (hws : ws ' ' = true) (l : Lay.Ln Tok) (h : LineOK l) :
    InY l.bbox (stripLine ws l).1.bbox ∧ (stripLine ws l).1.pid = l.pid := by
  have hid : InY l.bbox l.bbox := ⟨le_refl _, le_refl _⟩
  have hrespan : ∀ (a b : List (Rect × Sp)) (s : Rect × Sp) (s' : Sp), l.spans = a ++ s :: b → InY s.2.bbox s'.bbox → SpanOK s' →
      InY l.bbox (respan l (a ++ (s'.bbox, s') :: b)).bbox := by
    intro a b s s' hl hs hs'
    refine pl_bbox_in h.1 _ ?_ (by simp)
    intro x hx
    obtain ⟨y, hy, rfl⟩ := List.mem_map.1 hx
    have hold : ∀ y ∈ l.spans, RealBox y.1 ∧ InY l.bbox y.1 := by
      intro y hy
      have := h.2 y hy
      refine ⟨?_, pl_covers_in this.2.2⟩
      rw [this.1]; exact ly_span_real this.2.1
    rcases List.mem_append.1 hy with hy | hy
    · exact hold y (by rw [hl]; simp [hy])
    · rcases List.mem_cons.1 hy with rfl | hy
      · have h1 := h.2 s (by rw [hl]; simp)
        refine ⟨ly_span_real hs', pl_in_trans (pl_covers_in h1.2.2) ?_⟩
        rw [h1.1]; exact hs
      · exact hold y (by rw [hl]; simp [hy])
  unfold stripLine
  split
  · exact ⟨hid, rfl⟩
  · rename_i s ss hsp
    split_ifs with h1
    · have hs := (h.2 s (by rw [hsp]; simp)).2.1
      exact ⟨hrespan [] ss s _ (by simpa using hsp) (pl_lstrip_in ws hws s.2 hs) ((pp_lstrip ws hws s.2).ok hs), rfl⟩
    · dsimp only
      split_ifs with h2
      · have hs := (h.2 ((s :: ss).getLast (by simp)) (by rw [hsp]; exact List.getLast_mem _)).2.1
        have hs' := (pp_rstrip ws hws _).ok hs
        exact ⟨hrespan (s :: ss).dropLast [] _ _ (by rw [hsp, List.dropLast_append_getLast]) (pl_rstrip_in ws _ hs hs') hs', rfl⟩
      · exact ⟨hid, rfl⟩

/-- No floating image: the blocks stay as they are. -/
theorem pl_no_floats (gap : ℚ) (bs bs' : List Raw) (h : Lns.identifyFloats gap bs = .ok (bs', [])) : bs' = bs := by
  unfold Lns.identifyFloats at h
  split at h
  · cases h
  · rename_i gs hgs
    have h := Except.ok.inj h
    unfold Lns.markFloats at h
    obtain ⟨h1, h2⟩ := Prod.mk.inj h
    rw [← h1]
    apply List.ext_getElem?
    intro i
    rw [List.getElem?_mapIdx]
    cases hb : bs[i]? with
    | none => rfl
    | some b =>
      rw [Option.map_some]
      split_ifs with hc
      · exfalso
        rw [List.filterMap_eq_nil_iff] at h2
        have := h2 i hc.1
        rw [hb] at this
        simp only [Option.bind_some] at this
        rw [this] at hc
        exact absurd hc.2 (by simp)
      · rfl

theorem pl_forall {β : Type} {R : β → β → Prop} {l : List β} (h : l.Pairwise R) (hs : ∀ ⦃x y⦄, R x y → R y x) {a b : β} (ha : a ∈ l) (hb : b ∈ l) (hne : a ≠ b) : R a b := by
  haveI : Std.Symm R := ⟨fun x y => @hs x y⟩
  exact h.forall ha hb hne

/-- Joining blocks of one column: nothing is merged. -/
theorem pl_join_column (iter : List ℕ → List ℕ) (hi : ∀ l, (iter l).Perm l) (ov mg : ℚ) (hov : 1 / 1000000 < ov) (bs js : List Raw) (hb : ∀ b ∈ bs, RawOK b)
    (hd : ∀ b ∈ bs, ∀ l ∈ b.lines, l.dir = .leftRight) (hs : (bs.flatMap Lns.Blk.lines).Pairwise fun a b => VSep a.bbox b.bbox)
    (hj : Lns.joinHorizontally iter ov mg bs = .ok js) :
    (js.flatMap Lns.Blk.lines).Perm (bs.flatMap Lns.Blk.lines) ∧ (∀ j ∈ js, j.lines.Pairwise fun a b => Above a.bbox b.bbox) ∧
      (js.Pairwise fun a b => VSep a.bbox b.bbox) ∧ (js.Pairwise fun a b => ∀ l ∈ a.lines, l ∉ b.lines) ∧
      ∀ b ∈ bs, b.lines ≠ [] → ∃ j ∈ js, ∀ l ∈ b.lines, l ∈ j.lines := by
  have hgood : ∀ b ∈ bs, BlockGood b := fun b h => pp_block_good (hb b h)
  obtain ⟨js', e, hsep⟩ := C70_separated iter hi ov mg bs hgood
  rw [hj] at e
  obtain rfl := Except.ok.inj e
  obtain ⟨gs, h1, h2, h3, h4⟩ := ln_group_blocks iter hi bs hgood
  unfold Lns.joinHorizontally at hj
  rw [h1] at hj
  replace hj := Except.ok.inj hj
  have hgg : ∀ g ∈ gs, ∀ b ∈ g, b ∈ bs := fun g hg b hbg => h2.subset (List.mem_flatten.2 ⟨g, hg, hbg⟩)
  have hlg : ∀ g ∈ gs, ∀ b ∈ g, ∀ l ∈ b.lines, LineGood l := fun g hg b hbg l hl => pp_line_good ((hb b (hgg g hg b hbg)).boxes.2 l hl).1
  have hgs : ((gs.flatten).flatMap Lns.Blk.lines).Pairwise fun a b => VSep a.bbox b.bbox :=
    (h2.flatMap_right _).symm.pairwise hs (fun h => pl_sep_symm h)
  have hgp : ∀ g ∈ gs, (g.flatMap Lns.Blk.lines).Pairwise fun a b => VSep a.bbox b.bbox := by
    intro g hg
    refine List.Pairwise.sublist ?_ hgs
    obtain ⟨u, v, rfl⟩ := List.append_of_mem hg
    simp only [List.flatten_append, List.flatten_cons, List.flatMap_append]
    exact List.Sublist.trans (List.sublist_append_left _ _) (List.sublist_append_right _ _)
  have hjoin : ∀ g ∈ gs, (Lns.joinedBlock ov mg (g.filter fun b => b.bbox.truthy)).lines = Lns.sort (g.flatMap Lns.Blk.lines) := by
    intro g hg
    rw [ln_filter_truthy g (fun b hb => hgood b (hgg g hg b hb))]
    unfold Lns.joinedBlock
    rw [ln_gather g (hlg g hg)]
    dsimp only
    refine pl_join_sort ov mg hov _ ?_ ?_ (hgp g hg)
    · intro l hl
      obtain ⟨b, hb, hl⟩ := List.mem_flatMap.1 hl
      exact hlg g hg b hb l hl
    · intro l hl
      obtain ⟨b, hb, hl⟩ := List.mem_flatMap.1 hl
      exact hd b (hgg g hg b hb) l hl
  have hbox : ∀ g ∈ gs, ∀ l ∈ g.flatMap Lns.Blk.lines, (Lns.joinedBlock ov mg (g.filter fun b => b.bbox.truthy)).bbox.truthy = true := by
    intro g hg l hl
    rw [ln_filter_truthy g (fun b hb => hgood b (hgg g hg b hb))]
    exact truthy_of_proper _ (ln_joined_proper ov mg g (fun b hb => hgood b (hgg g hg b hb)) l hl)
  have hlinesperm : (js.flatMap Lns.Blk.lines).Perm (bs.flatMap Lns.Blk.lines) := by
    refine List.Perm.trans ?_ (h2.flatMap_right Lns.Blk.lines)
    rw [← hj]
    clear h1 h2 h3 h4 hj hgs
    induction gs with
    | nil => simp
    | cons g gs ih =>
      have ih := ih (fun g' hg' => hgg g' (by simp [hg'])) (fun g' hg' => hlg g' (by simp [hg'])) (fun g' hg' => hgp g' (by simp [hg']))
        (fun g' hg' => hjoin g' (by simp [hg'])) (fun g' hg' => hbox g' (by simp [hg']))
      rw [List.map_cons, List.filter_cons, List.flatten_cons, List.flatMap_append]
      split
      · rw [List.flatMap_cons, hjoin g (by simp)]
        exact (C67_permutation _).append ih
      · rename_i hf
        cases hc : g.flatMap Lns.Blk.lines with
        | nil => rw [List.nil_append]; exact ih
        | cons l ls => exact absurd (hbox g (by simp) l (by rw [hc]; simp)) hf
  refine ⟨hlinesperm, ?_, hsep.imp (fun h => h.imp le_of_lt le_of_lt), ?_, ?_⟩
  · intro j hjm
    rw [← hj] at hjm
    obtain ⟨g, hg, rfl⟩ := List.mem_map.1 (List.mem_of_mem_filter hjm)
    rw [hjoin g hg]
    refine pl_sort_above _ ?_ ?_ (hgp g hg)
    · intro l hl
      obtain ⟨b, hb, hl⟩ := List.mem_flatMap.1 hl
      exact (hlg g hg b hb l hl).1
    · intro l hl
      obtain ⟨b, hb, hl⟩ := List.mem_flatMap.1 hl
      exact hd b (hgg g hg b hb) l hl
  · have hnd : (js.flatMap Lns.Blk.lines).Pairwise fun a b => VSep a.bbox b.bbox := hlinesperm.symm.pairwise hs (fun h => pl_sep_symm h)
    rw [List.pairwise_flatMap] at hnd
    refine hnd.2.imp_of_mem ?_
    intro a b ha hb' hab l hl hl'
    have := hab l hl l hl'
    have hp : Proper l.bbox := by
      have hm := hlinesperm.subset (List.mem_flatMap.2 ⟨a, ha, hl⟩)
      obtain ⟨x, hx, hl⟩ := List.mem_flatMap.1 hm
      exact ((hb x hx).boxes.2 l hl).1.1.1
    have h5 := hp.2
    rcases this with h | h <;> unfold Above at h <;> linarith
  · intro b hbm hne
    obtain ⟨g, hg, hbg⟩ := List.mem_flatten.1 (h2.symm.subset hbm)
    obtain ⟨l, hl⟩ := List.exists_mem_of_ne_nil _ hne
    refine ⟨Lns.joinedBlock ov mg (g.filter fun b => b.bbox.truthy), ?_, ?_⟩
    · rw [← hj]
      exact List.mem_filter.2 ⟨List.mem_map_of_mem hg, hbox g hg l (List.mem_flatMap.2 ⟨b, hbg, hl⟩)⟩
    · intro l hl
      rw [hjoin g hg]
      exact (C67_permutation _).symm.subset (List.mem_flatMap.2 ⟨b, hbg, hl⟩)

theorem pl_blk_dir (r : Rect) (ls : List (Lay.Ln Tok)) (h : ∀ l ∈ ls, l.dir = .leftRight) : (Lay.Blk.text r ls).dir = .leftRight := by
  unfold Lay.Blk.dir
  dsimp only
  have hmem : ∀ d ∈ (ls.map fun l => l.dir).dedup, d = .leftRight := by
    intro d hd
    obtain ⟨l, hl, rfl⟩ := List.mem_map.1 (List.mem_dedup.1 hd)
    exact h l hl
  split_ifs with h1 h2
  · cases hmem _ h1
  · obtain ⟨d, hd⟩ := List.length_eq_one_iff.1 h2
    rw [hd] at hmem ⊢
    exact hmem d (by simp)
  · rfl

/-- Sorted blocks that lie one below the other. -/
theorem pl_sort_blocks (bs : List (Lay.Blk Tok)) (ht : ∀ b ∈ bs, b.isText = true) (hd : ∀ b ∈ bs, ∀ l ∈ b.lines, l.dir = .leftRight) (hp : ∀ b ∈ bs, Proper b.bbox)
    (hs : bs.Pairwise fun a b => VSep a.bbox b.bbox) : (Lay.sortBlocks bs).Pairwise fun a b => Above a.bbox b.bbox := by
  have hss : (Lay.sortBlocks bs).Pairwise fun a b => VSep a.bbox b.bbox := (ly_sort_perm bs).symm.pairwise hs (fun h => pl_sep_symm h)
  have hdir : Coll.textDirection (bs.map Lay.Blk.el) = .leftRight := by
    apply pl_dir_ltr
    intro e he
    obtain ⟨b, hb, rfl⟩ := List.mem_map.1 he
    cases b with
    | table r cs => cases ht _ hb
    | text r ls => exact pl_blk_dir r ls (hd _ hb)
  have hy : (Lay.sortBlocks bs).Pairwise fun a b => a.bbox.y0 ≤ b.bbox.y0 := by
    unfold Lay.sortBlocks
    rw [if_pos hdir]
    refine (sortBy_pairwise (fun l : Lay.Blk Tok => Coll.key l.bbox.y0 l.bbox.x0 l.bbox.x1) _).imp ?_
    intro a b hab
    unfold Coll.key at hab
    rw [Prod.Lex.le_iff] at hab
    rcases hab with h | h
    · exact le_of_lt h
    · exact le_of_eq h.1
  exact (hss.and hy).imp_of_mem fun {a b} ha hb h =>
    pl_sep_above (hp a ((ly_sort_perm bs).subset ha)) (hp b ((ly_sort_perm bs).subset hb)) h.1 h.2

theorem pl_all_lines (r : List (Lay.Blk Tok)) (h : ∀ b ∈ r, b.isText = true) : Lay.allLines r = r.flatMap Lay.Blk.lines := by
  unfold Lay.allLines
  induction r with
  | nil => rfl
  | cons b r ih =>
    have ih := ih (fun b hb => h b (by simp [hb]))
    cases b with
    | table x cs => cases h (.table x cs) (by simp)
    | text x ls => simp [Lay.texts, Lay.Blk.texts, Lay.Blk.lines, ih]

theorem pl_mk_same (g : List (Lay.Ln Tok)) (hr : ∀ l ∈ g, RealBox l.bbox) (hp : ∀ l ∈ g, l.pid ≠ none) : (Lay.mkText 0 g).lines = g := by
  unfold Lay.mkText Lay.Blk.lines
  dsimp only
  rw [List.filter_eq_self.2 fun l hl => ly_real_truthy (hr l hl)]
  conv_rhs => rw [← List.map_id g]
  refine List.map_congr_left fun l hl => ?_
  have := hp l hl
  cases l with
  | mk b d pid ss =>
    cases pid with
    | none => exact absurd rfl this
    | some x => rfl

/-- Splitting back the blocks of one column: every line once, from top to bottom. `K` are the blocks of the page, `f` their lines after stripping. -/
theorem pl_split_column (c : Lay.Cfg) (hi : ∀ l, (c.iter l).Perm l) (js K : List Raw) (r : List (Lay.Blk Tok)) (f : Raw → List (Lay.Ln Tok))
    (hjs : ∀ j ∈ js, TextOK (j.bbox, j.lines)) (hd : ∀ j ∈ js, ∀ l ∈ j.lines, l.dir = .leftRight)
    (h0 : (js.flatMap Lns.Blk.lines).Pairwise fun a b => VSep a.bbox b.bbox)
    (h1 : ∀ j ∈ js, j.lines.Pairwise fun a b => Above a.bbox b.bbox) (h2 : js.Pairwise fun a b => VSep a.bbox b.bbox)
    (h3 : js.Pairwise fun a b => ∀ l ∈ a.lines, l ∉ b.lines)
    (h4 : ∀ b ∈ K, f b ≠ [] → ∃ j ∈ js, ∀ l ∈ f b, l ∈ j.lines)
    (h5 : ∀ j ∈ js, ∀ l ∈ j.lines, ∃ b ∈ K, l ∈ f b)
    (h6 : ∀ b ∈ K, RealBox b.bbox ∧ ∀ l ∈ f b, InY b.bbox l.bbox) (h7 : ∀ b ∈ K, ∃ id, ∀ l ∈ f b, l.pid = some id)
    (h8 : K.Pairwise fun a b => ∀ l ∈ f a, ∀ m ∈ f b, l.pid ≠ m.pid) (h9 : K.Pairwise fun a b => VSep a.bbox b.bbox)
    (hr : Lay.splitBack c (js.map fun b => .text b.bbox b.lines) = .ok r) :
    (Lay.allLines r).Perm (js.flatMap Lns.Blk.lines) ∧ (Lay.allLines r).Pairwise fun a b => Above a.bbox b.bbox := by
  set B := js.map fun b : Raw => (Lay.Blk.text b.bbox b.lines : Lay.Blk Tok) with hB
  have hBt : ∀ b ∈ B, b.isText = true := by intro b hb; obtain ⟨x, _, rfl⟩ := List.mem_map.1 hb; rfl
  have hrt := pl_split_text c B r hBt hr
  obtain ⟨gs, k1, k2, k3, k4⟩ := C69_split_back c.iter hi ((B.filter (Lay.flow c)).flatMap Lay.Blk.lines)
  unfold Lay.splitBack at hr
  rw [k1] at hr
  replace hr := Except.ok.inj hr
  set X := B.filter (fun b => !Lay.flow c b) ++ gs.map (Lay.mkText 0) with hX
  have hline : ∀ j ∈ js, ∀ l ∈ j.lines, RealBox l.bbox ∧ l.pid ≠ none := by
    intro j hj l hl
    refine ⟨((hjs j hj).2 l hl).1.1, ?_⟩
    obtain ⟨b, hb, hlb⟩ := h5 j hj l hl
    obtain ⟨id, hid⟩ := h7 b hb
    rw [hid l hlb]; simp
  -- each group is part of one block of the page, which lies in one joined block in flow layout
  have hgroup : ∀ g ∈ gs, g ≠ [] ∧ (∃ b ∈ K, ∀ l ∈ g, l ∈ f b) ∧ ∃ j ∈ js, Lay.flow c (Lay.Blk.text j.bbox j.lines) = true ∧ ∀ l ∈ g, l ∈ j.lines := by
    intro g hg
    obtain ⟨hne, hpid, _⟩ := k3 g hg
    obtain ⟨l0, hl0⟩ := List.exists_mem_of_ne_nil g hne
    have hsrc : ∀ l ∈ g, ∃ j ∈ js, Lay.flow c (Lay.Blk.text j.bbox j.lines) = true ∧ l ∈ j.lines := by
      intro l hl
      obtain ⟨x, hx, hlx⟩ := List.mem_flatMap.1 (k2.subset (List.mem_flatten.2 ⟨g, hg, hl⟩))
      obtain ⟨hx, hf⟩ := List.mem_filter.1 hx
      obtain ⟨j, hj, rfl⟩ := List.mem_map.1 hx
      exact ⟨j, hj, hf, hlx⟩
    obtain ⟨j0, hj0, hf0, hlj0⟩ := hsrc l0 hl0
    obtain ⟨b0, hb0, hlb0⟩ := h5 j0 hj0 l0 hlj0
    have hone : ∀ l ∈ g, l ∈ f b0 := by
      intro l hl
      obtain ⟨j, hj, _, hlj⟩ := hsrc l hl
      obtain ⟨b, hb, hlb⟩ := h5 j hj l hlj
      by_cases hbb : b = b0
      · rw [← hbb]; exact hlb
      · have hsym : ∀ ⦃x y : Raw⦄, (∀ l ∈ f x, ∀ m ∈ f y, l.pid ≠ m.pid) → ∀ l ∈ f y, ∀ m ∈ f x, l.pid ≠ m.pid := fun x y h l hl m hm => (h m hm l hl).symm
        exact absurd (hpid l hl l0 hl0) (pl_forall h8 hsym hb hb0 hbb l hlb l0 hlb0)
    refine ⟨hne, ⟨b0, hb0, hone⟩, ?_⟩
    obtain ⟨j, hj, hall⟩ := h4 b0 hb0 (fun e => by rw [e] at hlb0; cases hlb0)
    by_cases hjj : j = j0
    · subst hjj; exact ⟨j, hj, hf0, fun l hl => hall l (hone l hl)⟩
    · have hsym : ∀ ⦃x y : Raw⦄, (∀ l ∈ x.lines, l ∉ y.lines) → ∀ l ∈ y.lines, l ∉ x.lines := fun x y h l hl hm => h l hm hl
      exact absurd hlj0 (pl_forall h3 hsym hj hj0 hjj l0 (hall l0 hlb0))
  have hgr : ∀ g ∈ gs, ∀ l ∈ g, RealBox l.bbox ∧ l.pid ≠ none := by
    intro g hg l hl
    obtain ⟨_, _, j, hj, _, hall⟩ := hgroup g hg
    exact hline j hj l (hall l hl)
  have hgl : ∀ g ∈ gs, (Lay.mkText 0 g).lines = g := fun g hg => pl_mk_same g (fun l hl => (hgr g hg l hl).1) (fun l hl => (hgr g hg l hl).2)
  have hXok : ∀ x ∈ X, x.isText = true ∧ RealBox x.bbox ∧ (∀ l ∈ x.lines, l.dir = .leftRight ∧ Covers x.bbox l.bbox) ∧ x.lines.Pairwise fun a b => Above a.bbox b.bbox := by
    intro x hx
    rcases List.mem_append.1 hx with hx | hx
    · obtain ⟨j, hj, rfl⟩ := List.mem_map.1 (List.mem_of_mem_filter hx)
      exact ⟨rfl, (hjs j hj).1, fun l hl => ⟨hd j hj l hl, ((hjs j hj).2 l hl).2⟩, h1 j hj⟩
    · obtain ⟨g, hg, rfl⟩ := List.mem_map.1 hx
      obtain ⟨hne, ⟨b, hb, hall⟩, j, hj, _, hallj⟩ := hgroup g hg
      have hmk := pl_mk_in (h6 b hb).1 g (fun l hl => ⟨(hgr g hg l hl).1, (h6 b hb).2 l (hall l hl)⟩) hne
      rw [hgl g hg]
      refine ⟨rfl, hmk.1, fun l hl => ⟨hd j hj l (hallj l hl), hmk.2.2 l hl⟩, ?_⟩
      obtain ⟨_, _, g0, rfl⟩ := k3 g hg
      refine pl_sort_above g0 ?_ ?_ ?_
      · intro l hl
        exact (hgr _ hg l ((C67_permutation g0).symm.subset hl)).1.1
      · intro l hl
        exact hd j hj l (hallj l ((C67_permutation g0).symm.subset hl))
      · have hsub : ((B.filter (Lay.flow c)).flatMap Lay.Blk.lines).Pairwise fun a b => VSep a.bbox b.bbox := by
          have hBl : (B.flatMap Lay.Blk.lines) = js.flatMap Lns.Blk.lines := by rw [hB, List.flatMap_map]; rfl
          rw [← hBl] at h0
          exact List.Pairwise.sublist (List.Sublist.flatMap List.filter_sublist _) h0
        have h10 : gs.flatten.Pairwise fun a b => VSep a.bbox b.bbox := k2.symm.pairwise hsub (fun h => pl_sep_symm h)
        have h11 : (Lns.sort g0).Pairwise fun a b => VSep a.bbox b.bbox := List.Pairwise.sublist (List.sublist_flatten_of_mem hg) h10
        exact (C67_permutation g0).pairwise h11 (fun h => pl_sep_symm h)
  have hXsep : X.Pairwise fun a b => VSep a.bbox b.bbox := by
    rw [hX, List.pairwise_append]
    refine ⟨?_, ?_, ?_⟩
    · refine List.Pairwise.sublist List.filter_sublist ?_
      rw [hB, List.pairwise_map]
      exact h2
    · rw [List.pairwise_map]
      refine k4.imp_of_mem ?_
      intro g h hg hh hgh
      obtain ⟨ne1, ⟨b1, hb1, a1⟩, _⟩ := hgroup g hg
      obtain ⟨ne2, ⟨b2, hb2, a2⟩, _⟩ := hgroup h hh
      have m1 := pl_mk_in (h6 b1 hb1).1 g (fun l hl => ⟨(hgr g hg l hl).1, (h6 b1 hb1).2 l (a1 l hl)⟩) ne1
      have m2 := pl_mk_in (h6 b2 hb2).1 h (fun l hl => ⟨(hgr h hh l hl).1, (h6 b2 hb2).2 l (a2 l hl)⟩) ne2
      refine pl_sep_in m1.2.1 m2.2.1 (pl_forall h9 (fun x y h => pl_sep_symm h) hb1 hb2 ?_)
      rintro rfl
      obtain ⟨x, hx⟩ := List.exists_mem_of_ne_nil g ne1
      obtain ⟨y, hy⟩ := List.exists_mem_of_ne_nil h ne2
      obtain ⟨id, hid⟩ := h7 b1 hb1
      rcases hgh x hx y hy with e | e
      · exact (hgr g hg x hx).2 e
      · exact e (by rw [hid x (a1 x hx), hid y (a2 y hy)])
    · intro x hx y hy
      obtain ⟨hx, hf⟩ := List.mem_filter.1 hx
      obtain ⟨j1, hj1, rfl⟩ := List.mem_map.1 hx
      obtain ⟨g, hg, rfl⟩ := List.mem_map.1 hy
      obtain ⟨ne1, _, j2, hj2, hf2, a2⟩ := hgroup g hg
      have m2 := pl_mk_in (hjs j2 hj2).1 g (fun l hl => ⟨(hgr g hg l hl).1, pl_covers_in ((hjs j2 hj2).2 l (a2 l hl)).2⟩) ne1
      refine pl_sep_in (A := j1.bbox) ⟨le_refl _, le_refl _⟩ m2.2.1 (pl_forall h2 (fun x y h => pl_sep_symm h) hj1 hj2 ?_)
      rintro rfl
      rw [hf2] at hf
      cases hf
  have hreal : Lay.real X = X := by
    unfold Lay.real
    exact List.filter_eq_self.2 fun x hx => ly_real_truthy (hXok x hx).2.1
  rw [hreal] at hr
  have hrX : r.Perm X := by rw [← hr]; exact ly_sort_perm X
  rw [pl_all_lines r hrt]
  constructor
  · refine (hrX.flatMap_right _).trans ?_
    rw [hX, List.flatMap_append, List.flatMap_map]
    have e1 : (gs.flatMap fun g => (Lay.mkText 0 g).lines) = gs.flatten := by
      rw [List.flatten_eq_flatMap]
      exact List.flatMap_congr fun g hg => hgl g hg
    rw [e1]
    refine (k2.append_left _).trans ?_
    rw [← List.flatMap_append]
    have e2 : (B.filter (fun b => !Lay.flow c b) ++ B.filter (Lay.flow c)).Perm B := by
      refine List.perm_append_comm.trans ?_
      exact List.filter_append_perm _ _
    refine (e2.flatMap_right _).trans ?_
    rw [hB, List.flatMap_map]
    exact List.Perm.refl _
  · rw [List.pairwise_flatMap]
    refine ⟨fun x hx => (hXok x (hrX.subset hx)).2.2.2, ?_⟩
    have := pl_sort_blocks X (fun x hx => (hXok x hx).1) (fun x hx l hl => ((hXok x hx).2.2.1 l hl).1) (fun x hx => (hXok x hx).2.1.1) hXsep
    rw [hr] at this
    refine this.imp_of_mem ?_
    intro a b ha hb hab l hl m hm
    exact pl_above_in (pl_covers_in ((hXok a (hrX.subset ha)).2.2.1 l hl).2) (pl_covers_in ((hXok b (hrX.subset hb)).2.2.1 m hm).2) hab

/-- On a page of one column of horizontal text without tables, the text of the section is that of the lines from top to bottom. `L` is the list of the
page's lines in that order. -/
theorem pl_reading_order (c : Pipe.Cfg) (hws : c.ws ' ' = true) (hi : ∀ l, (c.lay.iter l).Perm l) (hov : 1 / 1000000 < c.ov) (depth : ℕ) (p0 : π)
    (pages : List (Page π)) (d : Docx.Doc Par Sp π) (h : convert c depth p0 pages = .ok d) (i : ℕ) (p : Page π) (s : π × List (Docx.Item Par Sp π))
    (hp : pages[i]? = some p) (hs : (sectionsOf d)[i]? = some s) (hraw : ∀ b ∈ p.raw, RawOK b) (hpl : NothingFound c p) (hone : OneColumn c p)
    (L : List (Lay.Ln Tok)) (hL : L.Perm ((inBlocks c.ws p).flatMap Lns.Blk.lines)) (hord : L.Pairwise fun a b => Above a.bbox b.bbox) :
    shownInline c.ws s.2 = L.flatMap fun l => seen c.ws (Lay.lineItems l) := by
  obtain ⟨dd, hpp, hso⟩ := pl_section c depth p0 pages d h i p s hp hs
  obtain ⟨bs, fs, js, r, h1, h2, h3, h4, h5⟩ := pl_parse c depth p hpl dd hpp
  obtain ⟨js', fs', bs', g1, g2, g3, _, g5, _, g7⟩ := pp_cleanUp c hws hi p.box p.raw hraw
  rw [h1] at g1
  obtain ⟨rfl, rfl⟩ := Prod.mk.inj (Except.ok.inj g1)
  have : js' = js := by
    unfold cleanUp at g2
    rw [h1] at g2
    dsimp only at g2
    rw [h2] at g2
    exact (Prod.mk.inj (Except.ok.inj g2)).1.symm
  subst this
  have hok := pl_ok c hi js' r g3 h3
  unfold shownInline
  rw [hso, h5, pl_text c.ws p.fmt r h4 hok]
  -- the blocks before joining
  set K := inBlocks c.ws p with hK
  have hKok : ∀ b ∈ K, RawOK b := fun b hb => hraw b (List.mem_of_mem_filter hb)
  have hKf : (p.raw.filter (keep c.ws p.box)).filter (fun b => b.bbox.truthy) = K := by
    rw [hK, inBlocks, List.filter_filter]
    apply List.filter_congr
    intro b hb
    have hp := (hraw b hb).boxes.1
    rw [show b.bbox.truthy = true from ly_real_truthy hp, Bool.true_and, Bool.eq_iff_iff, decide_eq_true_eq]
    exact pp_keep c.ws p.box b hp.1
  have hfs := hone.floats bs fs h1
  subst hfs
  have hbs : bs.Perm (K.map (stripBlock c.ws)) := by
    have hb := h1
    unfold beforeJoin at hb
    rw [hKf] at hb
    rw [pl_no_floats _ _ _ hb]
    exact pp_sort_perm _
  have hstl : ∀ b ∈ K, (stripBlock c.ws b).lines = b.lines.map fun l => (stripLine c.ws l).1 := by
    intro b _
    unfold stripBlock
    dsimp only
    split_ifs <;> simp
  have hbsok : ∀ b ∈ bs, RawOK b := by
    intro b hb
    obtain ⟨b0, hb0, rfl⟩ := List.mem_map.1 (hbs.subset hb)
    exact (pp_stripBlock c.ws hws b0 (hKok b0 hb0)).1
  have hbsl : ∀ b ∈ bs, ∀ l ∈ b.lines, ∃ b0 ∈ K, ∃ l0 ∈ b0.lines, l = (stripLine c.ws l0).1 ∧ b = stripBlock c.ws b0 := by
    intro b hb l hl
    obtain ⟨b0, hb0, rfl⟩ := List.mem_map.1 (hbs.subset hb)
    rw [hstl b0 hb0] at hl
    obtain ⟨l0, hl0, rfl⟩ := List.mem_map.1 hl
    exact ⟨b0, hb0, l0, hl0, rfl, rfl⟩
  have hlok : ∀ b ∈ K, ∀ l ∈ b.lines, LineOK l ∧ InY b.bbox l.bbox := fun b hb l hl => ⟨((hKok b hb).boxes.2 l hl).1, pl_covers_in ((hKok b hb).boxes.2 l hl).2⟩
  have hstrip : ∀ b ∈ K, ∀ l ∈ b.lines, InY l.bbox (stripLine c.ws l).1.bbox ∧ (stripLine c.ws l).1.pid = l.pid :=
    fun b hb l hl => pl_strip_line c.ws hws l (hlok b hb l hl).1
  have hperm : (L.map fun l => (stripLine c.ws l).1).Perm (bs.flatMap Lns.Blk.lines) := by
    refine (hL.map _).trans (List.Perm.trans ?_ (hbs.flatMap_right _).symm)
    rw [List.flatMap_map, List.map_flatMap]
    exact List.Perm.of_eq (List.flatMap_congr fun b hb => (hstl b hb).symm)
  have hLmem : ∀ l ∈ L, ∃ b ∈ K, l ∈ b.lines := fun l hl => List.mem_flatMap.1 (hL.subset hl)
  have hLs : (L.map fun l => (stripLine c.ws l).1).Pairwise fun a b => Above a.bbox b.bbox := by
    rw [List.pairwise_map]
    refine hord.imp_of_mem ?_
    intro a b ha hb hab
    obtain ⟨x, hx, ha⟩ := hLmem a ha
    obtain ⟨y, hy, hb⟩ := hLmem b hb
    exact pl_above_in (hstrip x hx a ha).1 (hstrip y hy b hb).1 hab
  have hsep : (bs.flatMap Lns.Blk.lines).Pairwise fun a b => VSep a.bbox b.bbox :=
    hperm.pairwise (hLs.imp fun h => Or.inl h) (fun h => pl_sep_symm h)
  have hdir : ∀ b ∈ bs, ∀ l ∈ b.lines, l.dir = .leftRight := by
    intro b hb l hl
    obtain ⟨b0, hb0, l0, hl0, rfl, _⟩ := hbsl b hb l hl
    rw [(pp_stripLine c.ws hws l0).dir]
    exact hone.horizontal b0 hb0 l0 hl0
  obtain ⟨j1, j2, j3, j4, j5⟩ := pl_join_column c.lay.iter hi c.ov c.mg hov bs js' hbsok hdir hsep h2
  have hjmem : ∀ j ∈ js', ∀ l ∈ j.lines, ∃ b ∈ bs, l ∈ b.lines := fun j hj l hl => List.mem_flatMap.1 (j1.subset (List.mem_flatMap.2 ⟨j, hj, hl⟩))
  obtain ⟨k1, k2⟩ := pl_split_column c.lay hi js' K r (fun b => b.lines.map fun l => (stripLine c.ws l).1) (fun j hj => (g3 j hj).1)
    (by intro j hj l hl; obtain ⟨b, hb, hl⟩ := hjmem j hj l hl; exact hdir b hb l hl)
    (j1.symm.pairwise hsep (fun h => pl_sep_symm h)) j2 j3 j4
    (by
      intro b hb hne
      obtain ⟨j, hj, hall⟩ := j5 (stripBlock c.ws b) (hbs.symm.subset (List.mem_map_of_mem hb)) (by rw [hstl b hb]; exact hne)
      rw [hstl b hb] at hall
      exact ⟨j, hj, hall⟩)
    (by
      intro j hj l hl
      obtain ⟨b, hb, hl⟩ := hjmem j hj l hl
      obtain ⟨b0, hb0, l0, hl0, rfl, _⟩ := hbsl b hb l hl
      exact ⟨b0, hb0, List.mem_map_of_mem (f := fun l => (stripLine c.ws l).1) hl0⟩)
    (by
      intro b hb
      refine ⟨(hKok b hb).boxes.1, ?_⟩
      intro l hl
      obtain ⟨l0, hl0, rfl⟩ := List.mem_map.1 hl
      exact pl_in_trans (hlok b hb l0 hl0).2 (hstrip b hb l0 hl0).1)
    (by
      intro b hb
      obtain ⟨id, hid⟩ := hone.own b hb
      refine ⟨id, ?_⟩
      intro l hl
      obtain ⟨l0, hl0, rfl⟩ := List.mem_map.1 hl
      rw [(hstrip b hb l0 hl0).2]; exact hid l0 hl0)
    (by
      refine hone.ids.imp_of_mem ?_
      intro a b ha hb hab l hl m hm
      obtain ⟨l0, hl0, rfl⟩ := List.mem_map.1 hl
      obtain ⟨m0, hm0, rfl⟩ := List.mem_map.1 hm
      rw [(hstrip a ha l0 hl0).2, (hstrip b hb m0 hm0).2]
      exact hab l0 hl0 m0 hm0)
    hone.blocks h3
  have heq : Lay.allLines r = L.map fun l => (stripLine c.ws l).1 := by
    refine List.Perm.eq_of_pairwise ?_ k2 hLs (k1.trans (j1.trans hperm.symm))
    intro a b ha hb hab hba
    exfalso
    have hpa : Proper a.bbox := by
      obtain ⟨j, hj, ha⟩ := List.mem_flatMap.1 (k1.subset ha)
      exact ((g3 j hj).1.2 a ha).1.1.1
    have hpb : Proper b.bbox := by
      obtain ⟨x, hx, hb⟩ := List.mem_flatMap.1 (hperm.subset hb)
      exact ((hbsok x hx).boxes.2 b hb).1.1.1
    have q1 := hpa.2
    have q2 := hpb.2
    unfold Above at hab hba
    linarith
  unfold Lay.items
  rw [heq, List.flatMap_map]
  unfold seen
  rw [List.filter_flatMap]
  exact List.flatMap_congr fun l _ => (pp_stripLine c.ws hws l).seen

/-- **C86**: on a page of one column of horizontal text without tables, the text of the section is that of the lines from top to bottom. `L` is the list of the
page's lines in that order. -/
theorem C86_reading_order (c : Pipe.Cfg) (hws : c.ws ' ' = true) (hi : ∀ l, (c.lay.iter l).Perm l) (hov : 1 / 1000000 < c.ov) (depth : ℕ) (p0 : π)
    (pages : List (Page π)) (d : Docx.Doc Par Sp π) (h : convert c depth p0 pages = .ok d) (i : ℕ) (p : Page π) (s : π × List (Docx.Item Par Sp π))
    (hp : pages[i]? = some p) (hs : (sectionsOf d)[i]? = some s) (hpl : PlainPage p) (hone : OneColumn c p)
    (L : List (Lay.Ln Tok)) (hL : L.Perm ((inBlocks c.ws p).flatMap Lns.Blk.lines)) (hord : L.Pairwise fun a b => Above a.bbox b.bbox) :
    shownInline c.ws s.2 = L.flatMap fun l => seen c.ws (Lay.lineItems l) :=
  pl_reading_order c hws hi hov depth p0 pages d h i p s hp hs hpl.raw (pl_nothing c p hpl) hone L hL hord

end Order

section PlainExample

/-- A block whose lines know it. -/
def plText (id : ℕ) (b : Rect) (ls : List (Rect × List (Rect × Char))) : Raw :=
  { ppText b ls with lines := (ppText b ls).lines.map fun l => { l with pid := some id } }

theorem plText_ok (id : ℕ) (b : Rect) (ls : List (Rect × List (Rect × Char))) (h : RawOK (ppText b ls)) : RawOK (plText id b ls) := by
  refine ⟨⟨h.boxes.1, ?_⟩, ?_, ?_⟩
  · intro l hl
    obtain ⟨l0, hl0, rfl⟩ := List.mem_map.1 hl
    exact h.boxes.2 l0 hl0
  · intro l hl
    obtain ⟨l0, hl0, rfl⟩ := List.mem_map.1 hl
    exact h.tags l0 hl0
  · intro s hs; cases hs

/-- Two blocks, extracted in the wrong order; the upper one has two lines, in the wrong order. -/
def plPage : Page ℕ := { ppPage with
  detect := fun _ _ _ _ => .ok []
  raw := [plText 1 ⟨10, 50, 90, 60⟩ [(⟨10, 50, 90, 60⟩, [(⟨10, 50, 50, 60⟩, 'c'), (⟨50, 50, 90, 60⟩, 'd')])],
    plText 2 ⟨10, 10, 90, 40⟩ [(⟨10, 30, 90, 40⟩, [(⟨10, 30, 90, 40⟩, 'b')]), (⟨10, 10, 90, 20⟩, [(⟨10, 10, 90, 20⟩, 'a')])]] }

/-- Its lines from top to bottom. -/
def plLines : List (Lay.Ln Tok) :=
  [{ exLine ⟨10, 10, 90, 20⟩ [(⟨10, 10, 90, 20⟩, .chr 'a')] with pid := some 2 }, { exLine ⟨10, 30, 90, 40⟩ [(⟨10, 30, 90, 40⟩, .chr 'b')] with pid := some 2 },
   { exLine ⟨10, 50, 90, 60⟩ [(⟨10, 50, 50, 60⟩, .chr 'c'), (⟨50, 50, 90, 60⟩, .chr 'd')] with pid := some 1 }]

instance (a b : Rect) : Decidable (Above a b) := by unfold Above; infer_instance

theorem pl_ex_plain : PlainPage plPage := by
  refine ⟨?_, fun _ _ _ _ => rfl⟩
  intro b hb
  simp only [plPage, List.mem_cons, List.not_mem_nil, or_false] at hb
  rcases hb with rfl | rfl
  · exact plText_ok _ _ _ (pp_ex_text _ _ (by decide +kernel) (by decide +kernel))
  · exact plText_ok _ _ _ (pp_ex_text _ _ (by decide +kernel) (by decide +kernel))

/-- No floating images. -/
def noFloats (r : Except Err (List Raw × List Sp)) : Bool :=
  match r with
  | .ok x => x.2.isEmpty
  | .error _ => true

theorem pl_ex_column : OneColumn ppCfg plPage := by
  have hb : inBlocks ppCfg.ws plPage = plPage.raw := by decide +kernel
  refine ⟨by rw [hb]; decide +kernel, by rw [hb]; decide +kernel, by rw [hb]; decide +kernel, ?_, by rw [hb]; decide +kernel, ?_⟩
  · rw [hb]
    intro b hb
    simp only [plPage, List.mem_cons, List.not_mem_nil, or_false] at hb
    rcases hb with rfl | rfl
    · exact ⟨1, by decide +kernel⟩
    · exact ⟨2, by decide +kernel⟩
  · intro bs fs h
    have : noFloats (beforeJoin ppCfg plPage.box plPage.raw) = true := by decide +kernel
    rw [h] at this
    simpa [noFloats] using this

/-- No lines overlap. -/
def clearRun (c : Pipe.Cfg) (p : Page ℕ) : Bool :=
  match beforeJoin c p.box p.raw with
  | .ok x => decide (((x.1.filter fun b => decide (b.bbox ≠ Rect.zero)).flatMap Lns.Blk.lines).Pairwise
      fun a b => ¬ OverlapBy c.ov a.bbox b.bbox ∧ ¬ OverlapBy c.ov b.bbox a.bbox)
  | .error _ => true

theorem pl_ex_clear : NoOverlap ppCfg plPage := by
  intro bs fs h
  have : clearRun ppCfg plPage = true := by decide +kernel
  unfold clearRun at this
  rw [h] at this
  exact of_decide_eq_true this

/-- The hypotheses of C86 are met, and the document shows the lines from top to bottom. -/
example : PlainPage plPage ∧ NoOverlap ppCfg plPage ∧ OneColumn ppCfg plPage ∧ plLines.Perm ((inBlocks ppCfg.ws plPage).flatMap Lns.Blk.lines) ∧
    (plLines.Pairwise fun a b => Above a.bbox b.bbox) ∧ ppShows ppCfg plPage [.chr 'a', .chr 'b', .chr 'c', .chr 'd'] = true :=
  ⟨pl_ex_plain, pl_ex_clear, pl_ex_column, by decide +kernel, by decide +kernel, by decide +kernel⟩

/-- A block with two lines between which lies the line of another block. -/
def plMixed : Page ℕ := { plPage with
  raw := [plText 1 ⟨10, 10, 90, 60⟩ [(⟨10, 10, 90, 20⟩, [(⟨10, 10, 90, 20⟩, 'a')]), (⟨10, 50, 90, 60⟩, [(⟨10, 50, 90, 60⟩, 'c')])],
    plText 2 ⟨10, 30, 90, 40⟩ [(⟨10, 30, 90, 40⟩, [(⟨10, 30, 90, 40⟩, 'b')])]] }

/-- **C86**: the condition that blocks lie one below the other is needed: although all lines lie one below the other, the text of a block inside another one comes after it. -/
theorem C86_interleaved_blocks : ∃ d, convert ppCfg 3 0 [plMixed] = .ok d ∧ shownInline ppCfg.ws d.body = [.chr 'a', .chr 'c', .chr 'b'] := by
  have h : ppShows ppCfg plMixed [.chr 'a', .chr 'c', .chr 'b'] = true := by decide +kernel
  unfold ppShows at h
  split at h
  · rename_i d hd
    simp only [Bool.and_eq_true, decide_eq_true_eq] at h
    exact ⟨d, hd, h.1⟩
  · cases h

end PlainExample

end Props
