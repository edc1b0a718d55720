import Verif.Spec.Detect
import Verif.Props.PipePlain
import Verif.Props.Columns
import Verif.Props.StreamCollect
/-! # C90: pages of text without vector graphics -/

namespace Props
open Geom Py Assign Pipe Spec

section Column
variable {π : Type}

/-- The joined blocks of a page of one column. -/
theorem dt_column (c : Pipe.Cfg) (hws : c.ws ' ' = true) (hi : ∀ l, (c.lay.iter l).Perm l) (hov : 1 / 1000000 < c.ov) (p : Page π)
    (hraw : ∀ b ∈ p.raw, RawOK b) (hone : OneColumn c p)
    (L : List (Lay.Ln Tok)) (hL : L.Perm ((inBlocks c.ws p).flatMap Lns.Blk.lines)) (hord : L.Pairwise fun a b => Above a.bbox b.bbox)
    (bs js : List Raw) (fs : List Sp) (h1 : beforeJoin c p.box p.raw = .ok (bs, fs)) (h2 : Lns.joinHorizontally c.lay.iter c.ov c.mg bs = .ok js) :
    (js.flatMap Lns.Blk.lines).Perm (((inBlocks c.ws p).flatMap Lns.Blk.lines).map fun l => (stripLine c.ws l).1) ∧
      (∀ j ∈ js, j.lines.Pairwise fun a b => Above a.bbox b.bbox) ∧
      (js.Pairwise fun a b => a.bbox.y1 < b.bbox.y0 ∨ b.bbox.y1 < a.bbox.y0) ∧ ∀ j ∈ js, TextOK (j.bbox, j.lines) ∧ ∀ l ∈ j.lines, l.dir = .leftRight := by
  obtain ⟨js', fs', bs', g1, g2, g3, _, g5, _, g7⟩ := pp_cleanUp c hws hi p.box p.raw hraw
  rw [h1] at g1
  obtain ⟨rfl, rfl⟩ := Prod.mk.inj (Except.ok.inj g1)
  have : js' = js := by
    unfold cleanUp at g2
    rw [h1] at g2
    dsimp only at g2
    rw [h2] at g2
    exact (Prod.mk.inj (Except.ok.inj g2)).1.symm
  subst this
  -- the blocks before joining
  set K := inBlocks c.ws p with hK
  have hKok : ∀ b ∈ K, RawOK b := fun b hb => hraw b (List.mem_of_mem_filter hb)
  have hKf : (p.raw.filter (keep c.ws p.box)).filter (fun b => b.bbox.truthy) = K := by
    rw [hK, inBlocks, List.filter_filter]
    apply List.filter_congr
    intro b hb
    have hp := (hraw b hb).boxes.1
    rw [show b.bbox.truthy = true from ly_real_truthy hp, Bool.true_and, Bool.eq_iff_iff, decide_eq_true_eq]
    exact pp_keep c.ws p.box b hp.1
  have hfs := hone.floats bs fs h1
  subst hfs
  have hbs : bs.Perm (K.map (stripBlock c.ws)) := by
    have hb := h1
    unfold beforeJoin at hb
    rw [hKf] at hb
    rw [pl_no_floats _ _ _ hb]
    exact pp_sort_perm _
  have hstl : ∀ b ∈ K, (stripBlock c.ws b).lines = b.lines.map fun l => (stripLine c.ws l).1 := by
    intro b _
    unfold stripBlock
    dsimp only
    split_ifs <;> simp
  have hbsok : ∀ b ∈ bs, RawOK b := by
    intro b hb
    obtain ⟨b0, hb0, rfl⟩ := List.mem_map.1 (hbs.subset hb)
    exact (pp_stripBlock c.ws hws b0 (hKok b0 hb0)).1
  have hbsl : ∀ b ∈ bs, ∀ l ∈ b.lines, ∃ b0 ∈ K, ∃ l0 ∈ b0.lines, l = (stripLine c.ws l0).1 ∧ b = stripBlock c.ws b0 := by
    intro b hb l hl
    obtain ⟨b0, hb0, rfl⟩ := List.mem_map.1 (hbs.subset hb)
    rw [hstl b0 hb0] at hl
    obtain ⟨l0, hl0, rfl⟩ := List.mem_map.1 hl
    exact ⟨b0, hb0, l0, hl0, rfl, rfl⟩
  have hlok : ∀ b ∈ K, ∀ l ∈ b.lines, LineOK l ∧ InY b.bbox l.bbox := fun b hb l hl => ⟨((hKok b hb).boxes.2 l hl).1, pl_covers_in ((hKok b hb).boxes.2 l hl).2⟩
  have hstrip : ∀ b ∈ K, ∀ l ∈ b.lines, InY l.bbox (stripLine c.ws l).1.bbox ∧ (stripLine c.ws l).1.pid = l.pid :=
    fun b hb l hl => pl_strip_line c.ws hws l (hlok b hb l hl).1
  have hperm : (L.map fun l => (stripLine c.ws l).1).Perm (bs.flatMap Lns.Blk.lines) := by
    refine (hL.map _).trans (List.Perm.trans ?_ (hbs.flatMap_right _).symm)
    rw [List.flatMap_map, List.map_flatMap]
    exact List.Perm.of_eq (List.flatMap_congr fun b hb => (hstl b hb).symm)
  have hLmem : ∀ l ∈ L, ∃ b ∈ K, l ∈ b.lines := fun l hl => List.mem_flatMap.1 (hL.subset hl)
  have hLs : (L.map fun l => (stripLine c.ws l).1).Pairwise fun a b => Above a.bbox b.bbox := by
    rw [List.pairwise_map]
    refine hord.imp_of_mem ?_
    intro a b ha hb hab
    obtain ⟨x, hx, ha⟩ := hLmem a ha
    obtain ⟨y, hy, hb⟩ := hLmem b hb
    exact pl_above_in (hstrip x hx a ha).1 (hstrip y hy b hb).1 hab
  have hsep : (bs.flatMap Lns.Blk.lines).Pairwise fun a b => VSep a.bbox b.bbox :=
    hperm.pairwise (hLs.imp fun h => Or.inl h) (fun h => pl_sep_symm h)
  have hdir : ∀ b ∈ bs, ∀ l ∈ b.lines, l.dir = .leftRight := by
    intro b hb l hl
    obtain ⟨b0, hb0, l0, hl0, rfl, _⟩ := hbsl b hb l hl
    rw [(pp_stripLine c.ws hws l0).dir]
    exact hone.horizontal b0 hb0 l0 hl0
  obtain ⟨j1, j2, j3, j4, j5⟩ := pl_join_column c.lay.iter hi c.ov c.mg hov bs js' hbsok hdir hsep h2
  have hjmem : ∀ j ∈ js', ∀ l ∈ j.lines, ∃ b ∈ bs, l ∈ b.lines := fun j hj l hl => List.mem_flatMap.1 (j1.subset (List.mem_flatMap.2 ⟨j, hj, hl⟩))
  obtain ⟨js0, e0, hsep0⟩ := C70_separated c.lay.iter hi c.ov c.mg bs (fun b hb => pp_block_good (hbsok b hb))
  rw [h2] at e0
  obtain rfl := Except.ok.inj e0
  refine ⟨j1.trans (hperm.symm.trans (hL.map _)), j2, hsep0, ?_⟩
  intro j hj
  refine ⟨(g3 j hj).1, ?_⟩
  intro l hl
  obtain ⟨b, hb, hl⟩ := hjmem j hj l hl
  exact hdir b hb l hl

end Column

section Nothing
variable {σ : Type}

/-- Groups of a relation that never holds between two elements. -/
theorem dt_groups_single {α : Type} (iter : List ℕ → List ℕ) (hi : ∀ l, (iter l).Perm l) (f : α → α → Bool) (xs : List α)
    (h : xs.Pairwise fun a b => f a b = false) : ∀ g ∈ Stream.groups iter f xs, g.length ≤ 1 := by
  have hp : Graph.relatedPairs f xs = [] := by
    rw [List.eq_nil_iff_forall_not_mem]
    rintro ⟨i, j⟩ hm
    rw [Graph.mem_relatedPairs] at hm
    obtain ⟨hlt, a, b, ha, hb, hf⟩ := hm
    obtain ⟨h1, rfl⟩ := List.getElem?_eq_some_iff.1 ha
    obtain ⟨h2, rfl⟩ := List.getElem?_eq_some_iff.1 hb
    rw [List.pairwise_iff_getElem] at h
    rw [h i j h1 h2 hlt] at hf
    cases hf
  obtain ⟨gs, e1, e2⟩ := components_of_pairs xs.length (Graph.relatedPairs f xs) (Graph.relatedPairs_lt f xs)
  unfold Stream.groups Graph.group
  rw [e1]
  dsimp only
  intro g hg
  obtain ⟨g0, hg0, rfl⟩ := List.mem_map.1 hg
  refine (List.length_filterMap_le _ _).trans ?_
  rw [(hi g0).length_eq]
  have hnd : g0.Nodup := (List.nodup_flatten.1 (e2.partition.nodup_iff.2 List.nodup_range)).1 g0 hg0
  have hone : ∀ a ∈ g0, ∀ b ∈ g0, a = b := by
    intro a ha b hb
    have := (e2.closed g0 hg0 a ha b).1 hb
    rw [hp] at this
    unfold Linked at this
    clear hb
    induction this with
    | refl => rfl
    | tail _ hr _ => simp at hr
  match g0, hnd, hone with
  | [], _, _ => simp
  | [_], _, _ => simp
  | a :: b :: t, hnd, hone =>
    have := hone a (by simp) b (by simp)
    subst this
    simp at hnd

/-- Lines one below the other are in flow layout. -/
theorem dt_flow (c : Lay.Cfg) (hi : ∀ l, (c.iter l).Perm l) (htol : 0 < c.tol) (ls : List (Lns.Ln σ)) (hp : ∀ l ∈ ls, Proper l.bbox)
    (hd : ∀ l ∈ ls, l.dir = .leftRight) (h : ls.Pairwise fun a b => Above a.bbox b.bbox) : Stream.isFlow c.iter c.tol c.sep ls = true := by
  unfold Stream.isFlow
  rw [List.all_eq_true]
  intro g hg
  have := dt_groups_single c.iter hi _ ls (h.imp_of_mem fun {a b} ha hb hab => by
    rw [Bool.and_eq_false_iff]
    left
    rw [← Bool.not_eq_true]
    intro hal
    unfold El.horizontallyAlign at hal
    simp only [El.truthy, Lns.Ln.el, truthy_of_proper _ (hp a ha), truthy_of_proper _ (hp b hb), Bool.not_true, Bool.or_self, Bool.false_eq_true, if_false, if_true,
      overlapEnough_iff, El.ext, El.horizontal, hd a ha] at hal
    simp at hal
    have q1 := (hp a ha).2
    have q2 := (hp b hb).2
    unfold Above at hab
    have q3 : min a.bbox.y1 b.bbox.y1 ≤ max a.bbox.y0 b.bbox.y0 := (min_le_left _ _).trans (hab.trans (le_max_right _ _))
    have q4 : 0 < min (a.bbox.y1 - a.bbox.y0) (b.bbox.y1 - b.bbox.y0) := lt_min (by linarith) (by linarith)
    have := mul_pos htol q4
    linarith) g hg
  match g, this with
  | [], _ => rfl
  | [_], _ => rfl
  | _ :: _ :: _, h => simp at h

/-- One strictly above the other: not in one row. -/
theorem dt_not_row (a b : El) (hd : a.dir = .leftRight) (ha : Proper a.bbox) (hb : Proper b.bbox) (h : a.bbox.y1 < b.bbox.y0 ∨ b.bbox.y1 < a.bbox.y0) :
    a.horizontallyAlign b 0 true = false := by
  rw [← Bool.not_eq_true]
  intro hal
  unfold El.horizontallyAlign at hal
  have hh : a.horizontal = true := by unfold El.horizontal; rw [hd]; decide
  simp only [El.truthy, truthy_of_proper _ ha, truthy_of_proper _ hb, Bool.not_true, Bool.or_self, Bool.false_eq_true, if_false, if_true,
    overlapEnough_iff, El.ext, hh, zero_mul, sub_nonneg] at hal
  rcases h with h | h
  · exact absurd (lt_of_le_of_lt (min_le_left _ _) (lt_of_lt_of_le h (le_max_right _ _))) (not_lt.2 hal)
  · exact absurd (lt_of_le_of_lt (min_le_right _ _) (lt_of_lt_of_le h (le_max_left _ _))) (not_lt.2 hal)

/-- Blocks in flow layout, no two of them in one row: no table. -/
theorem dt_tables_nil (bs : List Stream.SBlock) (hf : ∀ b ∈ bs, b.flow = true) (hr : bs.IsChain fun a b => sameRow a b = false) : tablesOf bs = [] := by
  have key : ∀ bs : List Stream.SBlock, (∀ b ∈ bs, b.flow = true) → (bs.IsChain fun a b => sameRow a b = false) → ∀ m ∈ marks false bs, m.1 = false := by
    intro bs
    induction bs with
    | nil => intro _ _ m hm; cases hm
    | cons b bs ih =>
      intro hf hr m hm
      cases bs with
      | nil =>
        simp only [marks, List.mem_singleton] at hm
        rw [hm, hf b (by simp)]; rfl
      | cons n bs =>
        have hbn := (List.isChain_cons_cons.1 hr).1
        simp only [marks, hbn] at hm
        rcases List.mem_cons.1 hm with rfl | hm
        · rw [hf b (by simp)]; rfl
        · exact ih (fun b hb => hf b (by simp [hb])) (List.isChain_cons_cons.1 hr).2 m hm
  have hall := key bs hf hr
  unfold tablesOf
  generalize marks false bs = ms at hall
  rw [List.filter_eq_nil_iff]
  intro t ht
  obtain ⟨run, hrun, rfl⟩ := List.mem_map.1 ht
  have : run = [] := by
    clear ht key hf hr
    induction ms with
    | nil => simpa using hrun
    | cons m ms ih =>
      obtain ⟨s, ss, e1, e2⟩ := splitOnP_cons' (fun m : Bool × Stream.SBlock => !m.1) m ms
      rw [e2, hall m (by simp), ← e1] at hrun
      simp only [Bool.not_false, if_true] at hrun
      rcases List.mem_cons.1 hrun with h | h
      · exact h
      · exact ih (fun m hm => hall m (by simp [hm])) h
  rw [this]
  simp [runLines]

end Nothing

section Plain
variable {π : Type}

/-- A page of one column of text without vector graphics, not to be taken for two columns: no table is found. -/
theorem dt_nothing (c : Pipe.Cfg) (hws : c.ws ' ' = true) (hi : ∀ l, (c.lay.iter l).Perm l) (hov : 1 / 1000000 < c.ov) (htol : 0 < c.lay.tol) (p : Page π)
    (hraw : ∀ b ∈ p.raw, RawOK b) (hone : OneColumn c p)
    (L : List (Lay.Ln Tok)) (hL : L.Perm ((inBlocks c.ws p).flatMap Lns.Blk.lines)) (hord : L.Pairwise fun a b => Above a.bbox b.bbox)
    (dc : Detect.Cfg) (hdc : dc.lay = c.lay) (hdet : p.detect = Detect.text dc) (hm : Mixed c.ws p) : NothingFound c p := by
  intro r hr s hs
  unfold cleanUp at hr
  cases hb : beforeJoin c p.box p.raw with
  | error e => rw [hb] at hr; cases hr
  | ok x =>
    rw [hb] at hr
    dsimp only at hr
    cases hj : Lns.joinHorizontally c.lay.iter c.ov c.mg x.1 with
    | error e => rw [hj] at hr; cases hr
    | ok js =>
      rw [hj] at hr
      obtain rfl := Except.ok.inj hr
      obtain ⟨k1, k2, k3, k4⟩ := dt_column c hws hi hov p hraw hone L hL hord x.1 js x.2 hb hj
      dsimp only
      have hlines : (js.map fun b : Raw => (Lay.Blk.text b.bbox b.lines : Lay.Blk Tok)).flatMap Lay.Blk.lines = js.flatMap Lns.Blk.lines := by
        rw [List.flatMap_map]; rfl
      rw [hdet]
      simp only [List.mem_cons, List.not_mem_nil, or_false] at hs
      rcases hs with rfl | rfl | rfl
      · show Detect.pageStage _ _ = _
        unfold Detect.pageStage
        rw [hlines]
        have hpb : ((js.flatMap Lns.Blk.lines).map fun l => l.bbox).Perm (lineBoxes c.ws p) := by
          have := k1.map (fun l : Lay.Ln Tok => l.bbox)
          rwa [List.map_map] at this
        have hpc : PageContent p.work ((js.flatMap Lns.Blk.lines).map fun l => l.bbox) := by
          intro r hr
          refine ⟨?_, ?_, hm.width r (hpb.subset hr)⟩ <;>
          · obtain ⟨l, hl, rfl⟩ := List.mem_map.1 hr
            obtain ⟨j, hj, hl⟩ := List.mem_flatMap.1 hl
            first | exact ((k4 j hj).1.2 l hl).1.1.1 | exact ((k4 j hj).1.2 l hl).1.1.2
        have hnf : Columns.free p.work ((js.flatMap Lns.Blk.lines).map fun l => l.bbox) ≠ true := by
          intro hf
          obtain ⟨q, hq, hq'⟩ := hm.beside
          have := (free_iff p.work _ hpc ⟨q, hpb.symm.subset hq, hq'⟩).1 hf
          refine hm.across ?_
          intro e he hx
          rcases this e (hpb.symm.subset he) hx with g | g
          · exact Or.inl fun c hc => g c (hpb.symm.subset hc)
          · exact Or.inr fun c hc => g c (hpb.symm.subset hc)
        unfold Columns.pageTable
        rw [if_neg hnf]
        rfl
      · rfl
      · show Detect.streamStage _ _ _ = _
        unfold Detect.streamStage
        rw [C79_candidates, hdc, dt_tables_nil]
        · rfl
        · intro b hb
          obtain ⟨q, hq, rfl⟩ := List.mem_map.1 hb
          obtain ⟨j, hj, rfl⟩ := List.mem_map.1 hq
          exact dt_flow c.lay hi htol j.lines (fun l hl => ((k4 j hj).1.2 l hl).1.1.1) (k4 j hj).2 (k2 j hj)
        · rw [List.map_map]
          refine List.Pairwise.isChain ?_
          rw [List.pairwise_map]
          refine k3.imp_of_mem ?_
          intro a b ha hb hab
          have da : (Lay.Blk.text a.bbox a.lines).dir = .leftRight := pl_blk_dir _ _ (k4 a ha).2
          have pa : Proper a.bbox := (k4 a ha).1.1.1
          have pb : Proper b.bbox := (k4 b hb).1.1.1
          exact dt_not_row ⟨a.bbox, (Lay.Blk.text a.bbox a.lines).dir⟩ ⟨b.bbox, (Lay.Blk.text b.bbox b.lines).dir⟩ da pa pb hab

/-- **C90** (partial: text in one column of which at least one line lies beside the centre of the page and one across it, the latter not above or below all the former; otherwise see the
refutations): a page of text without vector graphics is converted to plain paragraphs, without any table, and the text is that of the lines from top to bottom. -/
theorem C90_plain_text_partial (c : Pipe.Cfg) (hws : c.ws ' ' = true) (hi : ∀ l, (c.lay.iter l).Perm l) (hov : 1 / 1000000 < c.ov) (htol : 0 < c.lay.tol)
    (dc : Detect.Cfg) (hdc : dc.lay = c.lay) (depth : ℕ) (p0 : π)
    (pages : List (Page π)) (d : Docx.Doc Par Sp π) (h : convert c depth p0 pages = .ok d) (i : ℕ) (p : Page π) (s : π × List (Docx.Item Par Sp π))
    (hp : pages[i]? = some p) (hs : (sectionsOf d)[i]? = some s) (hraw : ∀ b ∈ p.raw, RawOK b) (hdet : p.detect = Detect.text dc) (hone : OneColumn c p)
    (hm : Mixed c.ws p)
    (L : List (Lay.Ln Tok)) (hL : L.Perm ((inBlocks c.ws p).flatMap Lns.Blk.lines)) (hord : L.Pairwise fun a b => Above a.bbox b.bbox) :
    (∀ t ∈ ofItems s.2, ∃ par, t = .text par) ∧ shownInline c.ws s.2 = L.flatMap fun l => seen c.ws (Lay.lineItems l) := by
  have hn := dt_nothing c hws hi hov htol p hraw hone L hL hord dc hdc hdet hm
  refine ⟨?_, pl_reading_order c hws hi hov depth p0 pages d h i p s hp hs hraw hn hone L hL hord⟩
  obtain ⟨dd, hpp, hso⟩ := pl_section c depth p0 pages d h i p s hp hs
  obtain ⟨bs, fs, js, r, _, _, h3, h4, h5⟩ := pl_parse c depth p hn dd hpp
  rw [hso, h5]
  clear h5 hpp hso hs h hn h3
  induction r with
  | nil => intro t ht; simp [blocks, ofBlocks] at ht
  | cons b r ih =>
    cases b with
    | table x cs => cases h4 _ (List.mem_cons_self)
    | text x ls =>
      intro t ht
      simp only [blocks, block, ofBlocks, List.mem_cons] at ht
      rcases ht with rfl | ht
      · exact ⟨_, rfl⟩
      · exact ih (fun b hb => h4 b (by simp [hb])) t ht

end Plain

section DetectExample

/-- Default settings. -/
def dtCfg : Detect.Cfg := ⟨⟨id, 1 / 10, 5⟩, 2, 6, id⟩
def dtPipe : Pipe.Cfg := { ppCfg with lay := dtCfg.lay }

/-- A page of text: a box and a character for each line, all in one block; the margins are those the code computes if the text is at least 72pt from the left and right edge. -/
def dtPage (b : Rect) (ls : List (Rect × Char)) : Page ℕ := { ppPage with
  box := ⟨0, 0, 595, 842⟩, work := ⟨72, b.y0 / 2, 523, 770⟩, detect := Detect.text dtCfg, raw := [plText 1 b (ls.map fun l => (l.1, [(l.1, l.2)]))] }

/-- Heading, line of full width, short line. -/
def dtText : List (Rect × Char) := [(⟨72, 80, 200, 92⟩, 'a'), (⟨72, 100, 520, 112⟩, 'b'), (⟨72, 116, 250, 128⟩, 'c')]
def dtPlain : Page ℕ := dtPage ⟨72, 80, 520, 128⟩ dtText

theorem dt_ex_column : OneColumn dtPipe dtPlain := by
  have hb : inBlocks dtPipe.ws dtPlain = dtPlain.raw := by decide +kernel
  refine ⟨by rw [hb]; decide +kernel, by rw [hb]; decide +kernel, by rw [hb]; decide +kernel, ?_, by rw [hb]; decide +kernel, ?_⟩
  · rw [hb]
    intro b hb
    simp only [dtPlain, dtPage, List.mem_cons, List.not_mem_nil, or_false] at hb
    subst hb
    exact ⟨1, by decide +kernel⟩
  · intro bs fs h
    have : noFloats (beforeJoin dtPipe dtPlain.box dtPlain.raw) = true := by decide +kernel
    rw [h] at this
    simpa [noFloats] using this

theorem dt_ex_mixed : Mixed dtPipe.ws dtPlain := by
  have hb : lineBoxes dtPipe.ws dtPlain = dtText.map Prod.fst := by decide +kernel
  exact ⟨by rw [hb]; decide +kernel, by rw [hb]; decide +kernel, by rw [hb]; decide +kernel⟩

/-- Whether contents are texts only. -/
def allTexts (ts : List (Spec.Tree Par)) : Bool := ts.all fun t => match t with | .text _ => true | .table _ => false

/-- The page is converted; its text; whether it has tables. -/
def dtShows (p : Page ℕ) (texts : Bool) (ts : List Tok) : Bool :=
  match convert dtPipe 5 0 [p] with
  | .ok d => decide (shownInline dtPipe.ws d.body = ts) && (allTexts (ofItems d.body) == texts)
  | .error _ => false

theorem dt_shows {p : Page ℕ} {texts : Bool} {ts : List Tok} (h : dtShows p texts ts = true) :
    ∃ d, convert dtPipe 5 0 [p] = .ok d ∧ shownInline dtPipe.ws d.body = ts ∧ ((∀ t ∈ ofItems d.body, ∃ par, t = Spec.Tree.text par) ↔ texts = true) := by
  unfold dtShows at h
  split at h
  · rename_i d hd
    simp only [Bool.and_eq_true, decide_eq_true_eq, beq_iff_eq] at h
    refine ⟨d, hd, h.1, ?_⟩
    rw [← h.2]
    unfold allTexts
    rw [List.all_eq_true]
    refine forall_congr' fun t => imp_congr_right fun _ => ?_
    cases t with
    | text a => simp
    | table r => simp
  · cases h

/-- The hypotheses of C90 are met, and the page is converted to paragraphs. -/
example : (∀ b ∈ dtPlain.raw, RawOK b) ∧ OneColumn dtPipe dtPlain ∧ Mixed dtPipe.ws dtPlain ∧ dtPlain.detect = Detect.text dtCfg ∧
    (dtPlain.raw.flatMap Lns.Blk.lines).Perm ((inBlocks dtPipe.ws dtPlain).flatMap Lns.Blk.lines) ∧
    ((dtPlain.raw.flatMap Lns.Blk.lines).Pairwise fun a b => Above a.bbox b.bbox) ∧ dtShows dtPlain true [.chr 'a', .chr 'b', .chr 'c'] = true := by
  refine ⟨?_, dt_ex_column, dt_ex_mixed, rfl, by decide +kernel, by decide +kernel, by decide +kernel⟩
  intro b hb
  simp only [dtPlain, dtPage, List.mem_cons, List.not_mem_nil, or_false] at hb
  subst hb
  exact plText_ok _ _ _ (pp_ex_text _ _ (by decide +kernel) (by decide +kernel))

/-- C90 (refuted): a page whose lines all cross the centre is converted to a document with a table on it: an empty one above the text. -/
theorem C90_refuted_full_lines : ∃ d, convert dtPipe 5 0 [dtPage ⟨72, 80, 520, 112⟩ [(⟨72, 80, 520, 92⟩, 'a'), (⟨72, 100, 500, 112⟩, 'b')]] = .ok d ∧
    shownInline dtPipe.ws d.body = [.chr 'a', .chr 'b'] ∧ ¬ ∀ t ∈ ofItems d.body, ∃ par, t = Spec.Tree.text par := by
  obtain ⟨d, h1, h2, h3⟩ := dt_shows (p := dtPage ⟨72, 80, 520, 112⟩ [(⟨72, 80, 520, 92⟩, 'a'), (⟨72, 100, 500, 112⟩, 'b')]) (texts := false)
    (ts := [.chr 'a', .chr 'b']) (by decide +kernel)
  exact ⟨d, h1, h2, fun h => by simpa using h3.1 h⟩

/-- C90 (refuted): so is a page of short lines: its text is put into the first of two columns. -/
theorem C90_refuted_short_lines : ∃ d, convert dtPipe 5 0 [dtPage ⟨72, 80, 200, 112⟩ [(⟨72, 80, 200, 92⟩, 'a'), (⟨72, 100, 190, 112⟩, 'b')]] = .ok d ∧
    shownInline dtPipe.ws d.body = [.chr 'a', .chr 'b'] ∧ ¬ ∀ t ∈ ofItems d.body, ∃ par, t = Spec.Tree.text par := by
  obtain ⟨d, h1, h2, h3⟩ := dt_shows (p := dtPage ⟨72, 80, 200, 112⟩ [(⟨72, 80, 200, 92⟩, 'a'), (⟨72, 100, 190, 112⟩, 'b')]) (texts := false)
    (ts := [.chr 'a', .chr 'b']) (by decide +kernel)
  exact ⟨d, h1, h2, fun h => by simpa using h3.1 h⟩

/-- **C85** (refuted even with the tables actually found, on a page without vector graphics): an entry of a table of contents whose page number follows the text at a
distance of 6 is converted to a document that shows the page number twice. -/
theorem C85_refuted_twice : ∃ d, convert dtPipe 5 0 [dtPage ⟨72, 100, 400, 112⟩ [(⟨72, 100, 390, 112⟩, 'A'), (⟨396, 100, 400, 112⟩, '9')]] = .ok d ∧
    shownOnPage dtPipe.ws (dtPage ⟨72, 100, 400, 112⟩ [(⟨72, 100, 390, 112⟩, 'A'), (⟨396, 100, 400, 112⟩, '9')]) = [.chr 'A', .chr '9'] ∧
    shownInline dtPipe.ws d.body = [.chr 'A', .chr '9', .chr '9'] := by
  obtain ⟨d, h1, h2, _⟩ := dt_shows (p := dtPage ⟨72, 100, 400, 112⟩ [(⟨72, 100, 390, 112⟩, 'A'), (⟨396, 100, 400, 112⟩, '9')]) (texts := false)
    (ts := [.chr 'A', .chr '9', .chr '9']) (by decide +kernel)
  exact ⟨d, h1, by decide +kernel, h2⟩

end DetectExample

end Props
