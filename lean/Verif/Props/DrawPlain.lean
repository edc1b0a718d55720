import Verif.Props.DrawTable
import Verif.Props.WholePlain
/-! # C111 from the drawing commands -/

namespace Props
open Geom Py Pipe Spec Assign

section DPlain
variable {π : Type}

theorem dp_harmless {α : Type} {d : ℚ} {bs : List (Full.Blk α)} {s t : List Full.Sh} (h : s.Perm t) (hh : Harmless d bs t) : Harmless d bs s := by
  refine ⟨fun x hx => hh.real x (h.subset hx), ?_, fun r c hr => hh.fills r c (h.subset hr)⟩
  refine (h.filterMap _).symm.pairwise hh.strokes ?_
  rintro a b (h | h | h)
  · exact .inr (.inl h)
  · exact .inl h
  · exact .inr (.inr fun hn => h ⟨hn.2.1, hn.1, hn.2.2.2, hn.2.2.1⟩)

theorem dp_page (c : Draw.Cfg) (hc : SaneDraw c) (p : Draw.Page π) (hp : DrawnText c p) :
    ∃ q, Draw.page c p = .ok q ∧ TextPage c.whole q ∧ pageBlocks c.whole.ws q = pageBlocks c.whole.ws (asSeen c p) := by
  obtain ⟨s, h1, h2⟩ := C109_lines_kept c p hc.ratio (by linarith [hc.threshold]) hp.page hp.straight hp.links hp.apart
  have h2' : s.Perm (seenShapes c p) := h2
  refine ⟨⟨p.box, p.work, p.props, p.raw, s, p.ids, p.styled, p.fmt⟩, ?_, ?_, rfl⟩
  · unfold Draw.page
    rw [h1]
    simp
  · have hb : ∀ r, r ∈ pageBoxes (bareBlocks c.whole.ws (asSeen c p)) s ↔ r ∈ pageBoxes (bareBlocks c.whole.ws (asSeen c p)) (seenShapes c p) :=
      fun r => ((h2'.map _).append_left _).mem_iff
    refine ⟨hp.text.raw, hp.text.text, hp.text.floats, dp_harmless h2' hp.text.drawn, fun r hr => hp.text.within r ((hb r).1 hr), ?_⟩
    obtain ⟨e, he, x, hx, h⟩ := hp.text.columns
    exact ⟨e, (hb e).2 he, x, (hb x).2 hx, h⟩

theorem dp_get {c : Draw.Cfg} {pages : List (Draw.Page π)} {ps : List (Whole.Page π)} (hps : pages.mapM (Draw.page c) = .ok ps) {i : ℕ} {p : Draw.Page π} {q : Whole.Page π}
    (hp : pages[i]? = some p) (hq : Draw.page c p = .ok q) : ps[i]? = some q := by
  have hf := pp_mapM_forall _ _ hps
  have hlt := (List.getElem?_eq_some_iff.1 hp).1
  have hl := hf.length_eq
  have h2 := (List.forall₂_iff_get.1 hf).2 i hlt (by omega)
  rw [List.getElem?_eq_some_iff] at hp
  obtain ⟨h3, h4⟩ := hp
  rw [List.get_eq_getElem, List.get_eq_getElem, h4, hq] at h2
  rw [List.getElem?_eq_some_iff]
  exact ⟨by omega, (Except.ok.inj h2).symm⟩

/-- **C111** (partial, as above), from the drawing commands: text with separate lines drawn around or under it, and links, becomes paragraphs that show the lines of the page from top to bottom. -/
theorem C111_drawn_partial (c : Draw.Cfg) (hc : SaneDraw c) (depth : ℕ) (p0 : π) (pages : List (Draw.Page π)) (d : Docx.Doc Par Sp π)
    (h : Draw.convertDoc c (depth + 1) p0 pages = .ok d) (i : ℕ) (p : Draw.Page π) (s : π × List (Docx.Item Par Sp π))
    (hp : pages[i]? = some p) (hs : (sectionsOf d)[i]? = some s) (htp : DrawnText c p) :
    ShowsLines c.whole.ws (ofItems s.2) ((pageBlocks c.whole.ws (asSeen c p)).flatMap Lns.Blk.lines) := by
  unfold Draw.convertDoc at h
  split at h
  · cases h
  rename_i ps hps
  obtain ⟨q, hq1, hq2, hq3⟩ := dp_page c hc p htp
  rw [← hq3]
  exact C111_text_partial c.whole hc.whole depth p0 ps d h i q s (dp_get hps hp hq1) hs hq2

/-! ## An example -/

/-- A title with a blank at its end; a block of two lines that touch, extracted in the wrong order. -/
def dpRaw : List Raw :=
  [plText 2 ⟨20, 110, 380, 150⟩ [(⟨20, 130, 120, 150⟩, [(⟨20, 130, 120, 150⟩, 'c')]), (⟨20, 110, 380, 130⟩, [(⟨20, 110, 380, 130⟩, 'b')])],
   plText 1 ⟨20, 20, 310, 30⟩ [(⟨20, 20, 310, 30⟩, [(⟨20, 20, 300, 30⟩, 'a'), (⟨300, 20, 310, 30⟩, ' ')])]]

/-- An underline, a rule below the title, and a link. -/
def dpPage : Draw.Page ℕ := ⟨⟨0, 0, 400, 600⟩, ⟨20, 10, 381, 528⟩, 3, dpRaw, [⟨[.l ⟨21, 57 / 2⟩ ⟨100, 57 / 2⟩], false, 1, some 0, none⟩, ⟨[.l ⟨300, 40⟩ ⟨21, 40⟩], false, 2, some 0, none⟩], [⟨30, 130, 80, 150⟩], [],
  fun _ _ _ _ _ => 0, fun _ _ _ _ => [], ppFmt⟩

theorem dp_ex_text : TextPage whCfg (asSeen dwCfg dpPage) := by
  have hb : pageBlocks whCfg.ws (asSeen dwCfg dpPage) = dpRaw := by decide +kernel
  refine ⟨?_, ?_, ?_, ⟨?_, ?_, ?_⟩, ?_, ?_⟩
  · intro b hb
    simp only [asSeen, dpPage, dpRaw, List.mem_cons, List.not_mem_nil, or_false] at hb
    rcases hb with rfl | rfl <;> exact plText_ok _ _ _ (pp_ex_text _ _ (by decide +kernel) (by decide +kernel))
  · rw [hb]
    refine ⟨by decide +kernel, ?_, by decide +kernel, by decide +kernel, by unfold Above; decide +kernel⟩
    have : ∀ b ∈ dpRaw, ∃ id ∈ [1, 2], ∀ l ∈ b.lines, l.pid = some id := by decide +kernel
    intro b hb
    obtain ⟨id, _, h⟩ := this b hb
    exact ⟨id, h⟩
  · intro bs fs h
    have : noFloats (beforeJoin whCfg.pipe (asSeen dwCfg dpPage).box (asSeen dwCfg dpPage).raw) = true := by decide +kernel
    rw [h] at this
    simpa [noFloats] using this
  · have : ∀ s ∈ (asSeen dwCfg dpPage).shapes, s.bbox.x0 < s.bbox.x1 ∧ s.bbox.y0 < s.bbox.y1 ∧ Rect.round s.bbox = s.bbox := by decide +kernel
    intro s hs
    exact ly_ex_real (this s hs)
  · unfold InLine Covers Near; decide +kernel
  · intro r k h
    exfalso
    have : ∀ s ∈ (asSeen dwCfg dpPage).shapes, (match s with | .fill _ _ => false | _ => true) = true := by decide +kernel
    simpa using this _ h
  · decide +kernel
  · unfold NotTwoColumns; decide +kernel

theorem dp_ex_straight : ∀ d ∈ dpPage.drawings, Straight d ∧ PointOn ⟨0, 0, 400, 600⟩ d := by
  intro d hd
  simp only [dpPage, List.mem_cons, List.not_mem_nil, or_false] at hd
  rcases hd with rfl | rfl
  · refine ⟨⟨rfl, by norm_num, ?_, List.isChain_singleton _⟩, ⟨_, by simp; exact rfl, ⟨21, 57 / 2⟩, by simp [corners], by norm_num, by norm_num, by norm_num, by norm_num⟩⟩
    intro it hit
    rw [List.mem_singleton] at hit
    exact .inl ⟨_, _, hit, .inr rfl⟩
  · refine ⟨⟨rfl, by norm_num, ?_, List.isChain_singleton _⟩, ⟨_, by simp; exact rfl, ⟨21, 40⟩, by simp [corners], by norm_num, by norm_num, by norm_num, by norm_num⟩⟩
    intro it hit
    rw [List.mem_singleton] at hit
    exact .inl ⟨_, _, hit, .inr rfl⟩

/-- The hypotheses of C111 are met. -/
example : ∃ d, Draw.convertDoc dwCfg 1 0 [dpPage] = .ok d ∧ ∀ (i : ℕ) (s : ℕ × List (Docx.Item Par Sp ℕ)), (sectionsOf d)[i]? = some s →
    shownIn whCfg.ws (ofItems s.2) = [.chr 'a', .chr 'b', .chr 'c'] := by
  have hdt : DrawnText dwCfg dpPage := ⟨dp_ex_text, by constructor <;> norm_num [dpPage], fun d h => ⟨(dp_ex_straight d h).1, .inl (dp_ex_straight d h).2⟩, by
    intro l hl
    obtain rfl : l = _ := by simpa [dpPage] using hl
    constructor <;> norm_num, by unfold Distinct; decide +kernel⟩
  obtain ⟨q, hq1, hq2, hq3⟩ := dp_page dwCfg dw_ex_sane dpPage hdt
  obtain ⟨d, hd, hl⟩ := C111_converts_partial whCfg wh_ex_sane 0 0 [q] (by simp) (by intro p hp; rw [List.mem_singleton] at hp; subst hp; exact hq2)
  have hcd : Draw.convertDoc dwCfg 1 0 [dpPage] = .ok d := by
    unfold Draw.convertDoc
    rw [List.mapM_cons, hq1]
    exact hd
  refine ⟨d, hcd, ?_⟩
  intro i s hs
  have hi : i < 1 := by
    have := (List.getElem?_eq_some_iff.1 hs).1
    rw [hl] at this
    simpa using this
  obtain rfl : i = 0 := by omega
  obtain ⟨_, L, h1, h2, h3⟩ := C111_drawn_partial dwCfg dw_ex_sane 0 0 [dpPage] d hcd 0 dpPage s rfl hs hdt
  have hb : (pageBlocks dwCfg.whole.ws (asSeen dwCfg dpPage)).flatMap Lns.Blk.lines = dpRaw.flatMap Lns.Blk.lines := by decide +kernel
  rw [hb] at h1
  have h3' : shownIn whCfg.ws (ofItems s.2) = _ := h3
  rw [h3']
  -- the order of the lines is determined by their boxes
  have hu := List.Perm.eq_of_pairwise (le := fun l m : Lay.Ln Tok => Above l.bbox m.bbox) (l₁ := L) (l₂ := sortBy (fun l : Lay.Ln Tok => l.bbox.y0) (dpRaw.flatMap Lns.Blk.lines)) ?_ h2 ?_
    (h1.trans (sortBy_perm _ _).symm)
  · rw [hu]; decide +kernel
  · intro a b ha hb h1' h2'
    have : ∀ a ∈ dpRaw.flatMap Lns.Blk.lines, ∀ b ∈ dpRaw.flatMap Lns.Blk.lines, Above a.bbox b.bbox → Above b.bbox a.bbox → False := by unfold Above; decide +kernel
    exact (this a (h1.subset ha) b ((mem_sortBy _ _ _).1 hb) h1' h2').elim
  · unfold Above; decide +kernel

end DPlain

end Props
