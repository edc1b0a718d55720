import Verif.Props.RowPlaces
import Verif.Spec.LineBreaks
/-! # C126: line breaks of a document -/

namespace Props
open Geom Py Pipe Spec

section Breaks126
open Para

theorem lb_replicate {α : Type} (n : ℕ) (r : List (Out α)) : breaksAfter (List.replicate n .tab ++ r) = breaksAfter r := by
  induction n with
  | zero => rfl
  | succ n ih => rw [List.replicate_succ, List.cons_append, breaksAfter, ih]

theorem lb_nobrk {α : Type} (left b0 : ℚ) (stops : List ℚ) (cur : ℚ) (ls : List (Ln α)) : ∀ r, makeLines left b0 stops cur ls ≠ .brk :: r := by
  intro r h
  cases ls with
  | nil => cases h
  | cons l ls =>
    simp only [makeLines] at h
    generalize (if left < left + (l.ext.1 - b0) ∧ stops ≠ [] then addStop stops (left + (l.ext.1 - b0)) cur else 0 : ℕ) = n at h
    cases n <;> cases h

theorem lb_makeLines {α : Type} (left b0 : ℚ) (stops : List ℚ) (cur : ℚ) (ls : List (Ln α)) : breaksAfter (makeLines left b0 stops cur ls) = ls.map fun l => l.brk := by
  induction ls generalizing cur with
  | nil => rfl
  | cons l ls ih =>
    simp only [makeLines]
    rw [lb_replicate, List.map_cons]
    cases h : l.brk with
    | true =>
      simp only [if_true, List.cons_append, List.nil_append]
      rw [breaksAfter, ih]
    | false =>
      simp only [Bool.false_eq_true, if_false, List.nil_append]
      rw [breaksAfter, ih]
      intro r hr
      exact lb_nobrk _ _ _ _ _ _ hr

theorem lb_lns (h : Bool) (ls : List Pose.TL) (brk : List Bool) (hl : brk.length = ls.length) : (Pose.lns h ls brk).map (fun l => l.brk) = brk := by
  induction ls generalizing brk with
  | nil => cases brk with
    | nil => rfl
    | cons _ _ => cases hl
  | cons l ls ih =>
    cases brk with
    | nil => cases hl
    | cons x brk =>
      simp only [Pose.lns, List.map_cons, List.headD_cons, List.tail_cons]
      rw [ih brk (by simpa using hl)]

/-- The flags of lines each in a row of its own. -/
theorem lb_flags (edge delta width ratio : ℚ) (ls : List (ℚ × Bool × Bool)) (flags : List Bool) (h : lineBreaks edge delta width ratio ls = .ok flags) :
    flags.length = ls.length ∧ (∀ x ∈ flags.getLast?, x = false) ∧
      ∀ (j : ℕ) x y, ls[j]? = some x → ls[j + 1]? = some y → x.2.1 = false → flags[j]? = some (decide (ratio < (|edge - x.1| + delta) / width ∨ y.2.2 = true)) := by
  refine ⟨(C51_line_breaks edge delta width ratio ls flags h).1, (C51_line_breaks edge delta width ratio ls flags h).2.1, ?_⟩
  induction ls generalizing flags with
  | nil => intro j x y hx; cases hx
  | cons a ls ih =>
    cases ls with
    | nil => intro j x y _ hy; cases hy
    | cons b ls =>
      obtain ⟨e, same, blank⟩ := a
      obtain ⟨e', same', blank'⟩ := b
      simp only [lineBreaks] at h
      intro j x y hx hy hs
      cases hr : lineBreaks edge delta width ratio ((e', same', blank') :: ls) with
      | error er =>
        rw [hr] at h
        split_ifs at h <;> cases h
      | ok rest =>
        rw [hr] at h
        cases j with
        | zero =>
          simp only [List.getElem?_cons_zero, Option.some.injEq, zero_add, List.getElem?_cons_succ] at hx hy
          subst hx hy
          dsimp only at hs
          rw [hs] at h
          simp only [Bool.false_eq_true, if_false] at h
          split_ifs at h
          obtain rfl := Except.ok.inj h
          rfl
        | succ j =>
          have := ih rest hr j x y (by simpa using hx) (by simpa using hy) hs
          split_ifs at h <;> (obtain rfl := Except.ok.inj h; simpa using this)

theorem lb_blank (ws : Char → Bool) (items : List Text.Item) :
    Pose.blank ws items = true ↔ (∀ p, .inl p ∉ Props.content items) ∧ ∀ ch, .inr ch ∈ Props.content items → ws ch.c = true := by
  induction items with
  | nil => simp [Pose.blank, Props.content]
  | cons i is ih =>
    have e : Pose.blank ws (i :: is) = (Pose.blank ws [i] && Pose.blank ws is) := by simp [Pose.blank]
    have e2 : Props.content (i :: is) = Props.content [i] ++ Props.content is := by simp [Props.content]
    rw [e, e2, Bool.and_eq_true, ih]
    cases i with
    | image b n => 
      constructor
      · rintro ⟨h, -⟩; simp [Pose.blank] at h
      · rintro ⟨h, -⟩; exact absurd (by simp [Props.content]) (h (b, n))
    | text s =>
      have e3 : Pose.blank ws [Text.Item.text s] = s.text.all ws := by simp [Pose.blank]
      rw [e3]
      have e4 : s.text.all ws = true ↔ ∀ ch ∈ s.chars, ws ch.c = true := by simp [Text.Span.text]
      rw [e4]
      simp only [Props.content, List.flatMap_cons, List.flatMap_nil, List.append_nil, List.mem_append, List.mem_map, not_or]
      constructor
      · rintro ⟨h1, h2, h3⟩
        refine ⟨fun p => ⟨(by rintro ⟨_, _, h⟩; cases h), h2 p⟩, ?_⟩
        rintro ch (⟨c, hc, hh⟩ | h)
        · cases hh; exact h1 _ hc
        · exact h3 ch h
      · rintro ⟨h1, h2⟩
        exact ⟨fun ch hc => h2 ch (.inl ⟨ch, hc, rfl⟩), fun p => (h1 p).2, fun ch hc => h2 ch (.inr hc)⟩

theorem lb_breakLines (ws : Char → Bool) (edge : Rect → ℚ) (ls : List Pose.TL) (j : ℕ) :
    (Pose.breakLines ws edge ls)[j]? = (ls[j]?).map fun l => (edge l.1.bbox, Pose.sameNext l (ls.drop (j + 1)), Pose.blank ws l.2) := by
  induction ls generalizing j with
  | nil => rfl
  | cons l ls ih =>
    cases j with
    | zero => rfl
    | succ j => simp only [Pose.breakLines, List.getElem?_cons_succ, ih, List.drop_succ_cons]

theorem lb_totals (f : ℚ) (t : Thr) (b c : Para.Ext) (rows : List (List Para.Ext)) (lines : List Para.Ext) :
    (parse f t b c rows lines).leftTotal = max (round1 ((b.1 - c.1) * f)) 0 ∧ (parse f t b c rows lines).rightTotal = max (round1 ((c.2 - b.2) * f)) 0 := by
  unfold parse
  dsimp only
  generalize (if (if (internal f t rows).1 ≠ .unknown then (internal f t rows).1 else (external f t b c).1) = Align.none then Align.left else _) = a
  cases a <;> exact ⟨rfl, rfl⟩

/-- The line breaks of a paragraph of a column. -/
theorem lb_paragraph (c : Pose.Cfg) (hi : ∀ l, (c.whole.full.base.lay.iter l).Perm l) (box : Rect) {t : TextTriple} (h : Laid t)
    (hin : ∀ l ∈ t.2.1, box.x0 ≤ l.bbox.x0 ∧ l.bbox.x1 ≤ box.x1) (sp : Spacing.Sp) (f : Pose.Form)
    (hf : Pose.horizontalSpacing c box true t.1 (Pose.tlines t.2.1 t.2.2) = .ok f) :
    BrokenRight c.whole.ws c.ratio box.x0 box.x1 (t.1.x1 - t.1.x0) (Pose.paragraph t.1 (Pose.tlines t.2.1 t.2.2) sp f) t.2.1 := by
  obtain ⟨f1, f2⟩ := hz_spacing c hi box h f hf
  have hH := hz_hull h box.x0 box.x1 hin
  have hne : t.2.1 ≠ [] := h.line.nonempty
  have hw : 0 < t.1.x1 - t.1.x0 := by
    obtain ⟨l0, m⟩ := List.exists_mem_of_ne_nil _ hne
    have k1 := (h.line.boxes.2 l0 m).1.1.1.1
    have k2 := hH.within (hz_ext l0) (List.mem_map_of_mem m)
    have k3 : t.1.x0 ≤ l0.bbox.x0 := k2.1
    have k4 : l0.bbox.x1 ≤ t.1.x1 := k2.2
    linarith
  have flags : lineBreaks (if f.hsp.align = .right then t.1.x0 else t.1.x1) (if f.hsp.align = .right then f.hsp.leftTotal - f.hsp.left else f.hsp.rightTotal - f.hsp.right)
      |t.1.x1 - t.1.x0| c.ratio (Pose.breakLines c.whole.ws (fun r => if f.hsp.align = .right then r.x0 else r.x1) (Pose.tlines t.2.1 t.2.2)) = .ok f.breaks := by
    unfold Pose.horizontalSpacing at hf
    rw [hz_groups _ hi _ _ (hz_rows h)] at hf
    dsimp only at hf
    split at hf
    · cases hf
    · rename_i brk hb
      obtain rfl := Except.ok.inj hf
      exact hb
  rw [abs_of_pos hw] at flags
  obtain ⟨g1, g2, g3⟩ := lb_flags _ _ _ _ _ _ flags
  have hlen : (Pose.tlines t.2.1 t.2.2).length = t.2.1.length := by rw [← List.length_map Prod.fst, ps_tlines h, List.length_map]
  have hbl : (Pose.breakLines c.whole.ws (fun r => if f.hsp.align = .right then r.x0 else r.x1) (Pose.tlines t.2.1 t.2.2)).length = (Pose.tlines t.2.1 t.2.2).length := by
    generalize Pose.tlines t.2.1 t.2.2 = tl
    induction tl with
    | nil => rfl
    | cons l ls ih => simp [Pose.breakLines, ih]
  have eB : breaksAfter (Pose.paragraph t.1 (Pose.tlines t.2.1 t.2.2) sp f).content = f.breaks := by
    unfold Pose.paragraph
    dsimp only
    rw [lb_makeLines, lb_lns _ _ _ (g1.trans hbl)]
  -- a line and its box
  have line : ∀ (j : ℕ) l, t.2.1[j]? = some l → ∃ x : Pose.TL, (Pose.tlines t.2.1 t.2.2)[j]? = some x ∧ x.1.bbox = l.bbox ∧ (Pose.blank c.whole.ws x.2 = true ↔ BlankLine c.whole.ws l) := by
    intro j l hl
    have e1 := congrArg (fun z => z[j]?) (ps_tlines h)
    have e2 := congrArg (fun z => z[j]?) h.same
    simp only [List.getElem?_map, hl, Option.map_some] at e1 e2
    obtain ⟨x, hx, hx'⟩ := Option.map_eq_some_iff.1 e1
    obtain ⟨u, hu, hu'⟩ := Option.map_eq_some_iff.1 e2
    refine ⟨x, hx, by rw [hx'], ?_⟩
    have : x.2 = u.items := by
      unfold Pose.tlines at hx
      rw [List.getElem?_zipWith, hl, hu] at hx
      simp only [Option.some.injEq] at hx
      rw [← hx]
    rw [this, lb_blank, hu', ps_entries]
    rfl
  have flag : ∀ (j : ℕ) l n, t.2.1[j]? = some l → t.2.1[j + 1]? = some n →
      ∃ x y : Pose.TL, x.1.bbox = l.bbox ∧ (Pose.blank c.whole.ws y.2 = true ↔ BlankLine c.whole.ws n) ∧
        f.breaks[j]? = some (decide (c.ratio < (|(if f.hsp.align = .right then t.1.x0 else t.1.x1) - (if f.hsp.align = .right then l.bbox.x0 else l.bbox.x1)| +
          (if f.hsp.align = .right then f.hsp.leftTotal - f.hsp.left else f.hsp.rightTotal - f.hsp.right)) / (t.1.x1 - t.1.x0) ∨ Pose.blank c.whole.ws y.2 = true)) := by
    intro j l n hl hn
    obtain ⟨x, hx, hx1, hx2⟩ := line j l hl
    obtain ⟨y, hy, hy1, hy2⟩ := line (j + 1) n hn
    have k := g3 j _ _ ((lb_breakLines _ _ _ j).trans (by rw [hx]; rfl)) ((lb_breakLines _ _ _ (j + 1)).trans (by rw [hy]; rfl)) (by
      dsimp only
      obtain ⟨hj, hyj⟩ := List.getElem?_eq_some_iff.1 hy
      obtain ⟨hi', hxi⟩ := List.getElem?_eq_some_iff.1 hx
      rw [List.drop_eq_getElem_cons hj]
      have := (List.pairwise_iff_getElem.1 (hz_rows h)) j (j + 1) hi' hj (by omega)
      rw [hxi] at this
      exact this)
    refine ⟨x, y, hx1, hy2, ?_⟩
    rw [k]
    simp only [hx1]
  have free : ∀ l ∈ t.2.1, |(|(if f.hsp.align = .right then t.1.x0 else t.1.x1) - (if f.hsp.align = .right then l.bbox.x0 else l.bbox.x1)| +
          (if f.hsp.align = .right then f.hsp.leftTotal - f.hsp.left else f.hsp.rightTotal - f.hsp.right)) -
          freeSpace box.x0 box.x1 (Pose.paragraph t.1 (Pose.tlines t.2.1 t.2.2) sp f) l| ≤ 1 / 20 := by
    intro l hl
    have k2 := hH.within (hz_ext l) (List.mem_map_of_mem hl)
    have k3 : t.1.x0 ≤ l.bbox.x0 := k2.1
    have k4 : l.bbox.x1 ≤ t.1.x1 := k2.2
    have tl := hz_left_total hH
    have tr := hz_right_total hH
    have el : f.hsp.leftTotal = max (round1 ((t.1.x0 - box.x0) * 1)) 0 := by rw [f2]; exact (lb_totals _ _ _ _ _ _).1
    have er : f.hsp.rightTotal = max (round1 ((box.x1 - t.1.x1) * 1)) 0 := by rw [f2]; exact (lb_totals _ _ _ _ _ _).2
    dsimp only at tl tr
    rw [← el] at tl
    rw [← er] at tr
    unfold freeSpace Pose.paragraph
    dsimp only [Para.indents]
    by_cases ha : f.hsp.align = .right
    · rw [ha]
      simp only [if_true]
      rw [abs_of_nonpos (show t.1.x0 - l.bbox.x0 ≤ 0 by linarith)]
      rw [show -(t.1.x0 - l.bbox.x0) + (f.hsp.leftTotal - f.hsp.left) - (l.bbox.x0 - (box.x0 + (f.hsp.left - f.hsp.firstLine + f.hsp.firstLine))) = f.hsp.leftTotal - (t.1.x0 - box.x0) by ring]
      exact tl
    · simp only [if_neg ha]
      rw [abs_of_nonneg (show 0 ≤ t.1.x1 - l.bbox.x1 by linarith)]
      generalize f.hsp.align = al at ha
      cases al <;> first
        | exact absurd rfl ha
        | (rw [show t.1.x1 - l.bbox.x1 + (f.hsp.rightTotal - f.hsp.right) - (box.x1 - f.hsp.right - l.bbox.x1) = f.hsp.rightTotal - (box.x1 - t.1.x1) by ring]
           exact tr)
  constructor
  · rw [eB, g1, hbl, hlen]
  · rw [eB]; exact g2
  · intro j n hn hb
    obtain ⟨hj, -⟩ := List.getElem?_eq_some_iff.1 hn
    obtain ⟨x, y, -, k1, k2⟩ := flag j _ n (List.getElem?_eq_getElem (by omega)) hn
    rw [eB, k2, k1.2 hb]
    simp
  · intro j l n hl hn hfr
    obtain ⟨x, y, -, k1, k2⟩ := flag j l n hl hn
    have := abs_le.1 (free l (List.mem_of_getElem? hl))
    rw [eB, k2, Option.some.injEq, decide_eq_true_eq]
    left
    rw [lt_div_iff₀ hw]
    linarith [this.1]
  · intro j l n hl hn hbr
    obtain ⟨x, y, -, k1, k2⟩ := flag j l n hl hn
    have := abs_le.1 (free l (List.mem_of_getElem? hl))
    rw [eB, k2, Option.some.injEq, decide_eq_true_eq] at hbr
    rcases hbr with hbr | hbr
    · right
      rw [lt_div_iff₀ hw] at hbr
      linarith [this.2]
    · exact .inl (k1.1 hbr)

/-- **C126** (partial: pages of text in one column, one line in each row, as C121 and C122). Each paragraph of the section of such a page shows a group of lines, with a line break after a line exactly
if another line follows and that is blank, or the free space beside the line exceeds the given part of the paragraph's width. -/
theorem C126_line_breaks_partial (c : Pose.Cfg) (hc : Sane c.whole) (f : Fmt) (depth : ℕ) (s0 : Pose.Sect) (pages : List Pose.Page) (d : Docx.Doc Pose.Par Sp Pose.Sect)
    (h : Pose.convert c (depth + 1) s0 pages = .ok d) (i : ℕ) (p : Pose.Page) (s : Pose.Sect × List (Docx.Item Pose.Par Sp Pose.Sect)) (hp : pages[i]? = some p)
    (hs : (sectionsOf d)[i]? = some s) (htp : TextPage c.whole (withFormats c f p).whole) :
    ∃ (qs : List Pose.Par) (L : List (List (Lay.Ln Tok))), ofItems s.2 = qs.map Tree.text ∧ List.Forall₂ ShowsRows qs L ∧
      L.flatten.Perm (linesOn c.whole.ws (withFormats c f p)) ∧ L.flatten.Pairwise (fun l m => Above l.bbox m.bbox) ∧
      List.Forall₂ (fun (q : Pose.Par) (ls : List (Lay.Ln Tok)) => ∃ b, IsHull (ls.map fun l => l.bbox) b ∧
        BrokenRight c.whole.ws c.ratio s.1.margin.left (s.1.width - s.1.margin.right) (b.x1 - b.x0) q ls) qs L := by
  obtain ⟨dd, h1, h2, h3⟩ := ps_section c (depth + 1) s0 pages d h i p s hp hs
  obtain ⟨bs, k1, k2, k3, k5, xs, k4, rfl⟩ := ps_page c hc f depth p htp dd h1
  obtain ⟨qs, e1, e2, e3⟩ := ps_column c _ bs k1 xs k4
  have ex0 : s.1.margin.left = (p.workOf c (cleaned c p)).x0 := by
    rw [h2]
    show (p.margin c (cleaned c p)).left = 0 + (p.margin c (cleaned c p)).left
    rw [zero_add]
  have ex1 : s.1.width - s.1.margin.right = (p.workOf c (cleaned c p)).x1 := by
    rw [h2]
    rfl
  refine ⟨qs, bs.map fun t => t.2.1, ?_, ?_, ?_, ?_, ?_⟩
  · rw [h3]
    dsimp only
    rw [e1, ps_leaves]
  · rw [List.forall₂_map_right_iff]
    exact e2.imp fun _ _ h => h.1
  · rw [← List.flatMap_def]; exact k2
  · rw [← List.flatMap_def]; exact k3
  · rw [List.forall₂_map_right_iff, ex0, ex1]
    clear h3 h2 h1 e3 e1 k4 k3 k2
    induction e2 with
    | nil => exact .nil
    | @cons q t qs bs hq _ ih =>
      obtain ⟨-, g, sp, g1, rfl⟩ := hq
      refine .cons ⟨t.1, (k1 t (by simp)).line.hull, ?_⟩ (ih (fun t h => k1 t (by simp [h])) (fun l h => k5 l (by rw [List.flatMap_cons]; exact List.mem_append_right _ h)))
      exact lb_paragraph c hc.order _ (k1 t (by simp)) (fun l h => k5 l (by rw [List.flatMap_cons]; exact List.mem_append_left _ h)) sp g g1

/-- A page with one paragraph: lines with the given left and right edges and texts. -/
def lbRaw (xs : List (ℚ × ℚ × Char)) : Raw :=
  plText 1 ⟨(xs.map Prod.fst).foldl min 1000, 100, (xs.map fun x => x.2.1).foldl max 0, 90 + 20 * xs.length⟩
    (xs.zipIdx.map fun x => (⟨x.1.1, 100 + 20 * x.2, x.1.2.1, 110 + 20 * x.2⟩, [(⟨x.1.1, 100 + 20 * x.2, x.1.2.1, 110 + 20 * x.2⟩, x.1.2.2)]))
def lbPage (xs : List (ℚ × ℚ × Char)) : Pose.Page := ⟨⟨0, 0, 400, 600⟩, [lbRaw xs], [], fun _ => "", fun _ _ _ _ _ => 0⟩

/-- The line breaks of the paragraphs of the document. -/
def lbBreaks (p : Pose.Page) : Option (List (List (List Bool))) :=
  (Pose.convert poCfg 3 ⟨0, 0, ⟨0, 0, 0, 0⟩⟩ [p]).toOption.map fun d => (sectionsOf d).map fun s => (leaves (ofItems s.2)).map fun q => breaksAfter q.content

set_option synthInstance.maxSize 1024 in
/-- Non-vacuity: the text page of C120 meets the hypotheses (its paragraphs have one and two lines). -/
example : Sane poCfg.whole ∧ TextPage poCfg.whole (withFormats poCfg ppFmt poText).whole ∧ lbBreaks poText = some [[[false], [false, false]]] := by
  refine ⟨wh_ex_sane, po_ex_text, by decide +kernel⟩

/-- A paragraph of eight rows in a text area up to 328, one row blank, one short. -/
example : lbBreaks (lbPage [(50, 328, 'a'), (50, 320, 'b'), (50, 327, 'c'), (50, 325, ' '), (50, 328, 'd'), (50, 200, 'e'), (50, 328, 'f'), (50, 328, 'g')]) =
    some [[[false, false, true, false, false, true, false, false]]] := by decide +kernel

end Breaks126
end Props
