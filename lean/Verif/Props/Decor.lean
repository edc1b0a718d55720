import Verif.Props.Format
import Verif.Props.Run
/-! # C116: exactly the text over a line is underlined or struck through, exactly the text on a coloured area is highlighted -/

namespace Props
open Geom Spec Py Text Styl
open Run (RPr)

/-- All decorations. -/
def markReader : Reader := ⟨Mark, fun a b => (markAt a b).toList, marksOf, fun a b => by unfold marksOf; rw [List.filterMap_append]⟩

theorem de_imp : markReader.imp = IsMark := by
  funext a b
  unfold Reader.imp IsMark markReader
  cases h : markAt a b <;> simp [h]

theorem de_over (areas : List Area) (b : Rect) (c : Chr) : markReader.over areas b c = marksOver areas b c := by
  unfold Reader.over marksOver markReader
  generalize areas.filter _ = l
  induction l with
  | nil => rfl
  | cons a l ih =>
    rw [List.flatMap_cons, ih, List.filterMap_cons]
    cases h : markAt a b <;> simp [h]

/-- A part of the text three quarters of whose height lie on an area is mainly on it. -/
theorem de_main (b r : Rect) (hb : Proper b) (hr : Proper r) (hx : r.x0 ≤ b.x0 ∧ b.x1 ≤ r.x1)
    (h : 3 / 4 * (b.y1 - b.y0) ≤ min b.y1 r.y1 - max b.y0 r.y0) : (El.mainBbox b r factorMajor).isSome = true := by
  have hy : max b.y0 r.y0 < min b.y1 r.y1 := by linarith [hb.2]
  have e : b.inter r = ⟨b.x0, max b.y0 r.y0, b.x1, min b.y1 r.y1⟩ := by
    unfold Rect.inter
    rw [if_neg (by rintro (hh | hh); exacts [not_empty_of_proper hb hh, not_empty_of_proper hr hh])]
    dsimp only
    rw [max_eq_left hx.1, min_eq_left hx.2, if_neg (by push Not; exact ⟨le_of_lt hb.1, le_of_lt hy⟩)]
  have hp : Proper (b.inter r) := by rw [e]; exact ⟨hb.1, hy⟩
  have ha : 0 < b.area := mul_pos (sub_pos.2 hb.1) (sub_pos.2 hb.2)
  have hra : 0 < r.area := mul_pos (sub_pos.2 hr.1) (sub_pos.2 hr.2)
  have hia : (b.inter r).area = (b.x1 - b.x0) * (min b.y1 r.y1 - max b.y0 r.y0) := by rw [e]; rfl
  have hi : 0 < (b.inter r).area := mul_pos (sub_pos.2 hp.1) (sub_pos.2 hp.2)
  unfold El.mainBbox factorMajor
  dsimp only
  rw [if_neg (by rw [truthy_of_proper _ hp]; simp), if_pos (ne_of_gt hi), if_pos]
  · rfl
  · rw [le_div_iff₀ (lt_min ha hra)]
    calc 3 / 4 * min b.area r.area ≤ 3 / 4 * b.area := by linarith [min_le_left b.area r.area]
      _ = (b.x1 - b.x0) * (3 / 4 * (b.y1 - b.y0)) := by unfold Rect.area Rect.width Rect.height; ring
      _ ≤ (b.x1 - b.x0) * (min b.y1 r.y1 - max b.y0 r.y0) := mul_le_mul_of_nonneg_left h (le_of_lt (sub_pos.2 hb.1))
      _ = _ := hia.symm

/-- The covered text is decorated as the area says. -/
theorem de_reads (a : Area) (s : Rect) (hs : s.y0 < s.y1) (ha : Proper a.box) (hd : Definite a s) : markReader.Reads a s := by
  intro r hr b y0 y1 x0 x1 hx
  subst hr
  rw [de_imp] at hx
  change marksOf _ = (markAt (areaOf r) s).toList
  unfold parseFormat
  by_cases h1 : r.type = .border ∨ r.type = .shading
  · rw [if_pos h1]
    have h2 : r.type ≠ .hyperlink := by rintro e; rw [e] at h1; simp at h1
    have : markAt (areaOf r) s = none := by unfold markAt areaOf; simp [h2, h1]
    rw [this]; rfl
  · rw [if_neg h1]
    by_cases h2 : r.type = .hyperlink
    · rw [if_pos h2]
      have : markAt (areaOf r) s = some (.link r.uri) := by unfold markAt areaOf; simp [h2]
      rw [this]; rfl
    · rw [if_neg h2]
      have hl : (areaOf r).link = none := by unfold areaOf; rw [if_neg h2]
      have ht : (areaOf r).table = false := by unfold areaOf; simpa using h1
      have hm : markAt (areaOf r) s = if Thick (areaOf r) s then some (.highlight r.color) else if riseOf (areaOf r) s ≤ (s.y1 - s.y0) / 4 then some (.underline r.color)
          else if 7 / 20 * (s.y1 - s.y0) < riseOf (areaOf r) s ∧ riseOf (areaOf r) s < 3 / 4 * (s.y1 - s.y0) then some (.strike r.color) else none := by
        unfold markAt
        rw [hl, ht]
        rfl
      dsimp only [El.ext]
      simp only [Bool.not_true, Bool.false_eq_true, if_false, y0, y1]
      have e1 : (1 / 2 * (s.y1 - s.y0) ≤ r.bbox.y1 - r.bbox.y0) ↔ Thick (areaOf r) s := by
        unfold Thick
        change _ ↔ (s.y1 - s.y0) / 2 ≤ r.bbox.y1 - r.bbox.y0
        rw [show 1 / 2 * (s.y1 - s.y0) = (s.y1 - s.y0) / 2 by ring]
      have e2 : |s.y1 - r.bbox.y0| = riseOf (areaOf r) s := rfl
      unfold decideType
      simp only [e1, e2]
      rw [hm]
      by_cases k1 : Thick (areaOf r) s
      · obtain ⟨d1, d2⟩ := hd hl ht k1
        have him : IsMark (areaOf r) s := by unfold IsMark; rw [hm, if_pos k1]; simp
        have hmain := de_main b r.bbox ⟨hx him, by rw [y0, y1]; exact hs⟩ ha ⟨x0, x1⟩ (by rw [y0, y1]; exact d2)
        have hw : r.color ≠ white := d1
        simp only [if_pos k1, hmain, hw, ne_eq, not_false_eq_true, and_self, if_true]
        rfl
      · simp only [if_neg k1]
        by_cases k2 : riseOf (areaOf r) s ≤ (s.y1 - s.y0) / 4
        · rw [if_pos k2, if_pos (show riseOf (areaOf r) s ≤ 1 / 4 * (s.y1 - s.y0) by linarith)]
          rfl
        · rw [if_neg k2, if_neg (show ¬ riseOf (areaOf r) s ≤ 1 / 4 * (s.y1 - s.y0) by intro hh; apply k2; linarith)]
          have e3 : (35 / 100 * (s.y1 - s.y0) < riseOf (areaOf r) s ∧ riseOf (areaOf r) s < 3 / 4 * (s.y1 - s.y0)) ↔
              (7 / 20 * (s.y1 - s.y0) < riseOf (areaOf r) s ∧ riseOf (areaOf r) s < 3 / 4 * (s.y1 - s.y0)) := by norm_num
          simp only [e3]
          split_ifs <;> first | rfl | simp_all

/-- **C116** (partial): text is decorated exactly where a line or area is drawn over it. Every character of the page gets, in order, the decorations of exactly the areas it lies under: underlined
by lines near the bottom of the text, struck through by lines through its middle, highlighted by coloured areas, linked by link areas; each in the colour of the line or area. Nothing else
changes. `rects` are the drawn shapes in the order they are looked at, none of them decided before (except those that are parts of tables). *Missing*: pages on which the shapes disturb each
other (`Undisturbed`), white or half-covering areas (`Definite`), and lines drawn over two blocks (`C29_refuted_two_blocks`: only the first is decorated). -/
theorem C116_decorations_partial (rects : List Shape) (bs : List TBlock) (h : Fine IsMark (rects.map areaOf) bs)
    (new : ∀ r ∈ rects, r.type = .undefined ∨ r.type = .hyperlink ∨ r.type = .border ∨ r.type = .shading)
    (definite : AllDefinite (rects.map areaOf) bs) (one : OneBlock (rects.map areaOf) bs) :
    (blocksFormat rects bs).2.map (fun b => b.lines.map lineMarks) = bs.map fun b => b.lines.map (lineDecorated (rects.map areaOf)) := by
  have hA := h.1
  have hov : ∀ b ∈ bs, ∀ a ∈ rects.map areaOf, markReader.Touches a b → Overlap b.bbox a.box := by
    rintro b hb a ha ⟨l, hl, s, hs, _, c, hc, hu⟩
    obtain ⟨_, bl, _⟩ := h.2 b hb
    obtain ⟨cv, lf⟩ := bl l hl
    have k := fo_under_meets (R := markReader) _ a l (by rw [de_imp]; exact lf) s hs c hc hu
    obtain ⟨c1, c2, c3, c4⟩ := cv
    refine ⟨?_, ?_, ?_, ?_⟩ <;> linarith [k.1, k.2.1, k.2.2.1, k.2.2.2]
  have htab : ∀ a : Area, a.table = true → a.link = none → ∀ b, ¬ markReader.Touches a b := by
    rintro a h1 h2 b ⟨_, _, s, _, hi, _⟩
    rw [de_imp] at hi
    exact hi (by unfold markAt; rw [h2]; simp [h1])
  have key := fo_blocks (R := markReader) (rects.map areaOf) rects rfl bs (by rw [de_imp]; exact h)
    (fun b hb l hl s hs a ha hm => de_reads a s.bbox (by
      have := ((h.2 b hb).2.1 l hl).2.2.2 _ hs
      exact this.2.1.1.1.2) (hA a ha).1 (definite b hb l hl s hs a ha hm))
    (by
      refine List.Pairwise.imp_of_mem ?_ one
      intro b b' hb hb' hone a ha hl ht
      cases htb : a.table with
      | true => exact absurd ht (htab a htb hl b')
      | false =>
        have h1 := hone a ha hl htb
        have h2 := hov b' hb' a ha ht
        by_contra hi
        have hi : b.bbox.intersects a.box = true := by simpa using hi
        rw [intersects_iff _ _ (h.2 b hb).1.1 (hA a ha).1] at hi
        refine h1 ⟨⟨?_, ?_, ?_, ?_⟩, h2⟩
        · exact lt_of_le_of_lt (le_max_left _ _) (lt_of_lt_of_le hi.1 (min_le_right _ _))
        · exact lt_of_le_of_lt (le_max_right _ _) (lt_of_lt_of_le hi.1 (min_le_left _ _))
        · exact lt_of_le_of_lt (le_max_left _ _) (lt_of_lt_of_le hi.2 (min_le_right _ _))
        · exact lt_of_le_of_lt (le_max_right _ _) (lt_of_lt_of_le hi.2 (min_le_left _ _)))
    (by
      intro r hr h1 h2 b _ ht
      have ht' : r.type = .border ∨ r.type = .shading := by
        rcases new r hr with k | k | k
        · exact absurd k h2
        · exact absurd k h1
        · exact k
      exact htab (areaOf r) (by unfold areaOf; simpa using ht') (by unfold areaOf; rw [if_neg h1]) b ht)
  have e1 : markReader.line = lineMarks := rfl
  rw [e1] at key
  refine key.trans ?_
  refine List.map_congr_left fun b _ => List.map_congr_left fun l _ => ?_
  unfold Reader.want lineDecorated
  refine List.flatMap_congr fun i _ => ?_
  cases i with
  | image b n => rfl
  | text s =>
    refine List.map_congr_left fun c _ => ?_
    rw [de_over]
    rfl

theorem de_colours (st : List Style) (f : Mark → Option ℤ) (t : RType)
    (h : ∀ x : Style, (marksOf [x]).filterMap f = if x.type = t then [x.color] else []) :
    (marksOf st).filterMap f = (st.filter fun x => decide (x.type = t)).map Style.color := by
  induction st with
  | nil => rfl
  | cons x st ih =>
    rw [show marksOf (x :: st) = marksOf [x] ++ marksOf st from markReader.app [x] st, List.filterMap_append, h x, ih]
    by_cases hx : x.type = t <;> simp [hx]

theorem de_underlines (s : Span) : underlinesIn (marksOf s.style) = colours .underline s :=
  de_colours s.style _ .underline (by intro x; cases h : x.type <;> simp [marksOf, h])

theorem de_strikes (s : Span) : strikesIn (marksOf s.style) = colours .strike s :=
  de_colours s.style _ .strike (by intro x; cases h : x.type <;> simp [marksOf, h])

theorem de_highlights (s : Span) : highlightsIn (marksOf s.style) = colours .highlight s :=
  de_colours s.style _ .highlight (by intro x; cases h : x.type <;> simp [marksOf, h])

/-- A property of spans that splitting keeps holds after styling. -/
theorem de_keep_items (Q : Span → Prop) (r : Shape) (C : Shape → Prop) (hC : C r) (hCt : ∀ r t, C r → C { r with type := t })
    (hQ : ∀ (s : Span) (r : Shape) (h : Bool), C r → Q s → ∀ P ∈ (s.split r h).1, Q P) (h : Bool) (items : List Item) (hi : ∀ s, Item.text s ∈ items → Q s) :
    ∀ s, Item.text s ∈ (splitItems r h items).1 → Q s := by
  induction items generalizing r with
  | nil => intro s hs; simp [splitItems] at hs
  | cons i items ih =>
    cases i with
    | image b n =>
      intro s hs
      simp only [splitItems, List.mem_cons, reduceCtorEq, false_or] at hs
      exact ih r hC (fun s hs => hi s (by simp [hs])) s hs
    | text s0 =>
      intro s hs
      simp only [splitItems, List.mem_append, List.mem_map, Item.text.injEq, exists_eq_right] at hs
      rcases hs with hs | hs
      · exact hQ s0 r h hC (hi s0 (by simp)) s hs
      · exact ih _ (hCt _ _ hC) (fun s hs => hi s (by simp [hs])) s hs

theorem de_keep (Q : Span → Prop) (C : Shape → Prop) (hCt : ∀ r t, C r → C { r with type := t })
    (hQ : ∀ (s : Span) (r : Shape) (h : Bool), C r → Q s → ∀ P ∈ (s.split r h).1, Q P) (rects : List Shape) (hC : ∀ r ∈ rects, C r) (bs : List TBlock)
    (hb : ∀ b ∈ bs, ∀ l ∈ b.lines, ∀ s, Item.text s ∈ l.items → Q s) :
    ∀ b ∈ (blocksFormat rects bs).2, ∀ l ∈ b.lines, ∀ s, Item.text s ∈ l.items → Q s := by
  have lines : ∀ (r : Shape) (ls : List TLine), C r → (∀ l ∈ ls, ∀ s, Item.text s ∈ l.items → Q s) →
      C (linesFormat r ls).2 ∧ ∀ l ∈ (linesFormat r ls).1, ∀ s, Item.text s ∈ l.items → Q s := by
    intro r ls
    induction ls generalizing r with
    | nil => intro hr _; exact ⟨hr, by simp [linesFormat]⟩
    | cons l ls ih =>
      intro hr hl
      unfold linesFormat
      split
      · split
        · exact ⟨hr, hl⟩
        · obtain ⟨h1, h2⟩ := ih r hr (fun m hm => hl m (by simp [hm]))
          refine ⟨h1, fun m hm => ?_⟩
          rcases List.mem_cons.1 hm with rfl | hm
          · exact hl m (by simp)
          · exact h2 m hm
      · dsimp only
        obtain ⟨h1, h2⟩ := ih { r with type := (applyShape r l.horizontal l.items).2 } (hCt _ _ hr) (fun m hm => hl m (by simp [hm]))
        refine ⟨h1, fun m hm => ?_⟩
        rcases List.mem_cons.1 hm with rfl | hm
        · intro s hs
          unfold resetSpans applyShape at hs
          exact de_keep_items Q r C hr hCt hQ l.horizontal l.items (hl l (by simp)) s (List.mem_filter.1 hs).1
        · exact h2 m hm
  have block : ∀ (rs : List Shape) (b : TBlock), (∀ r ∈ rs, C r) → (∀ l ∈ b.lines, ∀ s, Item.text s ∈ l.items → Q s) →
      (∀ r ∈ (blockFormat rs b).1, C r) ∧ ∀ l ∈ (blockFormat rs b).2.lines, ∀ s, Item.text s ∈ l.items → Q s := by
    intro rs
    induction rs with
    | nil => intro b _ hl; exact ⟨by simp [blockFormat], hl⟩
    | cons r rs ih =>
      intro b hr hl
      unfold blockFormat
      split
      · obtain ⟨h1, h2⟩ := ih b (fun x hx => hr x (by simp [hx])) hl
        refine ⟨fun x hx => ?_, h2⟩
        rcases List.mem_cons.1 hx with rfl | hx
        · exact hr x (by simp)
        · exact h1 x hx
      · dsimp only
        obtain ⟨k1, k2⟩ := lines r b.lines (hr r (by simp)) hl
        obtain ⟨h1, h2⟩ := ih ⟨b.bbox, (linesFormat r b.lines).1⟩ (fun x hx => hr x (by simp [hx])) k2
        refine ⟨fun x hx => ?_, h2⟩
        rcases List.mem_cons.1 hx with rfl | hx
        · exact k1
        · exact h1 x hx
  induction bs generalizing rects with
  | nil => simp [blocksFormat]
  | cons b bs ih =>
    obtain ⟨k1, k2⟩ := block rects b hC (hb b (by simp))
    have ih := ih (blockFormat rects b).1 k1 (fun c hc => hb c (by simp [hc]))
    intro c hc
    unfold blocksFormat at hc
    rcases List.mem_cons.1 hc with rfl | hc
    · exact k2
    · exact ih c hc

/-- Splitting with a shape of a proper colour keeps the colours proper. -/
theorem de_colours_keep (s : Span) (r : Shape) (h : Bool) (hr : IsColour r.color) (hs : Colours s) : ∀ P ∈ (s.split r h).1, Colours P := by
  have hf : ∀ b, ∀ st ∈ (parseFormat b r h).2.toList, IsColour st.color := by
    intro b st hst
    unfold parseFormat at hst
    split at hst
    · simp at hst
    · split at hst
      · simp only [Option.toList_some, List.mem_singleton] at hst; subst hst; exact hr
      · dsimp only at hst
        split at hst
        · simp at hst
        · simp only [Option.toList_some, List.mem_singleton] at hst; subst hst; exact hr
  intro P hP
  unfold Span.split at hP
  split at hP
  · obtain rfl : P = s := by simpa using hP
    exact hs
  · dsimp only at hP
    rcases List.mem_append.1 hP with hP | hP
    · rcases List.mem_append.1 hP with hP | hP
      · split at hP
        · obtain rfl := List.mem_singleton.1 hP; exact hs
        · simp at hP
      · split at hP
        · obtain rfl := List.mem_singleton.1 hP
          refine ⟨hs.1, ?_⟩
          intro st hst
          rcases List.mem_append.1 hst with hst | hst
          · exact hs.2 st hst
          · exact hf _ st hst
        · simp at hP
    · split at hP
      · obtain rfl := List.mem_singleton.1 hP; exact hs
      · simp at hP

/-- **C116** (partial), in the docx: the run in which a character of the page is written is underlined exactly if a line is drawn at the bottom of the character, in the colour of such a line;
struck through exactly if a line is drawn through its middle; and has a background exactly if a coloured area is drawn behind it, of the colour of such an area. *Missing*: as above. -/
theorem C116_rendered_partial (rects : List Shape) (bs : List TBlock) (h : Fine IsMark (rects.map areaOf) bs)
    (new : ∀ r ∈ rects, r.type = .undefined ∨ r.type = .hyperlink ∨ r.type = .border ∨ r.type = .shading)
    (definite : AllDefinite (rects.map areaOf) bs) (one : OneBlock (rects.map areaOf) bs)
    (fresh : ∀ b ∈ bs, ∀ l ∈ b.lines, ∀ s, Item.text s ∈ l.items → s.style = [] ∧ IsColour s.color) (col : ∀ r ∈ rects, IsColour r.color) :
    ∀ b ∈ (blocksFormat rects bs).2, ∀ l ∈ b.lines, ∀ s, Item.text s ∈ l.items → ∀ c ∈ s.chars, ∀ rPr, Run.format s = .ok rPr →
      ∃ b0 ∈ bs, ∃ l0 ∈ b0.lines, ∃ s0, Item.text s0 ∈ l0.items ∧ c ∈ s0.chars ∧ lookOf s = lookOf s0 ∧
        (((∃ x ∈ rPr, x.kind = .u) ↔ underlinesIn (marksOver (rects.map areaOf) s0.bbox c) ≠ []) ∧
          ∀ x ∈ rPr, x.kind = .u → ∃ k ∈ underlinesIn (marksOver (rects.map areaOf) s0.bbox c), Underlines s0.color.toNat k.toNat x) ∧
        (if strikesIn (marksOver (rects.map areaOf) s0.bbox c) = [] then Without rPr .strike else The rPr (.strike true)) ∧
        (((∃ x ∈ rPr, isBackground x = true) ↔ highlightsIn (marksOver (rects.map areaOf) s0.bbox c) ≠ []) ∧
          ∀ x ∈ rPr, isBackground x = true → ∃ k ∈ highlightsIn (marksOver (rects.map areaOf) s0.bbox c), Background k.toNat x) := by
  intro b hb l hl s hs c hc rPr hf
  have e := C116_decorations_partial rects bs h new definite one
  have m1 : lineMarks l ∈ b.lines.map lineMarks := List.mem_map_of_mem hl
  have m2 : b.lines.map lineMarks ∈ (blocksFormat rects bs).2.map fun b => b.lines.map lineMarks := List.mem_map.2 ⟨b, hb, rfl⟩
  rw [e] at m2
  obtain ⟨b0, hb0, eb⟩ := List.mem_map.1 m2
  rw [← eb] at m1
  obtain ⟨l0, hl0, el⟩ := List.mem_map.1 m1
  have m3 : Sum.inr (c, lookOf s, marksOf s.style) ∈ lineMarks l := List.mem_flatMap.2 ⟨.text s, hs, List.mem_map.2 ⟨c, hc, rfl⟩⟩
  rw [← el] at m3
  obtain ⟨i, hi, hv⟩ := List.mem_flatMap.1 m3
  cases i with
  | image b n => simp at hv
  | text s0 =>
    obtain ⟨c0, hc0, ev⟩ := List.mem_map.1 hv
    simp only [Sum.inr.injEq, Prod.mk.injEq] at ev
    obtain ⟨rfl, e2, e3⟩ := ev
    have e4 : marksOf s.style = marksOver (rects.map areaOf) s0.bbox c0 := by
      rw [← e3, (fresh b0 hb0 l0 hl0 s0 hi).1]; simp [marksOf]
    have hcol : Colours s := de_keep Colours (fun r => IsColour r.color) (fun r t hr => hr) (fun s r h hr hs => de_colours_keep s r h hr hs) rects col bs
      (fun b hb l hl s hs => ⟨(fresh b hb l hl s hs).2, by rw [(fresh b hb l hl s hs).1]; simp⟩) b hb l hl s hs
    have ec : s.color = s0.color := (congrArg Look.color e2).symm
    obtain ⟨⟨d1, d2, _⟩, d3, d4, d5, _⟩ := C93_decoration s hcol rPr hf
    refine ⟨b0, hb0, l0, hl0, s0, hi, hc0, e2.symm, ?_⟩
    rw [← e4, de_underlines, de_strikes, de_highlights, ← ec]
    exact ⟨⟨d1, d2⟩, d3, d4, d5⟩

/-! ## A line with an underlined, a struck, a highlighted and a linked word -/

/-- "to A or B.": a red line under "to", a line through "A", "or" on yellow ground, "B" linked; a table's line passes through as well. -/
def deRects : List Shape := styleShapes
  [⟨⟨0, 111, 20, 112⟩, 0xFF0000, .undefined, ""⟩, ⟨⟨30, 106, 40, 107⟩, 0, .undefined, ""⟩, ⟨⟨44, 102, 48, 103⟩, 0, .border, ""⟩]
  [⟨⟨50, 99, 70, 113⟩, 0xFFFF00, .undefined, ""⟩] [⟨⟨79, 99, 91, 113⟩, 0, .hyperlink, "b"⟩]

/-- The line, and a second block below it. -/
def deBlocks : List TBlock := foBlocks ++ [⟨⟨0, 130, 20, 142⟩, [⟨⟨0, 130, 20, 142⟩, true, [.text ⟨[⟨'x', ⟨0, 130, 10, 142⟩⟩], ⟨0, 130, 20, 142⟩, [], 0, "", 12, 0⟩]⟩]⟩]

theorem de_ex_line (a b : Rect) (s : Span) (ha : Proper a ∧ a.round = a) (hb : Proper b ∧ b.round = b) (hp : PlainSpan s) (areas : List Area)
    (hu : Undisturbed IsMark areas s) (h1 : Covers a b) (h2 : Covers b s.bbox) :
    BlockFine IsMark areas ⟨a, [⟨b, true, [.text s]⟩]⟩ := by
  refine ⟨fo_real ha, ?_, List.pairwise_singleton _ _⟩
  intro l hl
  obtain rfl : l = _ := by simpa using hl
  refine ⟨h1, rfl, fo_real hb, ?_⟩
  intro i hi
  obtain rfl : i = _ := by simpa using hi
  exact ⟨h2, hp, hu⟩

theorem de_ex_fine : Fine IsMark (deRects.map areaOf) deBlocks := by
  refine ⟨?_, ?_⟩
  · intro a ha
    refine fo_real ?_
    revert a
    decide +kernel
  · intro b hb
    rcases List.mem_append.1 hb with hb | hb
    · obtain rfl : b = _ := by simpa [foBlocks] using hb
      refine de_ex_line _ _ _ (by decide +kernel) (by decide +kernel) ⟨fo_real (by decide +kernel), by decide +kernel, by decide +kernel⟩ _ ⟨by decide +kernel, by decide +kernel, ?_⟩
        (by decide +kernel) (by decide +kernel)
      refine fo_splits _ (fun before q later => Meets q.box foSpan.bbox → (∃ r ∈ later, IsMark r foSpan.bbox ∧ ∃ c ∈ foSpan.chars, Under r.box c ∧ mid c < q.box.x1 ∧ ¬ Half q.box c) → Clean before q.box foSpan) ?_
      decide +kernel
    · obtain rfl : b = _ := by simpa using hb
      refine de_ex_line _ _ _ (by decide +kernel) (by decide +kernel) ⟨fo_real (by decide +kernel), by decide +kernel, by decide +kernel⟩ _ ⟨by decide +kernel, by decide +kernel, ?_⟩
        (by decide +kernel) (by decide +kernel)
      intro before q later e hm
      exfalso
      have hq : q ∈ deRects.map areaOf := by rw [e]; simp
      clear e
      revert hm
      revert q
      decide +kernel

/-- Non-vacuity: the hypotheses are met; here is what the text looks like. -/
example : (Fine IsMark (deRects.map areaOf) deBlocks ∧ AllDefinite (deRects.map areaOf) deBlocks ∧ OneBlock (deRects.map areaOf) deBlocks ∧
      (∀ r ∈ deRects, r.type = .undefined ∨ r.type = .hyperlink ∨ r.type = .border ∨ r.type = .shading) ∧ ∀ r ∈ deRects, IsColour r.color) ∧
    ((blocksFormat deRects deBlocks).2.flatMap fun b => b.lines.flatMap fun l => l.items.map fun
      | .image _ _ => ([], [])
      | .text s => (s.text, marksOf s.style)) =
      [("to".toList, [.underline 0xFF0000]), (" ".toList, []), ("A".toList, [.strike 0]), (" ".toList, []), ("or".toList, [.highlight 0xFFFF00]), (" ".toList, []), ("B".toList, [.link "b"]),
        (".".toList, []), ("x".toList, [])] := by
  refine ⟨⟨de_ex_fine, ?_, ?_, by decide +kernel, ?_⟩, by decide +kernel⟩
  · intro b hb l hl s hs a ha
    have key : ∀ b ∈ deBlocks, ∀ l ∈ b.lines, ∀ i ∈ l.items, ∀ a ∈ deRects.map areaOf, Meets a.box i.bbox → Definite a i.bbox := by decide +kernel
    exact key b hb l hl _ hs a ha
  · unfold OneBlock deBlocks foBlocks
    decide +kernel
  · unfold IsColour
    decide +kernel

/-! ## What is missing -/

/-- The decorations of the spans. -/
def deMarks (bs : List TBlock) : List (List Char × List Mark) :=
  bs.flatMap fun b => b.lines.flatMap fun l => l.items.flatMap fun
    | .image _ _ => []
    | .text s => [(s.text, marksOf s.style)]

/-- **C116 is false** for areas that are not definite: whether text is decorated depends on the text beside it. A grey band reaches into the lower half of the small text "b"; alone it is not
decorated, but beside a large "T", for which the band is an underline, it is underlined too. -/
theorem C116_refuted_neighbour :
    ∃ (r : Shape) (t b : Span), r.type = .undefined ∧ PlainSpan t ∧ PlainSpan b ∧
      deMarks (blocksFormat [r] [⟨⟨40, 120, 60, 140⟩, [⟨⟨40, 120, 60, 140⟩, true, [.text b]⟩]⟩]).2 = [("b".toList, [])] ∧
      deMarks (blocksFormat [r] [⟨⟨0, 100, 60, 140⟩, [⟨⟨0, 100, 60, 140⟩, true, [.text t, .text b]⟩]⟩]).2 = [("T".toList, [.underline 0x808080]), ("b".toList, [.underline 0x808080])] := by
  refine ⟨⟨⟨0, 131, 60, 146⟩, 0x808080, .undefined, ""⟩, ⟨[⟨'T', ⟨0, 100, 40, 140⟩⟩], ⟨0, 100, 40, 140⟩, [], 0, "", 40, 0⟩, ⟨[⟨'b', ⟨40, 120, 60, 140⟩⟩], ⟨40, 120, 60, 140⟩, [], 0, "", 20, 0⟩,
    rfl, ⟨fo_real (by decide +kernel), by decide +kernel, by decide +kernel⟩, ⟨fo_real (by decide +kernel), by decide +kernel, by decide +kernel⟩, by decide +kernel, by decide +kernel⟩

/-- **C116 is false** for white areas: text on a white area drawn over a coloured background is not given a white ground. -/
theorem C116_refuted_white :
    ∃ (r : Shape) (s : Span), r.type = .undefined ∧ r.color = 0xFFFFFF ∧ PlainSpan s ∧ Covers r.bbox s.bbox ∧
      deMarks (blocksFormat [r] [⟨s.bbox, [⟨s.bbox, true, [.text s]⟩]⟩]).2 = [("b".toList, [])] := by
  refine ⟨⟨⟨0, 90, 60, 150⟩, 0xFFFFFF, .undefined, ""⟩, ⟨[⟨'b', ⟨40, 120, 60, 140⟩⟩], ⟨40, 120, 60, 140⟩, [], 0, "", 20, 0⟩,
    rfl, rfl, ⟨fo_real (by decide +kernel), by decide +kernel, by decide +kernel⟩, by decide +kernel, by decide +kernel⟩

end Props
