import Verif.Props.Pose
import Verif.Spec.Positions
import Verif.Props.Write
import Verif.Props.Spacing
/-! # C121: where a page of text is in the document -/

namespace Props
open Geom Py Pipe Spec

section Boxes
open Text (Item Shape)
open Styl

/-- An entry in tenths inside a box. -/
def Inside (b : Rect) (i : Item) : Prop := Tenths i.bbox ∧ Covers b i.bbox

theorem ps_split {b : Rect} {h : Bool} (s : Text.Span) (r : Shape) (ht : Tenths r.bbox) (hs : Inside b (.text s)) : ∀ p ∈ (s.split r h).1, Inside b (.text p) := by
  by_cases hm : (r.bbox.inter s.bbox).truthy = false
  · unfold Text.Span.split
    rw [if_pos hm]
    intro p hp
    obtain rfl : p = s := by simpa using hp
    exact hs
  · unfold Text.Span.split
    rw [if_neg hm]
    dsimp only
    have parts : ∀ x : Rect, x = (Text.partBoxes s.bbox r.bbox h).1.round ∨ x = (Text.partBoxes s.bbox r.bbox h).2.1.round ∨ x = (Text.partBoxes s.bbox r.bbox h).2.2.round →
        Tenths x ∧ Covers b x := by
      intro x hx
      obtain ⟨h1, h2, h3⟩ := ss_parts hs.1 ht hm h x hx
      refine ⟨h1, ?_⟩
      obtain ⟨c1, c2, c3, c4⟩ := hs.2
      cases h
      · simp only [alongText, acrossText, Bool.false_eq_true, if_false, Prod.mk.injEq] at h2 h3
        simp only [Text.Item.bbox] at c1 c2 c3 c4 h2 h3
        exact ⟨by linarith [h3.1], by linarith [h2.1], by linarith [h3.2], by linarith [h2.2]⟩
      · simp only [alongText, acrossText, if_true, Prod.mk.injEq] at h2 h3
        simp only [Text.Item.bbox] at c1 c2 c3 c4 h2 h3
        exact ⟨by linarith [h2.1], by linarith [h3.1], by linarith [h2.2], by linarith [h3.2]⟩
    intro p hp
    rw [List.mem_append, List.mem_append] at hp
    rcases hp with (hp | hp) | hp <;> split_ifs at hp <;> first
      | (cases hp; done)
      | (obtain rfl := List.mem_singleton.1 hp
         first
          | exact parts _ (.inl rfl)
          | exact parts _ (.inr (.inl rfl))
          | exact parts _ (.inr (.inr rfl)))

theorem ps_items {b : Rect} {h : Bool} (r : Shape) (ht : Tenths r.bbox) (is : List Item) (hs : ∀ i ∈ is, Inside b i) : ∀ i ∈ (Text.splitItems r h is).1, Inside b i := by
  induction is generalizing r with
  | nil => simp [Text.splitItems]
  | cons i is ih =>
    cases i with
    | image x n =>
      intro j hj
      simp only [Text.splitItems, List.mem_cons] at hj
      rcases hj with rfl | hj
      · exact hs _ (by simp)
      · exact ih r ht (fun i hi => hs i (by simp [hi])) j hj
    | text s =>
      intro j hj
      simp only [Text.splitItems, List.mem_append, List.mem_map] at hj
      rcases hj with ⟨p, hp, rfl⟩ | hj
      · exact ps_split s r ht (hs _ (by simp)) p hp
      · exact ih _ (by exact ht) (fun i hi => hs i (by simp [hi])) j hj

/-- A line with a real box around its entries. -/
def Held (l : TLine) : Prop := RealBox l.bbox ∧ ∀ i ∈ l.items, Inside l.bbox i

theorem ps_lines (r : Shape) (ht : Tenths r.bbox) (ls : List TLine) (hs : ∀ l ∈ ls, Held l) :
    (linesFormat r ls).1.map TLine.bbox = ls.map TLine.bbox ∧ ∀ l ∈ (linesFormat r ls).1, Held l := by
  induction ls generalizing r with
  | nil => exact ⟨rfl, by simp [linesFormat]⟩
  | cons l ls ih =>
    have hs' : ∀ l ∈ ls, Held l := fun m hm => hs m (by simp [hm])
    unfold linesFormat
    split
    · split
      · exact ⟨rfl, hs⟩
      · obtain ⟨h1, h2⟩ := ih r ht hs'
        refine ⟨by rw [List.map_cons, List.map_cons, h1], ?_⟩
        intro m hm
        rcases List.mem_cons.1 hm with rfl | hm
        · exact hs m (by simp)
        · exact h2 m hm
    · dsimp only
      obtain ⟨h1, h2⟩ := ih { r with type := (Text.applyShape r l.horizontal l.items).2 } ht hs'
      have hl := hs l (by simp)
      have hin : ∀ i ∈ (Text.applyShape r l.horizontal l.items).1, Inside l.bbox i := fun i hi => ps_items r ht l.items hl.2 i (List.mem_filter.1 hi).1
      have hb : (resetSpans l (Text.applyShape r l.horizontal l.items).1).bbox = l.bbox := fo_fold_in hl.1 _ fun i hi => (hin i hi).2
      refine ⟨by rw [List.map_cons, List.map_cons, h1, hb], ?_⟩
      intro m hm
      rcases List.mem_cons.1 hm with rfl | hm
      · unfold Held
        rw [hb]
        exact ⟨hl.1, hin⟩
      · exact h2 m hm

theorem ps_shape (r : Shape) (ls : List TLine) : (linesFormat r ls).2.bbox = r.bbox := by
  induction ls generalizing r with
  | nil => rfl
  | cons l ls ih =>
    unfold linesFormat
    split
    · split
      · rfl
      · exact ih r
    · exact ih _

theorem ps_block (rs : List Shape) (hr : ∀ r ∈ rs, Tenths r.bbox) (b : TBlock) (hb : ∀ l ∈ b.lines, Held l) :
    (∀ r ∈ (blockFormat rs b).1, Tenths r.bbox) ∧ (blockFormat rs b).2.lines.map TLine.bbox = b.lines.map TLine.bbox := by
  induction rs generalizing b with
  | nil => exact ⟨by simp [blockFormat], rfl⟩
  | cons r rs ih =>
    have hr0 := hr r (by simp)
    unfold blockFormat
    split
    · obtain ⟨h1, h2⟩ := ih (fun x hx => hr x (by simp [hx])) b hb
      refine ⟨?_, h2⟩
      intro x hx
      rcases List.mem_cons.1 hx with rfl | hx
      · exact hr0
      · exact h1 x hx
    · dsimp only
      obtain ⟨k1, k2⟩ := ps_lines r hr0 b.lines hb
      obtain ⟨h1, h2⟩ := ih (fun x hx => hr x (by simp [hx])) ⟨b.bbox, (linesFormat r b.lines).1⟩ k2
      refine ⟨?_, h2.trans k1⟩
      intro x hx
      rcases List.mem_cons.1 hx with rfl | hx
      · rw [ps_shape]; exact hr0
      · exact h1 x hx

/-- Styling changes no box of a line. -/
theorem ps_blocks (bs : List TBlock) (hb : ∀ b ∈ bs, ∀ l ∈ b.lines, Held l) (rs : List Shape) (hr : ∀ r ∈ rs, Tenths r.bbox) :
    List.Forall₂ (fun t b => t.lines.map TLine.bbox = b.lines.map TLine.bbox) (blocksFormat rs bs).2 bs := by
  induction bs generalizing rs with
  | nil => exact .nil
  | cons b bs ih =>
    obtain ⟨h1, h2⟩ := ps_block rs hr b (hb b (by simp))
    exact .cons h2 (ih (fun b hb' => hb b (by simp [hb'])) _ h1)

theorem ps_held (l : Lay.Ln Tok) (h : LineOK l) : Held (Deco.line l) := by
  refine ⟨h.1, ?_⟩
  intro i hi
  obtain ⟨s, hs, rfl⟩ := List.mem_map.1 hi
  obtain ⟨h1, h2, h3⟩ := h.2 s hs
  have e : (toItem s.2).bbox = s.1 := by
    rw [h1]
    cases s.2 with
    | image b t => cases t <;> rfl
    | text b cs => rfl
  unfold Inside
  rw [e]
  refine ⟨?_, h3⟩
  rw [h1]
  cases hs2 : s.2 with
  | image b t => rw [hs2] at h2; exact h2.2
  | text b cs => rw [hs2] at h2; exact h2.1.2

end Boxes
end Props

namespace Props
open Geom Py Pipe Spec

section Rows121

/-- Horizontal lines with proper boxes, one below the other, are in different rows. -/
theorem ps_apart {a b : El} (ha : Proper a.bbox) (hb : Proper b.bbox) (h1 : a.dir = .leftRight) (hab : Above a.bbox b.bbox ∨ Above b.bbox a.bbox) : a.inSameRow b = false := by
  unfold El.inSameRow
  split
  · rfl
  · have e : a.horizontal = true := by unfold El.horizontal; simp [h1]
    rw [e]
    simp only [El.ext, Bool.not_true, Bool.false_eq_true, if_false, decide_eq_false_iff_not]
    rintro ⟨k1, k2⟩
    have a1 := ha.2; have b1 := hb.2
    unfold Above at hab
    rcases hab with h | h <;> linarith

theorem ps_count (l : El) (ls : List El) (hp : ∀ x ∈ l :: ls, Proper x.bbox ∧ x.dir = .leftRight) (hab : (l :: ls).Pairwise fun x y => Above x.bbox y.bbox) (ref : Option El)
    (hr : ∀ r, ref = some r → l.inSameRow r = false) : Spacing.countRows ref (l :: ls) = (l :: ls).length := by
  induction ls generalizing l ref with
  | nil =>
    unfold Spacing.countRows
    cases ref with
    | none => rfl
    | some r => simp [hr r rfl, Spacing.countRows]
  | cons m ls ih =>
    have h := ih m (fun x hx => hp x (by simp [List.mem_cons.1 hx])) (List.pairwise_cons.1 hab).2 (some l) (by
      intro r e
      obtain rfl := Option.some.inj e
      exact ps_apart (hp m (by simp)).1 (hp _ (by simp)).1 (hp m (by simp)).2 (.inr ((List.pairwise_cons.1 hab).1 m (by simp))))
    unfold Spacing.countRows
    rw [h]
    cases ref with
    | none => simp only [Bool.false_eq_true, if_false, List.length_cons]; omega
    | some r => simp only [hr r rfl, Bool.false_eq_true, if_false, List.length_cons]; omega

end Rows121

section Layout121
open Spacing (VB)

/-- Blocks of text with their styled lines. -/
abbrev TextTriple := Rect × List (Lay.Ln Tok) × Styl.TBlock

/-- The paragraphs of a layout of text blocks: distances, formats, content. -/
theorem ps_go (c : Pose.Cfg) (box : Rect) (bs : List TextTriple) (fs : List (Spacing.Sp × Option Pose.Form)) (xs : List Pose.Blk)
    (h : Pose.go c box fs (bs.map fun t => .text t.1 t.2.1 t.2.2) = .ok xs) :
    ∃ qs : List Pose.Par, Pose.blocks xs = qs.map Docx.Block.text ∧ (bs.length ≤ fs.length → List.Forall₂ (fun q (y : TextTriple × Spacing.Sp × Option Pose.Form) =>
      ∃ f, y.2.2 = some f ∧ q = Pose.paragraph y.1.1 (Pose.tlines y.1.2.1 y.1.2.2) y.2.1 f) qs (bs.zip fs)) := by
  induction bs generalizing fs xs with
  | nil =>
    obtain rfl := Except.ok.inj h
    exact ⟨[], rfl, fun _ => .nil⟩
  | cons b bs ih =>
    rw [List.map_cons] at h
    unfold Pose.go at h
    cases h1 : Pose.one c box (fs.headD (⟨0, 0, 0⟩, none)) (.text b.1 b.2.1 b.2.2) with
    | error e => rw [h1] at h; cases h
    | ok x =>
      rw [h1] at h
      dsimp only at h
      cases h2 : Pose.go c box fs.tail (bs.map fun t => .text t.1 t.2.1 t.2.2) with
      | error e => rw [h2] at h; cases h
      | ok r =>
        rw [h2] at h
        obtain rfl := Except.ok.inj h
        obtain ⟨qs, k1, k2⟩ := ih _ _ h2
        generalize hg : fs.headD (⟨0, 0, 0⟩, none) = g at h1
        obtain ⟨sp, fo⟩ := g
        cases fo with
        | none => unfold Pose.one at h1; cases h1
        | some fo =>
          unfold Pose.one at h1
          obtain rfl := Except.ok.inj h1
          refine ⟨Pose.paragraph b.1 (Pose.tlines b.2.1 b.2.2) sp fo :: qs, ?_, ?_⟩
          · simp only [Pose.blocks, Pose.block, k1, List.map_cons]
          · intro hl
            cases fs with
            | nil => simp at hl
            | cons f fs =>
              obtain rfl : f = (sp, some fo) := hg
              rw [List.zip_cons_cons]
              exact .cons ⟨fo, rfl, rfl⟩ (k2 (by simpa using hl))

end Layout121
end Props

namespace Props
open Geom Py Pipe Spec

section Measure121
open Spacing (VB)

/-- A block of text of one column with its styled lines. -/
structure Laid (t : TextTriple) : Prop where
  line : LineText (Full.Blk.text t.1 t.2.1)
  above : t.2.1.Pairwise fun l m => Above l.bbox m.bbox
  boxes : t.2.2.lines.map Styl.TLine.bbox = t.2.1.map fun l => l.bbox
  same : t.2.2.lines.map (fun l => Props.content l.items) = t.2.1.map fun l => Props.content (Deco.line l).items

theorem ps_dir {t : TextTriple} (h : Laid t) : (Lay.Blk.text t.1 t.2.1).el.dir = .leftRight := ft_dir_lines (Full.Blk.text t.1 t.2.1) fun _ => h.line

theorem ps_length {t : TextTriple} (h : Laid t) : t.2.2.lines.length = t.2.1.length := by simpa using congrArg List.length h.boxes

theorem ps_tlines {t : TextTriple} (h : Laid t) : (Pose.tlines t.2.1 t.2.2).map Prod.fst = t.2.1.map fun l => (⟨l.bbox, l.dir⟩ : El) := by
  have h1 := ps_length h
  have h2 := h.boxes
  unfold Pose.tlines
  refine List.ext_getElem (by simp [h1]) ?_
  intro i i1 i2
  have := congrArg (fun l => l[i]?) h2
  simp only [List.length_map] at i1 i2
  have j : i < t.2.2.lines.length := by omega
  simp only [List.getElem?_map, List.getElem?_eq_getElem j, List.getElem?_eq_getElem i2, Option.map_some, Option.some.injEq] at this
  simp [this]

/-- The measures of a block of text. -/
theorem ps_measure (c : Pose.Cfg) (box : Rect) {t : TextTriple} (h : Laid t) (m) (hm : Pose.measure c box (.text t.1 t.2.1 t.2.2) = .ok m) :
    m.1.kind = .text ∧ m.1.bbox = t.1 ∧ m.1.first :: m.1.rest = (t.2.1.map fun l => (⟨l.bbox, l.dir⟩ : El)) ∧ m.1.horizontal = true ∧
      ∃ f, m.2 = some f ∧ Pose.horizontalSpacing c box true t.1 (Pose.tlines t.2.1 t.2.2) = .ok f := by
  have eh : (Lay.Blk.text t.1 t.2.1).el.horizontal = true := by unfold El.horizontal; rw [ps_dir h]; rfl
  unfold Pose.measure at hm
  dsimp only at hm
  rw [eh] at hm
  cases hf : Pose.horizontalSpacing c box true t.1 (Pose.tlines t.2.1 t.2.2) with
  | error e => rw [hf] at hm; cases hm
  | ok f =>
    rw [hf] at hm
    dsimp only at hm
    have e := ps_tlines h
    cases hl : Pose.tlines t.2.1 t.2.2 with
    | nil => rw [hl] at hm; cases hm
    | cons l r =>
      rw [hl] at hm e
      obtain rfl := Except.ok.inj hm
      refine ⟨rfl, rfl, ?_, rfl, f, rfl, rfl⟩
      rw [← e]
      rfl

theorem ps_rows {t : TextTriple} (h : Laid t) (b : VB) (hb : b.first :: b.rest = t.2.1.map fun l => (⟨l.bbox, l.dir⟩ : El)) : b.rows = t.2.1.length := by
  unfold VB.rows
  rw [ps_count b.first b.rest ?_ ?_ none (by simp), hb, List.length_map]
  · rw [hb]
    intro x hx
    obtain ⟨l, hl, rfl⟩ := List.mem_map.1 hx
    exact ⟨(h.line.boxes.2 l hl).1.1.1, h.line.horizontal l hl⟩
  · rw [hb, List.pairwise_map]
    exact h.above

theorem ps_hull_one {a b : Rect} (h : IsHull [a] b) : b = a := by
  have h1 := h.1 a (by simp)
  have h2 := h.2 a (by simp [Covers])
  unfold Covers at h1 h2
  cases a; cases b
  simp only [Rect.mk.injEq] at h1 h2 ⊢
  exact ⟨by linarith [h1.1, h2.1], by linarith [h1.2.1, h2.2.1], by linarith [h1.2.2.1, h2.2.2.1], by linarith [h1.2.2.2, h2.2.2.2]⟩

/-- Blocks of a column are set as a flow. -/
theorem ps_stacked (c : Pose.Cfg) (box : Rect) (bs : List TextTriple) (hl : ∀ t ∈ bs, Laid t) (ms : List (VB × Option Pose.Form))
    (h : List.Forall₂ (fun t m => Pose.measure c box (.text t.1 t.2.1 t.2.2) = .ok m) bs ms) (ref : ℚ) (prev : Option Spacing.Kind) :
    Stacked true box ref prev (ms.map Prod.fst) ∧ spaced prev (ms.map Prod.fst) = 0 := by
  induction h generalizing ref prev with
  | nil => exact ⟨trivial, rfl⟩
  | @cons t m bs ms hm _ ih =>
    have ht := hl t (by simp)
    obtain ⟨k1, k2, k3, k4, -⟩ := ps_measure c box ht m hm
    have hr := ps_rows ht m.1 k3
    obtain ⟨i1, i2⟩ := ih (fun t h => hl t (by simp [h])) (Spacing.hi true m.1.bbox + halfBorder m.1) (some m.1.kind)
    rw [List.map_cons]
    refine ⟨⟨?_, i1⟩, ?_⟩
    · rw [k1]
      dsimp only
      refine ⟨k4, ?_, ?_⟩
      · rw [hr]; exact List.length_pos_iff.2 ht.line.nonempty
      · intro h1
        rw [hr] at h1
        obtain ⟨l, e⟩ := List.length_eq_one_iff.1 h1
        rw [e] at k3
        obtain ⟨e1, e2⟩ := List.cons.inj k3
        have hh := ht.line.hull
        simp only [Full.Blk.lines, Full.Blk.bbox, e, List.map_cons, List.map_nil] at hh
        rw [k2, ps_hull_one hh, e1]
    · unfold spaced
      rw [if_neg (by rw [k1]; simp), i2]

end Measure121
end Props

namespace Props
open Geom Py Pipe Spec

section Core121
open Spacing (VB)

/-- What a word processor does with the paragraphs is what it does with the distances of the blocks. -/
theorem ps_bottoms (top pos : ℚ) (pre : Bool) (qs : List Pose.Par) (xs : List (VB × Spacing.Sp))
    (h : List.Forall₂ (fun q x => x.1.kind = .text ∧ q.space = Write.written x.2 ∧ (lineTexts q.content).length = x.1.rows) qs xs) :
    bottoms (top + pos) qs = (ends true pos pre (xs.map Write.writtenBlock)).map (top + ·) := by
  induction h generalizing pos pre with
  | nil => rfl
  | @cons q x qs xs hq _ ih =>
    obtain ⟨b, s⟩ := x
    obtain ⟨h1, h2, h3⟩ := hq
    dsimp only at h1 h2 h3
    have e : Write.writtenBlock (b, s) = (b, Write.written s) := by unfold Write.writtenBlock; rw [if_neg (by rw [h1]; simp)]
    have es : contentHeight true pre b (Write.written s) = setHeight q := by unfold contentHeight setHeight; rw [h1, h2, h3]
    rw [List.map_cons, e]
    simp only [bottoms, ends, List.map_cons]
    rw [es]
    have := ih (pos + setHeight q + (Write.written s).after) (decide (b.kind = .table))
    rw [← this, h2, add_assoc top pos, add_assoc top, add_assoc pos]

theorem ps_go_forms (c : Pose.Cfg) (box : Rect) (bs : List TextTriple) (xs : List Pose.Blk) (h : Pose.layout c box (bs.map fun t => .text t.1 t.2.1 t.2.2) = .ok xs) :
    ∃ (qs : List Pose.Par) (ms : List (VB × Option Pose.Form)), Pose.blocks xs = qs.map Docx.Block.text ∧
      List.Forall₂ (fun t m => Pose.measure c box (.text t.1 t.2.1 t.2.2) = .ok m) bs ms ∧
      List.Forall₂ (fun q (y : TextTriple × (VB × Spacing.Sp) × VB × Option Pose.Form) => ∃ f, y.2.2.2 = some f ∧ q = Pose.paragraph y.1.1 (Pose.tlines y.1.2.1 y.1.2.2) y.2.1.2 f) qs
        (bs.zip ((Spacing.parseSpacing (Pose.horizontal (bs.map fun t => .text t.1 t.2.1 t.2.2)) box (ms.map Prod.fst)).zip ms)) := by
  unfold Pose.layout at h
  cases h1 : Pose.forms c box (bs.map fun t => .text t.1 t.2.1 t.2.2) with
  | error e => rw [h1] at h; cases h
  | ok fs =>
    rw [h1] at h
    dsimp only at h
    obtain ⟨qs, k1, k2⟩ := ps_go c box bs fs xs h
    unfold Pose.forms at h1
    cases hm : (bs.map fun t => (.text t.1 t.2.1 t.2.2 : Deco.Blk)).mapM (Pose.measure c box) with
    | error e => rw [hm] at h1; cases h1
    | ok ms =>
      rw [hm] at h1
      obtain rfl := Except.ok.inj h1
      have hf := pp_mapM_forall _ _ hm
      rw [List.forall₂_map_left_iff] at hf
      refine ⟨qs, ms, k1, hf, ?_⟩
      have hl := congrArg List.length (po_spacing (Pose.horizontal (bs.map fun t => .text t.1 t.2.1 t.2.2)) box (ms.map Prod.fst))
      rw [List.length_map, List.length_map] at hl
      have k2 := k2 (by rw [List.length_zipWith, hl, Nat.min_self, hf.length_eq])
      revert k2
      generalize Spacing.parseSpacing (Pose.horizontal (bs.map fun t => .text t.1 t.2.1 t.2.2)) box (ms.map Prod.fst) = ps
      intro k2
      rw [show List.zipWith (fun (s : VB × Spacing.Sp) (m : VB × Option Pose.Form) => (s.2, m.2)) ps ms = (ps.zip ms).map fun x => (x.1.2, x.2.2) by
        rw [List.zip, List.map_zipWith], List.zip_map_right, List.forall₂_map_right_iff] at k2
      exact k2

theorem ps_horizontal (bs : List TextTriple) (hl : ∀ t ∈ bs, Laid t) : Pose.horizontal (bs.map fun t => .text t.1 t.2.1 t.2.2) = true := by
  have e : ∀ t ∈ bs, (Pose.el (.text t.1 t.2.1 t.2.2)).dir = .leftRight := fun t ht => ps_dir (hl t ht)
  unfold Pose.horizontal
  rw [decide_eq_true_eq]
  cases bs with
  | nil => rfl
  | cons t bs =>
    simp only [List.map_cons, Coll.textDirection]
    split_ifs
    · exact e t (by simp)
    · rfl

theorem ps_entries (l : Lay.Ln Tok) : Props.content (Deco.line l).items = entries (l.spans.map fun s => toItem s.2) := rfl

/-- The bottom of a block is that of its last line. -/
theorem ps_last {t : TextTriple} (h : Laid t) : ∃ l, t.2.1.getLast? = some l ∧ l.bbox.y1 = t.1.y1 := by
  have hne : t.2.1 ≠ [] := h.line.nonempty
  refine ⟨t.2.1.getLast hne, List.getLast?_eq_getLast_of_ne_nil hne, ?_⟩
  have hmem := List.getLast_mem hne
  have hh := h.line.hull
  simp only [Full.Blk.lines, Full.Blk.bbox] at hh
  have h1 := hh.1 _ (List.mem_map_of_mem hmem)
  have key : ∀ l ∈ t.2.1, l.bbox.y1 ≤ (t.2.1.getLast hne).bbox.y1 := by
    intro l hl
    have hp := h.above
    rw [← List.dropLast_append_getLast hne] at hl hp
    rcases List.mem_append.1 hl with hl | hl
    · have a := (List.pairwise_append.1 hp).2.2 l hl (t.2.1.getLast hne) (by simp)
      have b := (h.line.boxes.2 _ hmem).1.1.1.2
      unfold Above at a
      linarith
    · simp only [List.mem_singleton] at hl
      rw [← hl]
  have h2 := hh.2 ⟨t.1.x0, t.1.y0, t.1.x1, (t.2.1.getLast hne).bbox.y1⟩ (by
    intro r hr
    obtain ⟨l, hl, rfl⟩ := List.mem_map.1 hr
    have := hh.1 _ hr
    exact ⟨this.1, this.2.1, this.2.2.1, key l hl⟩)
  exact le_antisymm h1.2.2.2 h2.2.2.2

/-- The paragraphs of a column, and where a word processor sets them. -/
theorem ps_column (c : Pose.Cfg) (box : Rect) (bs : List TextTriple) (hl : ∀ t ∈ bs, Laid t) (xs : List Pose.Blk) (h : Pose.layout c box (bs.map fun t => .text t.1 t.2.1 t.2.2) = .ok xs) :
    ∃ qs : List Pose.Par, Pose.blocks xs = qs.map Docx.Block.text ∧
      List.Forall₂ (fun q (t : TextTriple) => ShowsRows q t.2.1 ∧
        ∃ f sp, Pose.horizontalSpacing c box true t.1 (Pose.tlines t.2.1 t.2.2) = .ok f ∧ q = Pose.paragraph t.1 (Pose.tlines t.2.1 t.2.2) sp f) qs bs ∧
      ∀ k y t, (bottoms box.y0 qs)[k]? = some y → bs[k]? = some t → |y - t.1.y1| ≤ ((bs.take (k + 1)).map fun t => (t.2.1.length + 2 : ℚ) / 20).sum := by
  obtain ⟨qs, ms, h1, h2, h3⟩ := ps_go_forms c box bs xs h
  rw [ps_horizontal bs hl] at h3
  have hlen := congrArg List.length (po_spacing true box (ms.map Prod.fst))
  rw [List.length_map, List.length_map] at hlen
  have hfst := po_spacing true box (ms.map Prod.fst)
  have hdr := C102_drift true box (ms.map Prod.fst)
  have hpos := C53_vertical_positions_partial true box (ms.map Prod.fst) (ps_stacked c box bs hl ms h2 _ none).1
  generalize hps : Spacing.parseSpacing true box (ms.map Prod.fst) = ps at h3 hlen hfst hdr hpos
  -- pointwise
  have hall : List.Forall₂ (fun q (t : TextTriple) => ShowsRows q t.2.1 ∧
        ∃ f sp, Pose.horizontalSpacing c box true t.1 (Pose.tlines t.2.1 t.2.2) = .ok f ∧ q = Pose.paragraph t.1 (Pose.tlines t.2.1 t.2.2) sp f) qs bs ∧
      List.Forall₂ (fun q x => x.1.kind = .text ∧ q.space = Write.written x.2 ∧ (lineTexts q.content).length = x.1.rows) qs ps ∧
      List.Forall₂ (fun (t : TextTriple) (x : VB × Spacing.Sp) => x.1.rows = t.2.1.length ∧ x.1.kind = .text ∧ x.1.bbox = t.1) bs ps := by
    clear hps hdr hpos h1 h
    induction h2 generalizing qs ps with
    | nil =>
      cases ps with
      | nil =>
        cases qs with
        | nil => exact ⟨.nil, .nil, .nil⟩
        | cons q qs => cases h3
      | cons x ps => simp at hlen
    | @cons t m bs ms hm _ ih =>
      cases ps with
      | nil => simp at hlen
      | cons x ps =>
        rw [List.map_cons, List.map_cons] at hfst
        obtain ⟨e1, e2⟩ := List.cons.inj hfst
        rw [List.zip_cons_cons, List.zip_cons_cons] at h3
        cases h3 with
        | @cons q _ qs _ hq h3 =>
          obtain ⟨i1, i2, i3⟩ := ih (fun t h => hl t (by simp [h])) qs ps h3 (by simpa using hlen) e2
          have ht := hl t (by simp)
          obtain ⟨k1, k2, k3, k4, f, k5, k6⟩ := ps_measure c box ht m hm
          have hr := ps_rows ht m.1 k3
          obtain ⟨f', k7, rfl⟩ := hq
          obtain rfl : f = f' := by
            have := k5.symm.trans k7
            exact Option.some.inj this
          have ec := po_paragraph t.1 t.2.1 t.2.2 (ps_length ht) x.2 f
          refine ⟨.cons ⟨?_, f, x.2, k6, rfl⟩ i1, .cons ⟨?_, rfl, ?_⟩ i2, .cons ⟨?_, ?_, ?_⟩ i3⟩
          · unfold ShowsRows
            rw [ec, List.map_map]
            exact ht.same
          · rw [e1, k1]
          · rw [ec, List.length_map, ps_length ht, e1, hr]
          · rw [e1, hr]
          · rw [e1, k1]
          · rw [e1, k2]
  obtain ⟨a1, a2, a3⟩ := hall
  refine ⟨qs, h1, a1, ?_⟩
  intro k y t hy ht
  have hb := ps_bottoms box.y0 0 false qs ps a2
  rw [add_zero] at hb
  rw [hb, List.getElem?_map] at hy
  obtain ⟨a', ha', rfl⟩ := Option.map_eq_some_iff.1 hy
  have hk : k < bs.length := (List.getElem?_eq_some_iff.1 ht).1
  have hk2 : k < ps.length := a3.length_eq ▸ hk
  have hms : (ms.map Prod.fst)[k]? = some ps[k].1 := by rw [← hfst, List.getElem?_map, List.getElem?_eq_getElem hk2]; rfl
  obtain ⟨e, g1, g2, g3⟩ := hpos k ps[k].1 hms
  have hd := hdr k e a' g1 ha'
  have hz : spaced none ((ms.map Prod.fst).take (k + 1)) = 0 := by
    rw [← List.map_take]
    exact (ps_stacked c box (bs.take (k + 1)) (fun t h => hl t (List.mem_of_mem_take h)) (ms.take (k + 1)) (List.forall₂_take _ h2) 0 none).2
  rw [hz] at g3
  have hrow := a3.get hk hk2
  have htk : bs[k] = t := by simpa [List.getElem?_eq_getElem hk] using ht
  simp only [List.get_eq_getElem, htk] at hrow
  have hhi : Spacing.hi true ps[k].1.bbox + halfBorder ps[k].1 - Spacing.lo true box = t.1.y1 - box.y0 := by
    have : halfBorder ps[k].1 = 0 := by unfold halfBorder; rw [hrow.2.1]
    rw [this, hrow.2.2]
    simp [Spacing.hi, Spacing.lo, El.ext]
  rw [hhi] at g2 g3
  have hee : e = t.1.y1 - box.y0 := by push_cast at g3; linarith
  have hsum : ((ps.take (k + 1)).map fun x => drift x.1).sum = ((bs.take (k + 1)).map fun t => (t.2.1.length + 2 : ℚ) / 20).sum := by
    congr 1
    have := List.forall₂_take (k + 1) a3
    revert this
    generalize bs.take (k + 1) = B
    generalize ps.take (k + 1) = P
    intro this
    clear * - this
    induction this with
    | nil => rfl
    | cons h _ ih =>
      rw [List.map_cons, List.map_cons, ih]
      congr 1
      unfold drift
      rw [h.2.1, h.1]
  rw [hsum, hee] at hd
  rw [show box.y0 + a' - t.1.y1 = a' - (t.1.y1 - box.y0) by ring]
  exact hd

end Core121
end Props

namespace Props
open Geom Py Pipe Spec

section Page121

/-- Text blocks with their styled lines, as triples. -/
theorem ps_triples (ts : List Styl.TBlock) (r : List (Full.Blk Tok)) (hl : ts.length = r.length) (htx : ∀ b ∈ r, b.isText = true) :
    syStyled ts r = (r.zip ts).map fun x => .text x.1.bbox x.1.lines x.2 := by
  induction r generalizing ts with
  | nil => rfl
  | cons b r ih =>
    cases ts with
    | nil => cases hl
    | cons t ts =>
      simp only [syStyled, List.headD_cons, List.tail_cons, List.zip_cons_cons, List.map_cons]
      rw [ih ts (by simpa using hl) fun x hx => htx x (by simp [hx])]

theorem ps_page (c : Pose.Cfg) (hc : Sane c.whole) (f : Fmt) (depth : ℕ) (p : Pose.Page) (hp : TextPage c.whole (withFormats c f p).whole) (d)
    (h : Pose.parsePage c (depth + 1) p = .ok d) :
    ∃ bs : List TextTriple, (∀ t ∈ bs, Laid t) ∧ (bs.flatMap fun t => t.2.1).Perm (linesOn c.whole.ws (withFormats c f p)) ∧
      (bs.flatMap fun t => t.2.1).Pairwise (fun l m => Above l.bbox m.bbox) ∧
      (∀ l ∈ bs.flatMap fun t => t.2.1, (p.workOf c (cleaned c p)).x0 ≤ l.bbox.x0 ∧ l.bbox.x1 ≤ (p.workOf c (cleaned c p)).x1) ∧
      ∃ xs, Pose.layout c (p.workOf c (cleaned c p)) (bs.map fun t => .text t.1 t.2.1 t.2.2) = .ok xs ∧ d = ⟨p.sect c (cleaned c p), Pose.blocks xs, []⟩ := by
  obtain ⟨js, g2, hjl, e3, hsame, hperm⟩ := wp_clean c.whole hc (withFormats c f p).whole hp.raw hp.text hp.floats
  have hcl : cleaned c p = js := by
    unfold cleaned
    rw [show cleanUp c.whole.pipe p.box p.raw = .ok (js, []) from g2]
  set bs := js.map fun b => Full.Blk.text b.bbox b.lines with hbs
  have hharm := wp_same_harmless hsame hp.drawn
  obtain ⟨hst, hS⟩ := fw_stages c.whole.full hc.order hc.tol hc.conn hc.clear hc.border p.ids (p.workOf c (cleaned c p)) p.shapes bs e3 hharm
    (fun r hr => hp.within r ((wp_same_boxes hsame p.shapes r).1 hr)) (by
      obtain ⟨e, he, x, hx, h⟩ := hp.columns
      exact ⟨e, (wp_same_boxes hsame p.shapes e).2 he, x, (wp_same_boxes hsame p.shapes x).2 hx, h⟩)
  set S := Full.sortBlocks bs with hSd
  have hSp : S.Perm bs := ft_sort_perm bs
  have htx : ∀ b ∈ S, b.isText = true := fun b hb => (e3.text b (hSp.subset hb)).text
  obtain ⟨r, k1, k2, k3, k4, k5, k6, k7⟩ := ft_split_source c.whole.full.base.lay hc.order hc.tol S hS
  have htr : ∀ b ∈ r, b.isText = true := by
    intro b hb
    by_contra hcon
    have : b ∈ S.filter fun b => !b.isText := k4.subset (List.mem_filter.2 ⟨hb, by simpa using hcon⟩)
    obtain ⟨m1, m2⟩ := List.mem_filter.1 this
    rw [htx b m1] at m2
    cases m2
  obtain ⟨-, s2, s3⟩ := ft_shows r _ k2 htr (k3.imp And.left) (k5.trans (hSp.flatMap_right _))
  have hfl : bs.flatMap Full.Blk.lines = js.flatMap Lns.Blk.lines := by
    rw [hbs, List.flatMap_map]
    rfl
  have hlines : (linesOn c.whole.ws (withFormats c f p)) = ((pageBlocks c.whole.ws (withFormats c f p).whole).flatMap Lns.Blk.lines).map fun l => (stripLine c.whole.ws l).1 := by
    unfold linesOn bareLines
    rw [List.map_flatMap]
  have hLperm : (r.flatMap Full.Blk.lines).Perm (linesOn c.whole.ws (withFormats c f p)) := by
    rw [hlines]
    refine s2.trans ?_
    rw [hfl]
    exact hperm
  unfold Pose.parsePage at h
  rw [show cleanUp c.whole.pipe p.box p.raw = .ok (js, []) from g2] at h
  dsimp only at h
  rw [← hcl] at h
  unfold Deco.layout Deco.parse at h
  rw [show ((cleaned c p).map fun b => Full.Blk.text b.bbox b.lines) = bs by rw [hcl], ← hSd, hst] at h
  dsimp only at h
  rw [k1] at h
  dsimp only at h
  rw [sy_text_tables _ _ _ _ _ htr] at h
  dsimp only at h
  unfold Deco.pass at h
  have hreal : ∀ x ∈ (Deco.candidates ⟨S, Full.mkSub S p.shapes, ⟨[], []⟩⟩ ⟨S, Full.mkSub S p.shapes, ⟨[], []⟩⟩).map (Deco.shape p.uri ⟨[], []⟩), Tenths x.bbox := by
    intro x hx
    obtain ⟨s, hs, rfl⟩ := List.mem_map.1 hx
    exact (hharm.real s (ss_candidates _ _ (fun s hs => hs) (fun s hs => hs) s hs)).2
  generalize (Deco.candidates ⟨S, Full.mkSub S p.shapes, ⟨[], []⟩⟩ ⟨S, Full.mkSub S p.shapes, ⟨[], []⟩⟩).map (Deco.shape p.uri ⟨[], []⟩) = rects at h hreal
  have hok : ∀ b ∈ r, ∀ l ∈ b.lines, LineOK l := fun b hb l hl => ((k2 b hb (htr b hb)).1.boxes.2 l hl).1
  have hheld : ∀ b ∈ Deco.texts r, ∀ l ∈ b.lines, Held l := by
    rw [sy_texts r htr]
    intro b hb l hl
    obtain ⟨b', hb', rfl⟩ := List.mem_map.1 hb
    obtain ⟨l', hl', rfl⟩ := List.mem_map.1 hl
    exact ps_held l' (hok b' hb' l' hl')
  have f1 := ps_blocks (Deco.texts r) hheld rects hreal
  have f2 := sx_blocks rects (Deco.texts r)
  generalize (Styl.blocksFormat rects (Deco.texts r)).2 = ts at h f1 f2
  rw [sy_texts r htr, List.forall₂_map_right_iff] at f1 f2
  have hlen : ts.length = r.length := f1.length_eq
  rw [ps_triples ts r hlen htr] at h
  refine ⟨(r.zip ts).map fun x => (x.1.bbox, x.1.lines, x.2), ?_, ?_, ?_, ?_, ?_⟩
  · have : ∀ (r : List (Full.Blk Tok)) (ts : List Styl.TBlock), (∀ b ∈ r, b.isText = true) → (∀ b ∈ r, ∀ l ∈ b.lines, LineOK l) →
        (∀ b ∈ r, b.isText = true → PlainText b ∧ b.lines.Pairwise fun l m => Above l.bbox m.bbox) →
        List.Forall₂ (fun t (b : Full.Blk Tok) => t.lines.map Styl.TLine.bbox = (b.lines.map Deco.line).map Styl.TLine.bbox) ts r →
        List.Forall₂ (fun t (b : Full.Blk Tok) => (∀ l ∈ b.lines.map Deco.line, LineKept l) → t.lines.map (fun l => Props.content l.items) = (b.lines.map Deco.line).map fun l => Props.content l.items) ts r →
        ∀ t ∈ (r.zip ts).map fun x => ((x.1.bbox, x.1.lines, x.2) : TextTriple), Laid t := by
      intro r ts htr hok k2 f1 f2
      induction f1 with
      | nil => simp
      | @cons t b ts r hb _ ih =>
        obtain ⟨hs, f2⟩ := List.forall₂_cons.1 f2
        intro x hx
        rw [List.zip_cons_cons, List.map_cons, List.mem_cons] at hx
        rcases hx with rfl | hx
        · obtain ⟨q1, q2⟩ := k2 b (by simp) (htr b (by simp))
          have ht := htr b (by simp)
          cases b with
          | table _ _ _ => cases ht
          | text bb ls =>
            refine ⟨q1.toLineText, q2, ?_, ?_⟩
            · rw [List.map_map] at hb; exact hb
            · have := hs fun l hl => by
                obtain ⟨m, hm, rfl⟩ := List.mem_map.1 hl
                exact sx_line_kept m (hok _ (by simp) m hm)
              rw [List.map_map] at this
              exact this
        · exact ih (fun b h => htr b (by simp [h])) (fun b h => hok b (by simp [h])) (fun b h => k2 b (by simp [h])) f2 x hx
    exact this r ts htr hok k2 f1 f2
  · rw [List.flatMap_map]
    have : (r.zip ts).flatMap (fun x => x.1.lines) = r.flatMap Full.Blk.lines := by
      rw [← List.flatMap_map Prod.fst Full.Blk.lines, List.map_fst_zip (by omega)]
    rw [this]
    exact hLperm
  · rw [List.flatMap_map]
    have : (r.zip ts).flatMap (fun x => x.1.lines) = r.flatMap Full.Blk.lines := by
      rw [← List.flatMap_map Prod.fst Full.Blk.lines, List.map_fst_zip (by omega)]
    rw [this]
    exact s3
  · rw [List.flatMap_map]
    have : (r.zip ts).flatMap (fun x => x.1.lines) = r.flatMap Full.Blk.lines := by
      rw [← List.flatMap_map Prod.fst Full.Blk.lines, List.map_fst_zip (by omega)]
    rw [this]
    intro l hl
    have hb : l.bbox ∈ pageBoxes bs p.shapes := by
      unfold pageBoxes
      exact List.mem_append_left _ (List.mem_map_of_mem (s2.subset hl))
    exact hp.within _ ((wp_same_boxes hsame p.shapes _).1 hb)
  · rw [List.map_map]
    cases hx : Pose.layout c (p.workOf c (cleaned c p)) ((r.zip ts).map fun x => .text x.1.bbox x.1.lines x.2) with
    | error e => rw [hx] at h; cases h
    | ok xs =>
      rw [hx] at h
      exact ⟨xs, hx, (Except.ok.inj h).symm⟩

/-- The section of a page of a document. -/
theorem ps_section (c : Pose.Cfg) (depth : ℕ) (s0 : Pose.Sect) (pages : List Pose.Page) (d : Docx.Doc Pose.Par Sp Pose.Sect) (h : Pose.convert c depth s0 pages = .ok d)
    (i : ℕ) (p : Pose.Page) (s : Pose.Sect × List (Docx.Item Pose.Par Sp Pose.Sect)) (hp : pages[i]? = some p) (hs : (sectionsOf d)[i]? = some s) :
    ∃ dd, Pose.parsePage c depth p = .ok dd ∧ s.1 = dd.props ∧ ofItems s.2 = ofBlocks dd.blocks := by
  unfold Pose.convert at h
  cases hm : pages.mapM (Pose.parsePage c depth) with
  | error e => rw [hm] at h; cases h
  | ok ds =>
    rw [hm] at h
    obtain rfl := Except.ok.inj h
    have hall := pp_mapM_forall pages ds hm
    have hdne : ds ≠ [] := by
      rintro rfl
      rw [List.forall₂_nil_right_iff.1 hall] at hp
      cases hp
    have hsec := C31_one_section_per_page s0 ds hdne
    obtain ⟨hi1, rfl⟩ := List.getElem?_eq_some_iff.1 hp
    have hi2 : i < ds.length := hall.length_eq ▸ hi1
    refine ⟨ds[i], by simpa using hall.get hi1 hi2, ?_⟩
    have := congrArg (fun l => l[i]?) hsec
    simp only [List.getElem?_map, hs, List.getElem?_eq_getElem hi2, Option.map_some, Option.some.injEq] at this
    obtain ⟨a, b⟩ := Prod.mk.inj this
    exact ⟨a, b⟩

theorem ps_leaves (qs : List Pose.Par) : ofBlocks (qs.map Docx.Block.text) = qs.map Tree.text := by
  induction qs with
  | nil => simp [ofBlocks]
  | cons q qs ih => simp only [List.map_cons, ofBlocks, ih]

/-- **C121** (partial: pages of text in one column, one line in each row, as C111; the rows of a paragraph between the first and the last are evenly spaced). The section of such a page has paragraphs
only; each shows a group of lines, all lines of the page from top to bottom; if a word processor puts them one below the other, starting below the top margin, the bottom of each paragraph is the bottom
of its last line on the page, up to 0.05pt for each line above and the two distances of each paragraph. -/
theorem C121_vertical_partial (c : Pose.Cfg) (hc : Sane c.whole) (f : Fmt) (depth : ℕ) (s0 : Pose.Sect) (pages : List Pose.Page) (d : Docx.Doc Pose.Par Sp Pose.Sect)
    (h : Pose.convert c (depth + 1) s0 pages = .ok d) (i : ℕ) (p : Pose.Page) (s : Pose.Sect × List (Docx.Item Pose.Par Sp Pose.Sect)) (hp : pages[i]? = some p)
    (hs : (sectionsOf d)[i]? = some s) (htp : TextPage c.whole (withFormats c f p).whole) :
    ∃ (qs : List Pose.Par) (L : List (List (Lay.Ln Tok))), ofItems s.2 = qs.map Tree.text ∧ List.Forall₂ ShowsRows qs L ∧
      L.flatten.Perm (linesOn c.whole.ws (withFormats c f p)) ∧ L.flatten.Pairwise (fun l m => Above l.bbox m.bbox) ∧
      ∀ k y ls, (bottoms s.1.margin.top qs)[k]? = some y → L[k]? = some ls →
        ∃ l, ls.getLast? = some l ∧ |y - l.bbox.y1| ≤ ((L.take (k + 1)).map fun ls => (ls.length + 2 : ℚ) / 20).sum := by
  obtain ⟨dd, h1, h2, h3⟩ := ps_section c (depth + 1) s0 pages d h i p s hp hs
  obtain ⟨bs, k1, k2, k3, -, xs, k4, rfl⟩ := ps_page c hc f depth p htp dd h1
  obtain ⟨qs, e1, e2, e3⟩ := ps_column c _ bs k1 xs k4
  have ey : s.1.margin.top = (p.workOf c (cleaned c p)).y0 := by
    rw [h2]
    show (p.margin c (cleaned c p)).top = 0 + (p.margin c (cleaned c p)).top
    rw [zero_add]
  refine ⟨qs, bs.map fun t => t.2.1, ?_, ?_, ?_, ?_, ?_⟩
  · rw [h3]
    dsimp only
    rw [e1, ps_leaves]
  · rw [List.forall₂_map_right_iff]
    exact e2.imp fun _ _ h => h.1
  · rw [← List.flatMap_def]; exact k2
  · rw [← List.flatMap_def]; exact k3
  · intro k y ls hy hls
    rw [List.getElem?_map] at hls
    obtain ⟨t, ht, rfl⟩ := Option.map_eq_some_iff.1 hls
    obtain ⟨l, l1, l2⟩ := ps_last (k1 t (List.mem_of_getElem? ht))
    refine ⟨l, l1, ?_⟩
    rw [l2]
    rw [ey] at hy
    have := e3 k y t hy ht
    rw [← List.map_take, List.map_map]
    exact this

/-- The bottoms of the paragraphs of a document, section by section. -/
def psBottoms (d : Except Err (Docx.Doc Pose.Par Sp Pose.Sect)) : Option (List (List ℚ)) :=
  d.toOption.map fun d => (sectionsOf d).map fun s => bottoms s.1.margin.top (leaves (ofItems s.2))

/-- Non-vacuity: the text page of C120 meets the hypotheses; its paragraphs of one and of two lines end at 30 and 150, where the first and the last line end. -/
example : Sane poCfg.whole ∧ TextPage poCfg.whole (withFormats poCfg ppFmt poText).whole ∧
    (Pose.convert poCfg 3 ⟨0, 0, ⟨0, 0, 0, 0⟩⟩ [poText]).toOption.isSome = true ∧
    psBottoms (Pose.convert poCfg 3 ⟨0, 0, ⟨0, 0, 0, 0⟩⟩ [poText]) = some [[30, 150]] ∧
    (linesOn poCfg.whole.ws (withFormats poCfg ppFmt poText)).map (fun l => l.bbox.y1) = [150, 130, 30] := by
  refine ⟨wh_ex_sane, po_ex_text, by decide +kernel, by decide +kernel, by decide +kernel⟩

end Page121
end Props
