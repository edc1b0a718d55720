import Verif.Props.Pose
import Verif.Spec.Turned
/-! # C125: vertical text is laid out as the turned text -/

namespace Props
open Geom Py Pipe Spec

/-! ## Groups of turned elements -/

theorem tu_pairs {α β : Type} (m : α → β) (f : α → α → Bool) (g : β → β → Bool) (xs : List α) (h : ∀ a ∈ xs, ∀ b ∈ xs, g (m a) (m b) = f a b) :
    Graph.relatedPairs g (xs.map m) = Graph.relatedPairs f xs := by
  unfold Graph.relatedPairs
  rw [List.length_map]
  apply List.flatMap_congr
  intro i _
  apply List.filterMap_congr
  intro j _
  split
  · rw [List.getElem?_map, List.getElem?_map]
    cases hi : xs[i]? with
    | none => rfl
    | some a =>
      cases hj : xs[j]? with
      | none => rfl
      | some b =>
        simp only [Option.map_some]
        rw [h a (List.mem_of_getElem? hi) b (List.mem_of_getElem? hj)]
  · rfl

theorem tu_group {α β : Type} (iter : List ℕ → List ℕ) (m : α → β) (f : α → α → Bool) (g : β → β → Bool) (xs : List α)
    (h : ∀ a ∈ xs, ∀ b ∈ xs, g (m a) (m b) = f a b) :
    Graph.group iter g (xs.map m) = (Graph.group iter f xs).map fun gs => gs.map fun r => r.map m := by
  unfold Graph.group
  rw [tu_pairs m f g xs h, List.length_map]
  cases Graph.graphBfs (Graph.build xs.length (Graph.relatedPairs f xs)) with
  | error e => rfl
  | ok gs =>
    simp only [Except.map, List.map_map]
    congr 1
    apply List.map_congr_left
    intro grp _
    simp only [Function.comp_def, List.map_filterMap, List.getElem?_map]

/-! ## Paragraph formats -/

theorem tu_gap (H sep : ℚ) (l : List Para.Ext) : Para.hasGap 1 sep (l.map fun e => (H - e.1, H - e.2)) = Para.hasGap (-1) sep l := by
  fun_induction Para.hasGap (-1) sep l with
  | case1 a b l ih =>
    simp only [List.map_cons, Para.hasGap] at ih ⊢
    rw [ih]
    congr 2
    apply propext
    constructor <;> intro h <;> linarith
  | case2 l h =>
    match l, h with
    | [], _ => rfl
    | [_], _ => rfl
    | _ :: _ :: _, h => exact absurd rfl (h _ _ _)

theorem tu_max2 (H x y : ℚ) : max (H - x) (H - y) = H - min x y := by
  rcases le_total x y with h | h
  · rw [min_eq_left h, max_eq_left (by linarith)]
  · rw [min_eq_right h, max_eq_right (by linarith)]

theorem tu_min2 (H x y : ℚ) : min (H - x) (H - y) = H - max x y := by
  rcases le_total x y with h | h
  · rw [max_eq_right h, min_eq_right (by linarith)]
  · rw [max_eq_left h, min_eq_left (by linarith)]

theorem tu_max (H x : ℚ) (l : List ℚ) : (l.map (H - ·)).foldl max (H - x) = H - l.foldl min x := by
  induction l generalizing x with
  | nil => rfl
  | cons y l ih => simp only [List.map_cons, List.foldl_cons]; rw [tu_max2, ih]

theorem tu_min (H x : ℚ) (l : List ℚ) : (l.map (H - ·)).foldl min (H - x) = H - l.foldl max x := by
  induction l generalizing x with
  | nil => rfl
  | cons y l ih => simp only [List.map_cons, List.foldl_cons]; rw [tu_min2, ih]

theorem tu_spread (H : ℚ) (l : List ℚ) : Para.spread (l.map (H - ·)) = Para.spread l := by
  cases l with
  | nil => rfl
  | cons x l => simp only [List.map_cons, Para.spread]; rw [tu_max, tu_min]; ring

/-- An extent turned. -/
def tuExt (H : ℚ) (e : Para.Ext) : Para.Ext := (H - e.1, H - e.2)

theorem tu_head (H : ℚ) (r : List Para.Ext) (h : r ≠ []) : ((r.map (tuExt H)).headD (0, 0)).1 = H - (r.headD (0, 0)).1 := by
  cases r with
  | nil => exact absurd rfl h
  | cons a l => rfl

theorem tu_last (H : ℚ) (r : List Para.Ext) (h : r ≠ []) : ((r.map (tuExt H)).getLastD (0, 0)).2 = H - (r.getLastD (0, 0)).2 := by
  rw [List.getLastD_eq_getLast?, List.getLastD_eq_getLast?, List.getLast?_map, List.getLast?_eq_some_getLast h]
  rfl

theorem tu_decide (n : ℕ) (a b c : Bool) (x : ℚ) : Para.decideAlign n a b c (-x) = ((Para.decideAlign n a b c x).1, (Para.decideAlign n a b c x).2.map (- ·)) := by
  unfold Para.decideAlign
  cases a <;> cases b <;> cases c <;> simp

theorem tu_internal (H : ℚ) (t : Para.Thr) (rows : List (List Para.Ext)) (hr : ∀ r ∈ rows, r ≠ []) :
    Para.internal 1 t (rows.map fun r => r.map (tuExt H)) = ((Para.internal (-1) t rows).1, (Para.internal (-1) t rows).2.map (- ·)) := by
  unfold Para.internal
  have e0 : (rows.map fun r => r.map (tuExt H)).any (Para.hasGap 1 t.separate) = rows.any (Para.hasGap (-1) t.separate) := by
    rw [List.any_map]
    exact List.any_congr rfl fun r => tu_gap H t.separate r
  rw [e0, List.length_map]
  by_cases h0 : rows.any (Para.hasGap (-1) t.separate) = true
  · rw [if_pos h0, if_pos h0]; rfl
  rw [if_neg h0, if_neg h0]
  by_cases h1 : rows.length < 2
  · rw [if_pos h1, if_pos h1]; rfl
  rw [if_neg h1, if_neg h1]
  have eX : (rows.map fun r => r.map (tuExt H)).map (fun r => (r.headD (0, 0)).1) = (rows.map fun r => (r.headD (0, 0)).1).map (H - ·) := by
    rw [List.map_map, List.map_map]
    exact List.map_congr_left fun r h => tu_head H r (hr r h)
  have eY : (rows.map fun r => r.map (tuExt H)).map (fun r => (r.getLastD (0, 0)).2) = (rows.map fun r => (r.getLastD (0, 0)).2).map (H - ·) := by
    rw [List.map_map, List.map_map]
    exact List.map_congr_left fun r h => tu_last H r (hr r h)
  dsimp only
  rw [eX, eY]
  have len : 2 ≤ (rows.map fun r => (r.headD (0, 0)).1).length := by rw [List.length_map]; omega
  generalize rows.map (fun r => (r.headD (0, 0)).1) = X0 at len
  generalize rows.map (fun r => (r.getLastD (0, 0)).2) = X1
  have eZ : List.zipWith (fun a b : ℚ => (a + b) / 2) (X0.map (H - ·)) (X1.map (H - ·)) = (List.zipWith (fun a b : ℚ => (a + b) / 2) X0 X1).map (H - ·) := by
    rw [List.zipWith_map, List.map_zipWith]
    congr 1
    funext a b
    ring
  rw [eZ, tu_spread, ← List.map_drop, ← List.map_dropLast, ← apply_ite (List.map (H - ·)), ← apply_ite (List.map (H - ·)), tu_spread, tu_spread]
  obtain ⟨a, b, l, rfl⟩ : ∃ a b l, X0 = a :: b :: l := by
    match X0, len with
    | a :: b :: l, _ => exact ⟨a, b, l, rfl⟩
  have ed : ((a :: b :: l).map (H - ·)).getD 0 0 - ((a :: b :: l).map (H - ·)).getD 1 0 = -((a :: b :: l).getD 0 0 - (a :: b :: l).getD 1 0) := by
    show H - a - (H - b) = -(a - b)
    ring
  rw [ed, tu_decide]

theorem tu_external (H : ℚ) (t : Para.Thr) (b c : Para.Ext) : Para.external 1 t (tuExt H b) (tuExt H c) = Para.external (-1) t b c := by
  unfold Para.external tuExt
  have e1 : ∀ x y : ℚ, (H - x - (H - y)) * 1 = (x - y) * -1 := fun x y => by ring
  simp only [e1]

/-- The format with the opposite first line indent. -/
def tuFlip (s : Para.HSp) : Para.HSp := { s with firstLine := -s.firstLine }

theorem tu_parse (H : ℚ) (t : Para.Thr) (b c : Para.Ext) (rows : List (List Para.Ext)) (lines : List Para.Ext) (hr : ∀ r ∈ rows, r ≠ []) :
    Para.parse 1 t (tuExt H b) (tuExt H c) (rows.map fun r => r.map (tuExt H)) (lines.map (tuExt H)) = tuFlip (Para.parse (-1) t b c rows lines) := by
  unfold Para.parse
  rw [tu_internal H t rows hr, tu_external]
  have el : (lines.map (tuExt H)).map (fun l => round1 ((l.1 - (tuExt H b).1) * 1)) = lines.map fun l => round1 ((l.1 - b.1) * -1) := by
    rw [List.map_map]
    apply List.map_congr_left
    intro l _
    show round1 ((H - l.1 - (H - b.1)) * 1) = _
    congr 1
    ring
  rw [el]
  have ef : ((Para.internal (-1) t rows).2.map (- ·)).getD 0 = -((Para.internal (-1) t rows).2.getD 0) := by
    cases (Para.internal (-1) t rows).2 with
    | none => simp
    | some x => rfl
  dsimp only
  rw [ef]
  generalize (if (Para.internal (-1) t rows).1 ≠ Para.Align.unknown then (Para.internal (-1) t rows).1 else (Para.external (-1) t b c).1) = a
  cases a <;> rfl

theorem tu_breaks (H edge delta width ratio : ℚ) (l : List (ℚ × Bool × Bool)) :
    Para.lineBreaks (H - edge) delta width ratio (l.map fun x => (H - x.1, x.2)) = Para.lineBreaks edge delta width ratio l := by
  have e1 : ∀ x : ℚ, |H - edge - (H - x)| = |edge - x| := fun x => by rw [show H - edge - (H - x) = -(edge - x) by ring, abs_neg]
  induction l with
  | nil => rfl
  | cons a l ih =>
    cases l with
    | nil => rfl
    | cons b l =>
      simp only [List.map_cons] at ih ⊢
      unfold Para.lineBreaks
      dsimp only
      rw [ih, e1]

/-! ## Lines -/

/-- A line turned. -/
def tuLine (H : ℚ) (l : Pose.TL) : Pose.TL := (⟨turnedBox H l.1.bbox, .leftRight⟩, l.2)

/-- A line of vertical text. -/
def TuUp (l : Pose.TL) : Prop := l.1.dir = .bottomTop ∧ l.1.bbox.x0 < l.1.bbox.x1

theorem tu_row {H : ℚ} {a b : El} (ha : a.dir = .bottomTop) (hb : b.dir = .bottomTop) (hx : b.bbox.x0 < b.bbox.x1) :
    El.inSameRow ⟨turnedBox H a.bbox, .leftRight⟩ ⟨turnedBox H b.bbox, .leftRight⟩ = a.inSameRow b := by
  have t1 : b.bbox.truthy = true := by
    simp only [Rect.truthy, decide_eq_true_eq]
    intro h
    rw [h] at hx
    exact lt_irrefl _ hx
  have t2 : (⟨H - b.bbox.y1, b.bbox.x0, H - b.bbox.y0, b.bbox.x1⟩ : Rect).truthy = true := by
    simp only [Rect.truthy, decide_eq_true_eq]
    intro h
    have e0 : b.bbox.x0 = 0 := congrArg Rect.y0 h
    have e1 : b.bbox.x1 = 0 := congrArg Rect.y1 h
    rw [e0, e1] at hx
    exact lt_irrefl _ hx
  unfold El.inSameRow
  simp only [turnedBox, El.truthy, t1, t2, ha, hb, El.horizontal, El.ext]
  simp

theorem tu_next {H : ℚ} (l : Pose.TL) (ls : List Pose.TL) (hl : TuUp l) (hs : ∀ l ∈ ls, TuUp l) : Pose.sameNext (tuLine H l) (ls.map (tuLine H)) = Pose.sameNext l ls := by
  cases ls with
  | nil => rfl
  | cons n r => exact tu_row hl.1 (hs n (by simp)).1 (hs n (by simp)).2

theorem tu_blines {H : ℚ} (ws : Char → Bool) (f g : Rect → ℚ) (h : ∀ r, f (turnedBox H r) = H - g r) (ls : List Pose.TL) (hs : ∀ l ∈ ls, TuUp l) :
    Pose.breakLines ws f (ls.map (tuLine H)) = (Pose.breakLines ws g ls).map fun x => (H - x.1, x.2) := by
  induction ls with
  | nil => rfl
  | cons l r ih =>
    simp only [List.map_cons, Pose.breakLines]
    rw [ih fun l h => hs l (by simp [h]), tu_next l r (hs l (by simp)) fun l h => hs l (by simp [h])]
    congr 2
    exact h _

/-- The format of the turned paragraph. -/
def tuForm (f : Pose.Form) : Pose.Form := ⟨true, tuFlip f.hsp, f.breaks⟩

theorem tu_along (H : ℚ) (r : Rect) : Pose.along true (turnedBox H r) = tuExt H (Pose.along false r) := rfl

theorem tu_horizontal (c : Pose.Cfg) (hi : ∀ l, (c.whole.full.base.lay.iter l).Perm l) (H : ℚ) (box b : Rect) (ls : List Pose.TL) (hs : ∀ l ∈ ls, TuUp l) :
    Pose.horizontalSpacing c (turnedBox H box) true (turnedBox H b) (ls.map (tuLine H)) = (Pose.horizontalSpacing c box false b ls).map tuForm := by
  unfold Pose.horizontalSpacing
  rw [tu_group c.whole.full.base.lay.iter (tuLine H) (fun x y : Pose.TL => x.1.inSameRow y.1) (fun x y : Pose.TL => x.1.inSameRow y.1) ls
    fun a ha b hb => tu_row (hs a ha).1 (hs b hb).1 (hs b hb).2]
  obtain ⟨gs, hg, -, hne⟩ := C21_elements_conserved c.whole.full.base.lay.iter hi (fun x y : Pose.TL => x.1.inSameRow y.1) ls
  rw [hg]
  simp only [Except.map, Pose.sign, if_true, Bool.false_eq_true, if_false, tu_along]
  have e1 : (gs.map fun r => r.map (tuLine H)).map (fun r => r.map fun l => Pose.along true l.1.bbox) = (gs.map fun r => r.map fun l => Pose.along false l.1.bbox).map fun r => r.map (tuExt H) := by
    simp only [List.map_map, Function.comp_def]; rfl
  have e2 : (ls.map (tuLine H)).map (fun l => Pose.along true l.1.bbox) = (ls.map fun l => Pose.along false l.1.bbox).map (tuExt H) := by
    simp only [List.map_map, Function.comp_def]; rfl
  have hr : ∀ r ∈ (gs.map fun r => r.map fun l => Pose.along false l.1.bbox), r ≠ [] := by
    intro r h
    obtain ⟨g, hg, rfl⟩ := List.mem_map.1 h
    simpa using hne g hg
  rw [e1, e2, tu_parse H c.thr _ _ _ _ hr]
  generalize Para.parse (-1) c.thr (Pose.along false b) (Pose.along false box) (gs.map fun r => r.map fun l => Pose.along false l.1.bbox) (ls.map fun l => Pose.along false l.1.bbox) = s
  have ew : |(tuExt H (Pose.along false b)).2 - (tuExt H (Pose.along false b)).1| = |(Pose.along false b).2 - (Pose.along false b).1| := by
    show |H - b.y0 - (H - b.y1)| = |b.y0 - b.y1|
    rw [show H - b.y0 - (H - b.y1) = -(b.y0 - b.y1) by ring, abs_neg]
  rw [ew]
  have key : ∀ g : Rect → ℚ, ∀ f : Rect → ℚ, (∀ r, f (turnedBox H r) = H - g r) → ∀ d w : ℚ,
      Para.lineBreaks (f (turnedBox H b)) d w c.ratio (Pose.breakLines c.whole.ws f (ls.map (tuLine H))) = Para.lineBreaks (g b) d w c.ratio (Pose.breakLines c.whole.ws g ls) := by
    intro g f h d w
    rw [tu_blines c.whole.ws f g h ls hs, h, tu_breaks]
  have e3 := key (fun r => if s.align = .right then (Pose.along false r).1 else (Pose.along false r).2)
    (fun r => if (tuFlip s).align = .right then (Pose.along true r).1 else (Pose.along true r).2)
    (by intro r; show (if s.align = .right then _ else _) = H - (if s.align = .right then _ else _); split <;> rfl)
  have e4 := e3 (if s.align = .right then s.leftTotal - s.left else s.rightTotal - s.right) |(Pose.along false b).2 - (Pose.along false b).1|
  change (match Para.lineBreaks ((if (tuFlip s).align = .right then (Pose.along true (turnedBox H b)).1 else (Pose.along true (turnedBox H b)).2))
    (if s.align = .right then s.leftTotal - s.left else s.rightTotal - s.right) |(Pose.along false b).2 - (Pose.along false b).1| c.ratio
    (Pose.breakLines c.whole.ws (fun r => if (tuFlip s).align = .right then (Pose.along true r).1 else (Pose.along true r).2) (ls.map (tuLine H))) with
    | .error e => Except.error e
    | .ok brk => Except.ok (⟨true, tuFlip s, brk⟩ : Pose.Form)) = _
  rw [e4]
  cases Para.lineBreaks (if s.align = .right then (Pose.along false b).1 else (Pose.along false b).2)
    (if s.align = .right then s.leftTotal - s.left else s.rightTotal - s.right) |(Pose.along false b).2 - (Pose.along false b).1| c.ratio
    (Pose.breakLines c.whole.ws (fun r => if s.align = .right then (Pose.along false r).1 else (Pose.along false r).2) ls) <;> rfl

/-! ## Blocks -/

/-- A block as vertical spacing sees it, turned. -/
def tuVB (H : ℚ) (b : Spacing.VB) : Spacing.VB :=
  { b with bbox := turnedBox H b.bbox, first := ⟨turnedBox H b.first.bbox, .leftRight⟩, rest := b.rest.map fun e => ⟨turnedBox H e.bbox, .leftRight⟩, horizontal := true }

/-- Vertical text for vertical spacing. -/
def TuVB (b : Spacing.VB) : Prop :=
  b.kind = .text ∧ b.horizontal = false ∧ ∀ e ∈ b.first :: b.rest, e.dir = .bottomTop ∧ e.bbox.x0 < e.bbox.x1

theorem tu_count {H : ℚ} (r : Option El) (ls : List El) (hr : ∀ e ∈ r, e.dir = .bottomTop ∧ e.bbox.x0 < e.bbox.x1) (hs : ∀ e ∈ ls, e.dir = .bottomTop ∧ e.bbox.x0 < e.bbox.x1) :
    Spacing.countRows (r.map fun e => ⟨turnedBox H e.bbox, .leftRight⟩) (ls.map fun e => ⟨turnedBox H e.bbox, .leftRight⟩) = Spacing.countRows r ls := by
  induction ls generalizing r with
  | nil => rfl
  | cons l ls ih =>
    have h1 := hs l (by simp)
    have := ih (some l) (by simpa using h1) fun e h => hs e (by simp [h])
    simp only [List.map_cons, Spacing.countRows]
    rw [show (some (⟨turnedBox H l.bbox, .leftRight⟩ : El)) = (some l).map fun e : El => (⟨turnedBox H e.bbox, .leftRight⟩ : El) from rfl, this]
    cases r with
    | none => rfl
    | some e =>
      have h2 := hr e rfl
      simp only [Option.map_some]
      simp only [tu_row (H := H) h1.1 h2.1 h2.2]

theorem tu_line {H : ℚ} (b : Spacing.VB) (hb : TuVB b) (x : ℚ) : Spacing.parseLineSpacing true (tuVB H b) x = Spacing.parseLineSpacing false b x := by
  have e : (tuVB H b).rows = b.rows := tu_count none (b.first :: b.rest) (by simp) hb.2.2
  unfold Spacing.parseLineSpacing
  rw [e]
  rfl

theorem tu_dw {b : Spacing.VB} (hb : b.kind = .text) : b.dw = 0 := by
  unfold Spacing.VB.dw
  rw [hb]
  rfl

theorem tu_loop (H : ℚ) (page : Rect) (bs : List Spacing.VB) (hb : ∀ b ∈ bs, TuVB b) (acc : List (Spacing.VB × Spacing.Sp)) (x : ℚ) :
    Spacing.loop true (turnedBox H page) (acc.map fun p => (tuVB H p.1, p.2)) x (bs.map (tuVB H)) = (Spacing.loop false page acc x bs).map fun p => (tuVB H p.1, p.2) := by
  induction bs generalizing acc x with
  | nil => rfl
  | cons b bs ih =>
    have h := hb b (by simp)
    have hk : (tuVB H b).kind = .text := h.1
    simp only [List.map_cons, Spacing.loop]
    rw [hk, h.1]
    dsimp only
    rw [show (tuVB H b).horizontal = true from rfl, h.2.1, tu_line b h, tu_dw hk, tu_dw h.1, ← ih fun b h => hb b (by simp [h]), List.map_append]
    rfl

/-! ## Layouts -/

theorem tu_dir {b : Rect} {ls : List (Lay.Ln Tok)} {d : Dir} (hn : ls ≠ []) (hd : ∀ l ∈ ls, l.dir = d) (hi : d ≠ .ignore) : (Lay.Blk.text b ls).dir = d := by
  have e : (ls.map fun l => l.dir).dedup = [d] := by
    have e1 : ls.map (fun l => l.dir) = List.replicate ls.length d := by
      rw [List.eq_replicate_iff]
      refine ⟨List.length_map _, fun x hx => ?_⟩
      obtain ⟨l, hl, rfl⟩ := List.mem_map.1 hx
      exact hd l hl
    rw [e1]
    exact List.replicate_dedup (by simpa using hn)
  unfold Lay.Blk.dir
  dsimp only
  rw [e, if_neg (by simpa using fun h => hi h.symm), if_pos (by rfl)]
  rfl

theorem tu_tlines (H : ℚ) (ls : List (Lay.Ln Tok)) (ts : List Styl.TLine) :
    List.zipWith (fun (l : Lay.Ln Tok) (t : Styl.TLine) => ((⟨t.bbox, l.dir⟩, t.items) : Pose.TL)) (ls.map fun l => { l with bbox := turnedBox H l.bbox, dir := .leftRight })
      (ts.map fun t => { t with bbox := turnedBox H t.bbox, horizontal := true }) =
      (List.zipWith (fun (l : Lay.Ln Tok) (t : Styl.TLine) => ((⟨t.bbox, l.dir⟩, t.items) : Pose.TL)) ls ts).map (tuLine H) := by
  rw [List.zipWith_map, List.map_zipWith]
  rfl

theorem tu_up {ls : List (Lay.Ln Tok)} {s : Styl.TBlock} (hd : ∀ l ∈ ls, l.dir = .bottomTop) (hx : ∀ t ∈ s.lines, t.bbox.x0 < t.bbox.x1) : ∀ l ∈ Pose.tlines ls s, TuUp l := by
  intro x hx'
  unfold Pose.tlines at hx'
  rw [← List.map_uncurry_zip_eq_zipWith] at hx'
  obtain ⟨⟨l, t⟩, hm, rfl⟩ := List.mem_map.1 hx'
  exact ⟨hd l (List.of_mem_zip hm).1, hx t (List.of_mem_zip hm).2⟩

theorem tu_measure (c : Pose.Cfg) (hi : ∀ l, (c.whole.full.base.lay.iter l).Perm l) (H : ℚ) (box : Rect) (b : Deco.Blk) (hb : VerticalBlk b) :
    Pose.measure c (turnedBox H box) (turnedBlk H b) = (Pose.measure c box b).map fun m => (tuVB H m.1, m.2.map tuForm) := by
  match b, hb with
  | .text r ls s, ⟨hn, hd, hx⟩ =>
    have hu := tu_up hd hx
    have e1 : (Lay.Blk.text r ls).el.horizontal = false := by
      show decide ((Lay.Blk.text r ls).dir = .leftRight) = false
      rw [tu_dir hn hd (by decide)]; rfl
    have e2 : (Lay.Blk.text (turnedBox H r) (ls.map fun l => { l with bbox := turnedBox H l.bbox, dir := .leftRight }) : Lay.Blk Tok).el.horizontal = true := by
      simp only [El.horizontal, Lay.Blk.el, tu_dir (b := turnedBox H r) (ls := ls.map fun l => { l with bbox := turnedBox H l.bbox, dir := .leftRight }) (d := .leftRight)
        (by simpa using hn) (by simp) (by decide)]
      rfl
    have e3 : Pose.tlines (ls.map fun l => { l with bbox := turnedBox H l.bbox, dir := .leftRight }) ⟨turnedBox H s.bbox, s.lines.map fun t => { t with bbox := turnedBox H t.bbox, horizontal := true }⟩ =
        (Pose.tlines ls s).map (tuLine H) := tu_tlines H ls s.lines
    unfold turnedBlk Pose.measure
    dsimp only
    rw [e1, e2, e3, tu_horizontal c hi H box r _ hu]
    cases Pose.horizontalSpacing c box false r (Pose.tlines ls s) with
    | error e => rfl
    | ok f =>
      simp only [Except.map]
      cases Pose.tlines ls s with
      | nil => rfl
      | cons l rest =>
        simp only [List.map_cons, tuVB, Option.map_some, List.map_map]
        rfl

theorem tu_measures (c : Pose.Cfg) (hi : ∀ l, (c.whole.full.base.lay.iter l).Perm l) (H : ℚ) (box : Rect) (bs : List Deco.Blk) (hb : ∀ b ∈ bs, VerticalBlk b) :
    (bs.map (turnedBlk H)).mapM (Pose.measure c (turnedBox H box)) = (bs.mapM (Pose.measure c box)).map fun ms => ms.map fun m => (tuVB H m.1, m.2.map tuForm) := by
  induction bs with
  | nil => rfl
  | cons b bs ih =>
    rw [List.map_cons, List.mapM_cons, List.mapM_cons, tu_measure c hi H box b (hb b (by simp)), ih fun b h => hb b (by simp [h])]
    cases Pose.measure c box b with
    | error e => rfl
    | ok m =>
      cases bs.mapM (Pose.measure c box) with
      | error e => rfl
      | ok ms => rfl

theorem tu_text_dir {d : Dir} (es : List El) (hn : es ≠ []) (h : ∀ e ∈ es, e.dir = d) : Coll.textDirection es = d := by
  match es, hn with
  | e :: es, _ =>
    have h1 := h e (by simp)
    simp only [Coll.textDirection]
    rw [if_pos ?_, h1]
    rw [List.all_eq_true]
    intro x hx
    simp [h x (by simp [hx]), h1]

theorem tu_el {b : Deco.Blk} (hb : VerticalBlk b) : (Pose.el b).dir = .bottomTop := by
  match b, hb with
  | .text r ls s, ⟨hn, hd, _⟩ => exact tu_dir (b := r) hn hd (by decide)

theorem tu_el' {H : ℚ} {b : Deco.Blk} (hb : VerticalBlk b) : (Pose.el (turnedBlk H b)).dir = .leftRight := by
  match b, hb with
  | .text r ls s, ⟨hn, _, _⟩ => exact tu_dir (b := turnedBox H r) (by simpa using hn) (by simp) (by decide)

theorem tu_vb (c : Pose.Cfg) (box : Rect) (b : Deco.Blk) (hb : VerticalBlk b) (m : Spacing.VB × Option Pose.Form) (h : Pose.measure c box b = .ok m) :
    TuVB m.1 ∧ ∃ f, m.2 = some f ∧ f.horizontal = false := by
  match b, hb with
  | .text r ls s, ⟨hn, hd, hx⟩ =>
    have hu := tu_up hd hx
    have e1 : (Lay.Blk.text r ls).el.horizontal = false := by
      show decide ((Lay.Blk.text r ls).dir = .leftRight) = false
      rw [tu_dir hn hd (by decide)]; rfl
    unfold Pose.measure at h
    dsimp only at h
    rw [e1] at h
    cases hf : Pose.horizontalSpacing c box false r (Pose.tlines ls s) with
    | error e => rw [hf] at h; cases h
    | ok f =>
      rw [hf] at h
      dsimp only at h
      generalize Pose.tlines ls s = tl at hu h hf
      cases tl with
      | nil => cases h
      | cons l rest =>
        obtain rfl : _ = m := Except.ok.inj h
        refine ⟨⟨rfl, rfl, ?_⟩, f, rfl, ?_⟩
        · intro e he
          rcases List.mem_cons.1 he with rfl | he
          · exact hu l (by simp)
          · obtain ⟨t, ht, rfl⟩ := List.mem_map.1 he
            exact hu t (by simp [ht])
        · unfold Pose.horizontalSpacing at hf
          split at hf
          · cases hf
          · dsimp only at hf
            split at hf
            · cases hf
            · exact (Except.ok.inj hf) ▸ rfl

theorem tu_forms (c : Pose.Cfg) (hi : ∀ l, (c.whole.full.base.lay.iter l).Perm l) (H : ℚ) (box : Rect) (bs : List Deco.Blk) (hb : ∀ b ∈ bs, VerticalBlk b) :
    Pose.forms c (turnedBox H box) (bs.map (turnedBlk H)) = (Pose.forms c box bs).map fun fs => fs.map fun p => (p.1, p.2.map tuForm) := by
  cases hbs : bs with
  | nil => rfl
  | cons b0 bt =>
    rw [← hbs]
    have hne : bs ≠ [] := by rw [hbs]; simp
    unfold Pose.forms
    rw [tu_measures c hi H box bs hb]
    cases hm : bs.mapM (Pose.measure c box) with
    | error e => rfl
    | ok ms =>
      have hv : ∀ v ∈ ms.map Prod.fst, TuVB v := by
        intro v hv
        obtain ⟨m, hmm, rfl⟩ := List.mem_map.1 hv
        obtain ⟨b, hbb, he⟩ := fx_mapM_mem hm m hmm
        exact (tu_vb c box b (hb b hbb) m he).1
      have h1 : Pose.horizontal bs = false := by
        unfold Pose.horizontal
        rw [tu_text_dir (d := .bottomTop) _ (by simpa using hne) (by
          intro e he
          obtain ⟨b, hbb, rfl⟩ := List.mem_map.1 he
          exact tu_el (hb b hbb))]
        rfl
      have h2 : Pose.horizontal (bs.map (turnedBlk H)) = true := by
        unfold Pose.horizontal
        rw [tu_text_dir (d := .leftRight) _ (by simpa using hne) (by
          intro e he
          obtain ⟨b, hbb, rfl⟩ := List.mem_map.1 he
          obtain ⟨b', hb', rfl⟩ := List.mem_map.1 hbb
          exact tu_el' (hb b' hb'))]
        rfl
      have key := tu_loop H box (ms.map Prod.fst) hv [] box.x0
      simp only [Except.map, h1, h2]
      have e1 : (ms.map fun m => (tuVB H m.1, m.2.map tuForm)).map Prod.fst = (ms.map Prod.fst).map (tuVB H) := by simp only [List.map_map, Function.comp_def]
      have e2 : Spacing.parseSpacing true (turnedBox H box) ((ms.map Prod.fst).map (tuVB H)) = (Spacing.parseSpacing false box (ms.map Prod.fst)).map fun p => (tuVB H p.1, p.2) := key
      rw [e1, e2, List.zipWith_map, List.map_zipWith]

theorem tu_formed (c : Pose.Cfg) (box : Rect) (bs : List Deco.Blk) (hb : ∀ b ∈ bs, VerticalBlk b) (fs) (h : Pose.forms c box bs = .ok fs) :
    List.Forall₂ (fun (p : Spacing.Sp × Option Pose.Form) (_ : Deco.Blk) => ∃ f, p.2 = some f ∧ f.horizontal = false) fs bs := by
  unfold Pose.forms at h
  cases hm : bs.mapM (Pose.measure c box) with
  | error e => rw [hm] at h; cases h
  | ok ms =>
    rw [hm] at h
    obtain rfl := Except.ok.inj h
    have hl := congrArg List.length (po_spacing (Pose.horizontal bs) box (ms.map Prod.fst))
    rw [List.length_map, List.length_map] at hl
    have hf := pp_mapM_forall _ _ hm
    clear hm h
    revert hl
    generalize Spacing.parseSpacing (Pose.horizontal bs) box (ms.map Prod.fst) = ps
    intro hl
    induction hf generalizing ps with
    | nil => cases ps <;> exact .nil
    | cons hx _ ih =>
      cases ps with
      | nil => cases hl
      | cons p ps =>
        refine .cons ?_ (ih (fun b h => hb b (by simp [h])) ps (by simpa using hl))
        exact (tu_vb c box _ (hb _ (by simp)) _ hx).2

/-! ## What is written -/

theorem tu_content {α : Type} (l b0 l' b0' : ℚ) (st st' : List ℚ) (cur cur' : ℚ) (xs ys : List (Para.Ln α)) (h : List.Forall₂ (fun x y => x.content = y.content ∧ x.brk = y.brk) xs ys) :
    withoutTabs (Para.makeLines l b0 st cur xs) = withoutTabs (Para.makeLines l' b0' st' cur' ys) := by
  induction h generalizing cur cur' with
  | nil => rfl
  | cons h hs ih =>
    have ht : ∀ n : ℕ, withoutTabs (List.replicate n (Para.Out.tab : Para.Out α)) = [] := by
      intro n
      unfold withoutTabs
      rw [List.filter_eq_nil_iff]
      intro a ha
      rw [List.eq_of_mem_replicate ha]
      simp
    have ha : ∀ a b : List (Para.Out α), withoutTabs (a ++ b) = withoutTabs a ++ withoutTabs b := fun a b => List.filter_append ..
    have hc : ∀ (x : α) (b : List (Para.Out α)), withoutTabs (.content x :: b) = .content x :: withoutTabs b := fun x b => rfl
    simp only [Para.makeLines]
    rw [ha, ha, ht, ht, hc, hc, ha, ha, ih, h.1, h.2]

theorem tu_lns (H : ℚ) (ls : List Pose.TL) (hs : ∀ l ∈ ls, TuUp l) (brk : List Bool) :
    List.Forall₂ (fun x y => x.content = y.content ∧ x.brk = y.brk) (Pose.lns true (ls.map (tuLine H)) brk) (Pose.lns false ls brk) := by
  induction ls generalizing brk with
  | nil => exact .nil
  | cons l ls ih => exact .cons ⟨rfl, rfl⟩ (ih (fun l h => hs l (by simp [h])) _)

theorem tu_paragraph (H : ℚ) (b : Rect) (ls : List Pose.TL) (hs : ∀ l ∈ ls, TuUp l) (sp : Spacing.Sp) (f : Pose.Form) (hf : f.horizontal = false) :
    TurnedPar (Pose.paragraph b ls sp f) (Pose.paragraph (turnedBox H b) (ls.map (tuLine H)) sp (tuForm f)) := by
  constructor
  · rfl
  · show f.hsp.left - f.hsp.firstLine + f.hsp.firstLine = f.hsp.left - -f.hsp.firstLine + -f.hsp.firstLine
    ring
  · rfl
  · show f.hsp.firstLine = - -f.hsp.firstLine
    ring
  · rfl
  · rfl
  · unfold Pose.paragraph
    rw [hf]
    refine tu_content _ _ _ _ _ _ _ _ _ _ ?_
    exact (tu_lns H ls hs f.breaks).flip.imp fun _ _ h => ⟨h.1.symm, h.2.symm⟩

theorem tu_go (c : Pose.Cfg) (H : ℚ) (box : Rect) (bs : List Deco.Blk) (hb : ∀ b ∈ bs, VerticalBlk b) (fs : List (Spacing.Sp × Option Pose.Form))
    (hf : List.Forall₂ (fun (p : Spacing.Sp × Option Pose.Form) (_ : Deco.Blk) => ∃ f, p.2 = some f ∧ f.horizontal = false) fs bs) :
    ∃ xs ys, Pose.go c box fs bs = .ok xs ∧ Pose.go c (turnedBox H box) (fs.map fun p => (p.1, p.2.map tuForm)) (bs.map (turnedBlk H)) = .ok ys ∧ List.Forall₂ TurnedLook xs ys := by
  induction hf with
  | nil => exact ⟨[], [], by simp only [Pose.go], by simp only [List.map_nil, Pose.go], .nil⟩
  | @cons p b fs bs h hfs ih =>
    obtain ⟨xs, ys, h1, h2, h3⟩ := ih fun b h => hb b (by simp [h])
    obtain ⟨sp, fo⟩ := p
    obtain ⟨f, rfl, hf⟩ := h
    match b, hb b (by simp) with
    | .text r ls s, ⟨hn, hd, hx⟩ =>
      have hu := tu_up hd hx
      have e3 : Pose.tlines (ls.map fun l => { l with bbox := turnedBox H l.bbox, dir := .leftRight }) ⟨turnedBox H s.bbox, s.lines.map fun t => { t with bbox := turnedBox H t.bbox, horizontal := true }⟩ =
        (Pose.tlines ls s).map (tuLine H) := tu_tlines H ls s.lines
      refine ⟨_ :: xs, _ :: ys, ?_, ?_, .cons (show TurnedLook (.text _) (.text _) from tu_paragraph H r (Pose.tlines ls s) hu sp f hf) h3⟩
      · simp only [Pose.go, Pose.one, List.headD_cons, List.tail_cons, h1]
      · simp only [List.map_cons, turnedBlk, Pose.go, Pose.one, List.headD_cons, List.tail_cons, h2, Option.map_some, e3]

/-- **C125**: in a layout (the page, or a cell) of vertical text every paragraph is formatted as that of the same text turned to horizontal - alignment, start of the
first row, right indent, tab stops, spacing, lines and line breaks - but for the first line indent, which is opposite (see `C52_refuted_vertical`), and the tabs (see
`C54_refuted_vertical`). -/
theorem C125_turned_partial (c : Pose.Cfg) (hc : ∀ l, (c.whole.full.base.lay.iter l).Perm l) (H : ℚ) (box : Rect) (bs : List Deco.Blk) (hb : ∀ b ∈ bs, VerticalBlk b) :
    (∃ e, Pose.layout c box bs = .error e ∧ Pose.layout c (turnedBox H box) (bs.map (turnedBlk H)) = .error e) ∨
      ∃ xs ys, Pose.layout c box bs = .ok xs ∧ Pose.layout c (turnedBox H box) (bs.map (turnedBlk H)) = .ok ys ∧ List.Forall₂ TurnedLook xs ys := by
  unfold Pose.layout
  rw [tu_forms c hc H box bs hb]
  cases hf : Pose.forms c box bs with
  | error e => exact .inl ⟨e, rfl, rfl⟩
  | ok fs =>
    refine .inr ?_
    simp only [Except.map]
    exact tu_go c H box bs hb fs (tu_formed c box bs hb fs hf)

/-- A line of vertical text for the example. -/
def tuLn (r : Rect) : Lay.Ln Tok := ⟨r, .bottomTop, none, []⟩

/-- A block of vertical text for the example. -/
def tuBlk (b : Rect) (rs : List Rect) : Deco.Blk := .text b (rs.map tuLn) ⟨b, rs.map fun r => ⟨r, false, []⟩⟩

/-- Two columns of vertical text: a paragraph of three rows, the first indented by 20pt, and below (to the right) a row of two lines far apart. -/
def tuPage : List Deco.Blk :=
  [tuBlk ⟨100, 300, 145, 500⟩ [⟨100, 300, 110, 480⟩, ⟨115, 320, 125, 500⟩, ⟨130, 360, 145, 500⟩],
   tuBlk ⟨160, 250, 170, 500⟩ [⟨160, 400, 170, 500⟩, ⟨160, 250, 170, 300⟩]]

/-- What an example looks at: alignment, indents, tab stops and distances of paragraphs. -/
def tuSeen (x : Except Err (List Pose.Blk)) : Option (List (Option (Para.Align × (ℚ × ℚ × ℚ) × List ℚ × Spacing.Sp))) :=
  x.toOption.map fun l => l.map fun
    | .text p => some (p.align, p.indents, p.stops, p.space)
    | .table _ _ _ _ _ => none

set_option synthInstance.maxSize 1024 in
/-- Non-vacuity: both layouts of the example, and the same page turned. -/
example : (∀ l, (poCfg.whole.full.base.lay.iter l).Perm l) ∧ (∀ b ∈ tuPage, VerticalBlk b) ∧
    tuSeen (Pose.layout poCfg ⟨90, 50, 550, 600⟩ tuPage) =
      some [some (.left, (120, 100, -20), [], ⟨5 / 2, 0, 35 / 2⟩), some (.left, (100, 100, 0), [300], ⟨15, 0, 10⟩)] ∧
    tuSeen (Pose.layout poCfg (turnedBox 842 ⟨90, 50, 550, 600⟩) (tuPage.map (turnedBlk 842))) =
      some [some (.left, (80, 100, 20), [], ⟨5 / 2, 0, 35 / 2⟩), some (.left, (100, 100, 0), [300], ⟨15, 0, 10⟩)] := by
  refine ⟨fun l => List.Perm.refl l, ?_, by decide +kernel, by decide +kernel⟩
  intro b hb
  simp only [tuPage, List.mem_cons, List.not_mem_nil, or_false] at hb
  rcases hb with rfl | rfl <;> refine ⟨by simp, by simp [tuLn], ?_⟩ <;> decide +kernel

end Props
