import Verif.Props.Positions
import Verif.Spec.TablePlaces
/-! # Text and tables of a layout as a word processor sets them (for C127) -/

namespace Props
open Geom Py Pipe Spec

section Flow127
open Spacing (VB)

/-- A block of text in one column, or a table. -/
def LaidBlk : Deco.Blk → Prop
  | .text b ls s => Laid (b, ls, s)
  | .table _ _ _ => True

/-- A written block belongs to a parsed one with the given distances. -/
def Flows : Deco.Blk → Pose.Blk → VB × Spacing.Sp → Prop
  | .text b ls _, .text q, p => p.1.kind = .text ∧ q.space = Write.written p.2 ∧ (lineTexts q.content).length = p.1.rows ∧ ShowsRows q ls ∧ p.1.rows = ls.length ∧ p.1.bbox = b
  | .table b g cs, .table b' _ before g' _, p => p.1.kind = .table ∧ before = p.2.before ∧ p.1.bbox = b ∧ b' = b ∧ g' = g ∧ Pose.firstTop g cs = .ok p.1.topBorder
  | _, _, _ => False

theorem tq_go (c : Pose.Cfg) (box : Rect) (bs : List Deco.Blk) (hl : ∀ b ∈ bs, LaidBlk b) (ms : List (VB × Option Pose.Form)) (hm : List.Forall₂ (fun b m => Pose.measure c box b = .ok m) bs ms)
    (ps : List (VB × Spacing.Sp)) (hp : ps.map Prod.fst = ms.map Prod.fst) (xs : List Pose.Blk)
    (h : Pose.go c box (List.zipWith (fun s m => (s.2, m.2)) ps ms) bs = .ok xs) :
    List.Forall₂ (fun (y : Deco.Blk × VB × Spacing.Sp) x => Flows y.1 x y.2) (bs.zip ps) xs := by
  induction hm generalizing ps xs with
  | nil =>
    obtain rfl := Except.ok.inj h
    exact .nil
  | @cons b m bs ms hb hm ih =>
    cases ps with
    | nil => cases hp
    | cons p ps =>
      obtain ⟨hp1, hp2⟩ := List.cons.inj hp
      rw [List.zipWith_cons_cons] at h
      unfold Pose.go at h
      rw [List.headD_cons, List.tail_cons] at h
      cases h1 : Pose.one c box (p.2, m.2) b with
      | error e => rw [h1] at h; cases h
      | ok x =>
        rw [h1] at h
        dsimp only at h
        cases h2 : Pose.go c box (List.zipWith (fun s m => (s.2, m.2)) ps ms) bs with
        | error e => rw [h2] at h; cases h
        | ok r =>
          rw [h2] at h
          obtain rfl := Except.ok.inj h
          rw [List.zip_cons_cons]
          refine .cons ?_ (ih (fun b hb => hl b (by simp [hb])) ps hp2 _ h2)
          have hlb := hl b (by simp)
          cases b with
          | text bb ls s =>
            obtain ⟨k1, k2, k3, k4, f, k5, k6⟩ := ps_measure c box (t := (bb, ls, s)) hlb m hb
            have hr := ps_rows (t := (bb, ls, s)) hlb m.1 k3
            rw [k5] at h1
            unfold Pose.one at h1
            obtain rfl := Except.ok.inj h1
            have ec := po_paragraph bb ls s (ps_length (t := (bb, ls, s)) hlb) p.2 f
            refine ⟨by rw [hp1, k1], rfl, ?_, ?_, by rw [hp1, hr], by rw [hp1, k2]⟩
            · rw [ec, List.length_map, ps_length (t := (bb, ls, s)) hlb, hp1, hr]
            · unfold ShowsRows
              rw [ec, List.map_map]
              exact hlb.same
          | table bb g cs =>
            unfold Pose.measure at hb
            dsimp only at hb
            cases ht : Pose.firstTop g cs with
            | error e => rw [ht] at hb; cases hb
            | ok t =>
              rw [ht] at hb
              obtain rfl := Except.ok.inj hb
              unfold Pose.one at h1
              cases hcs : Pose.cells c cs with
              | error e => rw [hcs] at h1; cases h1
              | ok r =>
                rw [hcs] at h1
                obtain rfl := Except.ok.inj h1
                refine ⟨by rw [hp1], rfl, by rw [hp1], rfl, rfl, by rw [hp1]; exact ht⟩

/-- The blocks of a layout with their distances, and what is written. -/
theorem tq_layout (c : Pose.Cfg) (box : Rect) (bs : List Deco.Blk) (hl : ∀ b ∈ bs, LaidBlk b) (xs : List Pose.Blk) (h : Pose.layout c box bs = .ok xs) :
    ∃ ms : List (VB × Option Pose.Form), List.Forall₂ (fun b m => Pose.measure c box b = .ok m) bs ms ∧
      List.Forall₂ (fun (y : Deco.Blk × VB × Spacing.Sp) x => Flows y.1 x y.2) (bs.zip (Spacing.parseSpacing (Pose.horizontal bs) box (ms.map Prod.fst))) xs := by
  unfold Pose.layout at h
  cases h1 : Pose.forms c box bs with
  | error e => rw [h1] at h; cases h
  | ok fs =>
    rw [h1] at h
    dsimp only at h
    unfold Pose.forms at h1
    cases hm : bs.mapM (Pose.measure c box) with
    | error e => rw [hm] at h1; cases h1
    | ok ms =>
      rw [hm] at h1
      obtain rfl := Except.ok.inj h1
      have hf := pp_mapM_forall _ _ hm
      exact ⟨ms, hf, tq_go c box bs hl ms hf _ (po_spacing _ _ _) _ h⟩

/-- The heights of the tables among blocks. -/
def tableHeights (ps : List VB) : List ℚ := (ps.filter fun b => decide (b.kind = .table)).map fun b => Spacing.hi true b.bbox - Spacing.lo true b.bbox + 2 * halfBorder b

theorem tq_blank {ι π : Type} (y : ℚ) (hs : List ℚ) (is : List (Docx.Item Pose.Par ι π)) (h : ∀ i ∈ is, ∃ s fs, i = .para none s fs) : bodyEnds y hs is = [] := by
  induction is generalizing y with
  | nil => rfl
  | cons i is ih =>
    obtain ⟨s, fs, rfl⟩ := h i (by simp)
    unfold bodyEnds
    exact ih _ fun i hi => h i (by simp [hi])

/-- What a word processor does with the items is what it does with the distances of the blocks. -/
theorem tq_ends {ι π : Type} (top pos : ℚ) (pre : Bool) (bs : List Deco.Blk) (ps : List (VB × Spacing.Sp)) (xs : List Pose.Blk) (hlen : bs.length = ps.length)
    (h : List.Forall₂ (fun (y : Deco.Blk × VB × Spacing.Sp) x => Flows y.1 x y.2) (bs.zip ps) xs) (ha : ∀ p ∈ ps, p.1.kind = .table → p.2.after = 0)
    (rest : List (Docx.Item Pose.Par ι π)) (hr : ∀ i ∈ rest, ∃ s fs, i = .para none s fs) :
    bodyEnds (top + pos) (tableHeights (ps.map Prod.fst)) (Docx.renderBlocks false (Pose.blocks xs) pre ++ rest) = (ends true pos pre (ps.map Write.writtenBlock)).map (top + ·) := by
  induction bs generalizing ps xs pos pre with
  | nil =>
    obtain rfl : ps = [] := List.length_eq_zero_iff.1 hlen.symm
    cases h
    simp only [Pose.blocks, Docx.renderBlocks, List.nil_append, ends, List.map_nil]
    exact tq_blank _ _ _ hr
  | cons b bs ih =>
    cases ps with
    | nil => cases hlen
    | cons p ps =>
      rw [List.zip_cons_cons] at h
      cases h with
      | @cons _ x _ xs hx h =>
        have i := fun pos pre => ih pos pre ps xs (by simpa using hlen) h (fun p hp => ha p (by simp [hp]))
        obtain ⟨v, s⟩ := p
        dsimp only at hx
        cases b with
        | text bb ls st =>
          cases x with
          | table _ _ _ _ _ => exact absurd hx (by simp [Flows])
          | text q =>
            obtain ⟨h1, h2, h3, -⟩ := hx
            dsimp only at h1 h2 h3
            have e : Write.writtenBlock (v, s) = (v, Write.written s) := by unfold Write.writtenBlock; rw [if_neg (by rw [h1]; simp)]
            have es : contentHeight true pre v (Write.written s) = setHeight q := by unfold contentHeight setHeight; rw [h1, h2, h3]
            have et : tableHeights (v :: ps.map Prod.fst) = tableHeights (ps.map Prod.fst) := by unfold tableHeights; rw [List.filter_cons_of_neg (by rw [h1]; simp)]
            rw [List.map_cons, List.map_cons, e]
            simp only [Pose.blocks, Pose.block, Docx.renderBlocks, List.cons_append, bodyEnds, ends, List.map_cons]
            rw [es, et]
            have hd : decide (v.kind = Spacing.Kind.table) = false := by rw [h1]; rfl
            rw [hd]
            have := i (pos + setHeight q + (Write.written s).after) false
            rw [← this, h2, add_assoc top pos, add_assoc top, add_assoc pos]
        | table bb g cs =>
          cases x with
          | text _ => exact absurd hx (by simp [Flows])
          | table b' ind before g' cs' =>
            obtain ⟨h1, h2, -⟩ := hx
            dsimp only at h1 h2
            have e : Write.writtenBlock (v, s) = (v, s) := by unfold Write.writtenBlock; rw [if_pos h1]
            have h0 : s.after = 0 := ha (v, s) (by simp) h1
            have et : tableHeights (v :: ps.map Prod.fst) = (Spacing.hi true v.bbox - Spacing.lo true v.bbox + 2 * halfBorder v) :: tableHeights (ps.map Prod.fst) := by
              unfold tableHeights; rw [List.filter_cons_of_pos (by rw [h1]; rfl), List.map_cons]
            have hd : decide (v.kind = Spacing.Kind.table) = true := by rw [h1]; rfl
            have es : contentHeight true pre v s = spacerHeight pre before + (Spacing.hi true v.bbox - Spacing.lo true v.bbox + 2 * halfBorder v) := by
              unfold contentHeight; rw [h1, h2]; dsimp only; ring
            have hsp : ∀ (y : ℚ) (hs : List ℚ) (is : List (Docx.Item Pose.Par ι π)), bodyEnds y hs (Docx.spacer before pre ++ is) = bodyEnds (y + spacerHeight pre before) hs is := by
              intro y hs is
              unfold Docx.spacer spacerHeight
              split_ifs
              · rw [List.singleton_append, bodyEnds, Option.getD_some]
              · rw [List.nil_append, add_zero]
            rw [List.map_cons, List.map_cons, e, et]
            simp only [Pose.blocks, Pose.block, Docx.renderBlocks, List.append_assoc, ends, List.map_cons, Bool.false_eq_true, if_false, List.nil_append]
            rw [hsp, List.cons_append, bodyEnds, List.headD_cons, List.tail_cons, es, hd, h0, add_zero]
            have := i (pos + (spacerHeight pre before + (Spacing.hi true v.bbox - Spacing.lo true v.bbox + 2 * halfBorder v))) true
            rw [← this]
            congr 1
            · ring
            · congr 1
              ring

theorem tq_after (h : Bool) (page : Rect) (blocks : List VB) : ∀ p ∈ Spacing.parseSpacing h page blocks, p.1.kind = .table → p.2.after = 0 := by
  have key : ∀ (bs : List VB) prev ref, ∀ p ∈ direct h page prev ref bs, p.1.kind = .table → p.2.after = 0 := by
    intro bs
    induction bs with
    | nil => intro prev ref p hp; cases hp
    | cons b bs ih =>
      intro prev ref p hp hk
      unfold direct at hp
      rcases List.mem_cons.1 hp with rfl | hp
      · dsimp only at hk ⊢
        rw [hk]
        cases bs <;> simp [afterFor]
      · exact ih _ _ p hp hk
  have e0 : fixAfter h page [] (Spacing.lo h page) blocks = [] := by cases blocks <;> rfl
  unfold Spacing.parseSpacing
  rw [loop_eq, e0, List.nil_append]
  exact key _ _ _

/-- By how much a block may be off: the rounding of its distances, 0.1pt for the blank paragraph above a table. -/
def blkTol (v : VB) : ℚ := drift v + if v.kind = .table then 1 / 10 else 0

theorem tq_spaced (prev : Option Spacing.Kind) (vs : List VB) : (spaced prev vs : ℚ) / 10 + (vs.map drift).sum ≤ (vs.map blkTol).sum := by
  induction vs generalizing prev with
  | nil => simp [spaced]
  | cons v vs ih =>
    have := ih (some v.kind)
    unfold spaced
    rw [List.map_cons, List.map_cons, List.sum_cons, List.sum_cons]
    have hv : ((if v.kind = .table ∧ (prev = none ∨ prev = some .table) then 1 else 0 : ℕ) : ℚ) / 10 + drift v ≤ blkTol v := by
      unfold blkTol
      by_cases h : v.kind = .table
      · by_cases h2 : prev = none ∨ prev = some .table
        · rw [if_pos ⟨h, h2⟩, if_pos h]; norm_num; linarith
        · rw [if_neg (fun x => h2 x.2), if_pos h]; norm_num
      · rw [if_neg (fun x => h x.1), if_neg h]; norm_num
    push_cast at hv ⊢
    linarith

theorem tq_lengths (h : Bool) (pos : ℚ) (pre : Bool) (ps : List (VB × Spacing.Sp)) : (ends h pos pre ps).length = ps.length := by
  induction ps generalizing pos pre with
  | nil => rfl
  | cons p ps ih => obtain ⟨b, s⟩ := p; simp [ends, ih]

/-- A written block belongs to a parsed one with the given measure. -/
def Flown (y : Deco.Blk × VB) (x : Pose.Blk) : Prop := ∃ s, Flows y.1 x (y.2, s)

/-- The paragraphs and tables of a layout, and where a word processor sets them. -/
theorem tq_page (c : Pose.Cfg) (box : Rect) (bs : List Deco.Blk) (hl : ∀ b ∈ bs, LaidBlk b) (hh : Pose.horizontal bs = true) (xs : List Pose.Blk) (h : Pose.layout c box bs = .ok xs) :
    ∃ ms : List (VB × Option Pose.Form), List.Forall₂ (fun b m => Pose.measure c box b = .ok m) bs ms ∧ List.Forall₂ Flown (bs.zip (ms.map Prod.fst)) xs ∧
      (Stacked true box box.y0 none (ms.map Prod.fst) → ∀ {ι π : Type} (rest : List (Docx.Item Pose.Par ι π)), (∀ i ∈ rest, ∃ s fs, i = .para none s fs) →
        (bodyEnds box.y0 (tableHeights (ms.map Prod.fst)) (Docx.renderBlocks false (Pose.blocks xs) false ++ rest)).length = bs.length ∧
        ∀ k y v, (bodyEnds box.y0 (tableHeights (ms.map Prod.fst)) (Docx.renderBlocks false (Pose.blocks xs) false ++ rest))[k]? = some y → (ms.map Prod.fst)[k]? = some v →
          |y - (v.bbox.y1 + halfBorder v)| ≤ (((ms.map Prod.fst).take (k + 1)).map blkTol).sum) := by
  obtain ⟨ms, h1, h2⟩ := tq_layout c box bs hl xs h
  rw [hh] at h2
  have hfst := po_spacing true box (ms.map Prod.fst)
  have haft := tq_after true box (ms.map Prod.fst)
  have hdr := C102_drift true box (ms.map Prod.fst)
  have hpos := C53_vertical_positions_partial true box (ms.map Prod.fst)
  generalize hps : Spacing.parseSpacing true box (ms.map Prod.fst) = ps at h2 hfst haft hdr hpos
  have hlen : bs.length = ps.length := by
    have := congrArg List.length hfst
    rw [List.length_map, List.length_map] at this
    rw [h1.length_eq, this]
  refine ⟨ms, h1, ?_, ?_⟩
  · rw [← hfst, List.zip_map_right, List.forall₂_map_left_iff]
    exact h2.imp fun y x hx => ⟨y.2.2, hx⟩
  intro hs ι π rest hrest
  have he := tq_ends box.y0 0 false bs ps xs hlen h2 haft rest hrest
  rw [add_zero, hfst] at he
  rw [he]
  refine ⟨by rw [List.length_map, tq_lengths, List.length_map, hlen], ?_⟩
  intro k y v hy hv
  rw [List.getElem?_map] at hy
  obtain ⟨a', ha', rfl⟩ := Option.map_eq_some_iff.1 hy
  obtain ⟨e, g1, g2, g3⟩ := hpos hs k v hv
  have hd := hdr k e a' g1 ha'
  have hsp := tq_spaced none ((ms.map Prod.fst).take (k + 1))
  have hds : ((ps.take (k + 1)).map fun x => drift x.1).sum = (((ms.map Prod.fst).take (k + 1)).map drift).sum := by
    rw [← hfst, ← List.map_take, List.map_map]
    rfl
  rw [hds] at hd
  have hhi : Spacing.hi true v.bbox + halfBorder v - Spacing.lo true box = v.bbox.y1 + halfBorder v - box.y0 := by simp [Spacing.hi, Spacing.lo, El.ext]
  rw [hhi] at g2 g3
  rw [abs_le] at hd ⊢
  constructor <;> linarith [hd.1, hd.2]

end Flow127
end Props
