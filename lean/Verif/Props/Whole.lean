import Verif.Spec.Whole
import Verif.Props.Pipe
import Verif.Props.PipePlain
import Verif.Props.FullTable
/-! # C108: a drawn table becomes a table of the document -/

namespace Props
open Geom Py Pipe Spec

section WPlace

theorem wh_place {β : Type} (r k : ℕ) (cs : List β) (h : cs.length = r * k) : place (fullGrid r k) cs = (List.range r).map fun i => (List.range k).map fun j => cs[i * k + j]? := by
  have row : ∀ (k : ℕ) (cs : List β), k ≤ cs.length → placeRow (List.replicate k true) cs = (List.range k).map fun j => cs[j]? := by
    intro k
    induction k with
    | zero => intro cs _; rfl
    | succ k ih =>
      intro cs hc
      cases cs with
      | nil => simp at hc
      | cons c cs =>
        rw [List.replicate_succ, placeRow, ih cs (by simpa using hc), List.range_succ_eq_map, List.map_cons, List.map_map]
        rfl
  unfold fullGrid
  induction r generalizing cs with
  | zero => rfl
  | succ r ih =>
    rw [List.replicate_succ, place, List.range_succ_eq_map, List.map_cons, List.map_map]
    have hk : k ≤ cs.length := by rw [h, Nat.succ_mul]; omega
    rw [row k cs hk]
    have e : (List.replicate k true).count true = k := by simp
    rw [e, ih _ (by rw [List.length_drop, h, Nat.succ_mul]; omega)]
    congr 1
    · simp
    · refine List.map_congr_left fun i _ => List.map_congr_left fun j _ => ?_
      rw [List.getElem?_drop]
      congr 1
      show k + (i * k + j) = (i + 1) * k + j
      ring

theorem wh_cells_map (ws : Char → Bool) (f : Fmt) (cs : List (Full.Cell × List (Full.Blk Tok))) : Whole.cells ws f cs = cs.map fun c => Whole.blocks ws f c.2 := by
  induction cs with
  | nil => rfl
  | cons c cs ih => obtain ⟨a, b⟩ := c; simp [Whole.cells, ih]

theorem wh_blocks_map (ws : Char → Bool) (f : Fmt) (bs : List (Full.Blk Tok)) : Whole.blocks ws f bs = bs.map (Whole.block ws f) := by
  induction bs with
  | nil => rfl
  | cons c cs ih => simp [Whole.blocks, ih]

theorem wh_ofBlocks_append {α : Type} (a b : List (Docx.Block α)) : ofBlocks (a ++ b) = ofBlocks a ++ ofBlocks b := by
  induction a with
  | nil => simp [ofBlocks]
  | cons x a ih => cases x <;> simp [ofBlocks, ih]

theorem wh_rows_map {α : Type} (rows : List (List (Option (List (Docx.Block α))))) : ofBlockRows rows = rows.map fun r => r.map fun c => c.map ofBlocks := by
  have row : ∀ r : List (Option (List (Docx.Block α))), ofBlockRow r = r.map fun c => c.map ofBlocks := by
    intro r
    induction r with
    | nil => simp [ofBlockRow]
    | cons c r ih => cases c <;> simp [ofBlockRow, ofBlockCell, ih]
  induction rows with
  | nil => simp [ofBlockRows]
  | cons r rows ih => simp [ofBlockRows, row, ih]

theorem wh_paragraph (ws : Char → Bool) (f : Fmt) (t : TBlk) (h : ∀ l ∈ t.2, LineOK l) (ht : ∀ l ∈ t.2, ∀ s ∈ l.spans, Tagged s.2) :
    parToks (paragraph ws f t) = t.2.flatMap Lay.lineItems := by
  rw [pp_parToks]
  unfold paragraph
  rw [C51_lines_once_in_order, List.map_map, List.flatMap_map]
  exact ly_zipIdx_flatMap _ _ _ fun l hl i => pp_line ws l (h l hl) (ht l hl) _ _

/-- Blocks that are text show their lines. -/
theorem wh_shows (ws : Char → Bool) (f : Fmt) (bs : List (Full.Blk Tok)) (ls : List (Lay.Ln Tok)) (h : ShowsDown bs ls) (hl : ∀ l ∈ ls, LineOK l)
    (ht : ∀ l ∈ ls, ∀ s ∈ l.spans, Tagged s.2) : ShowsLines ws (ofBlocks (Whole.blocks ws f bs)) ls := by
  obtain ⟨h1, h2, h3⟩ := h
  have key : ∀ bs : List (Full.Blk Tok), (∀ b ∈ bs, b.isText = true) → (∀ l ∈ bs.flatMap Full.Blk.lines, LineOK l ∧ ∀ s ∈ l.spans, Tagged s.2) →
      (∀ t ∈ ofBlocks (Whole.blocks ws f bs), ∃ p, t = .text p) ∧
      (leaves (ofBlocks (Whole.blocks ws f bs))).flatMap parToks = (bs.flatMap Full.Blk.lines).flatMap Lay.lineItems := by
    intro bs
    induction bs with
    | nil => intro _ _; exact ⟨by simp [Whole.blocks, ofBlocks], by simp [Whole.blocks, ofBlocks, leaves]⟩
    | cons b bs ih =>
      intro hb hls
      obtain ⟨i1, i2⟩ := ih (fun x hx => hb x (by simp [hx])) (fun l hl => hls l (by rw [List.flatMap_cons]; exact List.mem_append_right _ hl))
      cases b with
      | table _ _ _ => cases hb _ List.mem_cons_self
      | text r ls =>
        simp only [Whole.blocks, Whole.block, ofBlocks, leaves]
        refine ⟨?_, ?_⟩
        · intro t ht
          rcases List.mem_cons.1 ht with rfl | ht
          · exact ⟨_, rfl⟩
          · exact i1 t ht
        · have hh : ∀ l ∈ ls, LineOK l ∧ ∀ s ∈ l.spans, Tagged s.2 := fun l hl => hls l (by rw [List.flatMap_cons]; exact List.mem_append_left _ hl)
          rw [List.flatMap_cons, i2, wh_paragraph ws f (r, ls) (fun l hl => (hh l hl).1) (fun l hl => (hh l hl).2), List.flatMap_cons, List.flatMap_append]
          rfl
  obtain ⟨k1, k2⟩ := key bs h1 fun l hl' => ⟨hl l (h2.subset hl'), ht l (h2.subset hl')⟩
  refine ⟨k1, _, h2, h3, ?_⟩
  unfold shownIn
  rw [k2]
  unfold seen
  rw [List.filter_flatMap]

end WPlace

section WMain
variable {π : Type} {X Y : ℕ → ℚ} {r k : ℕ} {W gap : ℚ}

theorem wh_section (c : Whole.Cfg) (depth : ℕ) (p0 : π) (pages : List (Whole.Page π)) (d : Docx.Doc Par Sp π) (h : Whole.convert c depth p0 pages = .ok d)
    (i : ℕ) (p : Whole.Page π) (s : π × List (Docx.Item Par Sp π)) (hp : pages[i]? = some p) (hs : (sectionsOf d)[i]? = some s) :
    ∃ dd, Whole.parsePage c depth p = .ok dd ∧ ofItems s.2 = ofBlocks dd.blocks := by
  unfold Whole.convert at h
  cases hm : pages.mapM (Whole.parsePage c depth) with
  | error e => rw [hm] at h; cases h
  | ok ds =>
    rw [hm] at h
    obtain rfl := Except.ok.inj h
    have hall := pp_mapM_forall pages ds hm
    have hdne : ds ≠ [] := by
      rintro rfl
      rw [List.forall₂_nil_right_iff.1 hall] at hp
      cases hp
    have hsec := C31_one_section_per_page p0 ds hdne
    obtain ⟨hi1, rfl⟩ := List.getElem?_eq_some_iff.1 hp
    have hi2 : i < ds.length := hall.length_eq ▸ hi1
    refine ⟨ds[i], by simpa using hall.get hi1 hi2, ?_⟩
    have := congrArg (fun l => l[i]?) hsec
    simp only [List.getElem?_map, hs, List.getElem?_eq_getElem hi2, Option.map_some, Option.some.injEq] at this
    exact (Prod.mk.inj this).2

theorem wh_gridCells (X Y : ℕ → ℚ) (r k i j : ℕ) (hi : i < r) (hj : j < k) : (gridCells X Y r k)[i * k + j]? = some (gridCell X Y i j) := by
  unfold gridCells
  induction r generalizing Y i with
  | zero => omega
  | succ r ih =>
    rw [List.range_succ_eq_map, List.flatMap_cons, List.flatMap_map]
    cases i with
    | zero =>
      rw [List.getElem?_append_left (by simpa using hj)]
      simp [hj]
    | succ i =>
      rw [List.getElem?_append_right (by simp [Nat.succ_mul]; omega)]
      have := ih (fun n => Y (n + 1)) i (by omega)
      rw [show (i + 1) * k + j - ((List.range k).map fun j => gridCell X Y 0 j).length = i * k + j by simp [Nat.succ_mul]; omega]
      exact this

theorem wh_gridCells_length (X Y : ℕ → ℚ) (r k : ℕ) : (gridCells X Y r k).length = r * k := by
  unfold gridCells
  rw [List.length_flatMap]
  simp

end WMain

end Props
