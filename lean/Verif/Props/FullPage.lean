import Verif.Props.Full
import Verif.Spec.RuledGrid
/-! # The layout of a page with its shapes (C58, C83) -/

namespace Props
open Py Geom Spec

section FullPage
open Full

variable {α : Type}

/-- All lines of a layout with shapes, at every nesting. -/
def shLines (bs : List (Full.Blk α)) : List (Lay.Ln α) := Lay.allLines (bs.map Blk.erase)

theorem fl_texts_sort (bs : List (Full.Blk α)) : (Lay.texts (Lay.sortBlocks (bs.map Blk.erase))).Perm (Lay.texts (bs.map Blk.erase)) := by
  rw [ly_texts_flatMap, ly_texts_flatMap]
  exact (ly_sort_perm _).flatMap_right _

/-- **C83** (with the tables actually found, from the drawings and text of the page): every line in the parsed page is a line of the source page or a part of one. -/
theorem C83_shapes_nothing_invented (c : Full.Cfg) (hi : ∀ l, (c.base.lay.iter l).Perm l) (fmt : Format α) (nid : Lay.Ids) (depth : ℕ) (page : Rect) (shapes : List Sh)
    (bs r : List (Full.Blk α)) (ty : Types) (ho : Full.parsePage c fmt nid depth page shapes bs = .ok (r, ty)) :
    ∀ l ∈ shLines r, ∃ l0 ∈ shLines bs, l.dir = l0.dir ∧ (Lay.lineItems l).Sublist (Lay.lineItems l0) := by
  obtain ⟨D, _, hD⟩ := fl_refines c fmt nid depth page shapes bs
  rw [ho] at hD
  intro l hl
  obtain ⟨l0, h0, h1⟩ := C83_nothing_invented c.base.lay hi D nid depth page _ _ hD l hl
  refine ⟨l0, ?_, h1⟩
  unfold Lay.allLines at h0
  obtain ⟨t, ht, h0⟩ := List.mem_flatMap.1 h0
  exact List.mem_flatMap.2 ⟨t, (fl_texts_sort bs).subset ht, h0⟩

/-- **C83** (with the tables actually found): lines stay in their block, spans in their line, characters in their span. -/
theorem C83_shapes_boxes_nested (c : Full.Cfg) (hi : ∀ l, (c.base.lay.iter l).Perm l) (fmt : Format α) (nid : Lay.Ids) (depth : ℕ) (page : Rect) (shapes : List Sh)
    (bs r : List (Full.Blk α)) (ty : Types) (hok : ∀ t ∈ Lay.texts (bs.map Blk.erase), TextOK t)
    (ho : Full.parsePage c fmt nid depth page shapes bs = .ok (r, ty)) : ∀ t ∈ Lay.texts (r.map Blk.erase), TextOK t := by
  obtain ⟨D, _, hD⟩ := fl_refines c fmt nid depth page shapes bs
  rw [ho] at hD
  exact C83_boxes_stay_nested c.base.lay hi D nid depth page _ _ (fun t ht => hok t ((fl_texts_sort bs).subset ht)) hD

/-- **C83** (with the tables actually found): parsing the layout of a page fails only with the `IndexError` of `C58_refuted_axis`, or with a `RecursionError`. -/
theorem C83_shapes_exceptions (c : Full.Cfg) (hi : ∀ l, (c.base.lay.iter l).Perm l) (fmt : Format α) (nid : Lay.Ids) (depth : ℕ) (page : Rect) (shapes : List Sh)
    (bs : List (Full.Blk α)) (hok : ∀ t ∈ Lay.texts (bs.map Blk.erase), TextOK t) (e : Err)
    (ho : Full.parsePage c fmt nid depth page shapes bs = .error e) : e = .exn "RecursionError" ∨ e = .index := by
  obtain ⟨D, hE, hD⟩ := fl_refines c fmt nid depth page shapes bs
  rw [ho] at hD
  rcases C83_no_exception c.base.lay hi D nid depth page _ (fun t ht => hok t ((fl_texts_sort bs).subset ht)) e hD with h | ⟨p, b, s, bs', h⟩
  · exact .inl h
  · exact .inr (hE _ _ _ _ _ h)

end FullPage

/-! ## Examples -/

section FullExample
open Full

/-- The default settings. -/
def fpCfg : Full.Cfg := ⟨⟨⟨id, 1 / 10, 5⟩, 2, 6, id⟩, 1 / 2⟩

/-- A block with one line. -/
def fpText (b : Rect) (n : ℕ) : Full.Blk ℕ := .text b [⟨b, .leftRight, some n, [(b, .text b [(b, n)])]⟩]

/-- No text is styled by shapes. -/
def fpFmt : Format ℕ := fun _ _ _ _ => []

/-- The parsed page. -/
def fpRun (shapes : List Sh) (bs : List (Full.Blk ℕ)) : Except Err (List (Full.Blk ℕ) × Types) :=
  Full.parsePage fpCfg fpFmt (fun _ _ _ _ _ => 0) 4 ⟨0, 0, 400, 600⟩ shapes bs

/-- The error, if any. -/
def fpError {β : Type} : Except Err β → Option Err
  | .error e => some e
  | .ok _ => none

/-- An axis with tick marks. -/
def fpAxis : List Sh := [.stroke ⟨100, 100, 100, 300, ⟨199 / 2, 100, 201 / 2, 300⟩, 1, 0⟩, .stroke ⟨97, 100, 100, 100, ⟨97, 199 / 2, 100, 201 / 2⟩, 1, 0⟩,
  .stroke ⟨97, 200, 100, 200, ⟨97, 399 / 2, 100, 401 / 2⟩, 1, 0⟩, .stroke ⟨97, 300, 100, 300, ⟨97, 599 / 2, 100, 601 / 2⟩, 1, 0⟩]

/-- **C58** (refuted, for the whole page): a page whose only drawing is an axis with tick marks is not converted: its layout fails with an `IndexError`. -/
theorem C58_refuted_page : fpError (fpRun fpAxis [fpText ⟨20, 20, 300, 30⟩ 1]) = some .index := by decide +kernel

/-- What a reader sees of a block: the characters of a text block, or the characters of each cell of a table. -/
def fpView (b : Full.Blk ℕ) : List ℕ ⊕ List (List ℕ) :=
  match b with
  | .text _ ls => .inl (ls.flatMap Lay.lineItems)
  | .table _ _ cs => .inr (cs.map fun c => Lay.items (c.2.map Blk.erase))

/-- The blocks of the parsed page, as a reader sees them. -/
def fpSeen (shapes : List Sh) (bs : List (Full.Blk ℕ)) : Option (List (List ℕ ⊕ List (List ℕ))) := (fpRun shapes bs).toOption.map fun r => r.1.map fpView

/-- A grid of 2 × 2 cells. -/
def fpGrid : List Sh := (gridStrokes (fun j => 100 + 100 * j) (fun i => 100 + 50 * i) 2 2 1).map Sh.stroke

/-- Three texts in the grid, one above, one below. -/
def fpPage : List (Full.Blk ℕ) := [fpText ⟨20, 20, 300, 30⟩ 1, fpText ⟨110, 110, 150, 120⟩ 2, fpText ⟨210, 110, 250, 120⟩ 3, fpText ⟨110, 160, 150, 170⟩ 4,
  fpText ⟨20, 400, 300, 410⟩ 5]

example : fpSeen fpGrid fpPage = some [.inl [1], .inr [[2], [3], [4], []], .inl [5]] := by decide +kernel

end FullExample

end Props
