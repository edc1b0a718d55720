import Verif.Collection
import Verif.Graph
import Verif.Sweep
/-! # Lines of a text block: sorting, joining, splitting back; joining blocks side by side; floating images

Models text/Lines.py `sort` (L156-198), `join` (L57-126), `split_back` (L129-141), and page/Blocks.py `identify_floating_images`
(L174-202), `join_horizontally` (L416-458). A line is seen through its box, text direction, original parent (`pid`) and spans (a
box and an opaque content each). Set iteration orders inside `group` are the parameter `iter` (see `Graph.lean`). -/

namespace Lns
open Geom Py

/-- `Line` (text/Line.py L27-53). -/
structure Ln (σ : Type) where
  bbox : Rect
  dir : Dir
  pid : Option ℕ
  spans : List (Rect × σ)
  deriving DecidableEq

variable {σ : Type}

/-- The line as the geometric predicates see it. -/
def Ln.el (l : Ln σ) : El := ⟨l.bbox, l.dir⟩

/-- `Line.add` of a list of spans (text/Line.py L136-146): `Collection.append` skips spans without a box. -/
def Ln.add (l : Ln σ) (ss : List (Rect × σ)) : Ln σ :=
  ss.foldl (fun l s => if s.1.truthy then { l with bbox := Coll.unionBbox l.bbox s.1, spans := l.spans ++ [s] } else l) l

/-- `Lines.append` (Lines.py L27-37): lines without a box are skipped. -/
def appendLine (ls : List (Ln σ)) (l : Ln σ) : List (Ln σ) := if l.bbox.truthy then ls ++ [l] else ls

/-! ## Sorting -/

/-- `Collection.sort_in_reading_order` (common/Collection.py L221-229). -/
def readingSort (ls : List (Ln σ)) : List (Ln σ) :=
  if Coll.textDirection (ls.map Ln.el) = .leftRight then sortBy (fun l => Coll.key l.bbox.y0 l.bbox.x0 l.bbox.x1) ls
  else sortBy (fun l => Coll.key l.bbox.x0 l.bbox.y1 l.bbox.y0) ls

/-- Splitting into rows (Lines.py L181-191): a line in the row of its predecessor is added to the predecessor's group. -/
def rowsFrom (row : List (Ln σ)) (last : Ln σ) : List (Ln σ) → List (List (Ln σ))
  | [] => [row]
  | l :: ls => if l.el.inSameRow last.el then rowsFrom (row ++ [l]) l ls else row :: rowsFrom [l] l ls

/-- All rows. -/
def rows : List (Ln σ) → List (List (Ln σ))
  | [] => []
  | l :: ls => rowsFrom [l] l ls

/-- `Lines.sort` (Lines.py L156-198): `bbox[0]` for horizontal text, else `bbox[3]`. -/
def sort (ls : List (Ln σ)) : List (Ln σ) :=
  ((rows (readingSort ls)).map fun r =>
    if Coll.textDirection (ls.map Ln.el) = .leftRight then sortBy (fun l : Ln σ => l.bbox.x0) r
    else sortBy (fun l : Ln σ => l.bbox.y1) r).flatten

/-! ## Joining -/

/-- `line.get_main_bbox(pre_line, threshold)` as a condition (Lines.py L83). -/
def overlaps (ov : ℚ) (line pre : Ln σ) : Bool :=
  match El.mainBbox line.bbox pre.bbox ov with
  | some r => r.truthy
  | none => false

/-- Lines collected so far and candidates for merging. -/
structure JSt (σ : Type) where
  out : List (Ln σ)
  cand : List (Ln σ)

/-- `if candidates: lines.append(get_merged_line(candidates))` (L68-72, L103, L118). -/
def JSt.flush (s : JSt σ) : List (Ln σ) :=
  match s.cand with
  | [] => s.out
  | c :: cs => appendLine s.out (c.add (cs.flatMap Ln.spans))

/-- Not to be joined with the previous line (L88-98). -/
def apart (mg : ℚ) (line pre : Ln σ) : Bool :=
  !line.el.inSameRow pre.el || decide (mg < |line.bbox.x0 - pre.bbox.x1|)

/-- One pass of the loop (L79-115). -/
def joinStep (ov mg : ℚ) (s : JSt σ) (pre line : Ln σ) : JSt σ :=
  if overlaps ov line pre then s
  else if apart mg line pre then ⟨appendLine s.flush line, []⟩
  else if s.cand.all (fun c => line.el.inSameRow c.el) then ⟨s.out, s.cand ++ [line]⟩
  else ⟨appendLine (s.cand.foldl appendLine s.out) line, []⟩

/-- The loop; `pre` is `self._instances[i-1]`. -/
def joinLoop (ov mg : ℚ) (s : JSt σ) (pre : Ln σ) : List (Ln σ) → JSt σ
  | [] => s
  | l :: ls => joinLoop ov mg (joinStep ov mg s pre l) l ls

/-- `join` after sorting (L76-126). -/
def joinSorted (ov mg : ℚ) : List (Ln σ) → List (Ln σ)
  | [] => []
  | l :: ls => (joinLoop ov mg ⟨[], [l]⟩ l ls).flush

/-- `Lines.join` (Lines.py L57-126). -/
def join (ov mg : ℚ) (ls : List (Ln σ)) : List (Ln σ) := joinSorted ov mg (sort ls)

/-! ## Splitting back -/

/-- `Line.same_source_parent` (text/Line.py L110-119). -/
def sameParent (a b : Ln σ) : Bool :=
  match a.pid with
  | none => false
  | some _ => decide (a.pid = b.pid)

/-- `Lines.split_back` (Lines.py L129-141). -/
def splitBack (iter : List ℕ → List ℕ) (ls : List (Ln σ)) : Except Err (List (List (Ln σ))) :=
  match Graph.group iter sameParent ls with
  | .error e => .error e
  | .ok gs => .ok (gs.map sort)

/-! ## Blocks -/

/-- A block at the clean-up stage: only text blocks exist, those made from an image being marked (Blocks.py L29-43). `image` is
the picture of a marked one. -/
structure Blk (σ : Type) where
  bbox : Rect
  image : Option σ
  lines : List (Ln σ)
  deriving DecidableEq

/-- `TextBlock.add(lines)` for each block of a group (Blocks.py L434-438), on a new block. -/
def gather (g : List (Blk σ)) : Rect × List (Ln σ) :=
  (g.flatMap Blk.lines).foldl (fun s l => if l.bbox.truthy then (Coll.unionBbox s.1 l.bbox, s.2 ++ [l]) else s) (Rect.zero, [])

/-- `final_block.lines.join(…)` with `reset` (Blocks.py L447, Lines.py L126): the block's box only grows. -/
def joinedBlock (ov mg : ℚ) (g : List (Blk σ)) : Blk σ :=
  let ls := join ov mg (gather g).2
  ⟨ls.foldl (fun b l => Coll.unionBbox b l.bbox) (gather g).1, none, ls⟩

/-- `Blocks.join_horizontally(text_direction=False, …)` (Blocks.py L416-458) on text blocks. Making the groups drops blocks without a
box (`Blocks(…)` in `group` appends them), and so does `reset`. -/
def joinHorizontally (iter : List ℕ → List ℕ) (ov mg : ℚ) (bs : List (Blk σ)) : Except Err (List (Blk σ)) :=
  match Graph.group iter (fun a b : Blk σ => El.horizontallyAlign ⟨a.bbox, .leftRight⟩ ⟨b.bbox, .leftRight⟩ 0 false) bs with
  | .error e => .error e
  | .ok gs => .ok ((gs.map fun g => joinedBlock ov mg (g.filter fun b => b.bbox.truthy)).filter fun b => b.bbox.truthy)

/-- The lines of all blocks (Blocks.py L181-183), each with the index of its block (`line.parent`). -/
def lineTable (bs : List (Blk σ)) : List (ℕ × Ln σ) :=
  bs.zipIdx.flatMap fun b => (b.1.lines.filter fun l => l.bbox.truthy).map fun l => (b.2, l)

/-- Lines L187-200 of Blocks.py: `groups` are the groups of lines, each line given as the index of its block. Every line of a group of at
least two whose block is an image makes a floating image, and the block loses its box. -/
def markFloats (bs : List (Blk σ)) (groups : List (List ℕ)) : List (Blk σ) × List σ :=
  (bs.mapIdx fun i b => if i ∈ (groups.filter fun g => 1 < g.length).flatten ∧ b.image.isSome then { b with bbox := Rect.zero } else b,
   (groups.filter fun g => 1 < g.length).flatten.filterMap fun i => bs[i]?.bind Blk.image)

/-- `identify_floating_images` (Blocks.py L174-202): the blocks, and the floating images added. -/
def identifyFloats (gap : ℚ) (bs : List (Blk σ)) : Except Err (List (Blk σ) × List σ) :=
  match Sweep.groupIdx (-gap) (-gap) ((lineTable bs).map fun t => t.2.bbox) with
  | .error e => .error e
  | .ok gs => .ok (markFloats bs (gs.map fun g => g.filterMap fun k => (lineTable bs)[k]?.map Prod.fst))

end Lns
