import Verif.Collection
import Verif.Graph
/-!
# Model of `page/RawPage.py` (source images, links) and `image/ImagesExtractor.py`

The content of an image is a value of a type `β` (its bytes). PyMuPDF and OpenCV are outside: `Item` is what PyMuPDF says about one
entry of `page.getImageList`, and the contours found by OpenCV are an input.
-/

namespace Images
open Py Geom

/-- A raw block of `page.getText('rawdict')` or a recovered image: `type` (0 text, 1 image, -1 deleted), `bbox`, the content of an
image and everything else (`rest`, e.g. the lines of a text block). -/
structure Block (β ρ : Type) where
  type : ℤ
  bbox : Rect
  image : β
  rest : ρ
  deriving DecidableEq

/-- One entry of `page.getImageList(full=True)`: its box (`none`: `getImageBbox` raises `ValueError`), the recovered pixmap, and
whether that has a colour space. -/
structure Item (β ρ : Type) where
  bbox : Option Rect
  content : β
  colorspace : Bool
  rest : ρ

/-- `ImagesExtractor.extract_images` (image/ImagesExtractor.py L23-67); `clip` is `_clip_page` (L187-205), which depends on the box
only. `_to_raw_dict` (L146-163) sets type 1. -/
def extractImages {β ρ : Type} (page : Rect) (clip : Rect → β) (items : List (Item β ρ)) : List (Block β ρ) :=
  items.filterMap fun it =>
    match it.bbox with
    | none => none
    | some b => if b.intersects page then some ⟨1, b, if it.colorspace then it.content else clip b, it.rest⟩ else none

/-- `list(map(round, bbox))` (page/RawPage.py L102-104). -/
def place (r : Rect) : ℤ × ℤ × ℤ × ℤ := (roundHE r.x0, roundHE r.y0, roundHE r.x1, roundHE r.y1)

/-- Groups of image blocks in the order of a Python dict: key, positions of the blocks. -/
abbrev Groups := List (ℤ × List ℕ)

/-- `image_blocks_group[key].append(block)` for a `defaultdict(list)` (RawPage.py L99). -/
def addTo (key : ℤ) (i : ℕ) : Groups → Groups
  | [] => [(key, [i])]
  | g :: gs => if g.1 = key then (g.1, g.2 ++ [i]) :: gs else g :: addTo key i gs

/-- The loop over the raw blocks (RawPage.py L94-99) from position `i` on: groups of the image blocks by content. -/
def groupsFrom {β ρ : Type} (hash : β → ℤ) : ℕ → List (Block β ρ) → Groups → Groups
  | _, [], gs => gs
  | i, b :: bs, gs => groupsFrom hash (i + 1) bs (if b.type ≠ 1 then gs else addTo (hash b.image) i gs)

/-- "Delete" the image blocks (RawPage.py L96-98). -/
def markDeleted {β ρ : Type} (bs : List (Block β ρ)) : List (Block β ρ) :=
  bs.map fun b => if b.type ≠ 1 then b else { b with type := -1 }

/-- `same_images` (RawPage.py L101-105) for the blocks at positions `idxs`. -/
def same {β ρ : Type} (bs : List (Block β ρ)) (img : Block β ρ) (idxs : List ℕ) : Bool :=
  idxs.any fun i => match bs[i]? with
    | none => false
    | some b => decide (place b.bbox = place img.bbox)

/-- Add the blocks of a group back with the content of the recovered image (RawPage.py L116-118). -/
def recover {β ρ : Type} (img : Block β ρ) (idxs : List ℕ) (bs : List (Block β ρ)) : List (Block β ρ) :=
  idxs.foldl (fun l i => l.modify i fun b => { b with type := 1, image := img.image }) bs

/-- One recovered image (RawPage.py L113-123). -/
def placeImage {β ρ : Type} (gs : Groups) (bs : List (Block β ρ)) (img : Block β ρ) : List (Block β ρ) :=
  match gs.find? (fun g => same bs img g.2) with
  | some g => recover img g.2 bs
  | none => bs ++ [img]

/-- `RawPage._preprocess_images` (RawPage.py L74-123) on the blocks of the page. -/
def preprocess {β ρ : Type} (hash : β → ℤ) (images : List (Block β ρ)) (bs : List (Block β ρ)) : List (Block β ρ) :=
  images.foldl (placeImage (groupsFrom hash 0 bs [])) (markDeleted bs)

/-- `ImagesExtractor.extract_vector_graphics` (ImagesExtractor.py L71-101) for the boxes `contours` found on the page; `iter` is the order
of a Python set (Collection.py L77), `clip` the picture of an area. -/
def vectorGraphics {β : Type} (iter : List ℕ → List ℕ) (clip : Rect → β) (contours : List Rect) :
    Except Err (List (Rect × β)) :=
  match Graph.group iter (fun a b : Rect => (a.inter b).truthy) contours with
  | .error e => .error e
  | .ok groups => .ok (groups.map fun g => (Coll.bbox g, clip (Coll.bbox g)))

/-- An entry of `page.getLinks()`. -/
structure Link where
  kind : ℤ
  from_ : Rect
  uri : List Char
  deriving DecidableEq

/-- `RawPage._preprocess_hyperlinks` (RawPage.py L153-171): boxes and addresses. -/
def hyperlinks (links : List Link) : List (Rect × List Char) :=
  links.filterMap fun l => if l.kind ≠ 2 then none else some (l.from_, l.uri)

end Images
