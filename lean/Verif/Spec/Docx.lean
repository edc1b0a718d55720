import Verif.Docx
/-! # Specification vocabulary for produced documents -/

namespace Spec
open Docx
variable {α ι π : Type}

/-- Contents as a tree: texts and tables of cells; `none` is a position merged away. -/
inductive Tree (α : Type) where
  | text (a : α)
  | table (rows : List (List (Option (List (Tree α)))))

mutual
/-- What the parsed blocks contain, floating images left out. -/
def ofBlocks : List (Block α) → List (Tree α)
  | [] => []
  | .text a :: bs => .text a :: ofBlocks bs
  | .table _ rows :: bs => .table (ofBlockRows rows) :: ofBlocks bs
  | .floatImg :: bs => ofBlocks bs
def ofBlockRows : List (List (Option (List (Block α)))) → List (List (Option (List (Tree α))))
  | [] => []
  | r :: rs => ofBlockRow r :: ofBlockRows rs
def ofBlockRow : List (Option (List (Block α))) → List (Option (List (Tree α)))
  | [] => []
  | c :: cs => ofBlockCell c :: ofBlockRow cs
def ofBlockCell : Option (List (Block α)) → Option (List (Tree α))
  | none => none
  | some bs => some (ofBlocks bs)
end

mutual
/-- What a docx body contains, blank paragraphs left out. -/
def ofItems : List (Item α ι π) → List (Tree α)
  | [] => []
  | .para (some a) _ _ :: is => .text a :: ofItems is
  | .para none _ _ :: is => ofItems is
  | .sect _ _ :: is => ofItems is
  | .table rows :: is => .table (ofItemRows rows) :: ofItems is
def ofItemRows : List (List (Option (List (Item α ι π)))) → List (List (Option (List (Tree α))))
  | [] => []
  | r :: rs => ofItemRow r :: ofItemRows rs
def ofItemRow : List (Option (List (Item α ι π))) → List (Option (List (Tree α)))
  | [] => []
  | c :: cs => ofItemCell c :: ofItemRow cs
def ofItemCell : Option (List (Item α ι π)) → Option (List (Tree α))
  | none => none
  | some bs => some (ofItems bs)
end

/-- A body Word can show as intended: no two adjacent tables, no table at the end, and the same in every cell, which must
not be empty. -/
inductive GoodBody : List (Item α ι π) → Prop
  | mk (items : List (Item α ι π)) (chain : items.IsChain fun a b => a.isPara = true ∨ b.isPara = true)
      (last : ∀ x ∈ items.getLast?, x.isPara = true)
      (nonempty : ∀ rows, Item.table rows ∈ items → ∀ row ∈ rows, ∀ body, some body ∈ row → body ≠ [])
      (cells : ∀ rows, Item.table rows ∈ items → ∀ row ∈ rows, ∀ body, some body ∈ row → GoodBody body) :
      GoodBody items

/-- Images anchored directly in a body. -/
def floatsOf : List (Item α ι π) → List ι
  | [] => []
  | .para _ _ fs :: is => fs ++ floatsOf is
  | .sect _ fs :: is => fs ++ floatsOf is
  | .table _ :: is => floatsOf is

/-- The sections of a document: properties and body (with the paragraph that carries the section break). -/
def sections (last : π) : List (Item α ι π) → List (Item α ι π) → List (π × List (Item α ι π))
  | [], acc => [(last, acc)]
  | .sect p fs :: is, acc => (p, acc ++ [.sect p fs]) :: sections last is []
  | i :: is, acc => sections last is (acc ++ [i])

/-- The sections of a document. -/
def sectionsOf (d : Doc α ι π) : List (π × List (Item α ι π)) := sections d.last d.body []

end Spec
