import Verif.Styled
import Verif.Spec.Pipe
import Verif.Spec.Whole
/-! # Specification: styling changes no text (C118) -/

namespace Spec
open Geom Pipe

variable {α β : Type}

mutual
/-- Contents with every text replaced. -/
def mapTrees (f : α → β) : List (Tree α) → List (Tree β)
  | [] => []
  | .text a :: ts => .text (f a) :: mapTrees f ts
  | .table rows :: ts => .table (mapRows f rows) :: mapTrees f ts
def mapRows (f : α → β) : List (List (Option (List (Tree α)))) → List (List (Option (List (Tree β))))
  | [] => []
  | r :: rs => mapRow f r :: mapRows f rs
def mapRow (f : α → β) : List (Option (List (Tree α))) → List (Option (List (Tree β)))
  | [] => []
  | c :: cs => mapCell f c :: mapRow f cs
def mapCell (f : α → β) : Option (List (Tree α)) → Option (List (Tree β))
  | none => none
  | some ts => some (mapTrees f ts)
end

/-- A piece of a paragraph: tab, line break or content. -/
def mapOut (f : α → β) : Para.Out α → Para.Out β
  | .tab => .tab
  | .brk => .brk
  | .content a => .content (f a)

/-- What a paragraph shows, styles left out: tabs, line breaks, and between them characters and pictures. -/
def plainPar (p : Par) : List (Para.Out (List Tok)) := p.map (mapOut fun ws => ws.flatMap wordToks)

/-- The same for a paragraph with styled text; `ws` are the blanks. -/
def styledPar (ws : Char → Bool) (p : Deco.Par) : List (Para.Out (List Tok)) := p.map (mapOut fun is => (is.map (toWord ws)).flatMap wordToks)

/-- The contents of a document with styled text as paragraphs of runs and pictures (see `Text.Span.makeDocx`). -/
def written (ws : Char → Bool) (ts : List (Tree Deco.Par)) : List (Tree Par) := mapTrees (fun p => p.map (mapOut fun is => is.map (toWord ws))) ts

end Spec
