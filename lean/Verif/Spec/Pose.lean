import Verif.Pose
import Verif.Spec.StyledText
/-! # Specification: computed formats change no content (C120) -/

namespace Spec
open Geom Py Pipe

/-- The cleaned-up blocks of a page. -/
def cleaned (c : Pose.Cfg) (p : Pose.Page) : List Raw :=
  match cleanUp c.whole.pipe p.box p.raw with
  | .ok r => r.1
  | .error _ => []

/-- The page with its working area and section, and given paragraph formats (cf. `Styled.lean`). -/
def withFormats (c : Pose.Cfg) (f : Fmt) (p : Pose.Page) : Deco.Page Pose.Sect :=
  ⟨p.box, p.workOf c (cleaned c p), p.sect c (cleaned c p), p.raw, p.shapes, p.uri, p.ids, f⟩

/-- The lines of a paragraph, tabs and line breaks left out. -/
def lineTexts {α : Type} (l : List (Para.Out α)) : List α := l.filterMap fun
  | .content a => some a
  | _ => none

/-- The contents of a document as paragraphs of runs and pictures, formats left out. -/
def formatted (ws : Char → Bool) (ts : List (Tree Pose.Par)) : List (Tree Par) := written ws (mapTrees (fun q => q.content) ts)

end Spec
