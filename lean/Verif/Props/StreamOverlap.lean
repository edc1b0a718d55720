import Verif.Props.Stream
/-! # C78 fails for slightly overlapping lines -/

namespace Props
open Py Geom Spec Stream Border

/-- Two lines of one column, overlapping by 8pt, less than a tenth of their height. -/
def soA : El := tln 50 100 90 200
def soB : El := tln 50 192 90 292

theorem so_rows (g : List El) (h : ∀ x ∈ g, x ∈ [soA, soB]) (y : El) (hc : Chain ShareRow g soA y) : y = soA := by
  induction hc with
  | refl => rfl
  | tail _ h2 ih =>
    obtain ⟨_, hz, hs⟩ := h2
    have := h _ hz
    rw [List.mem_cons, List.mem_singleton] at this
    rcases this with rfl | rfl
    · rfl
    · rw [ih] at hs
      exact absurd hs (by unfold ShareRow; decide +kernel)

/-- **C78** (refuted): two lines of one column that overlap by less than a tenth of their height are divided by a gap (no line of the table links their rows), yet no border lies between them: the
one that is found runs through both, 4pt inside. -/
theorem C78_refuted_overlapping : ∃ st, TextLines [soA, soB] ∧ borders id 2 ⟨0, 0, 600, 800⟩ [] [soA, soB] = some st ∧
    (∀ x ∈ finalize id [] [] st, ∀ p ∈ (finalize id [] [] st)[x.lb]?, ∀ q ∈ (finalize id [] [] st)[x.ub]?, ¬ Parts (7 / 2) x.horizontal x.pos p.pos q.pos soA.bbox soB.bbox) ∧
    ¬ ∃ g : List El, (∀ x ∈ g, x ∈ [soA, soB]) ∧ soA ∈ g ∧ soB ∈ g ∧ Undivided g := by
  refine ⟨(borders id 2 ⟨0, 0, 600, 800⟩ [] [soA, soB]).getD [], by decide +kernel, by decide +kernel, by unfold Parts; decide +kernel, ?_⟩
  rintro ⟨g, hg, ha, hb, hu⟩
  have := so_rows g hg soB (hu soA ha soB hb).2
  exact absurd this (by decide +kernel)

end Props
