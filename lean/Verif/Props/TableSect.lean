import Verif.Props.TableFlow
/-! # What is in the sections, as a word processor sets them (for C127) -/

namespace Props
open Docx Spec

section Sect127
variable {ι π : Type}

theorem tq_ends_sect (y : ℚ) (hs : List ℚ) (b : List (Item Pose.Par ι π)) (q : π) (fs : List ι) : bodyEnds y hs (b ++ [.sect q fs]) = bodyEnds y hs b := by
  induction b generalizing y hs with
  | nil => simp [bodyEnds]
  | cons i b ih =>
    cases i with
    | para c s f => cases c <;> simp [bodyEnds, ih]
    | sect q f => simp [bodyEnds, ih]
    | table r => simp [bodyEnds, ih]

theorem tq_ends_floats (y : ℚ) (hs : List ℚ) (fl : List ι) (b : List (Item Pose.Par ι π)) : bodyEnds y hs (addFloats fl b) = bodyEnds y hs b := by
  by_cases hany : b.any Item.isPara = true
  · obtain ⟨pre, x, post, rfl, hx, hp⟩ := last_para b hany
    rw [addFloats_some _ pre post x hx hp]
    clear hany hp
    induction pre generalizing y hs with
    | nil =>
      cases x with
      | para c s f => cases c <;> simp [attach, bodyEnds]
      | sect q f => simp [attach, bodyEnds]
      | table r => cases hx
    | cons i pre ih =>
      cases i with
      | para c s f => cases c <;> simp [bodyEnds, ih]
      | sect q f => simp [bodyEnds, ih]
      | table r => simp [bodyEnds, ih]
  · rw [Bool.not_eq_true] at hany
    rw [addFloats_none _ _ hany]
    clear hany
    induction b generalizing y hs with
    | nil => simp [bodyEnds]
    | cons i b ih =>
      cases i with
      | para c s f => cases c <;> simp [bodyEnds, ih]
      | sect q f => simp [bodyEnds, ih]
      | table r => simp [bodyEnds, ih]

theorem tq_ends_empty (y : ℚ) (hs : List ℚ) (bs : List (Block Pose.Par)) (h : ofBlocks bs = []) : bodyEnds y hs (pageItems bs : List (Item Pose.Par ι π)) = [] := by
  rw [(pageItems_para bs).2 h]
  rfl

/-- A section is set as what its page writes. -/
theorem tq_sections (p0 : π) (pages : List (PageData Pose.Par ι π)) (hne : pages ≠ []) (y : ℚ) (hs : List ℚ) :
    (sectionsOf (makeDoc p0 pages)).map (fun s => bodyEnds y hs s.2) = pages.map (fun p => bodyEnds y hs (pageItems p.blocks : List (Item Pose.Par ι π))) := by
  induction pages using List.reverseRecOn with
  | nil => exact absurd rfl hne
  | append_singleton ps p ih =>
    have e : makeDoc p0 (ps ++ [p]) = makePage (makeDoc p0 ps) p := by unfold makeDoc; simp
    rw [e]
    by_cases hps : ps = []
    · subst hps
      have hd : (makeDoc p0 ([] : List (PageData Pose.Par ι π))).body = [] := rfl
      rcases makePage_cases (makeDoc p0 []) p with ⟨_, h⟩ | ⟨h, _⟩ | ⟨h, _⟩ | ⟨h, _⟩
      · rw [h]
        unfold sectionsOf
        dsimp only
        rw [sections_nosect _ _ _ (attach_nosect _ _ (pageItems_nosect _))]
        simp [tq_ends_floats]
      · exact absurd hd h
      · rw [hd] at h; simp at h
      · rw [hd] at h; simp at h
    · obtain ⟨h1, h2, _⟩ := sections_all p0 ps hps
      have hlast : (sections (makeDoc p0 ps).last (makeDoc p0 ps).body []).map (fun s => bodyEnds y hs s.2) = ps.map (fun p => bodyEnds y hs (pageItems p.blocks : List (Item Pose.Par ι π))) := ih hps
      rcases makePage_cases (makeDoc p0 ps) p with ⟨h, _⟩ | ⟨_, h⟩ | ⟨_, ht, h⟩ | ⟨_, ht, h⟩
      · exact absurd h h2
      · rw [h] at h1; simp at h1
      · rw [h]
        unfold sectionsOf
        dsimp only
        rw [sections_append, sections_nosect _ _ _ (attach_nosect _ _ (pageItems_nosect _)), List.map_append,
          addLast_map _ _ (by intro p b; exact tq_ends_sect _ _ _ _ _), hlast]
        simp [tq_ends_floats]
      · rw [h]
        unfold sectionsOf
        dsimp only
        rw [sections_append, List.map_append, addLast_map _ _ (by intro p b; exact tq_ends_sect _ _ _ _ _), hlast]
        simp [sections, bodyEnds, tq_ends_empty _ _ _ ht]

end Sect127

open Geom Py Pipe in
/-- The section of a page of a document, as a word processor sets it. -/
theorem tq_section (c : Pose.Cfg) (depth : ℕ) (s0 : Pose.Sect) (pages : List Pose.Page) (d : Docx.Doc Pose.Par Sp Pose.Sect) (h : Pose.convert c depth s0 pages = .ok d)
    (i : ℕ) (p : Pose.Page) (s : Pose.Sect × List (Docx.Item Pose.Par Sp Pose.Sect)) (hp : pages[i]? = some p) (hs : (sectionsOf d)[i]? = some s) :
    ∃ dd, Pose.parsePage c depth p = .ok dd ∧ s.1 = dd.props ∧ ofItems s.2 = ofBlocks dd.blocks ∧
      ∀ y hts, bodyEnds y hts s.2 = bodyEnds y hts (pageItems dd.blocks : List (Docx.Item Pose.Par Sp Pose.Sect)) := by
  unfold Pose.convert at h
  cases hm : pages.mapM (Pose.parsePage c depth) with
  | error e => rw [hm] at h; cases h
  | ok ds =>
    rw [hm] at h
    obtain rfl := Except.ok.inj h
    have hall := pp_mapM_forall pages ds hm
    have hdne : ds ≠ [] := by
      rintro rfl
      rw [List.forall₂_nil_right_iff.1 hall] at hp
      cases hp
    have hsec := C31_one_section_per_page s0 ds hdne
    obtain ⟨hi1, rfl⟩ := List.getElem?_eq_some_iff.1 hp
    have hi2 : i < ds.length := hall.length_eq ▸ hi1
    refine ⟨ds[i], by simpa using hall.get hi1 hi2, ?_⟩
    have := congrArg (fun l => l[i]?) hsec
    simp only [List.getElem?_map, hs, List.getElem?_eq_getElem hi2, Option.map_some, Option.some.injEq] at this
    obtain ⟨a, b⟩ := Prod.mk.inj this
    refine ⟨a, b, fun y hts => ?_⟩
    have := congrArg (fun l => l[i]?) (tq_sections s0 ds hdne y hts)
    simpa only [List.getElem?_map, hs, List.getElem?_eq_getElem hi2, Option.map_some, Option.some.injEq] using this

end Props
