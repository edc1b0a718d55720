import Verif.Props.DrawnFrames
/-! # C134: no paragraph is written with negative space -/

namespace Props
open Geom Py Pipe Spec

section Distances134

/-- The space before and after a paragraph is not negative. -/
def SpaceOK (q : Pose.Par) : Prop := 0 ≤ q.space.before ∧ 0 ≤ q.space.after

mutual
theorem dn_block (c : Pose.Cfg) (box : Rect) : (b : Deco.Blk) → (x : Pose.Blk) → WrittenIn c box b x → ∀ q ∈ leaves (ofBlocks [Pose.block x]), SpaceOK q
  | .text b ls s, x, h => by
    cases x with
    | text q =>
      obtain ⟨f, sp, -, rfl⟩ := h
      intro q hq
      simp only [Pose.block, ofBlocks, leaves, List.mem_singleton] at hq
      subst hq
      exact ⟨le_max_right _ _, le_max_right _ _⟩
    | table _ _ _ _ _ => exact absurd h (by simp [WrittenIn])
  | .table b g cs, x, h => by
    cases x with
    | text q => exact absurd h (by simp [WrittenIn])
    | table b' ind before g' cs' =>
      obtain ⟨-, rfl, rfl, hcs⟩ := h
      intro q hq
      simp only [Pose.block, ofBlocks, leaves, List.append_nil] at hq
      obtain ⟨r, hr, bs, hbs, hq⟩ := so_leaves_rows _ q hq
      have hm := dw_place _ _ r hr bs hbs
      rw [cp_cellBlocks] at hm
      obtain ⟨y, hy, rfl⟩ := List.mem_map.1 hm
      exact dn_cells c cs cs' (tr_cells c cs cs' hcs) y hy q hq
theorem dn_blocks (c : Pose.Cfg) (box : Rect) : (bs : List Deco.Blk) → (xs : List Pose.Blk) → List.Forall₂ (WrittenIn c box) bs xs → ∀ q ∈ leaves (ofBlocks (Pose.blocks xs)), SpaceOK q
  | [], xs, h => by
    obtain rfl := List.forall₂_nil_left_iff.1 h
    intro q hq
    simp [Pose.blocks, ofBlocks, leaves] at hq
  | b :: bs, xs, h => by
    obtain ⟨x, xs', h1, h2, rfl⟩ := List.forall₂_cons_left_iff.1 h
    intro q hq
    have split : ∀ {α : Type} (y : Docx.Block α) (ys : List (Docx.Block α)), ofBlocks (y :: ys) = ofBlocks [y] ++ ofBlocks ys := by
      intro α y ys
      cases y <;> simp [ofBlocks]
    simp only [Pose.blocks] at hq
    rw [split, pp_leaves_append] at hq
    rcases List.mem_append.1 hq with hq | hq
    · exact dn_block c box b x h1 q hq
    · exact dn_blocks c box bs xs' h2 q hq
theorem dn_cells (c : Pose.Cfg) : (cs : List (Full.Cell × List Deco.Blk)) → (xs : List (Full.Cell × List Pose.Blk)) →
    List.Forall₂ (fun a b => b.1 = a.1 ∧ Pose.layout c a.1.info.working a.2 = .ok b.2) cs xs → ∀ x ∈ xs, ∀ q ∈ leaves (ofBlocks (Pose.blocks x.2)), SpaceOK q
  | [], xs, h => by
    obtain rfl := List.forall₂_nil_left_iff.1 h
    intro x hx
    cases hx
  | (k, bs) :: cs, xs, h => by
    obtain ⟨⟨k', ys⟩, xs', h1, h2, rfl⟩ := List.forall₂_cons_left_iff.1 h
    intro x hx
    rcases List.mem_cons.1 hx with rfl | hx
    · exact dn_blocks c k.info.working bs ys (tr_layout c _ _ ys h1.2)
    · exact dn_cells c cs xs' h2 x hx
end

/-- **C134**. No paragraph of a docx, in tables at any depth or not, has negative space before or after it (a word processor rejects such a document), even if lines overlap or blocks are taller than they should be. -/
theorem C134_space_nonneg (c : Pose.Cfg) (depth : ℕ) (s0 : Pose.Sect) (pages : List Pose.Page) (d : Docx.Doc Pose.Par Sp Pose.Sect) (h : Pose.convert c depth s0 pages = .ok d) (n : ℕ) (p : Pose.Page)
    (s : Pose.Sect × List (Docx.Item Pose.Par Sp Pose.Sect)) (hp : pages[n]? = some p) (hs : (sectionsOf d)[n]? = some s) :
    ∀ q ∈ leaves (ofItems s.2), 0 ≤ q.space.before ∧ 0 ≤ q.space.after := by
  obtain ⟨dd, h1, -, h3, -⟩ := tq_section c depth s0 pages d h n p s hp hs
  unfold Pose.parsePage at h1
  cases hc : cleanUp c.whole.pipe p.box p.raw with
  | error e => rw [hc] at h1; cases h1
  | ok r =>
    rw [hc] at h1
    dsimp only at h1
    cases hd : Deco.layout c.whole.full p.uri p.ids depth (p.workOf c r.1) p.shapes (r.1.map fun b => .text b.bbox b.lines) with
    | error e => rw [hd] at h1; cases h1
    | ok dl =>
      rw [hd] at h1
      dsimp only at h1
      cases hl : Pose.layout c (p.workOf c r.1) dl.1 with
      | error e => rw [hl] at h1; cases h1
      | ok xs =>
        rw [hl] at h1
        obtain rfl := (Except.ok.inj h1).symm
        rw [h3]
        exact dn_blocks c _ dl.1 xs (tr_layout c _ _ xs hl)

/-- Non-vacuity: the page with a table in a table of C132 has three paragraphs, with these spaces. -/
example : (Pose.convert poCfg 6 ⟨0, 0, ⟨0, 0, 0, 0⟩⟩ [nfPage]).toOption.map (fun d => (sectionsOf d).flatMap fun s => (leaves (ofItems s.2)).map fun q => (q.space.before, q.space.after)) =
    some [(10, 139 / 2), (9 / 2, 0), (69 / 2, 0)] := by
  decide +kernel

end Distances134
end Props
