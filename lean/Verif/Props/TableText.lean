import Verif.Props.TableSect
import Verif.Props.StyledSound
/-! # Styling moves no line (for C127) -/

namespace Props
open Geom Py Pipe Spec

section Boxes127
open Text (Item Shape)
open Styl

theorem tq_block_shapes (rs : List Shape) (b : TBlock) : (blockFormat rs b).1.map Shape.bbox = rs.map Shape.bbox := by
  induction rs generalizing b with
  | nil => rfl
  | cons r rs ih =>
    unfold blockFormat
    split
    · rw [List.map_cons, List.map_cons, ih]
    · dsimp only
      rw [List.map_cons, List.map_cons, ih, ps_shape]

theorem tq_blocks (bs : List TBlock) (rs : List Shape) (hr : ∀ r ∈ rs, Tenths r.bbox) :
    List.Forall₂ (fun t b => (∀ l ∈ b.lines, Held l) → t.lines.map TLine.bbox = b.lines.map TLine.bbox) (blocksFormat rs bs).2 bs := by
  induction bs generalizing rs with
  | nil => exact .nil
  | cons b bs ih =>
    refine .cons (fun h => (ps_block rs hr b h).2) (ih _ ?_)
    intro r hm
    have h1 : r.bbox ∈ rs.map Shape.bbox := by rw [← tq_block_shapes rs b]; exact List.mem_map_of_mem hm
    obtain ⟨x, hx, e⟩ := List.mem_map.1 h1
    rw [← e]
    exact hr x hx

/-- Styled lines have the boxes of the lines. -/
def KeptBoxes (ls : List (Lay.Ln Tok)) (t : TBlock) : Prop := (∀ l ∈ ls, LineOK l) → t.lines.map TLine.bbox = ls.map fun l => l.bbox

theorem tq_pass (S : List Full.Sh) (hS : ∀ s ∈ S, Tenths s.bbox) (uri : Rect → String) (st st' : Full.State Tok) (h : ∀ s ∈ st.sub.shapes, s ∈ S) (h' : ∀ s ∈ st'.sub.shapes, s ∈ S)
    (bs : List (Full.Blk Tok)) :
    List.Forall₂ (fun t ls => KeptBoxes ls t) (Deco.pass uri st st' bs).2 (bs.filterMap fun | .text _ ls => some ls | _ => none) := by
  have key := tq_blocks (Deco.texts bs) ((Deco.candidates st st').map (Deco.shape uri st'.types)) (by
    intro r hr
    obtain ⟨sh, hsh, rfl⟩ := List.mem_map.1 hr
    exact hS sh (ss_candidates st st' h h' sh hsh))
  have e : Deco.texts bs = (bs.filterMap fun | .text b ls => some (b, ls) | _ => none).map fun x : Rect × List (Lay.Ln Tok) => ⟨x.1, x.2.map Deco.line⟩ := by
    rw [ss_texts, List.map_filterMap]
    refine List.filterMap_congr fun b _ => ?_
    cases b <;> rfl
  have e' : (bs.filterMap fun | .text _ ls => some ls | _ => none) = (bs.filterMap fun | .text b ls => some (b, ls) | _ => none).map (Prod.snd : Rect × List (Lay.Ln Tok) → _) := by
    rw [List.map_filterMap]
    refine List.filterMap_congr fun b _ => ?_
    cases b <;> rfl
  unfold Deco.pass
  rw [e']
  rw [e] at key ⊢
  rw [List.forall₂_map_right_iff] at key ⊢
  refine key.imp ?_
  rintro t ⟨b, ls⟩ k hok
  dsimp only at k hok ⊢
  rw [k (by
    intro l hl
    obtain ⟨m, hm, rfl⟩ := List.mem_map.1 hl
    exact ps_held m (hok m hm)), List.map_map]
  rfl

theorem tq_parse (S : List Full.Sh) (hS : ∀ s ∈ S, Tenths s.bbox) (c : Full.Cfg) (hi : ∀ l, (c.base.lay.iter l).Perm l) (uri : Rect → String) (nid : Lay.Ids) (depth : ℕ) (path : List ℕ)
    (box : Rect) (ss : List ℕ) (st : Full.State Tok) (hb : ∀ b ∈ st.blocks, EachCell (CellDrawn S) b) (hs : SubDrawn S st.sub) (r)
    (hr : Deco.parse c uri nid depth path box ss st = .ok r) : EachTextIn KeptBoxes r.1 := by
  induction depth generalizing path box ss st r with
  | zero => cases hr
  | succ depth ih =>
    unfold Deco.parse at hr
    cases h1 : Full.stages c nid path box ss st with
    | error e => rw [h1] at hr; cases hr
    | ok st' =>
      rw [h1] at hr
      dsimp only at hr
      obtain ⟨k1, k2⟩ := cs_stages S c hi nid path box ss st st' hb hs h1
      cases h2 : Full.splitBack c.base.lay st'.blocks with
      | error e => rw [h2] at hr; cases hr
      | ok bs =>
        rw [h2] at hr
        exact ss_tables _ (CellDrawn S) _ (fun i j ty cell sub r hq hbs h => ih _ _ _ _ hbs hq.2 _ h) _ _ _ _
          (cs_splitBack _ _ _ _ h2 k1) (tq_pass S hS uri st st' hs.shapes k2.shapes bs) _ hr

theorem tq_each {P : List (Lay.Ln Tok) → TBlock → Prop} (bs : List Deco.Blk) (h : EachTextIn P bs) : ∀ b ∈ bs, EachText P b := by
  induction bs with
  | nil => intro b hb; cases hb
  | cons b bs ih =>
    simp only [EachTextIn] at h
    intro x hx
    rcases List.mem_cons.1 hx with rfl | hx
    · exact h.1
    · exact ih h.2 x hx

theorem tq_same (bs : List Deco.Blk) (h : blksSame bs) : ∀ b ∈ bs, blkSame b := by
  induction bs with
  | nil => intro b hb; cases hb
  | cons b bs ih =>
    simp only [blksSame] at h
    intro x hx
    rcases List.mem_cons.1 hx with rfl | hx
    · exact h.1
    · exact ih h.2 x hx

theorem tq_plain_append (ds : List Deco.Blk) (A B : List (Full.Blk Tok)) (h : Deco.plain ds = A ++ B) : ∃ as bs, ds = as ++ bs ∧ Deco.plain as = A ∧ Deco.plain bs = B := by
  induction A generalizing ds with
  | nil => exact ⟨[], ds, rfl, rfl, h⟩
  | cons a A ih =>
    cases ds with
    | nil => cases h
    | cons d ds =>
      simp only [Deco.plain, List.cons_append] at h
      obtain ⟨h1, h2⟩ := List.cons.inj h
      obtain ⟨as, bs, rfl, h3, h4⟩ := ih ds h2
      exact ⟨d :: as, bs, rfl, by simp only [Deco.plain, h1, h3], h4⟩

/-- Text blocks of a layout without their styles. -/
theorem tq_plain_texts (ds : List Deco.Blk) (A : List (Full.Blk Tok)) (h : Deco.plain ds = A) (hA : ∀ b ∈ A, b.isText = true) :
    ∃ ts : List TextTriple, ds = ts.map (fun t => .text t.1 t.2.1 t.2.2) ∧ A = ts.map fun t => .text t.1 t.2.1 := by
  induction ds generalizing A with
  | nil =>
    subst h
    exact ⟨[], rfl, rfl⟩
  | cons d ds ih =>
    simp only [Deco.plain] at h
    subst h
    obtain ⟨ts, h1, h2⟩ := ih _ rfl fun b hb => hA b (by simp [hb])
    cases d with
    | table b g cs => exact absurd (hA _ (List.mem_cons_self)) (by simp [Deco.Blk.plain, Full.Blk.isText])
    | text b ls s =>
      refine ⟨(b, ls, s) :: ts, by rw [h1]; rfl, ?_⟩
      rw [List.map_cons, ← h2]
      rfl

end Boxes127
end Props
