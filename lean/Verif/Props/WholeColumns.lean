import Verif.Props.WholeTable
import Verif.Props.FullColumns
import Verif.Props.StyledText
import Verif.Spec.WholeColumns
/-! # C124: a page in two columns, from the extracted page to the document -/

namespace Props
open Geom Py Pipe Spec Assign

section WCols
variable {mg X : ℚ}

/-- Sides of the centre, for boxes within boxes. -/
theorem wq_left {a b : Rect} (h : Covers a b) (hl : LeftOf X a) : LeftOf X b := lt_of_le_of_lt h.2.2.1 hl
theorem wq_right {a b : Rect} (h : Covers a b) (hl : RightOf X a) : RightOf X b := lt_of_lt_of_le hl h.1

theorem wq_down_symm {side : Rect → Prop} {a b : Full.Blk Tok} (h : DownIn side a b) : DownIn side b a :=
  h.symm.imp (fun h l hl m hm h1 h2 => h m hm l hl h2 h1) (fun h l hl m hm h1 h2 => h m hm l hl h2 h1)

/-- On which side a line is does not change with its blanks at the ends. -/
theorem wq_sides {s l : Rect} (hs : Proper s) (hc : Covers l s) (ha : Across X l → Across X s) :
    (LeftOf X s ↔ LeftOf X l) ∧ (RightOf X s ↔ RightOf X l) ∧ (Across X s ↔ Across X l) := by
  have h1 := hs.1
  have ha' : Across X s → Across X l := fun h => ⟨le_trans hc.1 h.1, le_trans h.2 hc.2.2.1⟩
  refine ⟨⟨fun h => ?_, wq_left hc⟩, ⟨fun h => ?_, wq_right hc⟩, ha', ha⟩
  · rcases tc_side (X := X) l with k | k | k
    · exact k
    · have := wq_right hc k
      unfold LeftOf at h; unfold RightOf at this; linarith
    · have := (ha k).2
      unfold LeftOf at h; linarith
  · rcases tc_side (X := X) l with k | k | k
    · have := wq_left hc k
      unfold RightOf at h; unfold LeftOf at this; linarith
    · exact k
    · have := (ha k).1
      unfold RightOf at h; linarith

theorem wq_not_across {x : Rect} (h : LeftOf X x ∨ RightOf X x) : ¬ Across X x := (tc_across x).2 h

/-- Stripping keeps the arrangement. -/
theorem wq_strip {bs : List Raw} (ht : ColumnsOn mg X bs) (hok : ∀ b ∈ bs, RawOK b) (ws : Char → Bool) (hws : ws ' ' = true)
    (hsolid : ∀ b ∈ bs, ∀ l ∈ b.lines, Across X l.bbox → Across X (stripLine ws l).1.bbox) : ColumnsOn mg X (bs.map (stripBlock ws)) := by
  have hlok : ∀ b ∈ bs, ∀ l ∈ b.lines, LineOK l := fun b hb l hl => ((hok b hb).boxes.2 l hl).1
  have hline : ∀ b ∈ bs, ∀ l ∈ b.lines, Covers l.bbox (stripLine ws l).1.bbox := fun b hb l hl => wc_strip_line ws hws l (hlok b hb l hl)
  have hall : ∀ l ∈ bs.flatMap Lns.Blk.lines, Covers l.bbox (stripLine ws l).1.bbox := by
    intro l hl
    obtain ⟨b, hb, hl⟩ := List.mem_flatMap.1 hl
    exact hline b hb l hl
  have hpid : ∀ b ∈ bs, ∀ l ∈ b.lines, (stripLine ws l).1.pid = l.pid := fun b hb l hl => (pl_strip_line ws hws l (hlok b hb l hl)).2
  have hbox : ∀ b ∈ bs, Covers b.bbox (stripBlock ws b).bbox := fun b hb => wc_strip_block ws hws b (hok b hb)
  have hsd : ∀ b ∈ bs, ∀ l ∈ b.lines, (LeftOf X (stripLine ws l).1.bbox ↔ LeftOf X l.bbox) ∧ (RightOf X (stripLine ws l).1.bbox ↔ RightOf X l.bbox) ∧
      (Across X (stripLine ws l).1.bbox ↔ Across X l.bbox) := fun b hb l hl => wq_sides ((pp_stripLine ws hws l).ok (hlok b hb l hl)).1.1 (hline b hb l hl) (hsolid b hb l hl)
  have hmem : ∀ b ∈ bs, ∀ l ∈ (stripBlock ws b).lines, ∃ l0 ∈ b.lines, l = (stripLine ws l0).1 := by
    intro b _ l hl
    rw [wc_strip_lines] at hl
    obtain ⟨l0, hl0, rfl⟩ := List.mem_map.1 hl
    exact ⟨l0, hl0, rfl⟩
  have hmem' : ∀ b ∈ bs, ∀ l ∈ b.lines, (stripLine ws l).1 ∈ (stripBlock ws b).lines := by
    intro b _ l hl
    rw [wc_strip_lines]
    exact List.mem_map_of_mem hl
  have hacr : ∀ b ∈ bs, (∀ l ∈ (stripBlock ws b).lines, Across X l.bbox) → ∀ l ∈ b.lines, Across X l.bbox := fun b hb h l hl =>
    (hsd b hb l hl).2.2.1 (h _ (hmem' b hb l hl))
  have hnot : ∀ a ∈ bs, (∃ m ∈ (stripBlock ws a).lines, ¬ Across X m.bbox) → ∃ m ∈ a.lines, ¬ Across X m.bbox := by
    rintro a ha ⟨m, hm, hn⟩
    obtain ⟨m0, hm0, rfl⟩ := hmem a ha m hm
    exact ⟨m0, hm0, fun h => hn ((hsd a ha m0 hm0).2.2.2 h)⟩
  have hlines : ∀ side : Rect → Prop, (∀ b ∈ bs, ∀ l ∈ b.lines, side (stripLine ws l).1.bbox → side l.bbox) →
      ((bs.flatMap Lns.Blk.lines).Pairwise fun l m => side l.bbox → side m.bbox → Above l.bbox m.bbox ∨ Above m.bbox l.bbox) →
      ((bs.map (stripBlock ws)).flatMap Lns.Blk.lines).Pairwise fun l m => side l.bbox → side m.bbox → Above l.bbox m.bbox ∨ Above m.bbox l.bbox := by
    intro side hside h
    rw [wt_strip_map, List.pairwise_map]
    refine h.imp_of_mem ?_
    intro l m hl hm h h1 h2
    obtain ⟨a, ha, hla⟩ := List.mem_flatMap.1 hl
    obtain ⟨b, hb, hmb⟩ := List.mem_flatMap.1 hm
    exact (h (hside a ha l hla h1) (hside b hb m hmb h2)).imp (wt_above_in (hall l hl) (hall m hm)) (wt_above_in (hall m hm) (hall l hl))
  have horder : ∀ side : Rect → Prop, (∀ b ∈ bs, ∀ l ∈ b.lines, side (stripLine ws l).1.bbox → side l.bbox) →
      (bs.Pairwise fun a b => DownIn side (.text a.bbox a.lines) (.text b.bbox b.lines)) →
      (bs.map (stripBlock ws)).Pairwise fun a b => DownIn side (.text a.bbox a.lines) (.text b.bbox b.lines) := by
    intro side hside h
    rw [List.pairwise_map]
    refine h.imp_of_mem ?_
    intro a b ha hb h
    refine h.imp ?_ ?_
    · intro h l hl m hm h1 h2
      obtain ⟨l0, hl0, rfl⟩ := hmem a ha l hl
      obtain ⟨m0, hm0, rfl⟩ := hmem b hb m hm
      have := h l0 hl0 m0 hm0 (hside a ha l0 hl0 h1) (hside b hb m0 hm0 h2)
      exact lt_of_le_of_lt (hline a ha l0 hl0).2.2.2 (lt_of_lt_of_le this (hline b hb m0 hm0).2.1)
    · intro h l hl m hm h1 h2
      obtain ⟨l0, hl0, rfl⟩ := hmem a ha l hl
      obtain ⟨m0, hm0, rfl⟩ := hmem b hb m hm
      have := h l0 hl0 m0 hm0 (hside a ha l0 hl0 h1) (hside b hb m0 hm0 h2)
      exact lt_of_le_of_lt (hline b hb m0 hm0).2.2.2 (lt_of_lt_of_le this (hline a ha l0 hl0).2.1)
  refine ⟨?_, ?_, ?_, ?_, ?_, ?_, ?_, ?_, ?_, hlines _ (fun b hb l hl => (hsd b hb l hl).1.1) ht.leftLines, hlines _ (fun b hb l hl => (hsd b hb l hl).2.1.1) ht.rightLines,
    horder _ (fun b hb l hl => (hsd b hb l hl).1.1) ht.leftOrder, horder _ (fun b hb l hl => (hsd b hb l hl).2.1.1) ht.rightOrder⟩
  · rintro b' hb' l hl
    obtain ⟨b, hb, rfl⟩ := List.mem_map.1 hb'
    obtain ⟨l0, hl0, rfl⟩ := hmem b hb l hl
    rw [(pp_stripLine ws hws l0).dir]; exact ht.horizontal b hb l0 hl0
  · rintro b' hb'
    obtain ⟨b, hb, rfl⟩ := List.mem_map.1 hb'
    obtain ⟨id, hid⟩ := ht.own b hb
    refine ⟨id, fun l hl => ?_⟩
    obtain ⟨l0, hl0, rfl⟩ := hmem b hb l hl
    rw [hpid b hb l0 hl0]; exact hid l0 hl0
  · rw [List.pairwise_map]
    refine ht.ids.imp_of_mem ?_
    intro a b ha hb h l hl m hm
    obtain ⟨l0, hl0, rfl⟩ := hmem a ha l hl
    obtain ⟨m0, hm0, rfl⟩ := hmem b hb m hm
    rw [hpid a ha l0 hl0, hpid b hb m0 hm0]; exact h l0 hl0 m0 hm0
  · rw [wt_strip_map, List.pairwise_map]
    exact ht.spaced.imp_of_mem fun {l m} hl hm h => wc_spaced_in (hall l hl) (hall m hm) h
  · intro b' hb'
    obtain ⟨b, hb, rfl⟩ := List.mem_map.1 hb'
    rcases ht.place b hb with h | ⟨h, h'⟩
    · left
      intro l hl
      obtain ⟨l0, hl0, rfl⟩ := hmem b hb l hl
      exact (h l0 hl0).imp (hsd b hb l0 hl0).1.2 (hsd b hb l0 hl0).2.1.2
    · right
      refine ⟨?_, ?_⟩
      · intro l hl
        obtain ⟨l0, hl0, rfl⟩ := hmem b hb l hl
        exact (hsd b hb l0 hl0).2.2.2 (h l0 hl0)
      · have c := hbox b hb
        refine h'.imp ?_ ?_
        · intro h a' ha' hn
          obtain ⟨a, ha, rfl⟩ := List.mem_map.1 ha'
          have := h a ha (hnot a ha hn)
          linarith [c.2.2.2, (hbox a ha).2.1]
        · intro h a' ha' hn
          obtain ⟨a, ha, rfl⟩ := List.mem_map.1 ha'
          have := h a ha (hnot a ha hn)
          linarith [c.2.1, (hbox a ha).2.2.2]
  · rw [List.pairwise_map]
    refine ht.clear.imp_of_mem ?_
    intro a b ha hb h h1 h2
    obtain ⟨a1, a2, a3, a4⟩ := hbox a ha
    obtain ⟨b1, b2, b3, b4⟩ := hbox b hb
    rcases h (hacr a ha h1) (hacr b hb h2) with h | h
    · exact Or.inl (by linarith)
    · exact Or.inr (by linarith)
  · intro b' hb' h
    obtain ⟨b, hb, rfl⟩ := List.mem_map.1 hb'
    have h := hacr b hb h
    rw [wc_strip_lines, List.pairwise_map]
    refine (ht.column b hb h).imp_of_mem ?_
    intro l m hl hm h
    exact h.imp (wt_above_in (hline b hb l hl) (hline b hb m hm)) (wt_above_in (hline b hb m hm) (hline b hb l hl))
  · obtain ⟨b, hb, l, hl, h⟩ := ht.left
    exact ⟨_, List.mem_map_of_mem hb, _, hmem' b hb l hl, (hsd b hb l hl).1.2 h⟩
  · obtain ⟨b, hb, l, hl, h⟩ := ht.right
    exact ⟨_, List.mem_map_of_mem hb, _, hmem' b hb l hl, (hsd b hb l hl).2.1.2 h⟩

/-- The order of the blocks does not matter. -/
theorem wq_perm {bs bs' : List Raw} (hp : bs.Perm bs') (ht : ColumnsOn mg X bs) : ColumnsOn mg X bs' := by
  have hf := hp.flatMap_right Lns.Blk.lines
  refine ⟨fun b hb => ht.horizontal b (hp.symm.subset hb), fun b hb => ht.own b (hp.symm.subset hb), hp.pairwise ht.ids ?_, hf.pairwise ht.spaced wc_spaced_symm,
    ?_, hp.pairwise ht.clear ?_, fun b hb => ht.column b (hp.symm.subset hb), ?_, ?_,
    hf.pairwise ht.leftLines ?_, hf.pairwise ht.rightLines ?_, hp.pairwise ht.leftOrder wq_down_symm, hp.pairwise ht.rightOrder wq_down_symm⟩
  · exact fun h l hl m hm e => h m hm l hl e.symm
  · intro b hb
    refine (ht.place b (hp.symm.subset hb)).imp_right (And.imp_right (Or.imp ?_ ?_))
    · exact fun h a ha => h a (hp.symm.subset ha)
    · exact fun h a ha => h a (hp.symm.subset ha)
  · exact fun h h1 h2 => (h h2 h1).symm
  · obtain ⟨b, hb, h⟩ := ht.left
    exact ⟨b, hp.subset hb, h⟩
  · obtain ⟨b, hb, h⟩ := ht.right
    exact ⟨b, hp.subset hb, h⟩
  · exact fun h h1 h2 => (h h2 h1).symm
  · exact fun h h1 h2 => (h h2 h1).symm

/-- A heading or note is alone in its group. -/
theorem wq_alone {bs : List Raw} (ht : ColumnsOn mg X bs) (hok : ∀ b ∈ bs, RawOK b) (hne : ∀ b ∈ bs, b.lines ≠ []) {g : List Raw} (hgs : List.Subperm g bs)
    (hconn : ∀ a ∈ g, ∀ b ∈ g, Relation.ReflTransGen (fun x y : Raw => x ∈ g ∧ y ∈ g ∧ (x.bbox.y0 ≤ y.bbox.y1 ∧ y.bbox.y0 ≤ x.bbox.y1)) a b)
    {b : Raw} (hb : b ∈ g) (hout : ∀ l ∈ b.lines, Across X l.bbox) : g = [b] := by
  have hsub : ∀ x ∈ g, x ∈ bs := fun x hx => hgs.subset hx
  have hsame : ∀ x ∈ g, x = b := by
    intro x hx
    by_contra hxb
    obtain ⟨c, hcb, hc1, hc2, h1, h2⟩ := ln_leaves (hconn b hb x hx) (Ne.symm hxb)
    have pc := (hok c (hsub c hc2)).boxes.1.1.2
    have pb := (hok b (hsub b hb)).boxes.1.1.2
    simp only at pc pb
    by_cases hin : ∀ l ∈ c.lines, Across X l.bbox
    · have := pl_forall ht.clear (fun a b h h1 h2 => (h h2 h1).symm) (hsub b hb) (hsub c hc2) (Ne.symm hcb) hout hin
      rcases this with h | h <;> linarith
    · push Not at hin
      rcases ht.place b (hsub b hb) with h | ⟨_, h | h⟩
      · obtain ⟨l, hl⟩ := List.exists_mem_of_ne_nil _ (hne b (hsub b hb))
        exact wq_not_across (h l hl) (hout l hl)
      · linarith [h c (hsub c hc2) hin]
      · linarith [h c (hsub c hc2) hin]
  have hnd : g.Nodup := by
    have : bs.Nodup := by
      refine ht.ids.imp_of_mem ?_
      rintro a c ha _ h rfl
      obtain ⟨l, hl⟩ := List.exists_mem_of_ne_nil _ (hne a ha)
      exact h l hl l hl rfl
    obtain ⟨g', hp, hs⟩ := hgs
    exact hp.nodup_iff.1 (hs.nodup this)
  match g, hb, hsame, hnd with
  | [x], _, hs, _ => rw [hs x (by simp)]
  | x :: y :: t, _, hs, hnd =>
    exfalso
    have h1 := hs x (by simp)
    have h2 := hs y (by simp)
    subst h1
    subst h2
    simp at hnd

/-- The cleaned-up blocks. -/
theorem wq_around (iter : List ℕ → List ℕ) (hi : ∀ l, (iter l).Perm l) (ov : ℚ) (hov : 1 / 1000000 < ov) (hmg : 0 ≤ mg)
    (bs js : List Raw) (hok : ∀ b ∈ bs, RawOK b) (hne : ∀ b ∈ bs, b.lines ≠ []) (ht : ColumnsOn mg X bs) (hj : Lns.joinHorizontally iter ov mg bs = .ok js)
    (hjok : ∀ j ∈ js, TextOK (j.bbox, j.lines))
    (hreach : ∀ b ∈ js, ∀ l ∈ b.lines, ∀ m ∈ b.lines, LeftOf X l.bbox → RightOf X m.bbox →
      (b.bbox.x1 - b.bbox.x0) / 10 + 1 / 10 ≤ X - b.bbox.x0 ∧ (b.bbox.x1 - b.bbox.x0) / 10 + 1 / 10 ≤ b.bbox.x1 - X) :
    (js.flatMap Lns.Blk.lines).Perm (bs.flatMap Lns.Blk.lines) ∧ TwoColumnText X (js.map fun b => Full.Blk.text b.bbox b.lines) := by
  obtain ⟨gs, h1, h3, h2, h4, rfl, h6⟩ := wc_groups iter hi ov mg hov hmg bs js hok hne ht.horizontal ht.spaced hj
  have hgg : ∀ g ∈ gs, ∀ b ∈ g, b ∈ bs := fun g hg b hbg => h1.subset (List.mem_flatten.2 ⟨g, hg, hbg⟩)
  have hgsub : ∀ g ∈ gs, List.Subperm g bs := fun g hg => (List.Sublist.subperm (List.sublist_flatten_of_mem hg)).trans h1.subperm
  have hmem : ∀ g ∈ gs, ∀ l ∈ (Lns.joinedBlock ov mg g).lines, ∃ b ∈ g, l ∈ b.lines := by
    intro g hg l hl
    rw [(h6 g hg).1] at hl
    exact List.mem_flatMap.1 ((C67_permutation _).subset hl)
  have hmem' : ∀ g ∈ gs, ∀ b ∈ g, ∀ l ∈ b.lines, l ∈ (Lns.joinedBlock ov mg g).lines := by
    intro g hg b hb l hl
    rw [(h6 g hg).1]
    exact (C67_permutation _).symm.subset (List.mem_flatMap.2 ⟨b, hb, hl⟩)
  have hcov : ∀ b ∈ bs, ∀ l ∈ b.lines, Covers b.bbox l.bbox := fun b hb l hl => ((hok b hb).boxes.2 l hl).2
  have hprop : ∀ b ∈ bs, ∀ l ∈ b.lines, Proper l.bbox := fun b hb l hl => ((hok b hb).boxes.2 l hl).1.1.1
  have hjp : ∀ g ∈ gs, Proper (Lns.joinedBlock ov mg g).bbox := fun g hg => (hjok _ (List.mem_map_of_mem hg)).1.1
  have hjbox : ∀ g ∈ gs, ∀ B : Rect, (∀ b ∈ g, Covers B b.bbox) → Covers B (Lns.joinedBlock ov mg g).bbox := by
    intro g hg B hB
    refine (h6 g hg).2.2 B ?_
    intro x hx
    obtain ⟨l, hl, rfl⟩ := List.mem_map.1 hx
    obtain ⟨b, hb, hl⟩ := List.mem_flatMap.1 hl
    exact wc_trans (hB b hb) (hcov b (hgg g hg b hb) l hl)
  -- in the columns or alone
  have hcase : ∀ g ∈ gs, (∀ b ∈ g, ∀ l ∈ b.lines, LeftOf X l.bbox ∨ RightOf X l.bbox) ∨ ∃ b, g = [b] ∧ ∀ l ∈ b.lines, Across X l.bbox := by
    intro g hgm
    by_cases h : ∀ b ∈ g, ∀ l ∈ b.lines, LeftOf X l.bbox ∨ RightOf X l.bbox
    · exact Or.inl h
    · push Not at h
      obtain ⟨b, hb, l, hl, hn⟩ := h
      have hout : ∀ l ∈ b.lines, Across X l.bbox := by
        rcases ht.place b (hgg g hgm b hb) with k | k
        · exact absurd (k l hl) (not_or.2 hn)
        · exact k.1
      exact Or.inr ⟨b, wq_alone ht hok hne (hgsub g hgm) (h4 g hgm) hb hout, hout⟩
  have hlin : (js' : List Raw) → js' = gs.map (Lns.joinedBlock ov mg) → (js'.flatMap Lns.Blk.lines).Perm (bs.flatMap Lns.Blk.lines) := by
    rintro js' rfl
    refine List.Perm.trans ?_ (h1.flatMap_right Lns.Blk.lines)
    clear h1 h2 h3 h4 hjok hreach hj hgsub hcase hjbox hjp
    induction gs with
    | nil => simp
    | cons g gs ih =>
      rw [List.map_cons, List.flatMap_cons, List.flatten_cons, List.flatMap_append, (h6 g (by simp)).1]
      exact (C67_permutation _).append (ih (fun g hg => h6 g (by simp [hg])) (fun g hg => hgg g (by simp [hg])) (fun g hg => hmem g (by simp [hg]))
        (fun g hg => hmem' g (by simp [hg])))
  have hsep : gs.Pairwise fun g h => Clears (Lns.joinedBlock ov mg g).bbox (Lns.joinedBlock ov mg h).bbox := by
    have hgood : ∀ b ∈ bs, BlockGood b := fun b h => pp_block_good (hok b h)
    refine h2.imp_of_mem ?_
    intro g h hgm hhm hs
    have wg := (ln_joined_within ov mg g (fun b hb => hgood b (hgg g hgm b hb))).resolve_left (st_proper_ne (hjp g hgm))
    have wh := (ln_joined_within ov mg h (fun b hb => hgood b (hgg h hhm b hb))).resolve_left (st_proper_ne (hjp h hhm))
    obtain ⟨⟨ra, ia, ha'⟩, rb, ib, hb''⟩ := wg
    obtain ⟨⟨rc, ic, hc'⟩, rd, id', hd'⟩ := wh
    obtain ⟨a, ha, rfl⟩ := List.mem_map.1 ia
    obtain ⟨b, hb', rfl⟩ := List.mem_map.1 ib
    obtain ⟨c, hc, rfl⟩ := List.mem_map.1 ic
    obtain ⟨d, hd, rfl⟩ := List.mem_map.1 id'
    rcases hs with hs | hs
    · exact Or.inl (lt_of_le_of_lt hb'' (lt_of_lt_of_le (hs b hb' c hc) hc'))
    · exact Or.inr (lt_of_le_of_lt hd' (lt_of_lt_of_le (hs a ha d hd) ha'))
  have hLT : ∀ g ∈ gs, LineText (Full.Blk.text (Lns.joinedBlock ov mg g).bbox (Lns.joinedBlock ov mg g).lines) := by
    intro g hgm
    refine ⟨rfl, hjok _ (List.mem_map_of_mem hgm), ?_, ?_, ?_, ?_⟩
    · obtain ⟨b, hb⟩ := List.exists_mem_of_ne_nil _ (h3 g hgm)
      obtain ⟨l, hl⟩ := List.exists_mem_of_ne_nil _ (hne b (hgg g hgm b hb))
      exact List.ne_nil_of_mem (hmem' g hgm b hb l hl)
    · show IsHull ((Lns.joinedBlock ov mg g).lines.map _) (Lns.joinedBlock ov mg g).bbox
      rw [(h6 g hgm).1]
      have hp : ∀ x, x ∈ ((Lns.sort (g.flatMap Lns.Blk.lines)).map fun l => l.bbox) ↔ x ∈ (g.flatMap Lns.Blk.lines).map Lns.Ln.bbox := fun x =>
        ((C67_permutation (g.flatMap Lns.Blk.lines)).map Lns.Ln.bbox).mem_iff
      exact ⟨fun x hx => (h6 g hgm).2.1 x ((hp x).1 hx), fun B hB => (h6 g hgm).2.2 B fun x hx => hB x ((hp x).2 hx)⟩
    · intro l hl
      obtain ⟨b, hb, hl⟩ := hmem g hgm l hl
      exact ht.horizontal b (hgg g hgm b hb) l hl
    · intro l hl
      obtain ⟨b, hb, hl⟩ := hmem g hgm l hl
      obtain ⟨id, hid⟩ := ht.own b (hgg g hgm b hb)
      rw [hid l hl]; simp
  have hcolumn : ∀ side : Rect → Prop, ∀ [DecidablePred side],
      ((bs.flatMap Lns.Blk.lines).Pairwise fun l m => side l.bbox → side m.bbox → Above l.bbox m.bbox ∨ Above m.bbox l.bbox) →
      (bs.Pairwise fun a b => DownIn side (.text a.bbox a.lines) (.text b.bbox b.lines)) → ∀ g ∈ gs,
      LineColumn ((Lns.joinedBlock ov mg g).lines.filter fun l => decide (side l.bbox)) := by
    intro side _ hl ho g hgm
    refine ⟨?_, ?_⟩
    · have hall : (g.flatMap Lns.Blk.lines).Pairwise fun l m => side l.bbox → side m.bbox → Above l.bbox m.bbox ∨ Above m.bbox l.bbox := by
        have := (h1.flatMap_right Lns.Blk.lines).symm.pairwise hl (fun h h1 h2 => (h h2 h1).symm)
        refine List.Pairwise.sublist ?_ this
        obtain ⟨u, v, rfl⟩ := List.append_of_mem hgm
        simp only [List.flatten_append, List.flatten_cons, List.flatMap_append]
        exact List.Sublist.trans (List.sublist_append_left _ _) (List.sublist_append_right _ _)
      rw [(h6 g hgm).1]
      have := (C67_permutation (g.flatMap Lns.Blk.lines)).symm.pairwise hall (fun h h1 h2 => (h h2 h1).symm)
      refine (this.sublist List.filter_sublist).imp_of_mem ?_
      intro l m hl hm h
      exact h (by simpa using (List.mem_filter.1 hl).2) (by simpa using (List.mem_filter.1 hm).2)
    · intro l hl m hm n hn h12 h23 hpid
      obtain ⟨hl, cl⟩ := List.mem_filter.1 hl
      obtain ⟨hm, cm⟩ := List.mem_filter.1 hm
      obtain ⟨hn, cn⟩ := List.mem_filter.1 hn
      rw [decide_eq_true_eq] at cl cm cn
      obtain ⟨a, ha, hl⟩ := hmem g hgm l hl
      obtain ⟨b, hb, hm⟩ := hmem g hgm m hm
      obtain ⟨c, hc, hn⟩ := hmem g hgm n hn
      have ha' := hgg g hgm a ha
      have hb' := hgg g hgm b hb
      have hc' := hgg g hgm c hc
      have hac : a = c := by
        by_contra hne
        exact pl_forall ht.ids (fun a b h l hl m hm e => h m hm l hl e.symm) ha' hc' hne l hl n hn hpid
      subst hac
      by_contra hpm
      have hab : a ≠ b := by
        rintro rfl
        obtain ⟨id, hid⟩ := ht.own a ha'
        exact hpm (by rw [hid l hl, hid m hm])
      have p1 := (hprop a ha' l hl).2
      have p2 := (hprop b hb' m hm).2
      have p3 := (hprop a ha' n hn).2
      unfold Above at h12 h23
      rcases pl_forall ho (fun a b h => wq_down_symm h) ha' hb' hab with h | h
      · have := h n hn m hm cn cm; linarith
      · have := h l hl m hm cl cm; linarith
  have horder : ∀ side : Rect → Prop, (gs.map ((fun b : Raw => Full.Blk.text b.bbox b.lines) ∘ Lns.joinedBlock ov mg)).Pairwise (DownIn side) := by
    intro side
    rw [List.pairwise_map]
    refine hsep.imp_of_mem ?_
    intro g h hgm hhm hs
    have cov : ∀ g ∈ gs, ∀ l ∈ (Lns.joinedBlock ov mg g).lines, Covers (Lns.joinedBlock ov mg g).bbox l.bbox := fun g hg l hl => ((hjok _ (List.mem_map_of_mem hg)).2 l hl).2
    rcases hs with hs | hs
    · left
      intro l hl m hm _ _
      have c1 := (cov g hgm l hl).2.2.2
      have c2 := (cov h hhm m hm).2.1
      linarith
    · right
      intro l hl m hm _ _
      have c1 := (cov g hgm l hl).2.1
      have c2 := (cov h hhm m hm).2.2.2
      linarith
  refine ⟨hlin _ rfl, ?_⟩
  rw [List.map_map]
  have hm : ∀ x ∈ gs.map ((fun b : Raw => Full.Blk.text b.bbox b.lines) ∘ Lns.joinedBlock ov mg), ∃ g ∈ gs, x = .text (Lns.joinedBlock ov mg g).bbox (Lns.joinedBlock ov mg g).lines := by
    intro x hx
    obtain ⟨g, hg, rfl⟩ := List.mem_map.1 hx
    exact ⟨g, hg, rfl⟩
  have hhas : ∀ b ∈ bs, ∃ g ∈ gs, b ∈ g := fun b hb => List.mem_flatten.1 (h1.symm.subset hb)
  refine ⟨?_, ?_, ?_, ?_, ?_, ?_, ?_, ?_, horder _, horder _, ?_⟩
  · intro x hx
    obtain ⟨g, hgm, rfl⟩ := hm x hx
    exact hLT g hgm
  · rw [List.pairwise_map]
    have hids : gs.flatten.Pairwise fun a b => ∀ l ∈ a.lines, ∀ m ∈ b.lines, l.pid ≠ m.pid := h1.symm.pairwise ht.ids (fun h l hl m hm e => h m hm l hl e.symm)
    rw [List.pairwise_flatten] at hids
    refine hids.2.imp_of_mem ?_
    intro g h hgm hhm hgh l hl m hm
    obtain ⟨a, ha, hl⟩ := hmem g hgm l hl
    obtain ⟨b, hb, hm⟩ := hmem h hhm m hm
    exact hgh a ha b hb l hl m hm
  · intro x hx
    obtain ⟨g, hgm, rfl⟩ := hm x hx
    rcases hcase g hgm with h | ⟨b, rfl, hout⟩
    · left
      intro l hl
      obtain ⟨b, hb, hl⟩ := hmem g hgm l hl
      exact h b hb l hl
    · right
      have hbb := hgg _ hgm b (by simp)
      have hacr : ∀ l ∈ (Lns.joinedBlock ov mg [b]).lines, Across X l.bbox := by
        intro l hl
        obtain ⟨b1, hb1, hl1⟩ := hmem _ hgm l hl
        obtain rfl := List.mem_singleton.1 hb1
        exact hout l hl1
      have hle := hjbox _ hgm b.bbox (by intro x hx; rw [List.mem_singleton] at hx; subst hx; exact wc_refl _)
      refine ⟨⟨hLT _ hgm, ?_, ?_⟩, hacr, ?_⟩
      · show ((Lns.joinedBlock ov mg [b]).lines).Pairwise _
        rw [(h6 _ hgm).1]
        refine (C67_permutation _).symm.pairwise ?_ (fun h => h.symm)
        simpa using ht.column b hbb hout
      · intro l hl m hm n hn _ _ _
        obtain ⟨b1, hb1, hl1⟩ := hmem _ hgm l hl
        obtain ⟨b2, hb2, hm2⟩ := hmem _ hgm m hm
        obtain rfl := List.mem_singleton.1 hb1
        obtain rfl := List.mem_singleton.1 hb2
        obtain ⟨id, hid⟩ := ht.own b2 hbb
        rw [hid l hl1, hid m hm2]
      · have hrow : ∀ y ∈ gs.map ((fun b : Raw => Full.Blk.text b.bbox b.lines) ∘ Lns.joinedBlock ov mg), ∀ m ∈ Full.Blk.lines y, ∃ a ∈ bs, m ∈ a.lines := by
          intro y hy m hm'
          obtain ⟨g', hg', rfl⟩ := hm y hy
          obtain ⟨a, ha, hma⟩ := hmem g' hg' m hm'
          exact ⟨a, hgg g' hg' a ha, hma⟩
        rcases ht.place b hbb with k | ⟨_, k | k⟩
        · obtain ⟨l, hl⟩ := List.exists_mem_of_ne_nil _ (hne b hbb)
          exact absurd (hout l hl) (wq_not_across (k l hl))
        · left
          intro y hy m hm' hn
          obtain ⟨a, ha, hma⟩ := hrow y hy m hm'
          have := k a ha ⟨m, hma, hn⟩
          have c1 := (hcov a ha m hma).2.1
          have c2 := hle.2.2.2
          show (Lns.joinedBlock ov mg [b]).bbox.y1 + 5 < _
          linarith
        · right
          intro y hy m hm' hn
          obtain ⟨a, ha, hma⟩ := hrow y hy m hm'
          have := k a ha ⟨m, hma, hn⟩
          have c1 := (hcov a ha m hma).2.2.2
          have c2 := hle.2.1
          show _ < (Lns.joinedBlock ov mg [b]).bbox.y0
          linarith
  · rw [List.pairwise_map]
    exact hsep.imp fun h _ _ => h
  · obtain ⟨b, hb, l, hl, h⟩ := ht.left
    obtain ⟨g, hg, hbg⟩ := hhas b hb
    exact ⟨_, List.mem_map_of_mem hg, l, hmem' g hg b hbg l hl, h⟩
  · obtain ⟨b, hb, l, hl, h⟩ := ht.right
    obtain ⟨g, hg, hbg⟩ := hhas b hb
    exact ⟨_, List.mem_map_of_mem hg, l, hmem' g hg b hbg l hl, h⟩
  · intro x hx
    obtain ⟨g, hgm, rfl⟩ := hm x hx
    exact hcolumn (LeftOf X) ht.leftLines ht.leftOrder g hgm
  · intro x hx
    obtain ⟨g, hgm, rfl⟩ := hm x hx
    exact hcolumn (RightOf X) ht.rightLines ht.rightOrder g hgm
  · intro x hx
    obtain ⟨g, hgm, rfl⟩ := hm x hx
    exact hreach _ (List.mem_map_of_mem hgm)

end WCols

section WColPage
variable {π : Type}

/-- The cleaned-up page. -/
theorem wq_page (c : Whole.Cfg) (hws : c.ws ' ' = true) (hi : ∀ l, (c.full.base.lay.iter l).Perm l) (hov : 1 / 1000000 < c.ov) (hmg : 0 ≤ c.mg) (p : Whole.Page π) (hp : ColumnsPage c p) :
    ∃ js, cleanUp c.pipe p.box p.raw = .ok (js, []) ∧ (js.flatMap Lns.Blk.lines).Perm (((pageBlocks c.ws p).flatMap Lns.Blk.lines).map fun l => (stripLine c.ws l).1) ∧
      TwoColumnText (centre p) (js.map fun b => Full.Blk.text b.bbox b.lines) ∧ LinksOnly (centre p) (js.map fun b => Full.Blk.text b.bbox b.lines) p.shapes ∧
      (∀ r ∈ pageBoxes (js.map fun b => Full.Blk.text b.bbox b.lines) p.shapes, p.work.x0 ≤ r.x0 ∧ r.x1 ≤ p.work.x1) ∧
      ∀ l ∈ js.flatMap Lns.Blk.lines, LineOK l ∧ ∀ s ∈ l.spans, Tagged s.2 := by
  obtain ⟨js, fs, bs, g1, g2, g3, _, _, _, _⟩ := pp_cleanUp c.pipe hws hi p.box p.raw hp.raw
  have hfs := hp.floats bs fs g1
  subst hfs
  set K := pageBlocks c.ws p with hK
  have hKok : ∀ b ∈ K, RawOK b := fun b hb => hp.raw b (List.mem_of_mem_filter hb)
  have hKf : (p.raw.filter (keep c.ws p.box)).filter (fun b => b.bbox.truthy) = K := by
    rw [hK, pageBlocks, List.filter_filter]
    apply List.filter_congr
    intro b hb
    have hpb := (hp.raw b hb).boxes.1
    rw [show b.bbox.truthy = true from ly_real_truthy hpb, Bool.true_and, Bool.eq_iff_iff, decide_eq_true_eq]
    exact pp_keep c.ws p.box b hpb.1
  have hbs : bs.Perm (K.map (stripBlock c.ws)) := by
    have hb := g1
    unfold beforeJoin at hb
    rw [show c.pipe.ws = c.ws from rfl, hKf] at hb
    rw [pl_no_floats _ _ _ hb]
    exact pp_sort_perm _
  have hKne : ∀ b ∈ K, b.lines ≠ [] := by
    intro b hb e
    have := (List.mem_filter.1 hb).2
    rw [decide_eq_true_eq] at this
    refine this.2.2.1 ?_
    unfold rawToks
    rw [e]; rfl
  have hbsok : ∀ b ∈ bs, RawOK b := by
    intro b hb
    obtain ⟨b0, hb0, rfl⟩ := List.mem_map.1 (hbs.subset hb)
    exact (pp_stripBlock c.ws hws b0 (hKok b0 hb0)).1
  have hbsne : ∀ b ∈ bs, b.lines ≠ [] := by
    intro b hb
    obtain ⟨b0, hb0, rfl⟩ := List.mem_map.1 (hbs.subset hb)
    rw [wc_strip_lines]
    simpa using hKne b0 hb0
  have hton : ColumnsOn c.mg (centre p) bs := wq_perm hbs.symm (wq_strip hp.text hKok c.ws hws hp.solid)
  have hj : Lns.joinHorizontally c.full.base.lay.iter c.ov c.mg bs = .ok js := by
    have := g2
    unfold cleanUp at this
    rw [g1] at this
    dsimp only at this
    cases hjj : Lns.joinHorizontally c.pipe.lay.iter c.pipe.ov c.pipe.mg bs with
    | error e => rw [hjj] at this; cases this
    | ok js' =>
      rw [hjj] at this
      obtain ⟨rfl, _⟩ := Prod.mk.inj (Except.ok.inj this)
      exact hjj
  obtain ⟨e1, e2⟩ := wq_around c.full.base.lay.iter hi c.ov hov hmg bs js hbsok hbsne hton hj (fun j hj => (g3 j hj).1) (hp.reach js [] g2)
  have hperm : (js.flatMap Lns.Blk.lines).Perm ((K.flatMap Lns.Blk.lines).map fun l => (stripLine c.ws l).1) := by
    refine e1.trans ((hbs.flatMap_right _).trans (List.Perm.of_eq ?_))
    exact wt_strip_map c.ws K
  have hin : ∀ b ∈ K, ∀ l ∈ b.lines, p.work.x0 ≤ (stripLine c.ws l).1.bbox.x0 ∧ (stripLine c.ws l).1.bbox.x1 ≤ p.work.x1 := by
    intro b hb l hl
    have := hp.lines b hb l hl
    have hc := wc_strip_line c.ws hws l ((hKok b hb).boxes.2 l hl).1
    exact ⟨this.1.trans hc.1, hc.2.2.1.trans this.2⟩
  refine ⟨js, g2, hperm, e2, ?_, ?_, ?_⟩
  · intro s hs
    obtain ⟨r, rfl, h1, b, hb, l, hl, h2, h3⟩ := hp.links s hs
    have hm : (stripLine c.ws l).1 ∈ js.flatMap Lns.Blk.lines := hperm.symm.subset (List.mem_map_of_mem (List.mem_flatMap.2 ⟨b, hb, hl⟩))
    obtain ⟨j, hjm, hlj⟩ := List.mem_flatMap.1 hm
    refine ⟨r, rfl, h1, _, List.mem_map_of_mem hjm, _, hlj, h2, fun ha => h3 ?_⟩
    have hc := wc_strip_line c.ws hws l ((hKok b hb).boxes.2 l hl).1
    exact ⟨le_trans hc.1 ha.1, le_trans ha.2 hc.2.2.1⟩
  · intro r hr
    rcases List.mem_append.1 hr with h | h
    · obtain ⟨l, hl, rfl⟩ := List.mem_map.1 h
      rw [List.flatMap_map] at hl
      obtain ⟨l0, hl0, rfl⟩ := List.mem_map.1 (hperm.subset hl)
      obtain ⟨b0, hb0, hl0⟩ := List.mem_flatMap.1 hl0
      exact hin b0 hb0 l0 hl0
    · obtain ⟨s, hs, rfl⟩ := List.mem_map.1 h
      obtain ⟨r, rfl, h1, b, hb, l, hl, h2, h3⟩ := hp.links s hs
      have := hin b hb l hl
      exact ⟨this.1.trans h2.1, h2.2.2.1.trans this.2⟩
  · intro l hl
    obtain ⟨j, hjm, hl⟩ := List.mem_flatMap.1 hl
    exact ⟨((g3 j hjm).1.2 l hl).1, (g3 j hjm).2 l hl⟩

/-- The part of a list shown by one of two groups. -/
theorem wq_part {bs1 bs2 : List (Full.Blk Tok)} {ls : List (Lay.Ln Tok)} (h : ShowsDown (bs1 ++ bs2) ls) (Q : Lay.Ln Tok → Bool) (h1 : ∀ l ∈ bs1.flatMap Full.Blk.lines, Q l = true)
    (h2 : ∀ l ∈ bs2.flatMap Full.Blk.lines, Q l = false) : ShowsDown bs1 (ls.filter Q) := by
  obtain ⟨t, hp, hd⟩ := h
  rw [List.flatMap_append] at hp hd
  refine ⟨fun b hb => t b (List.mem_append_left _ hb), ?_, (List.pairwise_append.1 hd).1⟩
  have := hp.filter Q
  rw [List.filter_append, List.filter_eq_self.2 h1, List.filter_eq_nil_iff.2 (fun l hl => by rw [h2 l hl]; simp), List.append_nil] at this
  exact this

theorem wq_part' {bs1 bs2 : List (Full.Blk Tok)} {ls : List (Lay.Ln Tok)} (h : ShowsDown (bs1 ++ bs2) ls) (Q : Lay.Ln Tok → Bool) (h1 : ∀ l ∈ bs1.flatMap Full.Blk.lines, Q l = false)
    (h2 : ∀ l ∈ bs2.flatMap Full.Blk.lines, Q l = true) : ShowsDown bs2 (ls.filter Q) := by
  obtain ⟨t, hp, hd⟩ := h
  rw [List.flatMap_append] at hp hd
  refine ⟨fun b hb => t b (List.mem_append_right _ hb), ?_, (List.pairwise_append.1 hd).2.1⟩
  have := hp.filter Q
  rw [List.filter_append, List.filter_eq_self.2 h2, List.filter_eq_nil_iff.2 (fun l hl => by rw [h1 l hl]; simp), List.nil_append] at this
  exact this

/-- Parsing a page in two columns. -/
theorem wq_parse (c : Whole.Cfg) (hc : Sane c) (depth : ℕ) (p : Whole.Page π) (hp : ColumnsPage c p) :
    ∃ dd, Whole.parsePage c (depth + 2) p = .ok dd ∧ ColumnsShown c.ws (centre p) ((pageBlocks c.ws p).flatMap Lns.Blk.lines) (ofBlocks dd.blocks) := by
  have hws := hc.blank
  obtain ⟨js, j1, j2, j3, j4, j5, j6⟩ := wq_page c hws hc.order hc.overlap hc.merging p hp
  obtain ⟨A, box, cl, left, cr, right, D, ty, e1, e2, e3, e4, e5⟩ := C124_two_columns_partial c.full hc.order hc.tol hc.conn hc.clear hc.border p.styled p.ids depth p.work p.shapes _ j3 j4
    hp.wide j5
  have hfl : (js.map fun b => Full.Blk.text b.bbox b.lines).flatMap Full.Blk.lines = js.flatMap Lns.Blk.lines := by
    rw [List.flatMap_map]
    rfl
  rw [hfl] at e2 e3 e4 e5
  change ShowsDown _ (List.filter (fun l => decide (LeftOf (centre p) l.bbox)) _) at e2
  change ShowsDown _ (List.filter (fun l => decide (RightOf (centre p) l.bbox)) _) at e3
  change ShowsDown _ (List.filter (fun l => decide (Across (centre p) l.bbox)) _) at e4
  change ∀ m ∈ js.flatMap Lns.Blk.lines, ¬ Across (centre p) m.bbox → _ at e5
  generalize hX : centre p = X at *
  have hKok : ∀ b ∈ pageBlocks c.ws p, RawOK b := fun b hb => hp.raw b (List.mem_of_mem_filter hb)
  have ht := hp.text
  have hsolid := hp.solid
  rw [hX] at ht hsolid
  set K := (pageBlocks c.ws p).flatMap Lns.Blk.lines with hK
  have hlok : ∀ l ∈ K, LineOK l := by
    intro l hl
    obtain ⟨b, hb, hl⟩ := List.mem_flatMap.1 hl
    exact ((hKok b hb).boxes.2 l hl).1
  have hst : ∀ l ∈ K, Covers l.bbox (stripLine c.ws l).1.bbox ∧ Proper (stripLine c.ws l).1.bbox ∧ Proper l.bbox := fun l hl =>
    ⟨wc_strip_line c.ws hws l (hlok l hl), ((pp_stripLine c.ws hws l).ok (hlok l hl)).1.1, (hlok l hl).1.1⟩
  have hsd : ∀ l ∈ K, (LeftOf X (stripLine c.ws l).1.bbox ↔ LeftOf X l.bbox) ∧ (RightOf X (stripLine c.ws l).1.bbox ↔ RightOf X l.bbox) ∧
      (Across X (stripLine c.ws l).1.bbox ↔ Across X l.bbox) := by
    intro l hl
    obtain ⟨b, hb, hlb⟩ := List.mem_flatMap.1 hl
    exact wq_sides (hst l hl).2.1 (hst l hl).1 (hsolid b hb l hlb)
  -- a heading is above all lines in the columns, a note below
  have hdich : ∀ l ∈ K, Across X l.bbox → (∀ m ∈ K, ¬ Across X m.bbox → l.bbox.y1 < m.bbox.y0) ∨ ∀ m ∈ K, ¬ Across X m.bbox → m.bbox.y1 < l.bbox.y0 := by
    intro l hl ha
    obtain ⟨b, hb, hlb⟩ := List.mem_flatMap.1 hl
    have c1 := ((hKok b hb).boxes.2 l hlb).2
    rcases ht.place b hb with k | ⟨_, k | k⟩
    · exact absurd ha (wq_not_across (k l hlb))
    · left
      intro m hm hn
      obtain ⟨a, ha, hma⟩ := List.mem_flatMap.1 hm
      have c2 := ((hKok a ha).boxes.2 m hma).2
      have := k a ha ⟨m, hma, hn⟩
      have q1 := c1.2.2.2
      have q2 := c2.2.1
      dsimp only at q1 q2
      linarith
    · right
      intro m hm hn
      obtain ⟨a, ha, hma⟩ := List.mem_flatMap.1 hm
      have c2 := ((hKok a ha).boxes.2 m hma).2
      have := k a ha ⟨m, hma, hn⟩
      have q1 := c1.2.1
      have q2 := c2.2.2.2
      dsimp only at q1 q2
      linarith
  obtain ⟨n, hnK, hnn⟩ : ∃ n ∈ K, ¬ Across X n.bbox := by
    obtain ⟨b, hb, l, hl, h⟩ := ht.left
    exact ⟨l, List.mem_flatMap.2 ⟨b, hb, hl⟩, wq_not_across (Or.inl h)⟩
  have hnj : (stripLine c.ws n).1 ∈ js.flatMap Lns.Blk.lines := j2.symm.subset (List.mem_map_of_mem hnK)
  have hnj' : ¬ Across X (stripLine c.ws n).1.bbox := fun h => hnn ((hsd n hnK).2.2.1 h)
  -- the same of the lines without blanks at the ends
  set up : Rect → Prop := fun x => Across X x ∧ ∀ m ∈ K, ¬ Across X m.bbox → x.y1 < m.bbox.y0 with hup
  set dn : Rect → Prop := fun x => Across X x ∧ ∀ m ∈ K, ¬ Across X m.bbox → m.bbox.y1 < x.y0 with hdn
  have hexcl : ∀ x : Rect, Proper x → up x → dn x → False := by
    intro x hx h1 h2
    have a1 := h1.2 n hnK hnn
    have a2 := h2.2 n hnK hnn
    have := (hst n hnK).2.2.2
    have := hx.2
    linarith
  have hupi : ∀ l ∈ K, up (stripLine c.ws l).1.bbox ↔ up l.bbox := by
    intro l hl
    obtain ⟨cv, ps, pl⟩ := hst l hl
    constructor
    · rintro ⟨h1, h2⟩
      have ha := (hsd l hl).2.2.1 h1
      refine ⟨ha, (hdich l hl ha).resolve_right fun h3 => hexcl _ ps ⟨h1, h2⟩ ⟨h1, fun m hm hn => lt_of_lt_of_le (h3 m hm hn) cv.2.1⟩⟩
    · rintro ⟨h1, h2⟩
      exact ⟨(hsd l hl).2.2.2 h1, fun m hm hn => lt_of_le_of_lt cv.2.2.2 (h2 m hm hn)⟩
  have hdni : ∀ l ∈ K, dn (stripLine c.ws l).1.bbox ↔ dn l.bbox := by
    intro l hl
    obtain ⟨cv, ps, pl⟩ := hst l hl
    constructor
    · rintro ⟨h1, h2⟩
      have ha := (hsd l hl).2.2.1 h1
      refine ⟨ha, (hdich l hl ha).resolve_left fun h3 => hexcl _ ps ⟨h1, fun m hm hn => lt_of_le_of_lt cv.2.2.2 (h3 m hm hn)⟩ ⟨h1, h2⟩⟩
    · rintro ⟨h1, h2⟩
      exact ⟨(hsd l hl).2.2.2 h1, fun m hm hn => lt_of_lt_of_le (h2 m hm hn) cv.2.1⟩
  have hjK : ∀ l ∈ js.flatMap Lns.Blk.lines, ∃ l0 ∈ K, (stripLine c.ws l0).1 = l := fun l hl => List.mem_map.1 (j2.subset hl)
  have hAD : ∀ l ∈ A.flatMap Full.Blk.lines ++ D.flatMap Full.Blk.lines, ∃ l0 ∈ K, (stripLine c.ws l0).1 = l ∧ Across X l.bbox := by
    intro l hl
    rw [← List.flatMap_append] at hl
    obtain ⟨h1, h2⟩ := List.mem_filter.1 (e4.2.1.subset hl)
    obtain ⟨l0, hl0, e⟩ := hjK l h1
    exact ⟨l0, hl0, e, by simpa using h2⟩
  have hAup : ∀ l ∈ A.flatMap Full.Blk.lines, up l.bbox := by
    intro l hl
    obtain ⟨l0, hl0, rfl, ha⟩ := hAD l (List.mem_append_left _ hl)
    refine (hupi l0 hl0).2 ⟨(hsd l0 hl0).2.2.1 ha, (hdich l0 hl0 ((hsd l0 hl0).2.2.1 ha)).resolve_right fun h3 => ?_⟩
    have h1 := (e5 _ hnj hnj').1 _ hl
    have h2 := h3 n hnK hnn
    obtain ⟨cv, ps, _⟩ := hst l0 hl0
    obtain ⟨cn, pn, _⟩ := hst n hnK
    linarith [cv.2.1, cn.2.2.2, ps.2, pn.2]
  have hDdn : ∀ l ∈ D.flatMap Full.Blk.lines, dn l.bbox := by
    intro l hl
    obtain ⟨l0, hl0, rfl, ha⟩ := hAD l (List.mem_append_right _ hl)
    refine (hdni l0 hl0).2 ⟨(hsd l0 hl0).2.2.1 ha, (hdich l0 hl0 ((hsd l0 hl0).2.2.1 ha)).resolve_left fun h3 => ?_⟩
    have h1 := (e5 _ hnj hnj').2 _ hl
    have h2 := h3 n hnK hnn
    obtain ⟨cv, ps, _⟩ := hst l0 hl0
    obtain ⟨cn, pn, _⟩ := hst n hnK
    linarith [cv.2.2.2, cn.2.1, ps.2, pn.2]
  have hpr : ∀ l ∈ A.flatMap Full.Blk.lines ++ D.flatMap Full.Blk.lines, Proper l.bbox := by
    intro l hl
    obtain ⟨l0, hl0, rfl, _⟩ := hAD l hl
    exact (hst l0 hl0).2.1
  have hsA := wq_part e4 (fun l => decide (up l.bbox)) (fun l hl => by simpa using hAup l hl)
    (fun l hl => by simpa using fun h => hexcl _ (hpr l (List.mem_append_right _ hl)) h (hDdn l hl))
  have hsD := wq_part' e4 (fun l => decide (dn l.bbox)) (fun l hl => by simpa using fun h => hexcl _ (hpr l (List.mem_append_left _ hl)) (hAup l hl) h)
    (fun l hl => by simpa using hDdn l hl)
  have hfA : ((js.flatMap Lns.Blk.lines).filter fun l => decide (Across X l.bbox)).filter (fun l => decide (up l.bbox)) = (js.flatMap Lns.Blk.lines).filter fun l => decide (up l.bbox) := by
    rw [List.filter_filter]
    refine List.filter_congr fun l _ => ?_
    rw [Bool.eq_iff_iff]
    simp only [Bool.and_eq_true, decide_eq_true_eq]
    exact ⟨fun h => h.1, fun h => ⟨h, h.1⟩⟩
  have hfD : ((js.flatMap Lns.Blk.lines).filter fun l => decide (Across X l.bbox)).filter (fun l => decide (dn l.bbox)) = (js.flatMap Lns.Blk.lines).filter fun l => decide (dn l.bbox) := by
    rw [List.filter_filter]
    refine List.filter_congr fun l _ => ?_
    rw [Bool.eq_iff_iff]
    simp only [Bool.and_eq_true, decide_eq_true_eq]
    exact ⟨fun h => h.1, fun h => ⟨h, h.1⟩⟩
  rw [hfA] at hsA
  rw [hfD] at hsD
  have hjl : ∀ (P : Rect → Prop) [DecidablePred P] (bs : List (Full.Blk Tok)), ShowsDown bs ((js.flatMap Lns.Blk.lines).filter fun l => decide (P l.bbox)) →
      ShowsLines c.ws (ofBlocks (Whole.blocks c.ws p.fmt bs)) ((js.flatMap Lns.Blk.lines).filter fun l => decide (P l.bbox)) := by
    intro P _ bs h
    exact wh_shows c.ws p.fmt bs _ h (fun l hl => (j6 l (List.mem_of_mem_filter hl)).1) (fun l hl => (j6 l (List.mem_of_mem_filter hl)).2)
  -- headings and notes one below the other
  have hacross : K.Pairwise fun l m => Across X l.bbox → Across X m.bbox → VSep l.bbox m.bbox := by
    have hno : ∀ b ∈ pageBlocks c.ws p, ∀ l ∈ b.lines, Across X l.bbox → ∀ l ∈ b.lines, Across X l.bbox := by
      intro b hb l hl ha
      rcases ht.place b hb with k | k
      · exact absurd ha (wq_not_across (k l hl))
      · exact k.1
    rw [hK, List.pairwise_flatMap]
    refine ⟨?_, ?_⟩
    · intro b hb
      by_cases hin : ∀ l ∈ b.lines, Across X l.bbox
      · exact (ht.column b hb hin).imp fun h _ _ => h
      · refine List.pairwise_of_forall_mem_list ?_
        intro l hl m _ h
        exact absurd (hno b hb l hl h) hin
    · refine ht.clear.imp_of_mem ?_
      intro a b ha hb h l hl m hm h1 h2
      have c1 := ((hKok a ha).boxes.2 l hl).2
      have c2 := ((hKok b hb).boxes.2 m hm).2
      simp only [Covers] at c1 c2
      rcases h (hno a ha l hl h1) (hno b hb m hm h2) with h | h
      · exact Or.inl (show l.bbox.y1 ≤ m.bbox.y0 by linarith [c1.2.2.2, c2.2.1])
      · exact Or.inr (show m.bbox.y1 ≤ l.bbox.y0 by linarith [c1.2.1, c2.2.2.2])
  refine ⟨⟨p.props, Whole.blocks c.ws p.fmt (A ++ .table box [[true, true]] [(cl, left), (cr, right)] :: D), []⟩, ?_, ?_⟩
  · unfold Whole.parsePage
    rw [j1]
    dsimp only
    rw [e1]
  refine ⟨ofBlocks (Whole.blocks c.ws p.fmt A), ofBlocks (Whole.blocks c.ws p.fmt left), ofBlocks (Whole.blocks c.ws p.fmt right), ofBlocks (Whole.blocks c.ws p.fmt D), ?_, ?_, ?_, ?_, ?_⟩
  · show ofBlocks (Whole.blocks c.ws p.fmt (A ++ .table box [[true, true]] [(cl, left), (cr, right)] :: D)) = _
    rw [wh_blocks_map, List.map_append, wh_ofBlocks_append, List.map_cons, ← wh_blocks_map, ← wh_blocks_map]
    simp only [Whole.block, ofBlocks, Whole.cells, place, placeRow, ofBlockRows, ofBlockRow, ofBlockCell]
  · exact wt_shows c.ws hws K _ j2 hlok (fun x => LeftOf X x) (fun l hl => (hsd l hl).1) ht.leftLines _ (hjl (fun x => LeftOf X x) left e2)
  · exact wt_shows c.ws hws K _ j2 hlok (fun x => RightOf X x) (fun l hl => (hsd l hl).2.1) ht.rightLines _ (hjl (fun x => RightOf X x) right e3)
  · exact wt_shows c.ws hws K _ j2 hlok up hupi (hacross.imp fun h h1 h2 => h h1.1 h2.1) _ (hjl up A hsA)
  · exact wt_shows c.ws hws K _ j2 hlok dn hdni (hacross.imp fun h h1 h2 => h h1.1 h2.1) _ (hjl dn D hsD)

/-- **C124** (partial), from the extracted page to the document: the section of a page of text in two columns shows the headings, then one table of two cells side by side, then the
notes. The left cell shows exactly the lines left of the centre of the page, the right cell exactly those right of it, always from top to bottom and complete up to blanks. -/
theorem C124_document_partial (c : Whole.Cfg) (hc : Sane c) (depth : ℕ) (p0 : π) (pages : List (Whole.Page π)) (d : Docx.Doc Par Sp π) (h : Whole.convert c (depth + 2) p0 pages = .ok d)
    (i : ℕ) (p : Whole.Page π) (s : π × List (Docx.Item Par Sp π)) (hp : pages[i]? = some p) (hs : (sectionsOf d)[i]? = some s) (hcp : ColumnsPage c p) :
    ColumnsShown c.ws (centre p) ((pageBlocks c.ws p).flatMap Lns.Blk.lines) (ofItems s.2) := by
  obtain ⟨dd, h1, h2⟩ := wh_section c (depth + 2) p0 pages d h i p s hp hs
  obtain ⟨dd', h3, h4⟩ := wq_parse c hc depth p hcp
  rw [h1] at h3
  obtain rfl := Except.ok.inj h3
  rw [h2]
  exact h4

/-- **C124**: pages in two columns are converted without error, one section for each. -/
theorem C124_converts_partial (c : Whole.Cfg) (hc : Sane c) (depth : ℕ) (p0 : π) (pages : List (Whole.Page π)) (hne : pages ≠ []) (hcp : ∀ p ∈ pages, ColumnsPage c p) :
    ∃ d, Whole.convert c (depth + 2) p0 pages = .ok d ∧ (sectionsOf d).length = pages.length := by
  have hm : ∀ ps : List (Whole.Page π), (∀ p ∈ ps, ColumnsPage c p) → ∃ ds, ps.mapM (Whole.parsePage c (depth + 2)) = .ok ds ∧ ds.length = ps.length := by
    intro ps
    induction ps with
    | nil => intro _; exact ⟨[], rfl, rfl⟩
    | cons p ps ih =>
      intro h
      obtain ⟨dd, h3, _⟩ := wq_parse c hc depth p (h p (by simp))
      obtain ⟨ds, h4, h5⟩ := ih fun q hq => h q (by simp [hq])
      refine ⟨dd :: ds, ?_, by simp [h5]⟩
      rw [List.mapM_cons, h3, h4]
      rfl
  obtain ⟨ds, h1, h2⟩ := hm pages hcp
  refine ⟨_, by unfold Whole.convert; rw [h1], ?_⟩
  have hdne : ds ≠ [] := by
    rintro rfl
    exact hne (List.length_eq_zero_iff.1 h2.symm)
  have := congrArg List.length (C31_one_section_per_page p0 ds hdne)
  simpa [h2] using this

/-- What is shown in two columns is shown so by contents that agree in what makes lines be shown. -/
theorem wq_shown {β : Type} (f : Par → β) {ws : Char → Bool} (hsh : ∀ {ts ts' : List (Spec.Tree Par)} {ls : List (Lay.Ln Tok)}, mapTrees f ts = mapTrees f ts' → ShowsLines ws ts' ls → ShowsLines ws ts ls)
    {X : ℚ} {ts ts' : List (Spec.Tree Par)} {ls : List (Lay.Ln Tok)} (h : mapTrees f ts = mapTrees f ts') (hs : ColumnsShown ws X ls ts') : ColumnsShown ws X ls ts := by
  obtain ⟨above, left, right, below, rfl, h1, h2, h3, h4⟩ := hs
  rw [sx_trees, sx_trees, List.map_append, List.map_cons] at h
  obtain ⟨a, b', rfl, ha, hb⟩ := List.map_eq_append_iff.1 h
  obtain ⟨t, b, rfl, ht, hb1⟩ := List.map_eq_cons_iff.1 hb
  rw [← sx_trees, ← sx_trees] at ha hb1
  cases t with
  | text p => cases ht
  | table rows' =>
    have hr : mapRows f rows' = mapRows f [[some left, some right]] := by simpa [mapTree] using ht
    rw [sx_maprows, sx_maprows] at hr
    simp only [List.map_cons, List.map_nil, Option.map_some] at hr
    obtain ⟨row, rest, rfl, hrow, hrest⟩ := List.map_eq_cons_iff.1 hr
    obtain rfl := List.map_eq_nil_iff.1 hrest
    obtain ⟨l, row1, rfl, hl, hrow1⟩ := List.map_eq_cons_iff.1 hrow
    obtain ⟨r, row2, rfl, hr', hrow2⟩ := List.map_eq_cons_iff.1 hrow1
    obtain rfl := List.map_eq_nil_iff.1 hrow2
    obtain ⟨l, rfl, hl2⟩ := Option.map_eq_some_iff.1 hl
    obtain ⟨r, rfl, hr2⟩ := Option.map_eq_some_iff.1 hr'
    exact ⟨a, l, r, b, rfl, hsh hl2 h1, hsh hr2 h2, hsh ha h3, hsh hb1 h4⟩

/-- **C124** (partial, as above) with the text styled. -/
theorem C124_styled_partial (c : Whole.Cfg) (hc : Sane c) (depth : ℕ) (p0 : π) (pages : List (Deco.Page π)) (hraw : ∀ p ∈ pages, ∀ b ∈ p.raw, RawOK b) (d : Docx.Doc Deco.Par Sp π)
    (h : Deco.convert c (depth + 2) p0 pages = .ok d) (i : ℕ) (p : Deco.Page π) (s : π × List (Docx.Item Deco.Par Sp π)) (hp : pages[i]? = some p) (hs : (sectionsOf d)[i]? = some s)
    (hcp : ColumnsPage c p.whole) : ColumnsShown c.ws (centre p.whole) ((pageBlocks c.ws p.whole).flatMap Lns.Blk.lines) (written c.ws (ofItems s.2)) := by
  obtain ⟨d', s', h1, h2, h3⟩ := sx_section c hc.blank hc.order _ p0 pages hraw d h i p s hp hs
  exact wq_shown plainPar sx_shows h3 (C124_document_partial c hc depth p0 _ d' h1 i p.whole s' (by rw [List.getElem?_map, hp]; rfl) h2 hcp)

/-! ## An example -/

/-- A heading with blanks at its end; a paragraph in each column, extracted in the wrong order; a second one on the left; a note; a link. -/
def wqRaw : List Raw :=
  [plText 4 ⟨20, 130, 380, 140⟩ [(⟨20, 130, 380, 140⟩, [(⟨20, 130, 380, 140⟩, 'n')])],
   plText 3 ⟨220, 60, 380, 80⟩ [(⟨220, 60, 380, 70⟩, [(⟨220, 60, 380, 70⟩, 'r')]), (⟨220, 70, 300, 80⟩, [(⟨220, 70, 300, 80⟩, 's')])],
   plText 1 ⟨20, 20, 390, 40⟩ [(⟨20, 20, 390, 40⟩, [(⟨20, 20, 380, 40⟩, 'h'), (⟨380, 20, 390, 40⟩, ' ')])],
   plText 2 ⟨20, 60, 180, 70⟩ [(⟨20, 60, 180, 70⟩, [(⟨20, 60, 180, 70⟩, 'l')])],
   plText 5 ⟨20, 90, 170, 100⟩ [(⟨20, 90, 170, 100⟩, [(⟨20, 90, 170, 100⟩, 'm')])]]

/-- The page. -/
def wqPage : Whole.Page ℕ := ⟨⟨0, 0, 400, 600⟩, ⟨0, 0, 400, 600⟩, 3, wqRaw, [.link ⟨220, 70, 260, 80⟩], fun _ _ _ _ _ => 0, fun _ _ _ _ => [], ppFmt⟩

/-- The blocks after clean-up reach into the columns. -/
def wqReach (r : Except Err (List Raw × List Sp)) : Bool :=
  match r with
  | .ok x => decide (∀ b ∈ x.1, ∀ l ∈ b.lines, ∀ m ∈ b.lines, LeftOf 200 l.bbox → RightOf 200 m.bbox →
      (b.bbox.x1 - b.bbox.x0) / 10 + 1 / 10 ≤ 200 - b.bbox.x0 ∧ (b.bbox.x1 - b.bbox.x0) / 10 + 1 / 10 ≤ b.bbox.x1 - 200)
  | .error _ => true

theorem wq_ex_blocks : pageBlocks whCfg.ws wqPage = wqRaw := by decide +kernel
theorem wq_ex_centre : centre wqPage = 200 := by decide +kernel

set_option synthInstance.maxSize 1024 in
theorem wq_ex_on : ColumnsOn whCfg.mg 200 wqRaw := by
  refine ⟨by decide +kernel, ?_, by decide +kernel, by decide +kernel, by decide +kernel, by decide +kernel, ?_, by decide +kernel, by decide +kernel, ?_, ?_, ?_, ?_⟩
  · have : ∀ b ∈ wqRaw, ∃ id ∈ [1, 2, 3, 4, 5], ∀ l ∈ b.lines, l.pid = some id := by decide +kernel
    intro b hb
    obtain ⟨id, _, h⟩ := this b hb
    exact ⟨id, h⟩
  · unfold Above; decide +kernel
  · unfold Above; decide +kernel
  · unfold Above; decide +kernel
  · unfold DownIn; decide +kernel
  · unfold DownIn; decide +kernel

theorem wq_ex_page : ColumnsPage whCfg wqPage := by
  refine ⟨?_, ?_, ?_, ?_, by decide +kernel, ?_, ?_, ?_⟩
  · intro b hb
    simp only [wqPage, wqRaw, List.mem_cons, List.not_mem_nil, or_false] at hb
    rcases hb with rfl | rfl | rfl | rfl | rfl <;> exact plText_ok _ _ _ (pp_ex_text _ _ (by decide +kernel) (by decide +kernel))
  · rw [wq_ex_blocks, wq_ex_centre]; exact wq_ex_on
  · rw [wq_ex_blocks, wq_ex_centre]; decide +kernel
  · rw [wq_ex_blocks]; decide +kernel
  · rw [wq_ex_blocks, wq_ex_centre]
    intro s hs
    simp only [wqPage, List.mem_singleton] at hs
    subst hs
    refine ⟨_, rfl, ly_ex_real (by decide +kernel), ?_⟩
    unfold Covers
    decide +kernel
  · intro bs fs h
    have : noFloats (beforeJoin whCfg.pipe wqPage.box wqPage.raw) = true := by decide +kernel
    rw [h] at this
    simpa [noFloats] using this
  · intro js fs h
    have : wqReach (cleanUp whCfg.pipe wqPage.box wqPage.raw) = true := by decide +kernel
    rw [h] at this
    rw [wq_ex_centre]
    simp only [wqReach, decide_eq_true_eq] at this
    exact this

/-- The hypotheses of C124 are met. -/
example : ∃ d, Whole.convert whCfg 2 0 [wqPage, wqPage] = .ok d ∧ ∀ (i : ℕ) (s : ℕ × List (Docx.Item Par Sp ℕ)), (sectionsOf d)[i]? = some s →
    ColumnsShown whCfg.ws 200 (wqRaw.flatMap Lns.Blk.lines) (ofItems s.2) := by
  obtain ⟨d, h, hl⟩ := C124_converts_partial whCfg wh_ex_sane 0 0 [wqPage, wqPage] (by simp) (by
    intro p hp
    have : p = wqPage := by simpa using hp
    subst this
    exact wq_ex_page)
  refine ⟨d, h, ?_⟩
  intro i s hs
  have hi : i < 2 := by
    have := (List.getElem?_eq_some_iff.1 hs).1
    rw [hl] at this
    simpa using this
  have := C124_document_partial whCfg wh_ex_sane 0 0 _ d h i wqPage s (by match i, hi with | 0, _ => rfl | 1, _ => rfl) hs wq_ex_page
  rwa [wq_ex_blocks, wq_ex_centre] at this

end WColPage
end Props
