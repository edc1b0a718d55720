import Verif.Spec.WholePlain
import Verif.Props.WholeText
import Verif.Props.FullText
/-! # C111: a page of text becomes paragraphs of the document -/

namespace Props
open Geom Py Pipe Spec Assign

section WPlain
variable {π : Type} {mg : ℚ}

theorem wp_vsep_in {bs : List Raw} (ht : ColumnText bs) (hok : ∀ b ∈ bs, RawOK b) : (bs.flatMap Lns.Blk.lines).Pairwise fun l m => VSep l.bbox m.bbox := by
  rw [List.pairwise_flatMap]
  refine ⟨ht.column, ht.clear.imp_of_mem ?_⟩
  intro a b ha hb h l hl m hm
  have c1 := ((hok a ha).boxes.2 l hl).2
  have c2 := ((hok b hb).boxes.2 m hm).2
  simp only [Covers] at c1 c2
  rcases h with h | h
  · exact Or.inl (show l.bbox.y1 ≤ m.bbox.y0 by linarith [c1.2.2.2, c2.2.1])
  · exact Or.inr (show m.bbox.y1 ≤ l.bbox.y0 by linarith [c1.2.1, c2.2.2.2])

theorem wp_spaced {bs : List Raw} (ht : ColumnText bs) (hok : ∀ b ∈ bs, RawOK b) : (bs.flatMap Lns.Blk.lines).Pairwise fun l m => Spaced mg l.bbox m.bbox :=
  (wp_vsep_in ht hok).imp fun h => h.elim .inl fun h => .inr (.inl h)

theorem wp_perm {bs bs' : List Raw} (h : bs.Perm bs') (ht : ColumnText bs) : ColumnText bs' :=
  ⟨fun b hb => ht.horizontal b (h.symm.subset hb), fun b hb => ht.own b (h.symm.subset hb), h.pairwise ht.ids fun h l hl m hm e => h m hm l hl e.symm,
    h.pairwise ht.clear fun h => h.symm, fun b hb => ht.column b (h.symm.subset hb)⟩

theorem wp_strip {bs : List Raw} (ht : ColumnText bs) (hok : ∀ b ∈ bs, RawOK b) (ws : Char → Bool) (hws : ws ' ' = true) : ColumnText (bs.map (stripBlock ws)) := by
  have hl : ∀ b ∈ bs, ∀ l ∈ (stripBlock ws b).lines, ∃ l0 ∈ b.lines, l = (stripLine ws l0).1 := by
    intro b _ l hl
    rw [wc_strip_lines] at hl
    obtain ⟨l0, h0, rfl⟩ := List.mem_map.1 hl
    exact ⟨l0, h0, rfl⟩
  have hpid : ∀ b ∈ bs, ∀ l ∈ b.lines, (stripLine ws l).1.pid = l.pid := fun b hb l hl => (pl_strip_line ws hws l ((hok b hb).boxes.2 l hl).1).2
  refine ⟨?_, ?_, ?_, ?_, ?_⟩
  · intro b hb l hlm
    obtain ⟨b0, hb0, rfl⟩ := List.mem_map.1 hb
    obtain ⟨l0, h0, rfl⟩ := hl b0 hb0 l hlm
    rw [(pp_stripLine ws hws l0).dir]
    exact ht.horizontal b0 hb0 l0 h0
  · intro b hb
    obtain ⟨b0, hb0, rfl⟩ := List.mem_map.1 hb
    obtain ⟨id, hid⟩ := ht.own b0 hb0
    refine ⟨id, ?_⟩
    intro l hlm
    obtain ⟨l0, h0, rfl⟩ := hl b0 hb0 l hlm
    rw [hpid b0 hb0 l0 h0]
    exact hid l0 h0
  · rw [List.pairwise_map]
    refine ht.ids.imp_of_mem ?_
    intro a b ha hb h l hlm m hm
    obtain ⟨l0, h0, rfl⟩ := hl a ha l hlm
    obtain ⟨m0, h1, rfl⟩ := hl b hb m hm
    rw [hpid a ha l0 h0, hpid b hb m0 h1]
    exact h l0 h0 m0 h1
  · rw [List.pairwise_map]
    refine ht.clear.imp_of_mem ?_
    intro a b ha hb h
    have c1 := wc_strip_block ws hws a (hok a ha)
    have c2 := wc_strip_block ws hws b (hok b hb)
    rcases h with h | h
    · exact Or.inl (by linarith [c1.2.2.2, c2.2.1])
    · exact Or.inr (by linarith [c1.2.1, c2.2.2.2])
  · intro b hb
    obtain ⟨b0, hb0, rfl⟩ := List.mem_map.1 hb
    rw [wc_strip_lines, List.pairwise_map]
    refine (ht.column b0 hb0).imp_of_mem ?_
    intro l m hl hm h
    have c1 := wc_strip_line ws hws l ((hok b0 hb0).boxes.2 l hl).1
    have c2 := wc_strip_line ws hws m ((hok b0 hb0).boxes.2 m hm).1
    exact h.imp (wt_above_in c1 c2) (wt_above_in c2 c1)

theorem wp_alone {bs : List Raw} (ht : ColumnText bs) (hne : ∀ b ∈ bs, b.lines ≠ []) {g : List Raw} (hgs : List.Subperm g bs)
    (hconn : ∀ a ∈ g, ∀ b ∈ g, Relation.ReflTransGen (fun x y : Raw => x ∈ g ∧ y ∈ g ∧ (x.bbox.y0 ≤ y.bbox.y1 ∧ y.bbox.y0 ≤ x.bbox.y1)) a b)
    {b : Raw} (hb : b ∈ g) : g = [b] := by
  have hsub : ∀ x ∈ g, x ∈ bs := fun x hx => hgs.subset hx
  have hsame : ∀ x ∈ g, x = b := by
    intro x hx
    by_contra hxb
    obtain ⟨c, hcb, hc1, hc2, h1, h2⟩ := ln_leaves (hconn b hb x hx) (Ne.symm hxb)
    have := pl_forall ht.clear (fun a b h => h.symm) (hsub b hb) (hsub c hc2) (Ne.symm hcb)
    rcases this with h | h <;> linarith
  have hnd : g.Nodup := by
    have : bs.Nodup := by
      refine ht.ids.imp_of_mem ?_
      rintro a c ha _ h rfl
      obtain ⟨l, hl⟩ := List.exists_mem_of_ne_nil _ (hne a ha)
      exact h l hl l hl rfl
    obtain ⟨g', hp, hs⟩ := hgs
    exact hp.nodup_iff.1 (hs.nodup this)
  match g, hb, hsame, hnd with
  | [x], _, hs, _ => rw [hs x (by simp)]
  | x :: y :: t, _, hs, hnd =>
    exfalso
    have h1 := hs x (by simp)
    have h2 := hs y (by simp)
    subst h1
    subst h2
    simp at hnd

/-- Joining blocks one below the other changes the order of lines at most. -/
theorem wp_join (iter : List ℕ → List ℕ) (hi : ∀ l, (iter l).Perm l) (ov : ℚ) (hov : 1 / 1000000 < ov) (hmg : 0 ≤ mg)
    (bs js : List Raw) (hok : ∀ b ∈ bs, RawOK b) (hne : ∀ b ∈ bs, b.lines ≠ []) (ht : ColumnText bs) (hj : Lns.joinHorizontally iter ov mg bs = .ok js)
    (hjok : ∀ j ∈ js, TextOK (j.bbox, j.lines)) :
    ∃ bs', bs'.Perm bs ∧ List.Forall₂ (fun j b => j.lines.Perm b.lines ∧ IsHull (b.lines.map fun l => l.bbox) j.bbox) js bs' ∧
      TextColumn (js.map fun b => Full.Blk.text b.bbox b.lines) := by
  obtain ⟨gs, h1, h3, h2, h4, rfl, h6⟩ := wc_groups iter hi ov mg hov hmg bs js hok hne ht.horizontal (wp_spaced ht hok) hj
  have hgg : ∀ g ∈ gs, ∀ b ∈ g, b ∈ bs := fun g hg b hbg => h1.subset (List.mem_flatten.2 ⟨g, hg, hbg⟩)
  have hgsub : ∀ g ∈ gs, List.Subperm g bs := fun g hg => (List.Sublist.subperm (List.sublist_flatten_of_mem hg)).trans h1.subperm
  have hone : ∀ g ∈ gs, ∃ b, g = [b] := by
    intro g hg
    obtain ⟨b, hb⟩ := List.exists_mem_of_ne_nil _ (h3 g hg)
    exact ⟨b, wp_alone ht hne (hgsub g hg) (h4 g hg) hb⟩
  obtain ⟨bs', rfl⟩ : ∃ bs' : List Raw, gs = bs'.map fun b => [b] := by
    clear h1 h3 h2 h4 h6 hgg hgsub hjok hj
    induction gs with
    | nil => exact ⟨[], rfl⟩
    | cons g gs ih =>
      obtain ⟨bs', rfl⟩ := ih fun g hg => hone g (by simp [hg])
      obtain ⟨b, rfl⟩ := hone g (by simp)
      exact ⟨b :: bs', rfl⟩
  have hfl : ∀ l : List Raw, (l.map fun b => [b]).flatten = l := by
    intro l; induction l with
    | nil => rfl
    | cons b l ih => rw [List.map_cons, List.flatten_cons, ih]; rfl
  rw [hfl] at h1
  have hk : ∀ b ∈ bs', (Lns.joinedBlock ov mg [b]).lines.Perm b.lines ∧ IsHull (b.lines.map fun l => l.bbox) (Lns.joinedBlock ov mg [b]).bbox := by
    intro b hb
    obtain ⟨k1, k2⟩ := h6 [b] (List.mem_map_of_mem hb)
    have e : [b].flatMap Lns.Blk.lines = b.lines := by simp
    rw [e] at k1 k2
    exact ⟨by rw [k1]; exact C67_permutation _, k2⟩
  have htt := wp_perm h1.symm ht
  have hLT : ∀ b ∈ bs', PlainText (Full.Blk.text (Lns.joinedBlock ov mg [b]).bbox (Lns.joinedBlock ov mg [b]).lines) := by
    intro b hb
    obtain ⟨k1, k2⟩ := hk b hb
    refine ⟨⟨rfl, hjok _ (List.mem_map_of_mem (List.mem_map_of_mem hb)), ?_, ?_, ?_, ?_⟩, ?_, ?_⟩
    · intro e
      have e' : (Lns.joinedBlock ov mg [b]).lines = [] := e
      rw [e'] at k1
      exact hne b (h1.subset hb) k1.nil_eq.symm
    · exact ft_hull_perm (k1.symm.map _) k2
    · intro l hl
      exact htt.horizontal b hb l (k1.subset hl)
    · intro l hl
      obtain ⟨id, hid⟩ := htt.own b hb
      rw [hid l (k1.subset hl)]; simp
    · exact k1.symm.pairwise (htt.column b hb) fun h => h.symm
    · intro l hl m hm n _ _ _ _
      obtain ⟨id, hid⟩ := htt.own b hb
      rw [hid l (k1.subset hl), hid m (k1.subset hm)]
  refine ⟨bs', h1, ?_, ?_⟩
  · rw [List.map_map]
    have : ∀ l : List Raw, (∀ b ∈ l, b ∈ bs') → List.Forall₂ (fun j b => j.lines.Perm b.lines ∧ IsHull (b.lines.map fun l => l.bbox) j.bbox)
        (l.map (Lns.joinedBlock ov mg ∘ fun b => [b])) l := by
      intro l
      induction l with
      | nil => intro _; exact .nil
      | cons b l ih => intro h; exact .cons (hk b (h b (by simp))) (ih fun x hx => h x (by simp [hx]))
    exact this bs' fun b hb => hb
  · rw [List.map_map, List.map_map]
    refine ⟨?_, ?_, ?_⟩
    · intro x hx
      obtain ⟨b, hb, rfl⟩ := List.mem_map.1 hx
      exact hLT b hb
    · rw [List.pairwise_map]
      refine htt.ids.imp_of_mem ?_
      intro a b ha hb h l hl m hm
      exact h l ((hk a ha).1.subset hl) m ((hk b hb).1.subset hm)
    · rw [List.pairwise_map]
      refine htt.clear.imp_of_mem ?_
      intro a b ha hb h
      have hin : ∀ b ∈ bs', Covers b.bbox (Lns.joinedBlock ov mg [b]).bbox := by
        intro b hb
        refine (hk b hb).2.2 b.bbox ?_
        intro r hr
        obtain ⟨l, hl, rfl⟩ := List.mem_map.1 hr
        exact ((hok b (h1.subset hb)).boxes.2 l hl).2
      have c1 := hin a ha
      have c2 := hin b hb
      show Clears (Lns.joinedBlock ov mg [a]).bbox (Lns.joinedBlock ov mg [b]).bbox
      rcases h with h | h
      · exact Or.inl (by linarith [c1.2.2.2, c2.2.1])
      · exact Or.inr (by linarith [c1.2.1, c2.2.2.2])

/-- The same blocks up to the order of blocks and lines. -/
def SameText {α : Type} (xs ys : List (Full.Blk α)) : Prop :=
  (∀ x ∈ xs, ∃ y ∈ ys, x.bbox = y.bbox ∧ ∀ l, l ∈ x.lines ↔ l ∈ y.lines) ∧ ∀ y ∈ ys, ∃ x ∈ xs, x.bbox = y.bbox ∧ ∀ l, l ∈ x.lines ↔ l ∈ y.lines

theorem wp_same_in {α : Type} {xs ys : List (Full.Blk α)} (h : SameText xs ys) (r : Rect) (hr : InLine ys r) : InLine xs r := by
  obtain ⟨y, hy, l, hl, hc⟩ := hr
  obtain ⟨x, hx, _, hxy⟩ := h.2 y hy
  exact ⟨x, hx, l, (hxy l).2 hl, hc⟩

theorem wp_same_harmless {α : Type} {xs ys : List (Full.Blk α)} (h : SameText xs ys) {d : ℚ} {shapes : List Full.Sh} (hh : Harmless d ys shapes) : Harmless d xs shapes := by
  refine ⟨hh.real, hh.strokes.imp fun hab => hab.imp (wp_same_in h _) (Or.imp (wp_same_in h _) id), ?_⟩
  intro r c hr
  rcases hh.fills r c hr with h' | h'
  · exact .inl h'
  · right
    intro x hx
    obtain ⟨y, hy, e, hxy⟩ := h.1 x hx
    rw [e]
    exact ⟨(h' y hy).1, fun l hl => (h' y hy).2 l ((hxy l).1 hl)⟩

theorem wp_same_boxes {α : Type} {xs ys : List (Full.Blk α)} (h : SameText xs ys) (shapes : List Full.Sh) (r : Rect) : r ∈ pageBoxes xs shapes ↔ r ∈ pageBoxes ys shapes := by
  unfold pageBoxes
  rw [List.mem_append, List.mem_append]
  refine or_congr ?_ Iff.rfl
  rw [List.mem_map, List.mem_map]
  constructor
  · rintro ⟨l, hl, rfl⟩
    obtain ⟨x, hx, hl⟩ := List.mem_flatMap.1 hl
    obtain ⟨y, hy, _, hxy⟩ := h.1 x hx
    exact ⟨l, List.mem_flatMap.2 ⟨y, hy, (hxy l).1 hl⟩, rfl⟩
  · rintro ⟨l, hl, rfl⟩
    obtain ⟨y, hy, hl⟩ := List.mem_flatMap.1 hl
    obtain ⟨x, hx, _, hxy⟩ := h.2 y hy
    exact ⟨l, List.mem_flatMap.2 ⟨x, hx, (hxy l).2 hl⟩, rfl⟩

theorem wp_hull (rs : List Rect) (h : ∀ r ∈ rs, RealBox r) (hne : rs ≠ []) {B : Rect} (hB : IsHull rs B) : Coll.bbox rs = B := by
  have h1 : Covers B (Coll.bbox rs) := wc_bbox_in rs (fun r hr => ⟨h r hr, hB.1 r hr⟩) hne
  have h2 : ∀ r ∈ rs, Covers (Coll.bbox rs) r := by
    have key : ∀ (rs : List Rect) (a : Rect), (∀ r ∈ rs, RealBox r) → (a = Rect.zero ∨ RealBox a) →
        (∀ r ∈ rs, Covers (rs.foldl Rect.union a) r) ∧ (RealBox a → Covers (rs.foldl Rect.union a) a) ∧ (rs ≠ [] ∨ RealBox a → RealBox (rs.foldl Rect.union a)) := by
      intro rs
      induction rs with
      | nil => intro a _ _; exact ⟨by simp, fun _ => wc_refl _, fun h => h.elim (fun h => absurd rfl h) id⟩
      | cons r rs ih =>
        intro a hr ha
        have hr0 := hr r (by simp)
        have hstep : RealBox (a.union r) ∧ Covers (a.union r) r ∧ (RealBox a → Covers (a.union r) a) := by
          rcases ha with rfl | ha
          · rw [union_zero_left hr0.1]
            refine ⟨hr0, wc_refl _, fun h => absurd h.1.1 (by simp [Rect.zero])⟩
          · refine ⟨wc_union ha hr0, ?_⟩
            unfold Rect.union
            rw [if_neg (proper_nonempty r hr0.1), if_neg (proper_nonempty a ha.1)]
            exact ⟨⟨min_le_right _ _, min_le_right _ _, le_max_right _ _, le_max_right _ _⟩, fun _ => ⟨min_le_left _ _, min_le_left _ _, le_max_left _ _, le_max_left _ _⟩⟩
        obtain ⟨k1, k2, k3⟩ := ih (a.union r) (fun x hx => hr x (by simp [hx])) (.inr hstep.1)
        rw [List.foldl_cons]
        refine ⟨?_, fun h => wc_trans (k2 hstep.1) (hstep.2.2 h), fun _ => k3 (.inr hstep.1)⟩
        intro x hx
        rcases List.mem_cons.1 hx with rfl | hx
        · exact wc_trans (k2 hstep.1) hstep.2.1
        · exact k1 x hx
    obtain ⟨k1, _, k3⟩ := key rs Rect.zero h (.inl rfl)
    unfold Coll.bbox
    rw [st_round_tenths (k3 (.inl hne)).2]
    exact k1
  exact covers_antisymm h1 (hB.2 _ h2) |>.symm

/-- A page of text after clean-up: the blocks as they are on the page, without blanks at the ends of lines. -/
theorem wp_clean (c : Whole.Cfg) (hc : Sane c) (p : Whole.Page π) (hraw : ∀ b ∈ p.raw, RawOK b) (htext : ColumnText (pageBlocks c.ws p))
    (hfloats : ∀ bs fs, beforeJoin c.pipe p.box p.raw = .ok (bs, fs) → fs = []) :
    ∃ js, cleanUp c.pipe p.box p.raw = .ok (js, []) ∧ (∀ l ∈ js.flatMap Lns.Blk.lines, LineOK l ∧ ∀ s ∈ l.spans, Tagged s.2) ∧
      TextColumn (js.map fun b => Full.Blk.text b.bbox b.lines) ∧ SameText (js.map fun b => Full.Blk.text b.bbox b.lines) (bareBlocks c.ws p) ∧
      (js.flatMap Lns.Blk.lines).Perm (((pageBlocks c.ws p).flatMap Lns.Blk.lines).map fun l => (stripLine c.ws l).1) := by
  have hws := hc.blank
  obtain ⟨js, fs, bs, g1, g2, g3, -, -, -, -⟩ := pp_cleanUp c.pipe hws hc.order p.box p.raw hraw
  have hfs := hfloats bs fs g1
  subst hfs
  set K := pageBlocks c.ws p with hK
  have hKok : ∀ b ∈ K, RawOK b := fun b hb => hraw b (List.mem_of_mem_filter hb)
  have hKf : (p.raw.filter (keep c.ws p.box)).filter (fun b => b.bbox.truthy) = K := by
    rw [hK, pageBlocks, List.filter_filter]
    apply List.filter_congr
    intro b hb
    have hpb := (hraw b hb).boxes.1
    rw [show b.bbox.truthy = true from ly_real_truthy hpb, Bool.true_and, Bool.eq_iff_iff, decide_eq_true_eq]
    exact pp_keep c.ws p.box b hpb.1
  have hbs : bs.Perm (K.map (stripBlock c.ws)) := by
    have hb := g1
    unfold beforeJoin at hb
    rw [show c.pipe.ws = c.ws from rfl, hKf] at hb
    rw [pl_no_floats _ _ _ hb]
    exact pp_sort_perm _
  have hKne : ∀ b ∈ K, b.lines ≠ [] := by
    intro b hb e
    have := (List.mem_filter.1 hb).2
    rw [decide_eq_true_eq] at this
    refine this.2.2.1 ?_
    unfold rawToks
    rw [e]; rfl
  have hbsok : ∀ b ∈ bs, RawOK b := by
    intro b hb
    obtain ⟨b0, hb0, rfl⟩ := List.mem_map.1 (hbs.subset hb)
    exact (pp_stripBlock c.ws hws b0 (hKok b0 hb0)).1
  have hbsne : ∀ b ∈ bs, b.lines ≠ [] := by
    intro b hb
    obtain ⟨b0, hb0, rfl⟩ := List.mem_map.1 (hbs.subset hb)
    rw [wc_strip_lines]
    simpa using hKne b0 hb0
  have hton : ColumnText bs := wp_perm hbs.symm (wp_strip htext hKok c.ws hws)
  have hj : Lns.joinHorizontally c.full.base.lay.iter c.ov c.mg bs = .ok js := by
    have := g2
    unfold cleanUp at this
    rw [g1] at this
    dsimp only at this
    cases hjj : Lns.joinHorizontally c.pipe.lay.iter c.pipe.ov c.pipe.mg bs with
    | error e => rw [hjj] at this; cases this
    | ok js' =>
      rw [hjj] at this
      obtain ⟨rfl, _⟩ := Prod.mk.inj (Except.ok.inj this)
      exact hjj
  obtain ⟨bs', e1, e2, e3⟩ := wp_join c.full.base.lay.iter hc.order c.ov hc.overlap hc.merging bs js hbsok hbsne hton hj (fun j hj => (g3 j hj).1)
  -- the cleaned-up blocks are the bare blocks
  have hpair : ∀ j b : Raw, b ∈ bs' → (j.lines.Perm b.lines ∧ IsHull (b.lines.map fun l => l.bbox) j.bbox) → ∀ b0 ∈ K, b = stripBlock c.ws b0 →
      j.bbox = Coll.bbox ((bareLines c.ws b0).map fun l => l.bbox) ∧ ∀ l, l ∈ j.lines ↔ l ∈ bareLines c.ws b0 := by
    rintro j b hb ⟨k1, k2⟩ b0 hb0 rfl
    have e : (stripBlock c.ws b0).lines = bareLines c.ws b0 := wc_strip_lines _ _
    rw [e] at k1 k2
    refine ⟨(wp_hull _ ?_ ?_ k2).symm, fun l => k1.mem_iff⟩
    · intro r hr
      obtain ⟨l, hl, rfl⟩ := List.mem_map.1 hr
      rw [← e] at hl
      exact ((hbsok _ (e1.subset hb)).boxes.2 l hl).1.1
    · rw [← e]
      simpa using hbsne _ (e1.subset hb)
  have hbs0 : ∀ b ∈ bs', ∃ b0 ∈ K, b = stripBlock c.ws b0 := by
    intro b hb
    obtain ⟨b0, hb0, rfl⟩ := List.mem_map.1 (hbs.subset (e1.subset hb))
    exact ⟨b0, hb0, rfl⟩
  have hsame : SameText (js.map fun b => Full.Blk.text b.bbox b.lines) (bareBlocks c.ws p) := by
    have l1 : ∀ j ∈ js, ∃ b ∈ bs', j.lines.Perm b.lines ∧ IsHull (b.lines.map fun l => l.bbox) j.bbox := by
      clear hpair hbs0 e1 e3 hj g2 g3
      induction e2 with
      | nil => simp
      | cons h _ ih =>
        intro j hj
        rcases List.mem_cons.1 hj with rfl | hj
        · exact ⟨_, by simp, h⟩
        · obtain ⟨b, hb, h⟩ := ih j hj
          exact ⟨b, by simp [hb], h⟩
    have l2 : ∀ b ∈ bs', ∃ j ∈ js, j.lines.Perm b.lines ∧ IsHull (b.lines.map fun l => l.bbox) j.bbox := by
      clear hpair hbs0 e1 e3 hj g2 g3 l1
      induction e2 with
      | nil => simp
      | cons h _ ih =>
        intro j hj
        rcases List.mem_cons.1 hj with rfl | hj
        · exact ⟨_, by simp, h⟩
        · obtain ⟨b, hb, h⟩ := ih j hj
          exact ⟨b, by simp [hb], h⟩
    constructor
    · intro x hx
      obtain ⟨j, hj, rfl⟩ := List.mem_map.1 hx
      obtain ⟨b, hb, k⟩ := l1 j hj
      obtain ⟨b0, hb0, e⟩ := hbs0 b hb
      exact ⟨_, List.mem_map_of_mem hb0, hpair j b hb k b0 hb0 e⟩
    · intro y hy
      obtain ⟨b0, hb0, rfl⟩ := List.mem_map.1 hy
      have hb : stripBlock c.ws b0 ∈ bs' := e1.symm.subset (hbs.symm.subset (List.mem_map_of_mem hb0))
      obtain ⟨j, hj, k⟩ := l2 _ hb
      exact ⟨_, List.mem_map_of_mem hj, hpair j _ hb k b0 hb0 rfl⟩
  have hperm : (js.flatMap Lns.Blk.lines).Perm ((K.flatMap Lns.Blk.lines).map fun l => (stripLine c.ws l).1) := by
    have h1 : (js.flatMap Lns.Blk.lines).Perm (bs'.flatMap Lns.Blk.lines) := by
      clear hpair hbs0 e1 e3 hj g2 g3 hsame
      induction e2 with
      | nil => simp
      | cons h _ ih =>
        rw [List.flatMap_cons, List.flatMap_cons]
        exact h.1.append ih
    exact h1.trans ((e1.flatMap_right _).trans ((hbs.flatMap_right _).trans (List.Perm.of_eq (wt_strip_map c.ws K))))
  refine ⟨js, g2, ?_, e3, hsame, hperm⟩
  intro l hl
  obtain ⟨j, hjm, hl⟩ := List.mem_flatMap.1 hl
  exact ⟨((g3 j hjm).1.2 l hl).1, (g3 j hjm).2 l hl⟩

/-- Parsing a page of text. -/
theorem wp_parse (c : Whole.Cfg) (hc : Sane c) (depth : ℕ) (p : Whole.Page π) (hp : TextPage c p) :
    ∃ dd, Whole.parsePage c (depth + 1) p = .ok dd ∧ ShowsLines c.ws (ofBlocks dd.blocks) ((pageBlocks c.ws p).flatMap Lns.Blk.lines) := by
  obtain ⟨js, g2, hjl, e3, hsame, hperm⟩ := wp_clean c hc p hp.raw hp.text hp.floats
  obtain ⟨R, ty, q1, q2⟩ := C96_stays_text c.full hc.order hc.tol hc.conn hc.clear hc.border p.styled p.ids depth p.work p.shapes _ e3 (wp_same_harmless hsame hp.drawn)
    (fun r hr => hp.within r ((wp_same_boxes hsame p.shapes r).1 hr)) (by
      obtain ⟨e, he, x, hx, h⟩ := hp.columns
      exact ⟨e, (wp_same_boxes hsame p.shapes e).2 he, x, (wp_same_boxes hsame p.shapes x).2 hx, h⟩)
  have hfl : (js.map fun b => Full.Blk.text b.bbox b.lines).flatMap Full.Blk.lines = js.flatMap Lns.Blk.lines := by
    rw [List.flatMap_map]
    rfl
  rw [hfl] at q2
  refine ⟨⟨p.props, Whole.blocks c.ws p.fmt R, []⟩, ?_, ?_⟩
  · unfold Whole.parsePage
    rw [g2]
    dsimp only
    rw [q1]
  have hsh := wh_shows c.ws p.fmt R _ q2 (fun l hl => (hjl l hl).1) (fun l hl => (hjl l hl).2)
  have := wt_shows c.ws hc.blank ((pageBlocks c.ws p).flatMap Lns.Blk.lines) (js.flatMap Lns.Blk.lines) hperm
    (by
      intro l hl
      obtain ⟨b, hb, hl⟩ := List.mem_flatMap.1 hl
      exact ((hp.raw b (List.mem_of_mem_filter hb)).boxes.2 l hl).1) (fun _ => True) (fun _ _ => Iff.rfl) ((wp_vsep_in hp.text fun b hb => hp.raw b (List.mem_of_mem_filter hb)).imp fun h _ _ => h)
    (ofBlocks (Whole.blocks c.ws p.fmt R)) (by simpa using hsh)
  simpa using this

/-- **C111** (partial: one column; something across the centre of the page beside something left or right of it, see C90). From the extracted page to the document: the section of a page of
text, with drawings that are no table, has paragraphs only, which show exactly the lines of the page, from top to bottom, complete up to blanks. -/
theorem C111_text_partial (c : Whole.Cfg) (hc : Sane c) (depth : ℕ) (p0 : π) (pages : List (Whole.Page π)) (d : Docx.Doc Par Sp π)
    (h : Whole.convert c (depth + 1) p0 pages = .ok d) (i : ℕ) (p : Whole.Page π) (s : π × List (Docx.Item Par Sp π))
    (hp : pages[i]? = some p) (hs : (sectionsOf d)[i]? = some s) (htp : TextPage c p) :
    ShowsLines c.ws (ofItems s.2) ((pageBlocks c.ws p).flatMap Lns.Blk.lines) := by
  obtain ⟨dd, h1, h2⟩ := wh_section c (depth + 1) p0 pages d h i p s hp hs
  obtain ⟨dd', h3, h4⟩ := wp_parse c hc depth p htp
  rw [h1] at h3
  obtain rfl := Except.ok.inj h3
  rw [h2]
  exact h4

/-- **C111**: documents of such pages are converted without error, one section for each. -/
theorem C111_converts_partial (c : Whole.Cfg) (hc : Sane c) (depth : ℕ) (p0 : π) (pages : List (Whole.Page π)) (hne : pages ≠ []) (htp : ∀ p ∈ pages, TextPage c p) :
    ∃ d, Whole.convert c (depth + 1) p0 pages = .ok d ∧ (sectionsOf d).length = pages.length := by
  obtain ⟨ds, h1⟩ := ly_mapM_ok (f := Whole.parsePage c (depth + 1)) pages fun p hp => by
    obtain ⟨dd, h, _⟩ := wp_parse c hc depth p (htp p hp)
    exact ⟨dd, h⟩
  have h2 := (pp_mapM_forall _ _ h1).length_eq
  refine ⟨_, by unfold Whole.convert; rw [h1], ?_⟩
  have hdne : ds ≠ [] := by
    rintro rfl
    exact hne (List.length_eq_zero_iff.1 h2)
  have := congrArg List.length (C31_one_section_per_page p0 ds hdne)
  simpa [h2] using this

end WPlain

end Props
