import Verif.Props.FullPage
import Verif.Props.Detect
import Verif.Props.RuledGrid
import Verif.Spec.FullTable
/-! # Layouts of blocks one below the other (towards C92) -/

namespace Props
open Py Geom Spec

section Column
open Full

variable {α : Type}

/-! ## Hulls -/

theorem ft_union_least {a b h : Rect} (ha : RealBox a) (hb : RealBox b) (h1 : Covers h a) (h2 : Covers h b) : Covers h (Coll.unionBbox a b) := by
  unfold Coll.unionBbox Coll.updateBbox
  rw [round_union ((tenths_iff _).1 ha.2) ((tenths_iff _).1 hb.2), union_proper ha.1 hb.1]
  exact ⟨le_min h1.1 h2.1, le_min h1.2.1 h2.2.1, max_le h1.2.2.1 h2.2.2.1, max_le h1.2.2.2 h2.2.2.2⟩

theorem ft_fold_least {β : Type} (f : β → Rect) (l : List β) (h : ∀ x ∈ l, RealBox (f x)) (B a : Rect) (ha : a = Rect.zero ∨ RealBox a) (hB : ∀ x ∈ l, Covers B (f x))
    (hBa : RealBox a → Covers B a) (hne : l ≠ [] ∨ RealBox a) : Covers B (l.foldl (fun b x => Coll.unionBbox b (f x)) a) := by
  induction l generalizing a with
  | nil => exact hBa (hne.resolve_left (by simp))
  | cons x l ih =>
    have hx := h x (by simp)
    have key : RealBox (Coll.unionBbox a (f x)) ∧ Covers B (Coll.unionBbox a (f x)) := by
      rcases ha with rfl | ha
      · rw [ly_union_zero hx]; exact ⟨hx, hB x (by simp)⟩
      · exact ⟨(ly_union_real ha hx).1, ft_union_least ha hx (hBa ha) (hB x (by simp))⟩
    exact ih (fun y hy => h y (by simp [hy])) _ (Or.inr key.1) (fun y hy => hB y (by simp [hy])) (fun _ => key.2) (Or.inr key.1)

/-- The box built up from boxes is their hull. -/
theorem ft_fold_hull {β : Type} (f : β → Rect) (l : List β) (h : ∀ x ∈ l, RealBox (f x)) (hne : l ≠ []) :
    RealBox (l.foldl (fun b x => Coll.unionBbox b (f x)) Rect.zero) ∧ IsHull (l.map f) (l.foldl (fun b x => Coll.unionBbox b (f x)) Rect.zero) := by
  obtain ⟨_, _, h3⟩ := ly_hull f l h Rect.zero (Or.inl rfl)
  obtain ⟨x, hx⟩ := List.exists_mem_of_ne_nil l hne
  refine ⟨(h3 x hx).2, ?_, ?_⟩
  · intro r hr
    obtain ⟨y, hy, rfl⟩ := List.mem_map.1 hr
    exact (h3 y hy).1
  · intro B hB
    exact ft_fold_least f l h B Rect.zero (Or.inl rfl) (fun y hy => hB _ (List.mem_map_of_mem hy)) (fun h => absurd h.1.1 (lt_irrefl _)) (Or.inl hne)

theorem ft_hull_unique {rs : List Rect} {a b : Rect} (ha : IsHull rs a) (hb : IsHull rs b) : a = b := covers_antisymm (hb.2 a ha.1) (ha.2 b hb.1)

theorem ft_hull_perm {rs rs' : List Rect} (h : rs.Perm rs') {a : Rect} (ha : IsHull rs a) : IsHull rs' a :=
  ⟨fun r hr => ha.1 r (h.symm.subset hr), fun b hb => ha.2 b fun r hr => hb r (h.subset hr)⟩

/-- The text block made of lines. -/
theorem ft_mk (id : ℕ) (g : List (Lay.Ln α)) (hr : ∀ l ∈ g, RealBox l.bbox) (hp : ∀ l ∈ g, l.pid ≠ none) :
    (mkText id g).lines = g ∧ (g ≠ [] → RealBox (mkText id g).bbox ∧ IsHull (g.map fun l => l.bbox) (mkText id g).bbox) := by
  have e : (Lay.mkText id g).lines = g := by
    unfold Lay.mkText Lay.Blk.lines
    dsimp only
    rw [List.filter_eq_self.2 fun l hl => ly_real_truthy (hr l hl)]
    conv_rhs => rw [← List.map_id g]
    refine List.map_congr_left fun l hl => ?_
    have := hp l hl
    cases l with
    | mk b d pid ss =>
      cases pid with
      | none => exact absurd rfl this
      | some x => rfl
  refine ⟨e, fun hne => ?_⟩
  have hb : (mkText id g).bbox = g.foldl (fun b l => Coll.unionBbox b l.bbox) Rect.zero := by
    show (Lay.mkText id g).bbox = _
    have : (Lay.mkText id g).bbox = (Lay.mkText id g).lines.foldl (fun b l => Coll.unionBbox b l.bbox) Rect.zero := rfl
    rw [this, e]
  rw [hb]
  exact ft_fold_hull (fun l : Lay.Ln α => l.bbox) g hr hne

/-! ## Stacks -/

/-- Text blocks and tables, one below the other. -/
structure Stack (bs : List (Full.Blk α)) : Prop where
  text : ∀ b ∈ bs, b.isText = true → PlainText b
  real : ∀ b ∈ bs, RealBox b.bbox
  clear : bs.Pairwise fun a b => Clears a.bbox b.bbox
  sources : bs.Pairwise OtherSource

theorem ft_clears_symm {a b : Rect} (h : Clears a b) : Clears b a := h.symm
theorem ft_other_symm {a b : Full.Blk α} (h : OtherSource a b) : OtherSource b a := fun l hl m hm => (h m hm l hl).symm

theorem ft_stack_perm {bs bs' : List (Full.Blk α)} (h : bs.Perm bs') (hs : Stack bs) : Stack bs' :=
  ⟨fun b hb => hs.text b (h.symm.subset hb), fun b hb => hs.real b (h.symm.subset hb), h.pairwise hs.clear (fun h => ft_clears_symm h), h.pairwise hs.sources (fun h => ft_other_symm h)⟩

theorem ft_sort_perm (bs : List (Full.Blk α)) : (sortBlocks bs).Perm bs := by
  unfold sortBlocks sortBy
  split_ifs
  · exact List.perm_insertionSort _ _
  · exact List.perm_insertionSort _ _

theorem ft_dir_lines (b : Full.Blk α) (h : b.isText = true → LineText b) : b.el.dir = .leftRight := by
  cases b with
  | table r _ cs => rfl
  | text r ls =>
    have := (h rfl).horizontal
    show (Lay.Blk.text r ls).dir = .leftRight
    unfold Lay.Blk.dir
    dsimp only
    have hmem : ∀ d ∈ (ls.map fun l => l.dir).dedup, d = .leftRight := by
      intro d hd
      obtain ⟨l, hl, rfl⟩ := List.mem_map.1 (List.mem_dedup.1 hd)
      exact this l hl
    split_ifs with h1 h2
    · cases hmem _ h1
    · obtain ⟨d, hd⟩ := List.length_eq_one_iff.1 h2
      rw [hd] at hmem ⊢
      exact hmem d (by simp)
    · rfl

theorem ft_dir (b : Full.Blk α) (h : b.isText = true → PlainText b) : b.el.dir = .leftRight := ft_dir_lines b fun q => (h q).toLineText

theorem ft_el_bbox (b : Full.Blk α) : b.el.bbox = b.bbox := by cases b <;> rfl

/-- Lines one below the other, in any order, are in flow layout. -/
theorem ft_flow {σ : Type} (c : Lay.Cfg) (hi : ∀ l, (c.iter l).Perm l) (htol : 0 < c.tol) (ls : List (Lns.Ln σ)) (hp : ∀ l ∈ ls, Proper l.bbox)
    (hd : ∀ l ∈ ls, l.dir = .leftRight) (h : ls.Pairwise fun a b => Above a.bbox b.bbox ∨ Above b.bbox a.bbox) : Stream.isFlow c.iter c.tol c.sep ls = true := by
  unfold Stream.isFlow
  rw [List.all_eq_true]
  intro g hg
  have := dt_groups_single c.iter hi _ ls (h.imp_of_mem fun {a b} ha hb hab => by
    rw [Bool.and_eq_false_iff]
    left
    rw [← Bool.not_eq_true]
    intro hal
    unfold El.horizontallyAlign at hal
    simp only [El.truthy, Lns.Ln.el, truthy_of_proper (hp a ha), truthy_of_proper (hp b hb), Bool.not_true, Bool.or_self, Bool.false_eq_true, if_false, if_true,
      overlapEnough_iff, El.ext, El.horizontal, hd a ha] at hal
    simp at hal
    have q1 := (hp a ha).2
    have q2 := (hp b hb).2
    unfold Above at hab
    have q3 : min a.bbox.y1 b.bbox.y1 ≤ max a.bbox.y0 b.bbox.y0 := by
      rcases hab with hab | hab
      · exact (min_le_left _ _).trans (hab.trans (le_max_right _ _))
      · exact (min_le_right _ _).trans (hab.trans (le_max_left _ _))
    have q4 : 0 < min (a.bbox.y1 - a.bbox.y0) (b.bbox.y1 - b.bbox.y0) := lt_min (by linarith) (by linarith)
    have := mul_pos htol q4
    linarith) g hg
  match g, this with
  | [], _ => rfl
  | [_], _ => rfl
  | _ :: _ :: _, h => simp at h

/-- Other shadings. -/
def withSh (s : Stream.CSt) (q : List Stream.SShape) : Stream.CSt := ⟨s.res, s.cur, s.newLine, q⟩

/-- Shadings in use do not start a table. -/
theorem ft_collect (bs : List Stream.SBlock) (sh : List Stream.SShape) (h : ∀ x ∈ sh, x.determined = true) : Stream.collect sh bs = Stream.collect [] bs := by
  have step : ∀ (b n : Stream.SBlock) (s : Stream.CSt) q, (∀ x ∈ q, x.determined = true) → ∃ q', (∀ x ∈ q', x.determined = true) ∧ Stream.stepShading b n (withSh s q) = withSh s q' := by
    intro b n s q hs
    cases q with
    | nil => exact ⟨[], by simp, rfl⟩
    | cons x q =>
      unfold Stream.stepShading withSh
      dsimp only
      rw [hs x (by simp)]
      simp only [Bool.not_true, Bool.false_and, Bool.false_eq_true, if_false]
      split_ifs
      · exact ⟨q, fun y hy => hs y (by simp [hy]), rfl⟩
      · exact ⟨x :: q, hs, rfl⟩
  have flow : ∀ (b : Stream.SBlock) (s : Stream.CSt) q, Stream.stepFlow b (withSh s q) = withSh (Stream.stepFlow b s) q := by
    intro b s q
    unfold Stream.stepFlow withSh
    dsimp only
    split_ifs <;> rfl
  have row : ∀ (b n : Stream.SBlock) (l : Bool) (s : Stream.CSt) q, Stream.stepRow b n l (withSh s q) = withSh (Stream.stepRow b n l s) q := by
    intro b n l s q
    unfold Stream.stepRow withSh
    dsimp only
    by_cases h1 : b.el.horizontallyAlign n.el 0 true = true
    · simp only [h1, if_true]
      split_ifs <;> rfl
    · simp only [h1]
      simp only [Bool.false_eq_true, if_false]
      split_ifs <;> rfl
  have loop : ∀ (bs : List Stream.SBlock) (s : Stream.CSt) (q q' : List Stream.SShape), (∀ x ∈ q, x.determined = true) → (∀ x ∈ q', x.determined = true) →
      (Stream.collectLoop bs (withSh s q)).res = (Stream.collectLoop bs (withSh s q')).res := by
    intro bs
    induction bs with
    | nil => intro s q q' _ _; rfl
    | cons b bs ih =>
      intro s q q' hq hq'
      cases bs with
      | nil =>
        obtain ⟨q1, h1, e1⟩ := step b Stream.noBlock s q hq
        obtain ⟨q2, h2, e2⟩ := step b Stream.noBlock s q' hq'
        unfold Stream.collectLoop
        rw [e1, e2, flow, flow, row, row]
        rfl
      | cons n bs =>
        obtain ⟨q1, h1, e1⟩ := step b n s q hq
        obtain ⟨q2, h2, e2⟩ := step b n s q' hq'
        unfold Stream.collectLoop
        rw [e1, e2, flow, flow, row, row]
        exact ih _ q1 q2 h1 h2
  exact loop bs ⟨[], [], true, []⟩ sh [] h (by simp)

/-- In a stack no table is found from text. -/
theorem ft_stream (c : Full.Cfg) (hi : ∀ l, (c.base.lay.iter l).Perm l) (htol : 0 < c.base.lay.tol) (ty : Types) (box : Rect) (sub : Sub)
    (hf : ∀ f ∈ sub.fills, f.2 = white ∨ Sh.fill f.1 f.2 ∈ ty.done)
    (bs : List (Full.Blk α)) (hs : Stack bs) : streamStage c ty box sub bs = .ok ([], ty) := by
  unfold streamStage
  rw [ft_collect _ _ (by
    intro x hx
    obtain ⟨f, hm, rfl⟩ := List.mem_map.1 hx
    obtain ⟨h1, h2⟩ := List.mem_filter.1 hm
    rcases hf f h1 with h | h
    · simp [h] at h2
    · unfold Types.determined
      simp [h])]
  rw [C79_candidates, dt_tables_nil]
  · rfl
  · intro b hb
    obtain ⟨q, hq, rfl⟩ := List.mem_map.1 hb
    cases q with
    | table r _ cs => rfl
    | text r ls =>
      have ht := hs.text _ hq rfl
      exact ft_flow c.base.lay hi htol ls (fun l hl => (ht.boxes.2 l hl).1.1.1) ht.horizontal ht.column.apart
  · refine List.Pairwise.isChain ?_
    rw [List.pairwise_map]
    refine hs.clear.imp_of_mem ?_
    intro a b ha hb hab
    have e : ∀ x : Full.Blk α, (sblock c.base.lay x).el = x.el := fun x => by cases x <;> rfl
    unfold sameRow
    rw [e, e]
    refine dt_not_row _ _ (ft_dir a (hs.text a ha)) ?_ ?_ ?_
    · rw [ft_el_bbox]; exact (hs.real a ha).1
    · rw [ft_el_bbox]; exact (hs.real b hb).1
    · rw [ft_el_bbox, ft_el_bbox]; exact hab

theorem ft_sort_above (bs : List (Full.Blk α)) (hs : Stack bs) : (sortBlocks bs).Pairwise fun a b => a.bbox.y1 < b.bbox.y0 := by
  have hss := ft_stack_perm (ft_sort_perm bs).symm hs
  have hdir : Coll.textDirection (bs.map Blk.el) = .leftRight := by
    apply pl_dir_ltr
    intro e he
    obtain ⟨b, hb, rfl⟩ := List.mem_map.1 he
    exact ft_dir b (hs.text b hb)
  have hy : (sortBlocks bs).Pairwise fun a b => a.bbox.y0 ≤ b.bbox.y0 := by
    unfold sortBlocks
    rw [if_pos hdir]
    refine (sortBy_pairwise (fun l : Full.Blk α => Coll.key l.bbox.y0 l.bbox.x0 l.bbox.x1) _).imp ?_
    intro a b hab
    unfold Coll.key at hab
    rw [Prod.Lex.le_iff] at hab
    rcases hab with h | h
    · exact le_of_lt h
    · exact le_of_eq h.1
  refine (hss.clear.and hy).imp_of_mem fun {a b} ha hb h => ?_
  rcases h.1 with q | q
  · exact q
  · have := (hss.real b hb).1.2
    have := h.2
    linarith

/-- Groups of lines of a column that come from different blocks are one above the other. -/
theorem ft_groups_above {ls : List (Lay.Ln α)} (hc : LineColumn ls) (g g' : List (Lay.Ln α)) (hg : ∀ l ∈ g, l ∈ ls) (hg' : ∀ l ∈ g', l ∈ ls)
    (hs : ∀ a ∈ g, ∀ b ∈ g, a.pid = b.pid) (hs' : ∀ a ∈ g', ∀ b ∈ g', a.pid = b.pid) (hd : ∀ a ∈ g, ∀ b ∈ g', a.pid ≠ b.pid) :
    (∀ l ∈ g, ∀ m ∈ g', Above l.bbox m.bbox) ∨ (∀ l ∈ g, ∀ m ∈ g', Above m.bbox l.bbox) := by
  have hsep : ∀ l ∈ g, ∀ m ∈ g', Above l.bbox m.bbox ∨ Above m.bbox l.bbox := fun l hl m hm =>
    pl_forall hc.apart (fun _ _ h => h.symm) (hg l hl) (hg' m hm) (fun e => hd l hl m hm (by rw [e]))
  by_cases h : ∃ l0 ∈ g, ∃ m0 ∈ g', Above l0.bbox m0.bbox
  · left
    obtain ⟨l0, hl0, m0, hm0, h0⟩ := h
    intro l hl m hm
    rcases hsep l hl m hm with q | q
    · exact q
    · exfalso
      rcases hsep l0 hl0 m hm with q' | q'
      · exact hd l0 hl0 m hm (hc.unmixed l0 (hg l0 hl0) m (hg' m hm) l (hg l hl) q' q (hs l0 hl0 l hl)).symm
      · exact hd l0 hl0 m hm (hc.unmixed m (hg' m hm) l0 (hg l0 hl0) m0 (hg' m0 hm0) q' h0 (hs' m hm m0 hm0))
  · right
    push Not at h
    intro l hl m hm
    exact (hsep l hl m hm).resolve_left (h l hl m hm)

theorem ft_above_hull {rs rs' : List Rect} {a b : Rect} (ha : IsHull rs a) (hb : IsHull rs' b) (h : ∀ r ∈ rs, ∀ s ∈ rs', Above r s) : Above a b := by
  have hm : ∀ s ∈ rs', a.y1 ≤ s.y0 := fun s hs =>
    (ha.2 ⟨a.x0, a.y0, a.x1, s.y0⟩ fun r hr => ⟨(ha.1 r hr).1, (ha.1 r hr).2.1, (ha.1 r hr).2.2.1, h r hr s hs⟩).2.2.2
  exact (hb.2 ⟨b.x0, a.y1, b.x1, b.y1⟩ fun s hs => ⟨(hb.1 s hs).1, hm s hs, (hb.1 s hs).2.2.1, (hb.1 s hs).2.2.2⟩).2.1

/-- Splitting a stack back into its blocks: the same texts and tables, from top to bottom. -/
theorem ft_split_source (c : Lay.Cfg) (hi : ∀ l, (c.iter l).Perm l) (htol : 0 < c.tol) (bs : List (Full.Blk α)) (hs : Stack bs) :
    ∃ r, splitBack c bs = .ok r ∧ (∀ b ∈ r, b.isText = true → PlainText b ∧ b.lines.Pairwise fun l m => Above l.bbox m.bbox) ∧
      (r.Pairwise fun a b => Above a.bbox b.bbox ∧ (a.isText = false ∨ b.isText = false → a.bbox.y1 < b.bbox.y0)) ∧
      (r.filter fun b => !b.isText).Perm (bs.filter fun b => !b.isText) ∧ (r.flatMap Blk.lines).Perm (bs.flatMap Blk.lines) ∧
      (∀ b ∈ r, b.isText = true → ∃ s ∈ bs, s.isText = true ∧ (∀ l ∈ b.lines, l ∈ s.lines) ∧ Covers s.bbox b.bbox) ∧ r.Pairwise OtherSource := by
  have hflow : bs.filter (flow c) = bs.filter Blk.isText := by
    refine List.filter_congr fun b hb => ?_
    unfold flow
    cases ht : b.isText with
    | false => rfl
    | true =>
      have hp := hs.text b hb ht
      rw [Bool.true_and]
      exact ft_flow c hi htol b.lines (fun l hl => (hp.boxes.2 l hl).1.1.1) hp.horizontal hp.column.apart
  have hnflow : (bs.filter fun b => !flow c b) = bs.filter fun b => !b.isText := by
    refine List.filter_congr fun b hb => ?_
    have h1 : b ∈ bs.filter (flow c) ↔ b ∈ bs.filter Blk.isText := by rw [hflow]
    rw [List.mem_filter, List.mem_filter] at h1
    have : flow c b = b.isText := by
      by_cases h : b.isText = true
      · rw [h]; exact (h1.2 ⟨hb, h⟩).2
      · have h' : ¬ flow c b = true := fun q => h (h1.1 ⟨hb, q⟩).2
        simp only [Bool.not_eq_true] at h h'
        rw [h, h']
    rw [this]
  obtain ⟨gs, k1, k2, k3, k4⟩ := C69_split_back c.iter hi ((bs.filter (flow c)).flatMap Blk.lines)
  rw [hflow] at k1 k2
  -- the lines of a group come from one block
  have hsrc : ∀ g ∈ gs, ∃ b ∈ bs, b.isText = true ∧ ∀ l ∈ g, l ∈ b.lines := by
    intro g hg
    obtain ⟨hne, hpid, _⟩ := k3 g hg
    obtain ⟨l0, hl0⟩ := List.exists_mem_of_ne_nil g hne
    have src : ∀ l ∈ gs.flatten, ∃ b ∈ bs, b.isText = true ∧ l ∈ b.lines := by
      intro l hl
      obtain ⟨x, hx, hlx⟩ := List.mem_flatMap.1 (k2.subset hl)
      obtain ⟨hx, hf⟩ := List.mem_filter.1 hx
      exact ⟨x, hx, hf, hlx⟩
    obtain ⟨b0, hb0, ht0, hlb0⟩ := src l0 (List.mem_flatten.2 ⟨g, hg, hl0⟩)
    refine ⟨b0, hb0, ht0, fun l hl => ?_⟩
    obtain ⟨b, hb, ht, hlb⟩ := src l (List.mem_flatten.2 ⟨g, hg, hl⟩)
    by_cases hbb : b = b0
    · rw [← hbb]; exact hlb
    · exact absurd (hpid l hl l0 hl0) (pl_forall hs.sources (fun x y h => ft_other_symm h) hb hb0 hbb l hlb l0 hlb0)
  have hall : ((bs.filter Blk.isText).flatMap Blk.lines).Pairwise fun a b => VSep a.bbox b.bbox := by
    rw [List.pairwise_flatMap]
    constructor
    · intro x hx
      obtain ⟨hx, htx⟩ := List.mem_filter.1 hx
      exact (hs.text x hx htx).column.apart
    · refine List.Pairwise.sublist List.filter_sublist hs.clear |>.imp_of_mem ?_
      intro x y hx hy hxy l hl m hm
      obtain ⟨hx, htx⟩ := List.mem_filter.1 hx
      obtain ⟨hy, hty⟩ := List.mem_filter.1 hy
      have c1 := ((hs.text x hx htx).boxes.2 l hl).2
      have c2 := ((hs.text y hy hty).boxes.2 m hm).2
      exact pl_sep_in (pl_covers_in c1) (pl_covers_in c2) (hxy.imp le_of_lt le_of_lt)
  have hgsep : gs.flatten.Pairwise fun a b => VSep a.bbox b.bbox := k2.symm.pairwise hall (fun h => pl_sep_symm h)
  have hX : ∀ g ∈ gs, ∀ b ∈ bs, b.isText = true → (∀ l ∈ g, l ∈ b.lines) → PlainText (mkText 0 g) ∧ Covers b.bbox (mkText 0 g).bbox ∧ (mkText 0 g).lines = g ∧
      g.Pairwise fun l m => Above l.bbox m.bbox := by
    intro g hg b hb ht hl
    have hp := hs.text b hb ht
    obtain ⟨hne, hpid, g0, hg0⟩ := k3 g hg
    have hr : ∀ l ∈ g, RealBox l.bbox := fun l h => (hp.boxes.2 l (hl l h)).1.1
    have hn : ∀ l ∈ g, l.pid ≠ none := fun l h => hp.source l (hl l h)
    obtain ⟨m1, m2⟩ := ft_mk 0 g hr hn
    obtain ⟨m2, m3⟩ := m2 hne
    have hsep : g.Pairwise fun l m => VSep l.bbox m.bbox := List.Pairwise.sublist (List.sublist_flatten_of_mem hg) hgsep
    have hdown : g.Pairwise fun l m => Above l.bbox m.bbox := by
      rw [hg0]
      refine pl_sort_above g0 ?_ ?_ ?_
      · intro l h
        exact (hr l (by rw [hg0]; exact (C67_permutation g0).symm.subset h)).1
      · intro l h
        exact hp.horizontal l (hl l (by rw [hg0]; exact (C67_permutation g0).symm.subset h))
      · rw [hg0] at hsep
        exact (C67_permutation g0).pairwise hsep (fun h => pl_sep_symm h)
    refine ⟨⟨⟨rfl, ?_, ?_, ?_, ?_, ?_⟩, ⟨?_, ?_⟩⟩, m3.2 _ ?_, m1, hdown⟩
    · refine ⟨m2, fun l h => ?_⟩
      rw [m1] at h
      exact ⟨(hp.boxes.2 l (hl l h)).1, m3.1 _ (List.mem_map_of_mem h)⟩
    · rw [m1]; exact hne
    · rw [m1]; exact m3
    · rw [m1]; exact fun l h => hp.horizontal l (hl l h)
    · rw [m1]; exact hn
    · rw [m1]; exact hsep
    · rw [m1]; intro l h1 m h2 n _ _ _ _; exact hpid m h2 l h1
    · intro r hr'
      obtain ⟨l, h, rfl⟩ := List.mem_map.1 hr'
      exact (hp.boxes.2 l (hl l h)).2
  set X := (bs.filter fun b => !b.isText) ++ gs.map (mkText 0) with hXdef
  have hXreal : ∀ x ∈ X, RealBox x.bbox := by
    intro x hx
    rcases List.mem_append.1 hx with hx | hx
    · exact hs.real x (List.mem_filter.1 hx).1
    · obtain ⟨g, hg, rfl⟩ := List.mem_map.1 hx
      obtain ⟨b, hb, ht, hl⟩ := hsrc g hg
      exact (hX g hg b hb ht hl).1.boxes.1
  have hXtext : ∀ x ∈ X, x.isText = true → PlainText x ∧ x.lines.Pairwise fun l m => Above l.bbox m.bbox := by
    intro x hx ht
    rcases List.mem_append.1 hx with hx | hx
    · have := (List.mem_filter.1 hx).2
      rw [ht] at this
      cases this
    · obtain ⟨g, hg, rfl⟩ := List.mem_map.1 hx
      obtain ⟨b, hb, ht, hl⟩ := hsrc g hg
      obtain ⟨q1, _, q3, q4⟩ := hX g hg b hb ht hl
      exact ⟨q1, by rw [q3]; exact q4⟩
  have hsub : ∀ {a a' b b' : Rect}, Clears a b → Covers a a' → Covers b b' → Clears a' b' := by
    intro a a' b b' h h1 h2
    rcases h with h | h
    · exact Or.inl (lt_of_le_of_lt h1.2.2.2 (lt_of_lt_of_le h h2.2.1))
    · exact Or.inr (lt_of_le_of_lt h2.2.2.2 (lt_of_lt_of_le h h1.2.1))
  have hXsep : X.Pairwise fun a b => VSep a.bbox b.bbox ∧ (a.isText = false ∨ b.isText = false → Clears a.bbox b.bbox) := by
    rw [hXdef, List.pairwise_append]
    refine ⟨(List.Pairwise.sublist List.filter_sublist hs.clear).imp fun h => ⟨h.imp le_of_lt le_of_lt, fun _ => h⟩, ?_, ?_⟩
    · rw [List.pairwise_map]
      refine k4.imp_of_mem ?_
      intro g g' hg hg' hgg
      refine ⟨?_, by rintro (h | h) <;> cases h⟩
      obtain ⟨b, hb, ht, hl⟩ := hsrc g hg
      obtain ⟨b', hb', ht', hl'⟩ := hsrc g' hg'
      obtain ⟨q1, q2, q3, _⟩ := hX g hg b hb ht hl
      obtain ⟨w1, w2, w3, _⟩ := hX g' hg' b' hb' ht' hl'
      by_cases hbb : b = b'
      · subst hbb
        have hd : ∀ x ∈ g, ∀ y ∈ g', x.pid ≠ y.pid := fun x hx y hy => (hgg x hx y hy).resolve_left ((hs.text b hb ht).source x (hl x hx))
        have hq := q1.hull
        have hw := w1.hull
        rw [q3] at hq
        rw [w3] at hw
        rcases ft_groups_above (hs.text b hb ht).column g g' hl hl' (k3 g hg).2.1 (k3 g' hg').2.1 hd with q | q
        · left
          refine ft_above_hull hq hw ?_
          intro r hr s hs'
          obtain ⟨l, h1, rfl⟩ := List.mem_map.1 hr
          obtain ⟨m, h2, rfl⟩ := List.mem_map.1 hs'
          exact q l h1 m h2
        · right
          refine ft_above_hull hw hq ?_
          intro r hr s hs'
          obtain ⟨l, h1, rfl⟩ := List.mem_map.1 hr
          obtain ⟨m, h2, rfl⟩ := List.mem_map.1 hs'
          exact q m h2 l h1
      · have := pl_forall hs.clear (fun x y h => ft_clears_symm h) hb hb' hbb
        exact (hsub this q2 w2).imp le_of_lt le_of_lt
    · intro x hx y hy
      obtain ⟨hx, htx⟩ := List.mem_filter.1 hx
      obtain ⟨g, hg, rfl⟩ := List.mem_map.1 hy
      obtain ⟨b, hb, ht, hl⟩ := hsrc g hg
      have hne : x ≠ b := by
        rintro rfl
        rw [ht] at htx
        cases htx
      have := hsub (pl_forall hs.clear (fun x y h => ft_clears_symm h) hx hb hne) ⟨le_refl _, le_refl _, le_refl _, le_refl _⟩ (hX g hg b hb ht hl).2.1
      exact ⟨this.imp le_of_lt le_of_lt, fun _ => this⟩
  have hlines : ∀ g ∈ gs, (mkText 0 g).lines = g := by
    intro g hg
    obtain ⟨b, hb, ht, hl⟩ := hsrc g hg
    exact (hX g hg b hb ht hl).2.2.1
  have hXp := ft_sort_perm X
  have hdir : Coll.textDirection (X.map Blk.el) = .leftRight := by
    apply pl_dir_ltr
    intro e he
    obtain ⟨b, hb, rfl⟩ := List.mem_map.1 he
    exact ft_dir b fun ht => (hXtext b hb ht).1
  have hy : (sortBlocks X).Pairwise fun a b => a.bbox.y0 ≤ b.bbox.y0 := by
    unfold sortBlocks
    rw [if_pos hdir]
    refine (sortBy_pairwise (fun l : Full.Blk α => Coll.key l.bbox.y0 l.bbox.x0 l.bbox.x1) _).imp ?_
    intro a b hab
    unfold Coll.key at hab
    rw [Prod.Lex.le_iff] at hab
    rcases hab with h | h
    · exact le_of_lt h
    · exact le_of_eq h.1
  have hsepS : (sortBlocks X).Pairwise fun a b => VSep a.bbox b.bbox ∧ (a.isText = false ∨ b.isText = false → Clears a.bbox b.bbox) :=
    hXp.symm.pairwise hXsep fun h => ⟨pl_sep_symm h.1, fun q => ft_clears_symm (h.2 q.symm)⟩
  refine ⟨sortBlocks X, ?_, fun b hb => hXtext b (hXp.subset hb), ?_, ?_, ?_, ?_, ?_⟩
  · unfold splitBack
    rw [hflow, k1, hnflow]
    have : real X = X := List.filter_eq_self.2 fun x hx => ly_real_truthy (hXreal x hx)
    show Except.ok (sortBlocks (real X)) = _
    rw [this]
  · refine (hsepS.and hy).imp_of_mem fun {a b} ha hb h => ?_
    have h1 := (hXreal a (hXp.subset ha)).1.2
    have h2 := (hXreal b (hXp.subset hb)).1.2
    have h3 := h.2
    refine ⟨pl_sep_above (hXreal a (hXp.subset ha)).1 (hXreal b (hXp.subset hb)).1 h.1.1 h.2, fun q => ?_⟩
    rcases h.1.2 q with w | w
    · exact w
    · linarith
  · refine (hXp.filter _).trans ?_
    rw [hXdef, List.filter_append, List.filter_filter]
    have e1 : (gs.map (mkText 0)).filter (fun b : Full.Blk α => !b.isText) = [] := by
      rw [List.filter_eq_nil_iff]
      intro x hx
      obtain ⟨g, _, rfl⟩ := List.mem_map.1 hx
      simp [mkText, Blk.isText]
    rw [e1, List.append_nil]
    simp
  · refine (hXp.flatMap_right _).trans ?_
    rw [hXdef, List.flatMap_append, List.flatMap_map]
    have e1 : (gs.flatMap fun g => (mkText 0 g).lines) = gs.flatten := by
      rw [List.flatten_eq_flatMap]
      exact List.flatMap_congr fun g hg => hlines g hg
    have e2 : (bs.filter fun b => !b.isText).flatMap Blk.lines = [] := by
      rw [List.flatMap_eq_nil_iff]
      intro x hx
      obtain ⟨_, htx⟩ := List.mem_filter.1 hx
      cases x with
      | text _ _ => cases htx
      | table _ _ _ => rfl
    rw [e1, e2, List.nil_append]
    refine k2.trans ?_
    have e3 := (List.filter_append_perm Blk.isText bs).flatMap_right Blk.lines
    rw [List.flatMap_append, e2, List.append_nil] at e3
    exact e3
  · intro b hb ht
    rcases List.mem_append.1 (hXp.subset hb) with hx | hx
    · have := (List.mem_filter.1 hx).2
      rw [ht] at this
      cases this
    · obtain ⟨g, hg, rfl⟩ := List.mem_map.1 hx
      obtain ⟨s, hsm, hst, hl⟩ := hsrc g hg
      obtain ⟨_, q2, q3, _⟩ := hX g hg s hsm hst hl
      exact ⟨s, hsm, hst, by rw [q3]; exact hl, q2⟩
  · refine hXp.symm.pairwise ?_ fun h => ft_other_symm h
    rw [hXdef, List.pairwise_append]
    have hno : ∀ x ∈ bs.filter (fun b => !b.isText), x.lines = [] := by
      intro x hx
      obtain ⟨_, htx⟩ := List.mem_filter.1 hx
      cases x with
      | text _ _ => cases htx
      | table _ _ _ => rfl
    refine ⟨List.pairwise_of_forall_mem_list fun x hx y _ => ?_, ?_, fun x hx y _ => ?_⟩
    · intro l hl
      rw [hno x hx] at hl
      cases hl
    · rw [List.pairwise_map]
      refine k4.imp_of_mem ?_
      intro g g' hg hg' hgg l hl m hm
      rw [hlines g hg] at hl
      rw [hlines g' hg'] at hm
      obtain ⟨s, hsm, hst, hls⟩ := hsrc g hg
      exact (hgg l hl m hm).resolve_left ((hs.text s hsm hst).source l (hls l hl))
    · intro l hl
      rw [hno x hx] at hl
      cases hl

/-- Splitting back (see above), without the sources of the blocks. -/
theorem ft_split (c : Lay.Cfg) (hi : ∀ l, (c.iter l).Perm l) (htol : 0 < c.tol) (bs : List (Full.Blk α)) (hs : Stack bs) :
    ∃ r, splitBack c bs = .ok r ∧ (∀ b ∈ r, b.isText = true → PlainText b ∧ b.lines.Pairwise fun l m => Above l.bbox m.bbox) ∧
      (r.Pairwise fun a b => Above a.bbox b.bbox ∧ (a.isText = false ∨ b.isText = false → a.bbox.y1 < b.bbox.y0)) ∧
      (r.filter fun b => !b.isText).Perm (bs.filter fun b => !b.isText) ∧ (r.flatMap Blk.lines).Perm (bs.flatMap Blk.lines) := by
  obtain ⟨r, h1, h2, h3, h4, h5, _, _⟩ := ft_split_source c hi htol bs hs
  exact ⟨r, h1, h2, h3, h4, h5⟩

/-- Blocks of lines from top to bottom, one below the other, show their lines. -/
theorem ft_shows (r : List (Full.Blk α)) (ls : List (Lay.Ln α)) (hs : ∀ b ∈ r, b.isText = true → PlainText b ∧ b.lines.Pairwise fun l m => Above l.bbox m.bbox) (ht : ∀ b ∈ r, b.isText = true)
    (ha : r.Pairwise fun a b => Above a.bbox b.bbox) (hl : (r.flatMap Blk.lines).Perm ls) : ShowsDown r ls := by
  refine ⟨ht, hl, ?_⟩
  rw [List.pairwise_flatMap]
  refine ⟨fun b hb => (hs b hb (ht b hb)).2, ha.imp_of_mem ?_⟩
  intro a b ha hb hab l hl m hm
  have c1 := ((hs a ha (ht a ha)).1.boxes.2 l hl).2
  have c2 := ((hs b hb (ht b hb)).1.boxes.2 m hm).2
  exact le_trans c1.2.2.2 (le_trans hab c2.2.1)

end Column

end Props
