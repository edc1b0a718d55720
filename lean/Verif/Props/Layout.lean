import Verif.Spec.Layout
import Verif.Props.Assign
import Verif.Props.Lines
import Verif.Props.TightContent
/-! # Properties of nested layouts (C83, C84) -/

namespace Props
open Py Geom Spec Assign Lay

section Inv
variable {α : Type}

theorem ly_texts_append (a b : List (Blk α)) : texts (a ++ b) = texts a ++ texts b := by
  induction a with
  | nil => rfl
  | cons x a ih => simp only [List.cons_append, texts, ih, List.append_assoc]

theorem ly_texts_flatMap (bs : List (Blk α)) : texts bs = bs.flatMap Blk.texts := by
  induction bs with
  | nil => rfl
  | cons x a ih => simp only [texts, ih, List.flatMap_cons]

theorem ly_cells_flatMap (cs : List (Rect × List (Blk α))) : cellsTexts cs = cs.flatMap fun c => texts c.2 := by
  induction cs with
  | nil => rfl
  | cons x a ih => obtain ⟨r, bs⟩ := x; simp only [cellsTexts, ih, List.flatMap_cons]

theorem ly_texts_perm {a b : List (Blk α)} (h : a.Perm b) : (texts a).Perm (texts b) := by
  rw [ly_texts_flatMap, ly_texts_flatMap]
  exact h.flatMap_right _

theorem ly_mem_texts {bs : List (Blk α)} {t : Rect × List (Ln α)} : t ∈ texts bs ↔ ∃ b ∈ bs, t ∈ b.texts := by
  rw [ly_texts_flatMap, List.mem_flatMap]

theorem ly_sort_perm (bs : List (Blk α)) : (sortBlocks bs).Perm bs := by
  unfold sortBlocks
  split_ifs <;> exact List.perm_insertionSort _ _

/-- A property of text blocks kept by making new blocks from lines and by cutting at a cell. -/
structure Closed (Q : Rect × List (Ln α) → Prop) : Prop where
  make : ∀ id ls, (∀ l ∈ ls, ∃ t, Q t ∧ l ∈ t.2) → (mkText id ls).bbox.truthy = true → Q ((mkText id ls).bbox, (mkText id ls).lines)
  cut : ∀ id cell t, Q t → (mkText id (t.2.map (cutLine cell))).bbox.truthy = true →
    Q ((mkText id (t.2.map (cutLine cell))).bbox, (mkText id (t.2.map (cutLine cell))).lines)

theorem ly_mk_texts (id : ℕ) (ls : List (Ln α)) : (mkText id ls).texts = [((mkText id ls).bbox, (mkText id ls).lines)] := rfl

/-- All text blocks in real blocks. -/
def AllText (Q : Rect × List (Ln α) → Prop) (bs : List (Blk α)) : Prop := ∀ t ∈ texts (real bs), Q t

theorem ly_real_mem {b : Blk α} {bs : List (Blk α)} : b ∈ real bs ↔ b ∈ bs ∧ b.bbox.truthy = true := List.mem_filter

theorem ly_all_sub {Q : Rect × List (Ln α) → Prop} {a b : List (Blk α)} (h : ∀ x ∈ a, x.bbox.truthy = true → x ∈ b) (hb : AllText Q b) :
    AllText Q a := by
  intro t ht
  obtain ⟨x, hx, ht⟩ := ly_mem_texts.1 ht
  obtain ⟨hx, htr⟩ := ly_real_mem.1 hx
  exact hb t (ly_mem_texts.2 ⟨x, ly_real_mem.2 ⟨h x hx htr, htr⟩, ht⟩)

/-- All text blocks of one block, if it is real. -/
def OneText (Q : Rect × List (Ln α) → Prop) (b : Blk α) : Prop := b.bbox.truthy = true → ∀ t ∈ b.texts, Q t

theorem ly_all_iff {Q : Rect × List (Ln α) → Prop} {bs : List (Blk α)} : AllText Q bs ↔ ∀ b ∈ bs, OneText Q b := by
  constructor
  · intro h b hb htr t ht
    exact h t (ly_mem_texts.2 ⟨b, ly_real_mem.2 ⟨hb, htr⟩, ht⟩)
  · intro h t ht
    obtain ⟨x, hx, ht⟩ := ly_mem_texts.1 ht
    obtain ⟨hx, htr⟩ := ly_real_mem.1 hx
    exact h x hx htr t ht

variable {Q : Rect × List (Ln α) → Prop}

theorem ly_one_mk (hk : Closed Q) (id : ℕ) (ls : List (Ln α)) (h : ∀ l ∈ ls, ∃ t, Q t ∧ l ∈ t.2) : OneText Q (mkText id ls) := by
  intro htr t ht
  rw [ly_mk_texts, List.mem_singleton] at ht
  subst ht
  exact hk.make id ls h htr

theorem ly_assignText_mem {β : Type} [HasBox β] (b : Rect) (all : List β) (ts : List Rect) (lines : List β) (hsub : ∀ l ∈ lines, l ∈ all)
    (r : List (List β) × List β) (h : assignText b all ts lines = .ok r) : (∀ g ∈ r.1, ∀ l ∈ g, l ∈ all) ∧ ∀ l ∈ r.2, l ∈ all := by
  induction ts generalizing lines r with
  | nil => simp only [assignText, Except.ok.injEq] at h; subst h; exact ⟨by simp, hsub⟩
  | cons t ts ih =>
    unfold assignText at h
    have nils : ∀ g ∈ (ts.map fun _ => ([] : List β)), ∀ l ∈ g, l ∈ all := by
      intro g hg
      obtain ⟨_, _, rfl⟩ := List.mem_map.1 hg
      simp
    split_ifs at h with h1 h2
    · simp only [Except.ok.injEq] at h
      subst h
      refine ⟨?_, by simp⟩
      intro g hg
      rcases List.mem_cons.1 hg with rfl | hg
      · exact fun l h => h
      · exact nils g hg
    · cases hr : assignText b all ts lines with
      | error x => rw [hr] at h; cases h
      | ok q =>
        rw [hr] at h
        simp only [Except.map, Except.ok.injEq] at h
        subst h
        obtain ⟨i1, i2⟩ := ih lines hsub q hr
        refine ⟨?_, i2⟩
        intro g hg
        rcases List.mem_cons.1 hg with rfl | hg
        · simp
        · exact i1 g hg
    · cases hs : splitLines t (9 / 10) lines with
      | error x => rw [hs] at h; cases h
      | ok q =>
        obtain ⟨inT, out⟩ := q
        rw [hs] at h
        dsimp only at h
        have hp := splitLines_perm t _ lines _ hs
        have hin : ∀ l ∈ inT, l ∈ all := fun l hl => hsub l (hp.subset (List.mem_append_left _ hl))
        have hout : ∀ l ∈ out, l ∈ all := fun l hl => hsub l (hp.subset (List.mem_append_right _ hl))
        split_ifs at h with h3
        · simp only [Except.ok.injEq] at h
          subst h
          refine ⟨?_, by simp⟩
          intro g hg
          rcases List.mem_cons.1 hg with rfl | hg
          · exact hin
          · exact nils g hg
        · cases hr : assignText b all ts out with
          | error x => rw [hr] at h; cases h
          | ok q' =>
            rw [hr] at h
            simp only [Except.map, Except.ok.injEq] at h
            subst h
            obtain ⟨i1, i2⟩ := ih out hout q' hr
            refine ⟨?_, i2⟩
            intro g hg
            rcases List.mem_cons.1 hg with rfl | hg
            · exact hin
            · exact i1 g hg

theorem ly_mkText_nil (id : ℕ) : (mkText id ([] : List (Ln α))).bbox.truthy = false := rfl

theorem ly_one_assignBlock (hk : Closed Q) (boxes : List Rect) (b : Blk α) (hb : ∀ t ∈ b.texts, Q t)
    (r : List (List (Blk α)) × List (Blk α)) (h : assignBlock boxes b = .ok r) : (∀ g ∈ r.1, AllText Q g) ∧ AllText Q r.2 := by
  have nil : AllText Q [] := fun t ht => by simp [real, texts] at ht
  cases b with
  | table rr cs =>
    unfold assignBlock at h
    dsimp only at h
    have one : AllText Q [Blk.table rr cs] := ly_all_iff.2 (by intro x hx; rw [List.mem_singleton] at hx; subst hx; exact fun _ => hb)
    cases hw : assignWhole rr boxes with
    | none =>
      rw [hw] at h
      simp only [Except.ok.injEq] at h
      subst h
      refine ⟨?_, one⟩
      intro g hg
      obtain ⟨_, _, rfl⟩ := List.mem_map.1 hg
      exact nil
    | some i =>
      rw [hw] at h
      simp only [Except.ok.injEq] at h
      subst h
      refine ⟨?_, nil⟩
      intro g hg
      obtain ⟨j, hj, rfl⟩ := List.mem_mapIdx.1 hg
      split_ifs
      · exact one
      · exact nil
  | text rr ls =>
    unfold assignBlock at h
    dsimp only at h
    cases ha : assignText rr ls boxes ls with
    | error e => rw [ha] at h; cases h
    | ok p =>
      rw [ha] at h
      simp only [Except.ok.injEq] at h
      subst h
      obtain ⟨m1, m2⟩ := ly_assignText_mem rr ls boxes ls (fun l h => h) p ha
      have hq : Q (rr, ls) := hb (rr, ls) (by simp [Blk.texts])
      refine ⟨?_, ly_all_iff.2 ?_⟩
      · intro g hg
        obtain ⟨k, hk', rfl⟩ := List.mem_iff_getElem.1 hg
        rw [List.getElem_zipWith]
        split_ifs
        · exact nil
        · exact ly_all_iff.2 (by intro x hx; rw [List.mem_singleton] at hx; subst hx; exact fun _ => hb)
        · refine ly_all_iff.2 ?_
          intro x hx
          rw [List.mem_singleton] at hx
          subst hx
          exact ly_one_mk hk 0 _ fun l hl => ⟨(rr, ls), hq, m1 _ (List.getElem_mem _) l hl⟩
      · intro x hx
        rw [List.mem_singleton] at hx
        subst hx
        exact ly_one_mk hk 0 _ fun l hl => ⟨(rr, ls), hq, m2 l hl⟩

theorem ly_all_assignCell (hk : Closed Q) (id : ℕ) (cell : Rect) (b : Blk α) (hb : OneText Q b) : AllText Q (assignCell id cell b) := by
  have nil : AllText Q [] := fun t ht => by simp [real, texts] at ht
  unfold assignCell
  split_ifs with h1 h2
  · refine ly_all_sub (b := [b]) ?_ (ly_all_iff.2 (by simpa using hb))
    intro x hx _
    exact (ly_real_mem.1 hx).1
  · exact nil
  · cases b with
    | table _ _ => exact nil
    | text rr ls =>
      dsimp only
      by_cases hbt : rr.truthy = true
      · refine ly_all_iff.2 ?_
        intro x hx
        obtain ⟨hx, _⟩ := ly_real_mem.1 hx
        rw [List.mem_singleton] at hx
        subst hx
        intro htr t ht
        rw [ly_mk_texts, List.mem_singleton] at ht
        subst ht
        exact hk.cut id cell (rr, ls) (hb hbt (rr, ls) (by simp [Blk.texts])) htr
      · exfalso
        have hz : rr = Rect.zero := by
          unfold Rect.truthy at hbt
          simpa using hbt
        apply h2
        show (!(cell.inter rr).truthy) = true
        rw [hz]
        unfold Rect.inter
        rw [if_pos (Or.inr (show Rect.zero.isEmpty from Or.inl rfl))]
        rfl

theorem ly_mapM_mem {β γ : Type} {f : β → Except Err γ} : ∀ (l : List β) (r : List γ), l.mapM f = .ok r → ∀ y ∈ r, ∃ x ∈ l, f x = .ok y := by
  intro l
  induction l with
  | nil => intro r h y hy; simp only [List.mapM_nil, pure, Except.pure, Except.ok.injEq] at h; subst h; simp at hy
  | cons a l ih =>
    intro r h y hy
    rw [List.mapM_cons] at h
    cases ha : f a with
    | error e => rw [ha] at h; cases h
    | ok b =>
      rw [ha] at h
      cases hl : l.mapM f with
      | error e => rw [hl] at h; cases h
      | ok q =>
        rw [hl] at h
        simp only [bind, Except.bind, pure, Except.pure, Except.ok.injEq] at h
        subst h
        rcases List.mem_cons.1 hy with rfl | hy
        · exact ⟨a, by simp, ha⟩
        · obtain ⟨x, hx, hfx⟩ := ih q hl y hy
          exact ⟨x, by simp [hx], hfx⟩

theorem ly_assignCell_real (id : ℕ) (cell : Rect) (b x : Blk α) (hx : x ∈ assignCell id cell b) : x.bbox.truthy = true := by
  unfold assignCell at hx
  split_ifs at hx
  · exact (ly_real_mem.1 hx).2
  · simp at hx
  · cases b with
    | table _ _ => simp at hx
    | text _ _ => exact (ly_real_mem.1 hx).2

theorem ly_all_cellLayout (hk : Closed Q) (nid : ℕ → ℕ) (cell : Rect) (bs : List (Blk α)) (h : AllText Q bs) :
    ∀ t ∈ texts (cellLayout nid cell bs), Q t := by
  intro t ht
  obtain ⟨x, hx, ht⟩ := ly_mem_texts.1 ht
  unfold cellLayout at hx
  obtain ⟨⟨b, i⟩, hb, hx⟩ := List.mem_flatMap.1 hx
  have hbm : b ∈ bs := (List.mem_zipIdx' hb).2 ▸ List.getElem_mem _
  exact ly_all_iff.1 (ly_all_assignCell hk _ cell b (ly_all_iff.1 h b hbm)) x hx (ly_assignCell_real _ _ _ _ hx) t ht

/-- The result of sorting real blocks. -/
theorem ly_all_final {bs : List (Blk α)} (h : AllText Q bs) : ∀ t ∈ texts (sortBlocks (real bs)), Q t := by
  intro t ht
  exact h t ((ly_texts_perm (ly_sort_perm _)).subset ht)

theorem ly_arrange_perm (b : Bool) (bs : List (Blk α)) : (arrange b bs).Perm bs := by
  unfold arrange
  split_ifs
  · exact ly_sort_perm _
  · exact List.Perm.refl _

theorem ly_all_assignTables (hk : Closed Q) (nid : ℕ → ℕ → ℕ → ℕ) (ts : List Tab) (bs : List (Blk α)) (h : ∀ t ∈ texts bs, Q t)
    (r : List (Blk α)) (ho : assignTables nid ts bs = .ok r) : ∀ t ∈ texts r, Q t := by
  unfold assignTables at ho
  split_ifs at ho with h0
  · simp only [Except.ok.injEq] at ho; subst ho; exact h
  cases hm : bs.mapM (assignBlock (ts.map Tab.box)) with
  | error e => rw [hm] at ho; cases ho
  | ok rs =>
    rw [hm] at ho
    simp only [Except.ok.injEq] at ho
    subst ho
    have hrs : ∀ q ∈ rs, (∀ g ∈ q.1, AllText Q g) ∧ AllText Q q.2 := by
      intro q hq
      obtain ⟨b, hb, hbq⟩ := ly_mapM_mem _ _ hm q hq
      exact ly_one_assignBlock hk _ b (fun t ht => h t (ly_mem_texts.2 ⟨b, hb, ht⟩)) q hbq
    refine ly_all_final ?_
    rw [ly_all_iff]
    intro x hx
    rcases List.mem_append.1 hx with hx | hx
    · obtain ⟨q, hq, hx⟩ := List.mem_flatMap.1 hx
      exact ly_all_iff.1 (hrs q hq).2 x hx
    · obtain ⟨t, _, rfl⟩ := List.mem_map.1 hx
      intro _ y hy
      unfold fillTable at hy
      rw [Blk.texts, ly_cells_flatMap, List.mem_flatMap] at hy
      obtain ⟨c, hc, hy⟩ := hy
      obtain ⟨c', _, rfl⟩ := List.mem_map.1 hc
      dsimp only at hy
      refine ly_all_cellLayout hk (nid t.2 c'.2) c'.1 _ ?_ y ((ly_texts_perm (ly_arrange_perm _ _)).subset hy)
      rw [ly_all_iff]
      intro b hb
      obtain ⟨q, hq, hb⟩ := List.mem_flatMap.1 hb
      rw [List.getD_eq_getElem?_getD] at hb
      cases hqt : q.1[t.2]? with
      | none => rw [hqt] at hb; simp at hb
      | some g =>
        rw [hqt] at hb
        exact ly_all_iff.1 ((hrs q hq).1 g (List.mem_of_getElem? hqt)) b hb

theorem ly_all_splitBack (c : Cfg) (hi : ∀ l, (c.iter l).Perm l) (hk : Closed Q) (bs : List (Blk α)) (h : ∀ t ∈ texts bs, Q t) :
    ∃ r, Lay.splitBack c bs = .ok r ∧ ∀ t ∈ texts r, Q t := by
  obtain ⟨gs, h1, h2, _, _⟩ := C69_split_back c.iter hi ((bs.filter (flow c)).flatMap Blk.lines)
  refine ⟨sortBlocks (real (bs.filter (fun b => !flow c b) ++ gs.map (mkText 0))), by unfold Lay.splitBack; rw [h1], ?_⟩
  refine ly_all_final ?_
  rw [ly_all_iff]
  intro x hx
  rcases List.mem_append.1 hx with hx | hx
  · exact fun _ t ht => h t (ly_mem_texts.2 ⟨x, List.mem_of_mem_filter hx, ht⟩)
  · obtain ⟨g, hg, rfl⟩ := List.mem_map.1 hx
    refine ly_one_mk hk 0 g ?_
    intro l hl
    have := h2.subset (List.mem_flatten.2 ⟨g, hg, hl⟩)
    obtain ⟨b, hb, hl⟩ := List.mem_flatMap.1 this
    have hb := List.mem_of_mem_filter hb
    cases b with
    | table _ _ => simp [Blk.lines] at hl
    | text rr ls => exact ⟨(rr, ls), h _ (ly_mem_texts.2 ⟨_, hb, by simp [Blk.texts]⟩), hl⟩

theorem ly_all_stages (D : Detect α) (nid : Ids) (hk : Closed Q) (path : List ℕ) (box : Rect) (ss : List ℕ) (bs : List (Blk α))
    (h : ∀ t ∈ texts bs, Q t) (r : List (Blk α)) (ho : stages D nid path box ss bs = .ok r) : ∀ t ∈ texts r, Q t := by
  induction ss generalizing bs with
  | nil => simp only [stages, Except.ok.injEq] at ho; subst ho; exact h
  | cons s ss ih =>
    unfold stages at ho
    cases hd : D path box s bs with
    | error e => rw [hd] at ho; cases ho
    | ok ts =>
      rw [hd] at ho
      dsimp only at ho
      cases ha : assignTables (nid path s) ts bs with
      | error e => rw [ha] at ho; cases ho
      | ok bs' =>
        rw [ha] at ho
        dsimp only at ho
        exact ih bs' (ly_all_assignTables hk _ ts bs h bs' ha) ho

theorem ly_parseCells (sub : ℕ → Rect → List (Blk α) → Except Err (List (Blk α))) (R : List (Blk α) → List (Blk α) → Prop)
    (cs : List (Rect × List (Blk α))) (i : ℕ) (hs : ∀ j c, cs[j]? = some c → ∀ bs', sub (i + j) c.1 c.2 = .ok bs' → R c.2 bs') (r : List (Rect × List (Blk α)))
    (h : parseCells sub i cs = .ok r) : List.Forall₂ (fun c c' => c.1 = c'.1 ∧ R c.2 c'.2) cs r := by
  induction cs generalizing i r with
  | nil => simp only [parseCells, Except.ok.injEq] at h; subst h; exact .nil
  | cons c cs ih =>
    unfold parseCells at h
    cases h1 : sub i c.1 c.2 with
    | error e => rw [h1] at h; cases h
    | ok bs =>
      rw [h1] at h
      dsimp only at h
      cases h2 : parseCells sub (i + 1) cs with
      | error e => rw [h2] at h; cases h
      | ok cs' =>
        rw [h2] at h
        simp only [Except.ok.injEq] at h
        subst h
        refine .cons ⟨rfl, hs 0 c (by simp) bs (by simpa using h1)⟩ (ih (i + 1) ?_ cs' h2)
        intro j c' hj bs' hb
        exact hs (j + 1) c' (by simpa using hj) bs' (by rw [← hb]; congr 1; omega)

/-- What parsing the tables of a layout does to a block. -/
inductive SubParsed (R : List (Blk α) → List (Blk α) → Prop) : Blk α → Blk α → Prop
  | text (b ls) : SubParsed R (.text b ls) (.text b ls)
  | table (b cs cs') : List.Forall₂ (fun c c' => c.1 = c'.1 ∧ R c.2 c'.2) cs cs' → SubParsed R (.table b cs) (.table b cs')

theorem ly_parseTables (sub : ℕ → ℕ → Rect → List (Blk α) → Except Err (List (Blk α))) (R : List (Blk α) → List (Blk α) → Prop)
    (bs : List (Blk α)) (i : ℕ)
    (hs : ∀ k b cs, bs[k]? = some (.table b cs) → ∀ j c, cs[j]? = some c → ∀ bs', sub (i + k) j c.1 c.2 = .ok bs' → R c.2 bs')
    (r : List (Blk α)) (h : parseTables sub i bs = .ok r) : List.Forall₂ (SubParsed R) bs r := by
  induction bs generalizing i r with
  | nil => simp only [parseTables, Except.ok.injEq] at h; subst h; exact .nil
  | cons b bs ih =>
    have hs' : ∀ k b cs, bs[k]? = some (.table b cs) → ∀ j c, cs[j]? = some c → ∀ bs', sub (i + 1 + k) j c.1 c.2 = .ok bs' → R c.2 bs' := by
      intro k b cs hb j c hc bs' ho
      exact hs (k + 1) b cs (by simpa using hb) j c hc bs' (by rw [← ho]; congr 1; omega)
    cases b with
    | text bb ls =>
      unfold parseTables at h
      cases h2 : parseTables sub (i + 1) bs with
      | error e => rw [h2] at h; cases h
      | ok bs' =>
        rw [h2] at h
        simp only [Except.ok.injEq] at h
        subst h
        exact .cons (.text bb ls) (ih (i + 1) hs' bs' h2)
    | table bb cs =>
      unfold parseTables at h
      cases h1 : parseCells (sub i) 0 cs with
      | error e => rw [h1] at h; cases h
      | ok cs' =>
        rw [h1] at h
        dsimp only at h
        cases h2 : parseTables sub (i + 1) bs with
        | error e => rw [h2] at h; cases h
        | ok bs' =>
          rw [h2] at h
          simp only [Except.ok.injEq] at h
          subst h
          refine .cons (.table bb cs cs' (ly_parseCells (sub i) R cs 0 ?_ cs' h1)) (ih (i + 1) hs' bs' h2)
          intro j c hc bs'' ho
          exact hs 0 bb cs (by simp) j c hc bs'' (by simpa using ho)

theorem ly_sub_texts {R : List (Blk α) → List (Blk α) → Prop} {bs r : List (Blk α)} (h : List.Forall₂ (SubParsed R) bs r)
    (hR : ∀ a b, R a b → (∀ t ∈ texts a, Q t) → ∀ t ∈ texts b, Q t) (hq : ∀ t ∈ texts bs, Q t) : ∀ t ∈ texts r, Q t := by
  induction h with
  | nil => exact hq
  | cons hab _ ih =>
    intro t ht
    rw [texts, List.mem_append] at ht
    rcases ht with ht | ht
    · cases hab with
      | text b ls => exact hq t (by rw [texts]; exact List.mem_append_left _ ht)
      | table b cs cs' hcs =>
        rw [Blk.texts] at ht
        have hq' : ∀ t ∈ cellsTexts cs, Q t := fun t ht => hq t (by rw [texts, Blk.texts]; exact List.mem_append_left _ ht)
        clear hq
        induction hcs with
        | nil => simp [cellsTexts] at ht
        | @cons a b la lb hab' _ ihc =>
          obtain ⟨ra, ba⟩ := a
          obtain ⟨rb, bb⟩ := b
          rw [cellsTexts, List.mem_append] at ht
          rcases ht with ht | ht
          · exact hR ba bb hab'.2 (fun t ht => hq' t (by rw [cellsTexts]; exact List.mem_append_left _ ht)) t ht
          · exact ihc ht fun t ht => hq' t (by rw [cellsTexts]; exact List.mem_append_right _ ht)
    · exact ih (fun t ht => hq t (by rw [texts]; exact List.mem_append_right _ ht)) t ht

/-- A closed property holds of all text blocks of the result, if of those of the input. -/
theorem ly_parse_closed (c : Cfg) (hi : ∀ l, (c.iter l).Perm l) (D : Detect α) (nid : Ids) (hk : Closed Q) (depth : ℕ) (path : List ℕ) (box : Rect)
    (ss : List ℕ) (bs r : List (Blk α)) (ho : parse c D nid depth path box ss bs = .ok r) (h : ∀ t ∈ texts bs, Q t) : ∀ t ∈ texts r, Q t := by
  induction depth generalizing path box ss bs r with
  | zero => cases ho
  | succ n ih =>
    unfold parse level at ho
    cases hst : stages D nid path box ss bs with
    | error e => rw [hst] at ho; cases ho
    | ok b1 =>
      rw [hst] at ho
      dsimp only at ho
      obtain ⟨b2, hb2, hq2⟩ := ly_all_splitBack c hi hk b1 (ly_all_stages D nid hk path box ss bs h b1 hst)
      rw [hb2] at ho
      dsimp only at ho
      have := ly_parseTables _ (fun a b => (∀ t ∈ texts a, Q t) → ∀ t ∈ texts b, Q t) b2 0 ?_ r ho
      · exact ly_sub_texts this (fun a b h => h) hq2
      · intro k b cs _ j cc _ bs' ho'
        exact ih _ _ _ _ _ ho'

end Inv

section C83
variable {α : Type}

theorem ly_cutSpan_items (rect : Rect) (s : Span α) : (cutSpan rect s).items.Sublist s.items := by
  cases s with
  | text b cs =>
    simp only [cutSpan]
    split_ifs
    · exact List.Sublist.refl _
    · exact List.nil_sublist _
    · exact (List.filter_sublist).map _
  | image b a =>
    simp only [cutSpan]
    split_ifs
    · exact List.Sublist.refl _
    · exact List.nil_sublist _

theorem ly_add_spans_eq {σ : Type} (l : Lns.Ln σ) (ss : List (Rect × σ)) : (l.add ss).spans = l.spans ++ ss.filter fun s => s.1.truthy := by
  unfold Lns.Ln.add
  induction ss generalizing l with
  | nil => simp
  | cons s ss ih =>
    rw [List.foldl_cons, ih]
    by_cases h : s.1.truthy = true
    · simp [if_pos h, List.filter_cons, h]
    · simp [if_neg h, List.filter_cons, h]

theorem ly_add_dir {σ : Type} (l : Lns.Ln σ) (ss : List (Rect × σ)) : (l.add ss).dir = l.dir := by
  unfold Lns.Ln.add
  induction ss generalizing l with
  | nil => rfl
  | cons s ss ih =>
    rw [List.foldl_cons, ih]
    split_ifs <;> rfl

theorem ly_flatMap_sublist {β γ : Type} (l : List β) (f g : β → List γ) (h : ∀ x ∈ l, (f x).Sublist (g x)) : (l.flatMap f).Sublist (l.flatMap g) := by
  induction l with
  | nil => exact List.Sublist.refl _
  | cons a l ih =>
    rw [List.flatMap_cons, List.flatMap_cons]
    exact (h a (by simp)).append (ih fun x hx => h x (by simp [hx]))

theorem ly_cutLine_items (rect : Rect) (l : Ln α) : (lineItems (cutLine rect l)).Sublist (lineItems l) := by
  unfold cutLine
  split_ifs
  · exact List.Sublist.refl _
  · unfold lineItems
    rw [ly_add_spans_eq]
    dsimp only
    rw [List.nil_append]
    refine (List.filter_sublist.flatMap _).trans ?_
    rw [List.flatMap_map]
    exact ly_flatMap_sublist _ _ _ fun s _ => ly_cutSpan_items rect s.2

theorem ly_cutLine_dir (rect : Rect) (l : Ln α) : (cutLine rect l).dir = l.dir := by
  unfold cutLine
  split_ifs
  · rfl
  · rw [ly_add_dir]

theorem ly_mk_lines (id : ℕ) (ls : List (Ln α)) (l : Ln α) (h : l ∈ (mkText id ls).lines) :
    ∃ l0 ∈ ls, l.bbox = l0.bbox ∧ l.dir = l0.dir ∧ l.spans = l0.spans ∧ l0.bbox.truthy = true := by
  obtain ⟨l0, hl0, rfl⟩ := List.mem_map.1 h
  obtain ⟨hl0, htr⟩ := List.mem_filter.1 hl0
  exact ⟨l0, hl0, rfl, rfl, rfl, htr⟩

/-- **C83**: whatever tables are found at whatever nesting, each line of the parsed page (in cells of tables in cells ... or outside) is a line of
the input or a part of one: it has the same direction, and its characters and images are characters and images of that line, in the same
order. Nothing is invented, moved to another line or reordered within a line. -/
theorem C83_nothing_invented (c : Cfg) (hi : ∀ l, (c.iter l).Perm l) (D : Detect α) (nid : Ids) (depth : ℕ) (page : Rect) (bs r : List (Blk α))
    (ho : parsePage c D nid depth page bs = .ok r) :
    ∀ l ∈ allLines r, ∃ l0 ∈ allLines bs, l.dir = l0.dir ∧ (lineItems l).Sublist (lineItems l0) := by
  have hk : Closed fun t : Rect × List (Ln α) => ∀ l ∈ t.2, ∃ l0 ∈ allLines bs, l.dir = l0.dir ∧ (lineItems l).Sublist (lineItems l0) := by
    constructor
    · intro id ls h _ l hl
      obtain ⟨l0, hl0, _, h2, h3, _⟩ := ly_mk_lines id ls l hl
      obtain ⟨t, ht, hlt⟩ := h l0 hl0
      obtain ⟨l1, hl1, h4, h5⟩ := ht l0 hlt
      refine ⟨l1, hl1, h2.trans h4, ?_⟩
      unfold lineItems at h5 ⊢
      rw [h3]; exact h5
    · intro id cell t h _ l hl
      obtain ⟨l0, hl0, _, h2, h3, _⟩ := ly_mk_lines id _ l hl
      obtain ⟨lc, hlc, rfl⟩ := List.mem_map.1 hl0
      obtain ⟨l1, hl1, h4, h5⟩ := h lc hlc
      refine ⟨l1, hl1, h2.trans ((ly_cutLine_dir cell lc).trans h4), ?_⟩
      have := (ly_cutLine_items cell lc).trans h5
      unfold lineItems at this ⊢
      rw [h3]; exact this
  have := ly_parse_closed c hi D nid hk depth [] page [0, 1, 2] bs r ho ?_
  · intro l hl
    obtain ⟨t, ht, hl⟩ := List.mem_flatMap.1 hl
    exact this t ht l hl
  · intro t ht l hl
    exact ⟨l, List.mem_flatMap.2 ⟨t, ht, hl⟩, rfl, List.Sublist.refl _⟩

end C83
end Props
