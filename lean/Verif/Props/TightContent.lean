import Verif.Props.Assign
import Verif.Props.Lines
import Verif.Props.Store
/-! # Further theorems about the distribution of content to tables and cells (C43, C44), the order of vertical text (C67), stored types (C15)
and the text of extracted tables (C73); written after wrong programs had passed the first versions. -/

namespace Props
open Py Geom Spec

/-! ## C43 -/
section C43
open Assign
variable {β : Type} [HasBox β]

/-- Part of the line's box inside the table, rounded to two digits. -/
def Share (t : Rect) (e : β) : ℚ := (roundHE (100 * (((box e).inter t).area / (box e).area)) : ℚ) / 100

theorem splitLines_eq (t : Rect) (th : ℚ) (l : List β) (r : List β × List β) (h : splitLines t th l = .ok r) :
    r.1 = l.filter (fun e => decide (th ≤ Share t e)) ∧ r.2 = l.filter (fun e => !decide (th ≤ Share t e)) := by
  induction l generalizing r with
  | nil => simp only [splitLines, Except.ok.injEq] at h; subst h; exact ⟨rfl, rfl⟩
  | cons e l ih =>
    unfold splitLines at h
    by_cases ha : (box e).area = 0
    · rw [if_pos ha] at h; cases h
    rw [if_neg ha] at h
    cases hs : splitLines t th l with
    | error x => rw [hs] at h; cases h
    | ok q =>
      rw [hs] at h
      dsimp only at h
      have heq : Coll.round2 (((box e).inter t).area / (box e).area) = Share t e := rfl
      rw [heq] at h
      obtain ⟨i1, i2⟩ := ih q hs
      split_ifs at h with hc <;> simp only [Except.ok.injEq] at h <;> subst h <;> simp [List.filter_cons, hc, i1, i2]

/-- **C43**: which lines go to which table: a line given to a table is at least 9/10 inside it (rounded to two digits), or the table contains
the whole block; a line that stays on the page is less than 9/10 inside every table its block meets, and none of them contains the block. -/
theorem C43_which_table (b : Rect) (all : List β) (ts : List Rect) (lines : List β) (r : List (List β) × List β)
    (h : assignText b all ts lines = .ok r) :
    (∀ (k : ℕ) (t : Rect) (ls : List β) (e : β), ts[k]? = some t → r.1[k]? = some ls → e ∈ ls →
      t.contains b = true ∨ t.intersects b = true ∧ 9 / 10 ≤ Share t e) ∧
    ∀ e ∈ r.2, ∀ t ∈ ts, t.contains b = false ∧ (t.intersects b = true → Share t e < 9 / 10) := by
  induction ts generalizing lines r with
  | nil =>
    simp only [assignText, Except.ok.injEq] at h
    subst h
    exact ⟨by simp, by simp⟩
  | cons t ts ih =>
    have nils : ∀ (k : ℕ) (ls : List β) (e : β), (ts.map fun _ => ([] : List β))[k]? = some ls → e ∈ ls → False := by
      intro k ls e h he
      rw [List.getElem?_map] at h
      cases hk : ts[k]? with
      | none => rw [hk] at h; cases h
      | some x => rw [hk] at h; simp only [Option.map_some, Option.some.injEq] at h; rw [← h] at he; simp at he
    unfold assignText at h
    split_ifs at h with h1 h2
    · simp only [Except.ok.injEq] at h
      subst h
      refine ⟨?_, by simp⟩
      intro k t' ls e hk hl he
      cases k with
      | zero => simp only [List.getElem?_cons_zero, Option.some.injEq] at hk; rw [← hk]; exact Or.inl h1
      | succ k => exact (nils k ls e (by simpa using hl) he).elim
    · cases hr : assignText b all ts lines with
      | error x => rw [hr] at h; cases h
      | ok q =>
        rw [hr] at h
        simp only [Except.map, Except.ok.injEq] at h
        subst h
        obtain ⟨i1, i2⟩ := ih lines q hr
        refine ⟨?_, ?_⟩
        · intro k t' ls e hk hl he
          cases k with
          | zero => simp only [List.getElem?_cons_zero, Option.some.injEq] at hl; rw [← hl] at he; simp at he
          | succ k => exact i1 k t' ls e (by simpa using hk) (by simpa using hl) he
        · intro e he t' ht'
          rcases List.mem_cons.1 ht' with rfl | ht'
          · exact ⟨by simpa using h1, fun h3 => by rw [h3] at h2; simp at h2⟩
          · exact i2 e he t' ht'
    · cases hs : splitLines t (9 / 10) lines with
      | error x => rw [hs] at h; cases h
      | ok q =>
        rw [hs] at h
        dsimp only at h
        obtain ⟨s1, s2⟩ := splitLines_eq t _ lines q hs
        have hin : ∀ e ∈ q.1, 9 / 10 ≤ Share t e := fun e he => by
          rw [s1, List.mem_filter] at he; exact of_decide_eq_true he.2
        have hout : ∀ e ∈ q.2, Share t e < 9 / 10 := fun e he => by
          rw [s2, List.mem_filter] at he; simpa using he.2
        have hint : t.intersects b = true := by simpa using h2
        split_ifs at h
        · simp only [Except.ok.injEq] at h
          subst h
          refine ⟨?_, by simp⟩
          intro k t' ls e hk hl he
          cases k with
          | zero =>
            simp only [List.getElem?_cons_zero, Option.some.injEq] at hk hl
            rw [← hk]; rw [← hl] at he
            exact Or.inr ⟨hint, hin e he⟩
          | succ k => exact (nils k ls e (by simpa using hl) he).elim
        · cases hr : assignText b all ts q.2 with
          | error x => rw [hr] at h; cases h
          | ok q' =>
            rw [hr] at h
            simp only [Except.map, Except.ok.injEq] at h
            subst h
            obtain ⟨i1, i2⟩ := ih q.2 q' hr
            refine ⟨?_, ?_⟩
            · intro k t' ls e hk hl he
              cases k with
              | zero =>
                simp only [List.getElem?_cons_zero, Option.some.injEq] at hk hl
                rw [← hk]; rw [← hl] at he
                exact Or.inr ⟨hint, hin e he⟩
              | succ k => exact i1 k t' ls e (by simpa using hk) (by simpa using hl) he
            · intro e he t' ht'
              rcases List.mem_cons.1 ht' with rfl | ht'
              · refine ⟨by simpa using h1, fun _ => hout e ?_⟩
                have hsub : ∀ (ts : List Rect) (ls : List β) q', assignText b all ts ls = .ok q' → ∀ e ∈ q'.2, e ∈ ls := by
                  intro ts
                  induction ts with
                  | nil => intro ls q' h e he; simp only [assignText, Except.ok.injEq] at h; rw [← h] at he; exact he
                  | cons u ts ih =>
                    intro ls q' h e he
                    unfold assignText at h
                    split_ifs at h
                    · simp only [Except.ok.injEq] at h; rw [← h] at he; simp at he
                    · cases hr : assignText b all ts ls with
                      | error x => rw [hr] at h; cases h
                      | ok q =>
                        rw [hr] at h
                        simp only [Except.map, Except.ok.injEq] at h
                        rw [← h] at he
                        exact ih ls q hr e he
                    · cases hs : splitLines u (9 / 10) ls with
                      | error x => rw [hs] at h; cases h
                      | ok q =>
                        rw [hs] at h
                        dsimp only at h
                        split_ifs at h
                        · simp only [Except.ok.injEq] at h; rw [← h] at he; simp at he
                        · cases hr : assignText b all ts q.2 with
                          | error x => rw [hr] at h; cases h
                          | ok q'' =>
                            rw [hr] at h
                            simp only [Except.map, Except.ok.injEq] at h
                            rw [← h] at he
                            have := ih q.2 q'' hr e he
                            rw [(splitLines_eq u _ ls q hs).2] at this
                            exact List.mem_of_mem_filter this
                exact hsub ts q.2 q' hr e he
              · exact i2 e he t' ht'

example : let ls := [tline ⟨10, 10, 90, 20⟩ 1, tline ⟨5, 10, 115, 20⟩ 2]
    Rect.contains ⟨0, 0, 100, 100⟩ ⟨5, 10, 115, 20⟩ = false ∧ ls.map (Share ⟨0, 0, 100, 100⟩) = [1, 43 / 50] ∧
    assignText ⟨5, 10, 115, 20⟩ ls [⟨0, 0, 100, 100⟩] ls = .ok ([[tline ⟨10, 10, 90, 20⟩ 1]], [tline ⟨5, 10, 115, 20⟩ 2]) := by decide +kernel

/-- **C43**: a table or a shape goes to the first table covering it, and stays on the page if there is none. -/
theorem C43_whole (b : Rect) (hb : Proper b) (ts : List Rect) (ht : ∀ t ∈ ts, Proper t) :
    (assignWhole b ts = none ↔ ∀ t ∈ ts, ¬ Covers t b) ∧
    ∀ i, assignWhole b ts = some i ↔ ∃ t, ts[i]? = some t ∧ Covers t b ∧ ∀ j < i, ∀ u, ts[j]? = some u → ¬ Covers u b := by
  unfold assignWhole
  constructor
  · rw [List.findIdx?_eq_none_iff]
    refine forall₂_congr fun t h => ?_
    rw [← contains_iff t b (ht t h) hb, Bool.not_eq_true]
  · intro i
    rw [List.findIdx?_eq_some_iff_getElem]
    constructor
    · rintro ⟨hi, h1, h2⟩
      refine ⟨ts[i], List.getElem?_eq_getElem hi, (contains_iff _ b (ht _ (List.getElem_mem hi)) hb).1 h1, ?_⟩
      intro j hj u hu
      obtain ⟨hlt, rfl⟩ := List.getElem?_eq_some_iff.1 hu
      rw [← contains_iff _ b (ht _ (List.getElem_mem hlt)) hb]
      exact h2 j hj
    · rintro ⟨t, h1, h2, h3⟩
      obtain ⟨hi, rfl⟩ := List.getElem?_eq_some_iff.1 h1
      refine ⟨hi, (contains_iff _ b (ht _ (List.getElem_mem hi)) hb).2 h2, fun j hj => ?_⟩
      have hlt : j < ts.length := by omega
      rw [contains_iff _ b (ht _ (List.getElem_mem hlt)) hb]
      exact h3 j hj _ (List.getElem?_eq_getElem hlt)

example : assignWhole ⟨10, 10, 20, 20⟩ [⟨0, 0, 15, 15⟩, ⟨0, 0, 50, 50⟩] = some 1 ∧ Proper (⟨10, 10, 20, 20⟩ : Rect) := by decide +kernel

/-- **C44**: a shape assigned to a table goes to every cell it touches, also if only along an edge (for boxes on the page, i.e. with
non-negative coordinates). -/
theorem C44_shapes_touch (cells : List Rect) (s : Rect) (hs : Proper s) (hc : ∀ c ∈ cells, Proper c) (h0 : 0 ≤ s.x0) (hc0 : ∀ c ∈ cells, 0 ≤ c.x0) :
    (shapeCells cells s).Sublist cells ∧
    ∀ c ∈ cells, c ∈ shapeCells cells s ↔ c.x0 ≤ s.x1 ∧ s.x0 ≤ c.x1 ∧ c.y0 ≤ s.y1 ∧ s.y0 ≤ c.y1 := by
  refine ⟨List.filter_sublist, fun c hcm => ?_⟩
  unfold shapeCells
  rw [List.mem_filter, and_iff_right hcm]
  have p := hc c hcm
  unfold Rect.inter
  rw [if_neg (by rintro (h | h); exacts [proper_nonempty c p h, proper_nonempty s hs h])]
  dsimp only
  by_cases h : min c.x1 s.x1 < max c.x0 s.x0 ∨ min c.y1 s.y1 < max c.y0 s.y0
  · rw [if_pos h]
    have : Rect.zero.truthy = false := by decide +kernel
    rw [this]
    simp only [Bool.false_eq_true, false_iff]
    rintro ⟨h1, h2, h3, h4⟩
    rcases h with h | h
    · rcases le_total c.x1 s.x1 with a | a <;> rcases le_total c.x0 s.x0 with b | b <;> simp only [a, b, min_eq_left, min_eq_right, max_eq_left, max_eq_right] at h <;>
        linarith [p.1, hs.1]
    · rcases le_total c.y1 s.y1 with a | a <;> rcases le_total c.y0 s.y0 with b | b <;> simp only [a, b, min_eq_left, min_eq_right, max_eq_left, max_eq_right] at h <;>
        linarith [p.2, hs.2]
  · rw [if_neg h]
    push Not at h
    have hx : 0 < min c.x1 s.x1 := lt_min (by linarith [p.1, hc0 c hcm]) (by linarith [hs.1])
    have : (⟨max c.x0 s.x0, max c.y0 s.y0, min c.x1 s.x1, min c.y1 s.y1⟩ : Rect).truthy = true := by
      unfold Rect.truthy
      apply decide_eq_true
      intro heq
      have := congrArg Rect.x1 heq
      dsimp only [Rect.zero] at this
      linarith
    rw [this]
    simp only [true_iff]
    exact ⟨(le_max_left _ _).trans (h.1.trans (min_le_right _ _)), (le_max_right _ _).trans (h.1.trans (min_le_left _ _)),
      (le_max_left _ _).trans (h.2.trans (min_le_right _ _)), (le_max_right _ _).trans (h.2.trans (min_le_left _ _))⟩

example : shapeCells [⟨0, 0, 50, 50⟩, ⟨50, 0, 100, 50⟩, ⟨0, 50, 50, 100⟩] ⟨10, 10, 40, 50⟩ = [⟨0, 0, 50, 50⟩, ⟨0, 50, 50, 100⟩] := by decide +kernel

end C43

/-! ## C67: vertical text -/
section C67
open Lns
variable {σ : Type}

/-- **C67** (partial: the columns of vertical text): for text from bottom to top, the sorted lines form columns going from left to right; a column
is a chain of lines each in one column with the next. *Missing*: within a column the lines are sorted by increasing bottom edge, so the one
read first comes last, see `C67_refuted_vertical`. -/
theorem C67_columns_partial (ls : List (Ln σ)) (hh : ∀ l ∈ ls, l.dir = .bottomTop) :
    ∃ rs : List (List (Ln σ)), Lns.sort ls = rs.flatten ∧
      (∀ r ∈ rs, r ≠ [] ∧ r.Pairwise (fun a b => a.bbox.y1 ≤ b.bbox.y1) ∧ ∃ r0 : List (Ln σ), r0.Perm r ∧ r0.IsChain fun a b => SameRow b a) ∧
      rs.Pairwise (fun r s => ∀ a ∈ r, ∀ b ∈ s, a.bbox.x0 ≤ b.bbox.x0) := by
  cases ls with
  | nil => exact ⟨[], rfl, by simp, by simp⟩
  | cons l0 ls0 =>
  generalize hls : l0 :: ls0 = ls at *
  have hd : Coll.textDirection (ls.map Ln.el) ≠ .leftRight := by
    rw [← hls]
    unfold Coll.textDirection
    simp only [List.map_cons]
    rw [if_pos]
    · have : l0.el.dir = .bottomTop := hh l0 (by rw [← hls]; simp)
      rw [this]; decide
    · rw [List.all_eq_true]
      intro x hx
      obtain ⟨l, hl, rfl⟩ := List.mem_map.1 hx
      have h1 : l.el.dir = .bottomTop := hh l (by rw [← hls]; simp [hl])
      have h2 : l0.el.dir = .bottomTop := hh l0 (by rw [← hls]; simp)
      rw [h1, h2]; rfl
  have hs : Lns.sort ls = ((rows (readingSort ls)).map (sortBy fun l : Ln σ => l.bbox.y1)).flatten := by
    unfold Lns.sort
    simp only [hd, if_false]
  have hspec : ∀ r ∈ rows (readingSort ls), r ≠ [] ∧ r.IsChain fun a b => SameRow b a := by
    cases hr : readingSort ls with
    | nil => simp [rows]
    | cons l ls' => exact ln_rowsFrom_spec [l] l ls' (by simp) (by simp)
  refine ⟨_, hs, ?_, ?_⟩
  · intro r hr
    obtain ⟨r0, hr0, rfl⟩ := List.mem_map.1 hr
    have hp := sortBy_perm (fun l : Ln σ => l.bbox.y1) r0
    refine ⟨?_, sortBy_pairwise _ _, r0, hp.symm, (hspec r0 hr0).2⟩
    intro hnil
    rw [hnil] at hp
    exact (hspec r0 hr0).1 hp.symm.eq_nil
  · have hy : (readingSort ls).Pairwise fun a b => a.bbox.x0 ≤ b.bbox.x0 := by
      unfold readingSort
      rw [if_neg hd]
      refine (sortBy_pairwise _ _).imp ?_
      intro a b hab
      unfold Coll.key at hab
      rw [Prod.Lex.le_iff] at hab
      rcases hab with h | h
      · exact le_of_lt h
      · exact le_of_eq h.1
    rw [← ln_rows_flatten (readingSort ls)] at hy
    rw [List.pairwise_map]
    refine (ln_pairwise_flatten _ hy).imp ?_
    intro r s hrs a ha b hb
    exact hrs a ((mem_sortBy _ _ _).1 ha) b ((mem_sortBy _ _ _).1 hb)

/-- A line of text from bottom to top. -/
def lnUp (x0 y0 x1 y1 : ℚ) (s : String) : Ln String := ⟨⟨x0, y0, x1, y1⟩, .bottomTop, some 1, [(⟨x0, y0, x1, y1⟩, s)]⟩

example : (∀ l ∈ [lnUp 30 10 40 50 "B", lnUp 10 10 20 50 "A"], l.dir = .bottomTop) ∧
    content (Lns.sort [lnUp 30 10 40 50 "B", lnUp 10 10 20 50 "A"]) = ["A", "B"] := by decide +kernel

end C67

/-! ## C15: stored types -/
section C15
open Store

/-- The number stored under `type`. -/
def _root_.Store.Raw.type : Raw → ℤ
  | .mk t _ _ _ _ _ => t

/-- **C15**: the stored type tells the five kinds of blocks apart: text 0, image in the flow 1, lattice table 2, stream table 3, floating
image 4. -/
theorem C15_stored_type (b : Block) :
    b.store.type = match b with
      | .text false _ _ _ => 0 | .text true _ _ _ => 1 | .image false _ _ => 1
      | .table false _ _ _ => 2 | .table true _ _ _ => 3 | .image true _ _ => 4 := by
  cases b with
  | text i _ _ _ => cases i <;> rfl
  | table s _ _ _ => cases s <;> rfl
  | image f _ _ => cases f <;> rfl

/-! ## C73: text of extracted tables -/

/-- **C73**: an extracted table is a list of rows, each with one entry per cell; the entry of a merged-away cell is `None`; that of any other cell
has one line per line of its text blocks, in order, with a placeholder for each other content. -/
theorem C73_table_text (ws : Char → Bool) (rows : List (RowOf (CellOf Block))) :
    (tableText ws rows).map List.length = rows.map (fun r => r.cells.length) ∧
    ∀ (i j : ℕ) (r : RowOf (CellOf Block)) (c : CellOf Block), rows[i]? = some r → r.cells[j]? = some c →
      ∃ (t : List (Option (List Char))) (e : Option (List Char)), (tableText ws rows)[i]? = some t ∧ t[j]? = some e ∧
        (e = none ↔ c.bbox = Rect.zero) ∧
        ∀ s, e = some s → s = ['\n'].intercalate (c.blocks.map fun b => match b with
          | .text false _ _ lines => ['\n'].intercalate (lines.map (Line.text ws))
          | _ => "<NEST TABLE>".toList) := by
  unfold tableText
  constructor
  · rw [List.map_map]
    exact List.map_congr_left fun r _ => by simp
  · intro i j r c hr hc
    refine ⟨r.cells.map (cellText ws), cellText ws c, by rw [List.getElem?_map, hr]; rfl, by rw [List.getElem?_map, hc]; rfl, ?_, ?_⟩
    · unfold cellText
      cases ht : c.bbox.truthy with
      | true =>
        simp only [if_true, reduceCtorEq, false_iff]
        exact of_decide_eq_true ht
      | false =>
        simp only [Bool.false_eq_true, if_false, true_iff]
        simpa using of_decide_eq_false ht
    · intro s hs
      unfold cellText at hs
      split_ifs at hs
      rw [Option.some.injEq] at hs
      rw [← hs]
      congr 1

/-- Non-vacuity: a row with a cell of two text lines and a merged-away one. -/
example : let l : Line := ⟨⟨0, 0, 10, 10⟩, 0, (1, 0), 0, [.text ⟨⟨0, 0, 10, 10⟩, 0, [], 10, 0, [⟨'a', none, ⟨0, 0, 10, 10⟩⟩], []⟩]⟩
    let rows : List (RowOf (CellOf Block)) := [⟨⟨0, 0, 100, 20⟩, 20, [⟨⟨0, 0, 100, 20⟩, none, [], [], (1, 2), [.text false ⟨0, 0, 10, 20⟩ {} [l, l]]⟩,
      emptyCell]⟩]
    tableText (fun _ => false) rows = [[some "a\na".toList, none]] := by decide +kernel

end C15

end Props
