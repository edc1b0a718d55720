import Verif.Props.Converter
import Verif.Props.ConverterMulti
import Mathlib.Data.List.Basic
/-! # Further property theorems about the converter (C09, C10, C16, C65) -/

namespace Props
open Py Conv Spec

/-! ## C09: a given output name -/

/-- C09: with a (non-empty) output name given, every state of the file system that occurs differs from the initial one at most at that
name, and after success that file is the document. -/
theorem C09_given_name {L Doc : Type} (create : Nat → L → Doc → Doc) (blank : Doc) (saveOk : Bool) (pdf f : List Char) (hf : f ≠ [])
    (ps : Pages L) (fs : FS Doc) :
    (∀ st ∈ (makeDocx create blank saveOk pdf (some f) ps fs).1, ∀ g, g ≠ f → st g = fs g) ∧
    (∀ out, (makeDocx create blank saveOk pdf (some f) ps fs).2 = .ok out →
      ∃ st d, (makeDocx create blank saveOk pdf (some f) ps fs).1.getLast? = some st ∧ st f = some (.doc d)) := by
  have h : docxName pdf (some f) = f := by
    cases f with
    | nil => exact absurd rfl hf
    | cons c cs => rfl
  have := C08_crash_points_partial create blank saveOk pdf (some f) ps fs
  rw [h] at this
  exact this

example : "out.docx".toList ≠ [] := by decide

/-! ## C10: end omitted or 0, debug page -/

/-- C10: `--end=0` and an omitted `--end` mean the same with either counting: everything from `start` on. -/
theorem C10_end_zero_is_omitted (zeroBased : Bool) (start : Int) (n : Nat) :
    cliIndexes zeroBased ⟨start, some 0, none⟩ n = cliIndexes zeroBased ⟨start, none, none⟩ n := by
  cases zeroBased <;> rfl

/-- C10: a one-based start below 1 means the first page. -/
theorem C10_start_below_one (start : Int) (hs : start ≤ 1) (end_ : Option Int) (n : Nat) :
    cliIndexes false ⟨start, end_, none⟩ n = cliIndexes false ⟨1, end_, none⟩ n := by
  have h : max (start - 1) 0 = max (1 - 1) 0 := by omega
  simp only [cliIndexes, oneBased, Bool.false_eq_true, if_false, h]

/-- C10: the page given to `debug` counts from one (from zero if asked to); it is never negative with one-based counting, so that it
never counts from the end. -/
theorem C10_debug_page (i : Int) : debugIndex true i = i ∧ (1 ≤ i → debugIndex false i + 1 = i) ∧ 0 ≤ debugIndex false i := by
  refine ⟨rfl, ?_, ?_⟩
  · intro h; unfold debugIndex; simp only [Bool.false_eq_true, if_false]; omega
  · unfold debugIndex; simp only [Bool.false_eq_true, if_false]; omega

example : cliIndexes false ⟨-3, some 0, none⟩ 3 = [0, 1, 2] ∧ debugIndex false 3 = 2 := by decide

/-! ## C16: what list slices mean -/

/-- Position `i` belongs to the slice `start:stop:c` of a list of length `n` (Python Language Reference, 6.3.2/ library `slice`):
with a positive step the positions `lo, lo + c, lo + 2c, …` before `stop`, with a negative one `hi, hi + c, …` after `stop`; bounds
count from the end if negative and are clamped to the list. -/
def InSlice (n : Nat) (start stop : Option Int) (c i : Int) : Prop :=
  0 ≤ i ∧ i < n ∧
  (0 < c → (∀ b, stop = some b → i < bound n b) ∧ ∃ k : Nat, i = max 0 (bound n (start.getD 0)) + k * c) ∧
  (c < 0 → (∀ b, stop = some b → bound n b < i) ∧
    ∃ k : Nat, i = min ((n : Int) - 1) ((start.map (bound n)).getD ((n : Int) - 1)) + k * c)

theorem mem_range_neg {a b s : Int} (hs : s < 0) (x : Int) : x ∈ range a b s ↔ ∃ k : Nat, x = a + (k : Int) * s ∧ b < x := by
  have hns : ¬ 0 < s := by omega
  simp only [range, rangeCount, if_neg hns, if_pos hs, List.mem_map, List.mem_range]
  constructor
  · rintro ⟨k, hk, rfl⟩
    refine ⟨k, rfl, ?_⟩
    have h1 : (k : Int) < (a - b - s - 1) / (-s) := by omega
    have h2 : ((k : Int) + 1) * (-s) ≤ a - b - s - 1 := (Int.le_ediv_iff_mul_le (by omega)).1 (by omega)
    rw [Int.add_mul, Int.one_mul, Int.mul_neg] at h2
    omega
  · rintro ⟨k, rfl, hlt⟩
    refine ⟨k, ?_, rfl⟩
    have h2 : ((k : Int) + 1) ≤ (a - b - s - 1) / (-s) := by
      apply (Int.le_ediv_iff_mul_le (by omega)).2
      rw [Int.add_mul, Int.one_mul, Int.mul_neg]; omega
    omega

theorem range_pairwise_neg {a b s : Int} (hs : s < 0) : (range a b s).Pairwise (· > ·) := by
  unfold range
  rw [List.pairwise_map]
  refine List.Pairwise.imp ?_ List.pairwise_lt_range
  intro i j hij
  have : (j : Int) * s < (i : Int) * s := Int.mul_lt_mul_of_neg_right (by omega) hs
  omega

/-- C16: the slices used by `Converter.__getitem__` and by the page selection are those of the Python language: zero step is an error; with
a positive (negative) step the selected positions are those of `InSlice`, in increasing (decreasing) order. -/
theorem C16_slice_meaning {α : Type} (xs : List α) (start stop : Option Int) (c : Int) :
    slice xs start stop (some 0) = .error .value ∧
    (c ≠ 0 → ∃ pos : List Int, slice xs start stop (some c) = .ok (pos.filterMap fun i => xs[i.toNat]?) ∧
      (∀ i, i ∈ pos ↔ InSlice xs.length start stop c i) ∧
      (0 < c → pos.Pairwise (· < ·)) ∧ (c < 0 → pos.Pairwise (· > ·))) := by
  refine ⟨rfl, fun hc => ⟨sliceIdx xs.length start stop c, ?_, ?_, fun h => range_pairwise_pos h, fun h => range_pairwise_neg h⟩⟩
  · unfold slice
    simp only [Option.getD_some, if_neg hc]
  · intro i
    generalize xs.length = n
    by_cases hp : 0 < c
    · unfold sliceIdx
      rw [mem_range_pos hp]
      unfold InSlice
      have hn : ¬ c < 0 := by omega
      simp only [hp, hn, true_implies, false_implies, and_true, if_false]
      have hk : ∀ k : Nat, 0 ≤ (k : Int) * c := fun k => Int.mul_nonneg (by omega) (by omega)
      constructor
      · rintro ⟨k, h1, h2⟩
        have hk := hk k
        have e : ∃ k : Nat, i = max 0 (bound n (start.getD 0)) + k * c := by
          refine ⟨k, ?_⟩
          cases start with
          | none => simp only [Option.getD_none, bound] at *; omega
          | some a =>
            simp only [Option.getD_some, adjust, bound, hn, if_false] at *
            cases stop with
            | none => simp only [] at *; revert h1; repeat' split
                      all_goals omega
            | some b => simp only [] at *; revert h1 h2; repeat' split
                        all_goals omega
        refine ⟨?_, ?_, ?_, e⟩
        · obtain ⟨k', e⟩ := e
          have : 0 ≤ (k' : Int) * c := Int.mul_nonneg (by omega) (by omega)
          omega
        · cases stop with
          | none => exact h2
          | some b => simp only [adjust, hn, if_false] at h2; revert h2; repeat' split
                      all_goals omega
        · rintro b rfl
          have h0 : 0 ≤ i := by
            obtain ⟨k', e⟩ := e
            have : 0 ≤ (k' : Int) * c := Int.mul_nonneg (by omega) (by omega)
            omega
          simp only [adjust, hn, if_false] at h2; unfold bound; revert h2; repeat' split
          all_goals omega
      · rintro ⟨h0, h1, h2, k, h3⟩
        have hk := hk k
        refine ⟨k, ?_, ?_⟩
        · cases start with
          | none => simp only [Option.getD_none, bound] at *; omega
          | some a =>
            simp only [Option.getD_some, adjust, bound, hn, if_false] at *
            revert h3; repeat' split
            all_goals omega
        · cases stop with
          | none => exact h1
          | some b =>
            have := h2 b rfl
            unfold bound at this
            simp only [adjust, hn, if_false]; revert this; repeat' split
            all_goals omega
    · have hn : c < 0 := by omega
      unfold sliceIdx
      rw [mem_range_neg hn]
      unfold InSlice
      simp only [hp, hn, true_implies, false_implies, if_true, true_and]
      have hk : ∀ k : Nat, (k : Int) * c ≤ 0 := fun k => Int.mul_nonpos_of_nonneg_of_nonpos (by omega) (by omega)
      constructor
      · rintro ⟨k, h1, h2⟩
        have hk := hk k
        have hi : i < n := by
          cases start with
          | none => simp only [] at *; omega
          | some a => simp only [adjust, hn, if_true] at h1; revert h1; repeat' split
                      all_goals omega
        have h0 : 0 ≤ i := by
          cases stop with
          | none => simp only [] at *; omega
          | some b => simp only [adjust, hn, if_true] at h2; revert h2; repeat' split
                      all_goals omega
        refine ⟨h0, hi, ?_, ?_⟩
        · rintro b rfl
          simp only [adjust, hn, if_true] at h2; unfold bound; revert h2; repeat' split
          all_goals omega
        · refine ⟨k, ?_⟩
          cases start with
          | none => simp only [Option.map_none, Option.getD_none] at *; omega
          | some a =>
            simp only [Option.map_some, Option.getD_some, adjust, bound, hn, if_true] at *
            revert h1; repeat' split
            all_goals omega
      · rintro ⟨h0, h1, h2, k, h3⟩
        have hk := hk k
        refine ⟨k, ?_, ?_⟩
        · cases start with
          | none => simp only [Option.map_none, Option.getD_none] at *; omega
          | some a =>
            simp only [Option.map_some, Option.getD_some, adjust, bound, hn, if_true] at *
            revert h3; repeat' split
            all_goals omega
        · cases stop with
          | none => simp only []; omega
          | some b =>
            have := h2 b rfl
            unfold bound at this
            simp only [adjust, hn, if_true]; revert this; repeat' split
            all_goals omega

example : slice [10, 11, 12, 13] (some (-1)) (some 0) (some (-2)) = .ok [13, 11] ∧
    slice [10, 11] (some (-5)) none (some (-1)) = .ok [] := ⟨rfl, rfl⟩

/-! ## C65: extract_tables -/

/-- C65: on a fresh converter with a non-empty selection without repetitions, `extract_tables` returns exactly the tables of the selected
pages that could be parsed, page by page in increasing order. -/
theorem C65_selected_pages_partial {S L T : Type} (eng : Engine S L) (tables : L → List T) (s : S) (l0 : L) (a : Args) (n : Nat)
    (hne : pageIndexes a.start a.end_ a.pages n ≠ []) (hnd : (pageIndexes a.start a.end_ a.pages n).Nodup) :
    ∃ ks : List Nat, Enumerates (fun k : Nat => (k : Int) ∈ pageIndexes a.start a.end_ a.pages n ∧ ∃ l, eng k s l0 = .ok l) ks ∧
      (extractTables eng tables s a (init l0 n)).2 = ks.flatMap fun k => match eng k s l0 with
        | .ok l => tables l
        | _ => [] := by
  have hr : ∀ i ∈ pageIndexes a.start a.end_ a.pages n, 0 ≤ i := fun i hi => (C02_always_in_document _ _ _ _ i hi).1
  have hfin := fun k => finalizedIdx_parse_init eng s (pageIndexes a.start a.end_ a.pages n) l0 n
    (by rw [effective_of_ne hne]; exact hnd) hr k
  refine ⟨finalizedIdx (parse eng s (pageIndexes a.start a.end_ a.pages n) (init l0 n)), ⟨finalizedIdx_pairwise _, fun k => ?_⟩, ?_⟩
  · rw [hfin, effective_of_ne hne]
    constructor
    · rintro ⟨h1, h2, h3⟩
      refine ⟨h2, ?_⟩
      cases h : eng k s l0 with
      | ok l => exact ⟨l, rfl⟩
      | loadFail b l => rw [h] at h3; simp [Outcome.isOk] at h3
      | parseFail l => rw [h] at h3; simp [Outcome.isOk] at h3
    · rintro ⟨h2, l, h3⟩
      have := (C02_always_in_document _ _ _ _ _ h2).2
      exact ⟨by omega, h2, by rw [h3]; rfl⟩
  · unfold extractTables
    rw [init_length]
    dsimp only
    generalize hps : parse eng s (pageIndexes a.start a.end_ a.pages n) (init l0 n) = ps
    have hget : ∀ k p, ps[k]? = some p → p.finalized = true → eng k s l0 = .ok p.layout := by
      intro k p hp hf
      have hk : k ∈ finalizedIdx ps := (mem_finalizedIdx ps k).2 ⟨p, hp, hf⟩
      rw [← hps, hfin, effective_of_ne hne] at hk
      rw [← hps, parse_get, init_get, init_length, if_pos hk.1, effective_of_ne hne, hits_nodup hnd hr hk.1, if_pos hk.2.1] at hp
      simp only [Option.map_some, iter, Option.some.injEq] at hp
      rw [← hp] at hf ⊢
      unfold PageSt.parse at hf ⊢
      cases h : eng k s l0 with
      | ok l => rfl
      | loadFail b l => rw [h] at hf; simp at hf
      | parseFail l => rw [h] at hf; simp at hf
    have key : ∀ (qs : Pages L) (off : Nat), (∀ k p, qs[k]? = some p → p.finalized = true → eng (off + k) s l0 = .ok p.layout) →
        ((qs.filter PageSt.finalized).flatMap fun p => tables p.layout) =
        ((List.range qs.length).filter fun i => (qs[i]?.map PageSt.finalized).getD false).flatMap fun k => match eng (off + k) s l0 with
          | .ok l => tables l
          | _ => [] := by
      intro qs
      induction qs with
      | nil => intro off _; rfl
      | cons q qs ih =>
        intro off h
        have ih' := ih (off + 1) fun k p hp hf => by
          have := h (k + 1) p (by simpa using hp) hf
          rw [show off + 1 + k = off + (k + 1) by omega]; exact this
        rw [List.length_cons, List.range_succ_eq_map, List.filter_cons, List.filter_cons]
        have e : ((List.map Nat.succ (List.range qs.length)).filter fun i => ((q :: qs)[i]?.map PageSt.finalized).getD false) =
            ((List.range qs.length).filter fun i => (qs[i]?.map PageSt.finalized).getD false).map Nat.succ := by
          rw [List.filter_map]; rfl
        rw [e]
        have e2 : (((List.range qs.length).filter fun i => (qs[i]?.map PageSt.finalized).getD false).map Nat.succ).flatMap
            (fun k => match eng (off + k) s l0 with
              | .ok l => tables l
              | _ => []) =
            ((List.range qs.length).filter fun i => (qs[i]?.map PageSt.finalized).getD false).flatMap (fun k => match eng (off + 1 + k) s l0 with
              | .ok l => tables l
              | _ => []) := by
          rw [List.flatMap_map]
          have : ∀ k, off + Nat.succ k = off + 1 + k := fun k => by omega
          exact List.flatMap_congr fun k _ => by rw [this k]
        cases hq : q.finalized with
        | false => simp only [hq, Bool.false_eq_true, if_false, List.getElem?_cons_zero, Option.map_some, Option.getD_some, e2, ih']
        | true =>
          have h0 := h 0 q rfl hq
          simp only [hq, if_true, List.getElem?_cons_zero, Option.map_some, Option.getD_some, List.flatMap_cons]
          rw [e2, ih', h0]
    have := key ps 0 (by simpa using hget)
    simp only [Nat.zero_add] at this
    exact this

/-- Non-vacuity: page 1 of three has no parsable content, pages 2 and 0 are asked for. -/
example : (extractTables (fun k (_ : Unit) _ => if k = 1 then .parseFail 0 else .ok (k + 10)) (fun l => [l, l]) () ⟨0, none, some [2, 0, 1]⟩
    (init (0 : Nat) 3)).2 = [10, 10, 12, 12] := by decide

/-- C65 (refuted on a converter that was used before): the tables of every page parsed earlier are returned as well, though only page 1 is
asked for. -/
theorem C65_refuted_used_converter : ∃ (eng : Engine Unit Nat) (ps : Pages Nat),
    ps = parse eng () [0] (init 0 2) ∧ (extractTables eng (fun l => [l]) () ⟨0, none, some [1]⟩ ps).2 = [10, 11] ∧
    (extractTables eng (fun l => [l]) () ⟨0, none, some [1]⟩ (init 0 2)).2 = [11] :=
  ⟨fun k _ _ => .ok (k + 10), _, rfl, by decide, by decide⟩

/-- C65 (refuted for an empty selection): asking only for pages that do not exist returns the tables of all pages. -/
theorem C65_refuted_empty_selection : ∃ (eng : Engine Unit Nat),
    (extractTables eng (fun l => [l]) () ⟨0, none, some [7]⟩ (init 0 2)).2 = [10, 11] :=
  ⟨fun k _ _ => .ok (k + 10), by decide⟩

/-- C65: on any converter, whatever was parsed before: the tables returned are those of the pages that would be written by `make_docx`, in
the same order. -/
theorem C65_same_pages_as_docx {S L T : Type} (eng : Engine S L) (tables : L → List T) (s : S) (a : Args) (ps : Pages L) :
    (extractTables eng tables s a ps).2 =
      (finalizedIdx (extractTables eng tables s a ps).1).flatMap fun k => ((extractTables eng tables s a ps).1[k]?.map fun p => tables p.layout).getD [] := by
  unfold extractTables
  dsimp only
  generalize parse eng s (pageIndexes a.start a.end_ a.pages ps.length) ps = qs
  unfold finalizedIdx
  induction qs with
  | nil => rfl
  | cons q qs ih =>
    rw [List.length_cons, List.range_succ_eq_map, List.filter_cons, List.filter_cons]
    have e : ((List.map Nat.succ (List.range qs.length)).filter fun i => ((q :: qs)[i]?.map PageSt.finalized).getD false) =
        ((List.range qs.length).filter fun i => (qs[i]?.map PageSt.finalized).getD false).map Nat.succ := by
      rw [List.filter_map]; rfl
    rw [e]
    cases hq : q.finalized with
    | false =>
      simp only [hq, Bool.false_eq_true, if_false, List.getElem?_cons_zero, Option.map_some, Option.getD_some, List.flatMap_map,
        List.getElem?_cons_succ, Nat.succ_eq_add_one]
      exact ih
    | true =>
      simp only [hq, if_true, List.getElem?_cons_zero, Option.map_some, Option.getD_some, List.flatMap_map, List.flatMap_cons,
        List.getElem?_cons_succ, Nat.succ_eq_add_one]
      rw [ih]

end Props
