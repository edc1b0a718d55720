import Verif.ConverterMulti
import Verif.Spec.Converter
import Verif.Props.Converter
/-! # Property theorems: multi-processing, store/restore, indexing (C11–C14, C16) -/

namespace Props
open Py Conv Spec

/-! ## C12 -/

/-- C12: the concatenation of the workers' page lists, in worker order, is the increasing list of all pages
`first … last`: every page exactly once (hence pairwise disjoint), nothing outside the range. -/
theorem C12_segments_partition (cpu : Nat) (hcpu : 0 < cpu) (first last : Int) :
    Enumerates (fun i => first ≤ i ∧ i ≤ last) ((List.range cpu).flatMap fun w => segment w cpu first last) := by
  rw [segments_concat]
  refine ⟨range_pairwise_pos (by decide), fun i => ?_⟩
  have := lt_cpu_mul_segSize hcpu first last
  rw [mem_range_one]
  omega

/-- C12: no worker gets more than `⌊n/cpu⌋ + 1` pages. -/
theorem C12_segment_size (w cpu : Nat) (first last : Int) :
    (segment w cpu first last).length ≤ (last + 1 - first).toNat / cpu + 1 := by
  rw [segment_eq]
  unfold range
  rw [List.length_map, List.length_range, rangeCount_one]
  show _ ≤ segSize cpu first last
  generalize w * segSize cpu first last = q
  omega

example : (List.range 3).map (fun w => segment w 3 2 9) = [[2, 3, 4], [5, 6, 7], [8, 9]] := by decide

/-! ## C13 -/

/-- C13: for every order in which the workers finish, the parent reads the same data, hence ends in the same state. -/
theorem C13_schedule_independent {S L D : Type} (eng : Engine S L) (save : L → D) (load : D → L → L) (l0 : L) (s : S)
    (cpu : Nat) (order order' : List Nat) (h : order.Perm order') (idxs : List Int)
    (files : Nat → Option (List (RawPage D))) (ps : Pages L) :
    parseMulti eng save load l0 s cpu order idxs files ps = parseMulti eng save load l0 s cpu order' idxs files ps := by
  unfold parseMulti
  split
  · rfl
  · have : ∀ w, runWorkers w order files = runWorkers (D := D) w order' files := by
      intro w
      funext j
      simp only [runWorkers_apply, h.mem_iff]
    rw [this]

/-- C13: a missing worker file is skipped. -/
theorem C13_missing_file_skipped {L D : Type} (load : D → L → L) (files : Nat → Option (List (RawPage D)))
    (is : List Nat) (i : Nat) (ps : Pages L) (h : files i = none) :
    restoreFiles load files (i :: is) ps = restoreFiles load files is ps := by
  rw [restoreFiles, h]

example : [0, 1, 2].Perm [2, 0, 1] := by decide

/-! ## C11 -/

/-- The number of pages of a range, and whether some worker is left without pages. -/
def SomeWorkerIdle (cpu : Nat) (first last : Int) : Prop :=
  ∃ w, w < cpu ∧ segment w cpu first last = []

/-- What multi-processing really converts (exact, for every selection inside the document, CPU count and worker
schedule): with `first`/`last` the least/greatest selected page, page `k` is converted iff it parses and
lies between them – or anywhere, if some worker was left idle. -/
theorem C11_exact {S L D : Type} (eng : Engine S L) (save : L → D) (load : D → L → L) (l0 : L) (s : S) (cpu n : Nat)
    (order : List Nat) (horder : order.Perm (List.range cpu)) (idxs : List Int)
    (files : Nat → Option (List (RawPage D))) (hcpu : 0 < cpu) (first last : Int)
    (hmin : first ∈ idxs ∧ ∀ i ∈ idxs, first ≤ i) (hmax : last ∈ idxs ∧ ∀ i ∈ idxs, i ≤ last) (h0 : 0 ≤ first) :
    ∃ ps', parseMulti eng save load l0 s cpu order idxs files (init l0 n) = .ok ps' ∧
      Enumerates (fun k : Nat => k < n ∧ ((first ≤ k ∧ (k : Int) ≤ last) ∨ SomeWorkerIdle cpu first last) ∧
        ∃ l, eng k s l0 = .ok l) (finalizedIdx ps') := by
  have hmm : minMax idxs = some (first, last) := by
    cases h : minMax idxs with
    | none =>
      cases idxs with
      | nil => simp at hmin
      | cons => simp [minMax] at h
    | some ab =>
      obtain ⟨a, b⟩ := ab
      have := minMax_spec h
      have h1 := hmin.2 a this.1
      have h2 := hmax.2 b this.2.1
      have h3 := (this.2.2 first hmin.1).1
      have h4 := (this.2.2 last hmax.1).2
      have h5 : a = first := by omega
      have h6 : b = last := by omega
      rw [h5, h6]
  unfold parseMulti
  rw [hmm]
  dsimp only
  rw [init_length]
  obtain ⟨ps', h1, h2, h3⟩ := restoreFiles_get save load (fun w => parse eng s (segment w cpu first last) (init l0 n)) n
    (fun i => ⟨WFid_parse _ _ _ _ (WFid_init _ _), by simp⟩)
    (runWorkers (worker eng save l0 n s cpu first last) order files) (List.range cpu)
    (fun i hi => by rw [runWorkers_apply, if_pos (horder.mem_iff.2 hi)]; rfl) (init l0 n) (by simp)
  refine ⟨ps', h1, finalizedIdx_pairwise _, fun k => ?_⟩
  have hseg0 : ∀ w, ∀ i ∈ segment w cpu first last, 0 ≤ i := by
    intro w i hi
    rw [mem_segment] at hi
    omega
  have hfresh : k ∉ finalizedIdx (init l0 n) := by
    rw [mem_finalizedIdx, init_get]
    rintro ⟨p, hp, hf⟩
    split at hp
    · simp at hp; subst hp; simp at hf
    · simp at hp
  have hokiff : (eng k s l0).isOk = true ↔ ∃ l, eng k s l0 = .ok l := by
    cases eng k s l0 <;> simp [Outcome.isOk]
  by_cases hk : k < n
  · rw [h3 k hk]
    simp only [hfresh, false_or, hk, true_and, List.mem_range]
    constructor
    · rintro ⟨w, hw, hm⟩
      rw [finalizedIdx_parse_init _ _ _ _ _ (effective_segment_nodup _ _ _ _ _) (hseg0 w),
        mem_effective_segment k hk] at hm
      refine ⟨?_, hokiff.1 hm.2.2⟩
      rcases hm.2.1 with h | h
      · rw [mem_segment] at h
        exact Or.inl ⟨h.1, h.2.1⟩
      · exact Or.inr ⟨w, hw, h⟩
    · rintro ⟨h, hok⟩
      have hmem : ∃ w, w < cpu ∧ ((k : Int) ∈ segment w cpu first last ∨ segment w cpu first last = []) := by
        rcases h with h | ⟨w, hw, h⟩
        · have := ((C12_segments_partition cpu hcpu first last).2 k).2 h
          rw [List.mem_flatMap] at this
          obtain ⟨w, hw, hm⟩ := this
          exact ⟨w, List.mem_range.1 hw, Or.inl hm⟩
        · exact ⟨w, hw, Or.inr h⟩
      obtain ⟨w, hw, hm⟩ := hmem
      refine ⟨w, hw, ?_⟩
      rw [finalizedIdx_parse_init _ _ _ _ _ (effective_segment_nodup _ _ _ _ _) (hseg0 w),
        mem_effective_segment k hk]
      exact ⟨hk, hm, hokiff.2 hok⟩
  · constructor
    · intro h
      obtain ⟨p, hp, _⟩ := (mem_finalizedIdx _ _).1 h
      have := (List.getElem?_eq_some_iff.1 hp).1
      omega
    · rintro ⟨h, _⟩
      exact absurd h hk

/-- C11 for selections without gaps (and without repetitions), when no worker is idle or the whole document is
selected: the same pages as sequential conversion, for every schedule. Missing: gaps and idle workers, refuted
below, and the empty selection (`ValueError` instead of converting everything). -/
theorem C11_multi_eq_sequential_partial {S L D : Type} (eng : Engine S L) (save : L → D) (load : D → L → L) (l0 : L)
    (s : S) (cpu n : Nat) (order : List Nat) (horder : order.Perm (List.range cpu)) (idxs : List Int)
    (files : Nat → Option (List (RawPage D))) (hcpu : 0 < cpu) (first last : Int)
    (hgap : ∀ i, i ∈ idxs ↔ first ≤ i ∧ i ≤ last) (hne : first ≤ last) (h0 : 0 ≤ first) (hnd : idxs.Nodup)
    (hidle : ¬ SomeWorkerIdle cpu first last ∨ (first = 0 ∧ last = (n : Int) - 1)) :
    ∃ ps', parseMulti eng save load l0 s cpu order idxs files (init l0 n) = .ok ps' ∧
      finalizedIdx ps' = finalizedIdx (parse eng s idxs (init l0 n)) := by
  obtain ⟨ps', h1, h2⟩ := C11_exact eng save load l0 s cpu n order horder idxs files hcpu first last
    ⟨(hgap first).2 ⟨by omega, hne⟩, fun i hi => ((hgap i).1 hi).1⟩
    ⟨(hgap last).2 ⟨hne, by omega⟩, fun i hi => ((hgap i).1 hi).2⟩ h0
  refine ⟨ps', h1, ?_⟩
  have hsne : idxs ≠ [] := List.ne_nil_of_mem ((hgap first).2 ⟨by omega, hne⟩)
  have hokiff : ∀ k, (eng k s l0).isOk = true ↔ ∃ l, eng k s l0 = .ok l := by
    intro k; cases eng k s l0 <;> simp [Outcome.isOk]
  have hmem : ∀ k, k ∈ finalizedIdx ps' ↔ k ∈ finalizedIdx (parse eng s idxs (init l0 n)) := by
    intro k
    rw [h2.2 k, finalizedIdx_parse_init _ _ _ _ _ (by rw [effective_of_ne hsne]; exact hnd)
      (fun i hi => by have := (hgap i).1 hi; omega), effective_of_ne hsne, hgap, hokiff]
    constructor
    · rintro ⟨a, b, c⟩
      refine ⟨a, ?_, c⟩
      rcases b with b | b
      · exact b
      · rcases hidle with h | ⟨h, h'⟩
        · exact absurd b h
        · omega
    · rintro ⟨a, b, c⟩
      exact ⟨a, Or.inl b, c⟩
  have hI := eq_of_pairwise_lt_of_mem_iff (l₁ := (finalizedIdx ps').map Int.ofNat)
    (l₂ := (finalizedIdx (parse eng s idxs (init l0 n))).map Int.ofNat)
    (by rw [List.pairwise_map]; exact (finalizedIdx_pairwise _).imp (fun h => Int.ofNat_lt.2 h))
    (by rw [List.pairwise_map]; exact (finalizedIdx_pairwise _).imp (fun h => Int.ofNat_lt.2 h))
    (by intro x; simp only [List.mem_map, hmem])
  exact List.map_inj_right (fun _ _ h => Int.ofNat.inj h) |>.1 hI

/-- Hypotheses met: 10 pages, pages 2…7, 3 workers. -/
example : (∀ i, i ∈ [2, 3, 4, 5, 6, 7] ↔ (2 : Int) ≤ i ∧ i ≤ 7) ∧ [2, 3, 4, 5, 6, (7 : Int)].Nodup ∧
    ¬ SomeWorkerIdle 2 2 7 ∧ segment 0 2 2 7 = [2, 3, 4, 5] ∧ segment 1 2 2 7 = [6, 7] := by
  refine ⟨?_, by decide, ?_, by decide, by decide⟩
  · intro i; simp; omega
  · rintro ⟨w, hw, h⟩
    have : w = 0 ∨ w = 1 := by omega
    rcases this with rfl | rfl <;> revert h <;> decide

/-- C11 is false with a gap: `pages=[0,2]` also converts page 1. -/
theorem C11_refuted_gap : ∃ ps', parseMulti (S := Unit) (L := Nat) (D := Nat) (fun k _ _ => .ok k) id (fun d _ => d) 0 ()
      1 [0] (pageIndexes 0 none (some [0, 2]) 3) (fun _ => none) (init 0 3) = .ok ps' ∧
    finalizedIdx ps' = [0, 1, 2] ∧
    finalizedIdx (parse (S := Unit) (L := Nat) (fun k _ _ => .ok k) () (pageIndexes 0 none (some [0, 2]) 3) (init 0 3))
      = [0, 2] := ⟨_, rfl, rfl, rfl⟩

/-- C11 is false with an idle worker: `convert(end=4)` of a 6-page PDF with 4 CPUs leaves workers 2 and 3 without
pages; they parse the whole document, so pages 4 and 5 are converted too. -/
theorem C11_refuted_idle_worker : ∃ ps', parseMulti (S := Unit) (L := Nat) (D := Nat) (fun k _ _ => .ok k) id
      (fun d _ => d) 0 () 4 [0, 1, 2, 3] (pageIndexes 0 (some 4) none 6) (fun _ => none) (init 0 6) = .ok ps' ∧
    finalizedIdx ps' = [0, 1, 2, 3, 4, 5] ∧
    finalizedIdx (parse (S := Unit) (L := Nat) (fun k _ _ => .ok k) () (pageIndexes 0 (some 4) none 6) (init 0 6))
      = [0, 1, 2, 3] := ⟨_, rfl, rfl, rfl⟩

/-- A worker is idle exactly when the others already take all pages: `n ≤ (cpu-1)·(⌊n/cpu⌋+1)`. In particular, for
`cpu ≥ 2` CPUs and `n ≤ cpu` … pages there always is one. -/
theorem C11_idle_iff (cpu : Nat) (hcpu : 0 < cpu) (first last : Int) :
    SomeWorkerIdle cpu first last ↔
      (last + 1 - first).toNat ≤ (cpu - 1) * ((last + 1 - first).toNat / cpu + 1) := by
  constructor
  · rintro ⟨w, hw, h⟩
    rw [segment_eq_nil_iff] at h
    exact Nat.le_trans h (Nat.mul_le_mul_right _ (by omega))
  · intro h
    exact ⟨cpu - 1, by omega, (segment_eq_nil_iff _ _ _ _).2 h⟩

/-- C11: an empty selection raises in multi-processing mode (sequentially it converts everything, C03). -/
theorem C11_refuted_empty_selection {S L D : Type} (eng : Engine S L) (save : L → D) (load : D → L → L) (l0 : L) (s : S)
    (cpu : Nat) (order : List Nat) (files : Nat → Option (List (RawPage D))) (ps : Pages L) :
    parseMulti eng save load l0 s cpu order [] files ps = .error .value := rfl

/-! ## C14 -/

/-- C14: restoring stored data into a converter on the same document never fails, makes exactly the stored
pages available with the stored content, and leaves every other page as it was. `hW` (a parsed page knows its own
index) holds after any history of `parse` calls, see `C14_ids_reachable`. -/
theorem C14_restore_store {L D : Type} (save : L → D) (load : D → L → L) (src dst : Pages L) (hW : WFid src)
    (hlen : src.length = dst.length) :
    (restore load (store save src).2 dst).2 = none ∧
    (restore load (store save src).2 dst).1.length = dst.length ∧
    ∀ (k : Nat) (p q : PageSt L), src[k]? = some p → dst[k]? = some q →
      (p.finalized = true → (restore load (store save src).2 dst).1[k]? =
          some { id := k, finalized := true, layout := load (save p.layout) q.layout }) ∧
      (p.finalized = false → (restore load (store save src).2 dst).1[k]? = some q) := by
  have h := restore_store save load src dst hW hlen
  refine ⟨h.1, restore_length _ _ _, ?_⟩
  intro k p q hp hq
  constructor
  · intro hf; rw [h.2, hp, hq]; simp [hf]
  · intro hf; rw [h.2, hp, hq]; simp [hf]

/-- C14: page ids are right after any sequence of `parse` calls on a fresh converter. -/
theorem C14_ids_reachable {S L : Type} (eng : Engine S L) (l0 : L) (n : Nat) (calls : List (S × List Int)) :
    WFid (calls.foldl (fun ps c => parse eng c.1 c.2 ps) (init l0 n)) := by
  have key : ∀ (calls : List (S × List Int)) (ps : Pages L), WFid ps →
      WFid (calls.foldl (fun ps c => parse eng c.1 c.2 ps) ps) := by
    intro calls
    induction calls with
    | nil => intro ps h; exact h
    | cons c calls ih => intro ps h; exact ih _ (WFid_parse eng c.1 c.2 ps h)
  exact key calls _ (WFid_init l0 n)

/-- C14: storing the restored converter again yields the same data, provided page layouts themselves round-trip
(C15 says when they do). -/
theorem C14_store_again {L D : Type} (save : L → D) (load : D → L → L) (l0 : L) (src : Pages L) (hW : WFid src)
    (hround : ∀ p ∈ src, p.finalized = true → save (load (save p.layout) l0) = save p.layout) :
    store save (restore load (store save src).2 (init l0 src.length)).1 = store save src := by
  have h := restore_store save load src (init l0 src.length) hW (by simp)
  have hl := restore_length load (store save src).2 (init l0 src.length)
  generalize (restore load (store save src).2 (init l0 src.length)).1 = dst at h hl
  rw [init_length] at hl
  have key : ∀ (src dst : Pages L) (off : Nat), dst.length = src.length →
      (∀ (k : Nat) (p q : PageSt L), src[k]? = some p → dst[k]? = some q → p.finalized = q.finalized ∧
        (p.finalized = true → p.id = q.id ∧ save q.layout = save p.layout)) →
      (dst.filter PageSt.finalized).map (fun p => ({ id := some p.id, data := save p.layout } : RawPage D)) =
      (src.filter PageSt.finalized).map (fun p => ({ id := some p.id, data := save p.layout } : RawPage D)) := by
    intro src
    induction src with
    | nil =>
      intro dst off hl _
      simp only [List.length_nil, List.length_eq_zero_iff] at hl
      subst hl; rfl
    | cons p src ih =>
      intro dst off hl hh
      cases dst with
      | nil => simp at hl
      | cons q dst =>
        have h0 := hh 0 p q rfl rfl
        have h1 := ih dst off (by simpa using hl) (fun k p q hp hq => hh (k + 1) p q (by simpa using hp) (by simpa using hq))
        rw [List.filter_cons, List.filter_cons, ← h0.1]
        cases hf : p.finalized with
        | false => simpa using h1
        | true =>
          have := h0.2 hf
          simp [h1, this.1, this.2]
  unfold store
  congr 1
  refine key src dst 0 hl ?_
  intro k p q hp hq
  have hk : k < src.length := (List.getElem?_eq_some_iff.1 hp).1
  rw [h.2, hp, init_get, if_pos hk] at hq
  simp only [Option.some.injEq] at hq
  subst hq
  cases hf : p.finalized with
  | false => simp
  | true => simp [hW k p hp hf, hround p (List.mem_of_getElem? hp) hf]

example : WFid ([⟨0, true, 5⟩, ⟨-1, false, 0⟩] : Pages Nat) ∧
    (restore (fun d _ => d) (store (D := Nat) (fun l => l) ([⟨0, true, 5⟩, ⟨-1, false, 0⟩] : Pages Nat)).2 (init 9 2)).1
      = [⟨0, true, 5⟩, ⟨-1, false, 9⟩] := by
  constructor
  · intro i p hp hf
    match i with
    | 0 => simp at hp; subst hp; rfl
    | 1 => simp at hp; subst hp; simp at hf
    | (i + 2) => simp at hp
  · rfl

/-- C14: data without an `id` goes to the last page. -/
theorem C14_missing_id {L D : Type} (load : D → L → L) (d : D) (ps : Pages L) (h : ps ≠ []) :
    restore load [⟨none, d⟩] ps = (ps.modify (ps.length - 1) (PageSt.restore load none d), none) := by
  have hl : 0 < ps.length := List.length_pos_iff.2 h
  have : normIdx ps.length (-1) = some (ps.length - 1) := by
    unfold normIdx
    rw [if_neg (by decide), if_pos (by omega)]
    congr 1
    omega
  simp [restore, this]

/-! ## C16 -/

/-- C16, integers: `cv[i]` is the list element (from the end for negative `i`) or `IndexError`. -/
theorem C16_getitem_int {α : Type} (pages : List α) (i : Int) :
    (∀ p, getItem pages i = .ok p ↔
      (0 ≤ i ∧ pages[i.toNat]? = some p) ∨ (i < 0 ∧ 0 ≤ i + pages.length ∧ pages[(i + pages.length).toNat]? = some p)) ∧
    (getItem pages i = .error .index ↔ i < -pages.length ∨ (pages.length : Int) ≤ i) := by
  unfold getItem getIdx normIdx
  by_cases h0 : 0 ≤ i
  · by_cases h1 : i < pages.length
    · have hlt : i.toNat < pages.length := by omega
      constructor
      · intro p; simp [h0, h1, List.getElem?_eq_getElem hlt]; omega
      · simp [h0, h1, List.getElem?_eq_getElem hlt]; omega
    · have hlt : ¬ i.toNat < pages.length := by omega
      constructor
      · intro p; simp [h0, h1]; omega
      · simp [h0, h1]; omega
  · by_cases h1 : 0 ≤ i + pages.length
    · have hlt : (i + pages.length).toNat < pages.length := by omega
      constructor
      · intro p; simp [h0, h1, List.getElem?_eq_getElem hlt]; omega
      · simp [h0, h1, List.getElem?_eq_getElem hlt]; omega
    · constructor
      · intro p; simp [h0, h1]
      · simp [h0, h1]; omega

/-- C16, slices: `cv[a:b:c]` is the list slice whenever `b` is omitted or beyond the end, or `a`, `b` are
non-negative and the step is positive. The remaining cases are refuted below. -/
theorem C16_getitem_slice_partial {α : Type} (pages : List α) (start stop step : Option Int)
    (h : (∀ b, stop = some b → (pages.length : Int) ≤ b) ∨
      ((∀ a, start = some a → 0 ≤ a) ∧ (∀ b, stop = some b → 0 ≤ b) ∧ (∀ c, step = some c → 0 < c))) :
    getSlice pages start stop step = slice pages start stop step := by
  by_cases hb : ∀ b, stop = some b → (pages.length : Int) ≤ b
  · have : pages.take (match stop with
        | none => (pages.length : Int)
        | some s => if s > (pages.length : Int) then (pages.length : Int) else s).toNat = pages := by
      apply List.take_of_length_le
      cases stop with
      | none => simp
      | some b => have := hb b rfl; dsimp only; split <;> omega
    unfold getSlice
    dsimp only
    exact congrArg (fun l => slice l start stop step) this
  · rcases h with h | ⟨ha, hb', hc⟩
    · exact absurd h hb
    · obtain ⟨b, rfl⟩ : ∃ b, stop = some b := by
        cases stop with
        | none => exact absurd (by simp) hb
        | some b => exact ⟨b, rfl⟩
      have hlt : b < (pages.length : Int) := by
        apply Classical.byContradiction; intro hn; apply hb; intro b' hb2; cases hb2; omega
      have hb0 := hb' b rfl
      unfold getSlice slice
      have hcs : 0 < step.getD 1 := by
        cases step with
        | none => decide
        | some c => exact hc c rfl
      generalize step.getD 1 = c at hcs
      have hc0 : ¬ c = 0 := by omega
      have hbn : ¬ b > (pages.length : Int) := by omega
      simp only [hc0, if_false, hbn]
      have hlen : (pages.take b.toNat).length = b.toNat := by rw [List.length_take]; omega
      rw [hlen]
      have hidx : sliceIdx b.toNat start (some b) c = sliceIdx pages.length start (some b) c := by
        unfold sliceIdx
        apply range_congr_of_le hcs
        unfold adjust
        have hcn : ¬ c < 0 := by omega
        cases start with
        | none =>
          left
          simp only [hcn, if_false]
          refine ⟨trivial, ?_⟩
          repeat' split
          all_goals omega
        | some a =>
          have := ha a rfl
          simp only [hcn, if_false]
          repeat' split
          all_goals omega
      rw [hidx]
      have hfm : ∀ (l : List Int) (f g : Int → Option α), (∀ i ∈ l, f i = g i) → l.filterMap f = l.filterMap g := by
        intro l f g
        induction l with
        | nil => intro _; rfl
        | cons x l ih =>
          intro h
          rw [List.filterMap_cons, List.filterMap_cons, h x (by simp), ih (fun i hi => h i (by simp [hi]))]
      congr 1
      apply hfm
      intro i hi
      have hi' : i < b := by
        unfold sliceIdx at hi
        obtain ⟨k, _, h2⟩ := (mem_range_pos hcs i).1 hi
        revert h2
        unfold adjust
        dsimp only
        repeat' split
        all_goals omega
      have hi0 : 0 ≤ i := by
        unfold sliceIdx at hi
        obtain ⟨k, h1, h2⟩ := (mem_range_pos hcs i).1 hi
        have hk : 0 ≤ (k : Int) * c := Int.mul_nonneg (by omega) (by omega)
        revert h1
        unfold adjust
        have hcn : ¬ c < 0 := by omega
        cases start with
        | none => simp only [hcn, if_false]; omega
        | some a =>
          have := ha a rfl
          simp only [hcn, if_false]
          repeat' split
          all_goals omega
      rw [List.getElem?_take, if_pos (by omega)]

/-- C16 is false for negative stops: `cv[:-1]` is always empty. -/
theorem C16_refuted_negative_stop {α : Type} (pages : List α) (b : Int) (hb : b < 0) :
    getSlice pages none (some b) none = .ok [] := by
  unfold getSlice slice
  have h1 : ¬ b > (pages.length : Int) := by omega
  have h2 : b.toNat = 0 := by omega
  simp [h1, h2]

/-- … while the list slice is not; and for negative starts with a stop, and negative steps. -/
theorem C16_refuted_examples :
    slice [10, 11, 12] none (some (-1)) none = .ok [10, 11] ∧
    getSlice [10, 11, 12] none (some (-1)) none = .ok [] ∧
    slice [10, 11, 12] (some (-2)) (some 1) none = .ok [] ∧
    getSlice [10, 11, 12] (some (-2)) (some 1) none = .ok [10] ∧
    slice [10, 11, 12] none (some 0) (some (-1)) = .ok [12, 11] ∧
    getSlice [10, 11, 12] none (some 0) (some (-1)) = .ok [] := by
  refine ⟨rfl, rfl, rfl, rfl, rfl, rfl⟩

example : getSlice [10, 11, 12, 13] (some 1) (some 3) none = .ok [11, 12] ∧
    getSlice [10, 11, 12, 13] (some (-2)) none (some (-1)) = .ok [12, 11, 10] := ⟨rfl, rfl⟩

end Props
