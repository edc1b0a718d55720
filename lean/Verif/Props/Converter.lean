import Verif.ConverterHistory
import Verif.Spec.Converter
/-! # Property theorems about page selection, conversion and files (C01–C10) -/

namespace Props
open Py Conv Spec

/-! ## C01 -/

/-- C01. -/
theorem C01_pages_selection (start : Int) (end_ : Option Int) (req : List Int) (n : Nat) (hreq : req ≠ []) :
    ExactlyThose (fun i => 0 ≤ i ∧ i < n) req (pageIndexes start end_ (some req) n) := by
  cases req with
  | nil => exact absurd rfl hreq
  | cons x xs =>
    refine ⟨List.filter_sublist, ?_⟩
    intro i
    show ((x :: xs).filter (fun i : Int => decide (0 ≤ i ∧ i < n))).count i = _
    split
    · rename_i h
      rw [List.count_filter]
      simpa using h
    · rename_i h
      rw [List.count_eq_zero]
      intro hm
      rw [List.mem_filter] at hm
      exact h (by simpa using hm.2)

/-- C01: `pages=[]` counts as omitted. -/
theorem C01_empty_pages_is_omitted (start : Int) (end_ : Option Int) (n : Nat) :
    pageIndexes start end_ (some []) n = pageIndexes start end_ none n := rfl

example : pageIndexes 0 none (some [2, 7, 0, -1, 2]) 3 = [2, 0, 2] := by decide

/-! ## C02 -/

/-- C02 holds for every `end` except 0 (the missing case is refuted below). -/
theorem C02_start_end_partial (start : Int) (end_ : Option Int) (n : Nat) (h0 : end_ ≠ some 0) :
    Enumerates (InRange n start end_) (pageIndexes start end_ none n) := by
  unfold pageIndexes sliceIdx
  refine ⟨range_pairwise_pos (by decide), fun i => ?_⟩
  rw [mem_range_one]
  unfold InRange bound adjust
  cases end_ with
  | none =>
    simp only [reduceCtorEq, false_implies, implies_true, and_true]
    repeat' split
    all_goals omega
  | some e =>
    have he : e ≠ 0 := fun h => h0 (by rw [h])
    simp only [he, if_false, Option.some.injEq, forall_eq']
    repeat' split
    all_goals omega

example : pageIndexes 1 (some (-1)) none 5 = [1, 2, 3] ∧ (some (-1) : Option Int) ≠ some 0 := by decide

/-- C02 is false for `end=0`: every non-empty document is converted (from `start`) to its end although the
range `0 … 0` is empty. -/
theorem C02_refuted_end_zero (start : Int) (n : Nat) :
    pageIndexes start (some 0) none n = pageIndexes start none none n ∧
      ∀ i, ¬ InRange n start (some 0) i := by
  refine ⟨rfl, ?_⟩
  intro i h
  have := h.2.2.2 0 rfl
  have h0 := h.1
  simp [bound] at this
  omega

/-- Nothing outside the document is ever selected, whatever the arguments. -/
theorem C02_always_in_document (start : Int) (end_ : Option Int) (pages : Option (List Int)) (n : Nat) :
    ∀ i ∈ pageIndexes start end_ pages n, 0 ≤ i ∧ i < n := by
  intro i hi
  have hnone : ∀ e, i ∈ pageIndexes start e none n → 0 ≤ i ∧ i < n := by
    intro e he
    by_cases h : e = some 0
    · subst h
      rw [(C02_refuted_end_zero start n).1] at he
      have := ((C02_start_end_partial start none n (by simp)).2 i).1 he
      exact ⟨this.1, this.2.1⟩
    · have := ((C02_start_end_partial start e n h).2 i).1 he
      exact ⟨this.1, this.2.1⟩
  match pages, hi with
  | none, hi => exact hnone _ hi
  | some [], hi => exact hnone _ hi
  | some (x :: xs), hi =>
    have : i ∈ (x :: xs).filter fun i : Int => decide (0 ≤ i ∧ i < n) := hi
    simpa using (List.mem_filter.1 this).2

example : (3 : Int) ∈ pageIndexes (-2) none none 5 := by decide

/-! ## C03 -/

/-- C03 for a non-empty selection without repetitions: on a fresh converter exactly the selected pages that parse
successfully are created, in increasing order. Missing: the empty selection, refuted below; repetitions (a second
parse of the same page may have another outcome) are covered by C06. -/
theorem C03_only_selected_partial {S L Doc : Type} (eng : Engine S L) (create : Nat → L → Doc → Doc) (blank : Doc)
    (s : S) (l0 : L) (pdf : List Char) (docx : Option (List Char)) (a : Args) (n : Nat) (fs : FS Doc)
    (hne : pageIndexes a.start a.end_ a.pages n ≠ [])
    (hnd : (pageIndexes a.start a.end_ a.pages n).Nodup) (out : List Nat)
    (hout : (convert eng create blank true s pdf docx a (init l0 n) fs).2.2 = .ok out) :
    Enumerates (fun k : Nat => (k : Int) ∈ pageIndexes a.start a.end_ a.pages n ∧ ∃ l, eng k s l0 = .ok l) out := by
  unfold convert makeDocx at hout
  rw [init_length] at hout
  dsimp only at hout
  split at hout
  · simp at hout
  · simp only [if_true, Except.ok.injEq] at hout
    rw [← hout, createPages_snd]
    refine ⟨finalizedIdx_pairwise _, fun k => ?_⟩
    have hr : ∀ i ∈ pageIndexes a.start a.end_ a.pages n, 0 ≤ i :=
      fun i hi => (C02_always_in_document _ _ _ _ i hi).1
    rw [finalizedIdx_parse_init _ _ _ _ _ (by rw [effective_of_ne hne]; exact hnd) hr,
      effective_of_ne hne]
    constructor
    · rintro ⟨h1, h2, h3⟩
      refine ⟨h2, ?_⟩
      cases h : eng k s l0 with
      | ok l => exact ⟨l, rfl⟩
      | loadFail b l => rw [h] at h3; simp [Outcome.isOk] at h3
      | parseFail l => rw [h] at h3; simp [Outcome.isOk] at h3
    · rintro ⟨h2, l, h3⟩
      have := (C02_always_in_document _ _ _ _ _ h2).2
      exact ⟨by omega, h2, by rw [h3]; rfl⟩

/-- C03 is false for an empty selection (all requested pages out of range, or `start ≥ end`): every page of the
document is parsed and created. -/
theorem C03_refuted_empty_selection {S L Doc : Type} (eng : Engine S L) (create : Nat → L → Doc → Doc) (blank : Doc)
    (s : S) (l0 : L) (pdf : List Char) (docx : Option (List Char)) (a : Args) (n : Nat) (fs : FS Doc)
    (hempty : pageIndexes a.start a.end_ a.pages n = []) (k : Nat) (l : L) (hk : k < n) (hok : eng k s l0 = .ok l) :
    ∃ out, (convert eng create blank true s pdf docx a (init l0 n) fs).2.2 = .ok out ∧ k ∈ out := by
  have hmem : k ∈ finalizedIdx (parse eng s (pageIndexes a.start a.end_ a.pages n) (init l0 n)) := by
    rw [hempty, finalizedIdx_parse_init _ _ _ _ _ ?_ (by simp)]
    · refine ⟨hk, ?_, by rw [hok]; rfl⟩
      simp only [effective, List.isEmpty_nil, if_true, List.mem_map, List.mem_range]
      exact ⟨k, hk, rfl⟩
    · simp only [effective, List.isEmpty_nil, if_true]
      refine List.Pairwise.map _ (fun a b h => ?_) List.nodup_range
      intro h'; exact h (Int.ofNat.inj h')
  unfold convert makeDocx
  rw [init_length]
  dsimp only
  rw [if_neg (List.ne_nil_of_mem hmem)]
  simp only [if_true, Except.ok.injEq, exists_eq_left']
  rw [createPages_snd]; exact hmem

/-- The hypotheses of both are met: `convert(pages=[7])` on a 3-page document selects nothing, and creates all pages. -/
example : pageIndexes 0 none (some [7]) 3 = [] ∧
    (convert (S := Unit) (L := Nat) (Doc := Nat) (fun k _ _ => .ok k) (fun _ l d => d + l) 0 true () "a.pdf".toList none
      ⟨0, none, some [7]⟩ (init 0 3) (fun _ => none)).2.2 = .ok [0, 1, 2] := ⟨by decide, rfl⟩

example : pageIndexes 0 none (some [2, 0]) 3 ≠ [] ∧ (pageIndexes 0 none (some [2, 0]) 3).Nodup ∧
    (convert (S := Unit) (L := Nat) (Doc := Nat) (fun k _ _ => .ok k) (fun _ l d => d + l) 0 true () "a.pdf".toList none
      ⟨0, none, some [2, 0]⟩ (init 0 3) (fun _ => none)).2.2 = .ok [0, 2] := ⟨by decide, by decide, rfl⟩

/-! ## C04 -/

/-- C04: the state of page `j` after `parse` is the same whatever happens to (or on) the other pages: two parsers
that agree on page `j` – and may fail or not on any other page – leave page `j` in the same state. `parse` itself
always returns (it is total, exceptions of pages are values). -/
theorem C04_page_isolation {S L : Type} (eng eng' : Engine S L) (s : S) (idxs : List Int) (ps : Pages L) (j : Nat)
    (hsame : ∀ l, eng j s l = eng' j s l) :
    (parse eng s idxs ps)[j]? = (parse eng' s idxs ps)[j]? := by
  rw [parse_get, parse_get]
  have : (PageSt.parse eng s j : PageSt L → PageSt L) = PageSt.parse eng' s j := by
    funext p; simp [PageSt.parse, hsame]
  rw [this]

/-- C04, second half: dropping another page from the (still non-empty) selection, or reordering it, does not change
page `j`. -/
theorem C04_other_pages_irrelevant {S L : Type} (eng : Engine S L) (s : S) (idxs idxs' : List Int) (ps : Pages L)
    (j : Nat) (h : idxs ≠ []) (h' : idxs' ≠ [])
    (hsame : idxs.filter (fun i => normIdx ps.length i == some j)
      = idxs'.filter (fun i => normIdx ps.length i == some j)) :
    (parse eng s idxs ps)[j]? = (parse eng s idxs' ps)[j]? := by
  rw [parse_get, parse_get, effective_of_ne h, effective_of_ne h']
  unfold hits
  rw [List.countP_eq_length_filter, List.countP_eq_length_filter, hsame]

/-- C04: pages that are not selected are left alone. -/
theorem C04_unselected_untouched {S L : Type} (eng : Engine S L) (s : S) (idxs : List Int) (ps : Pages L)
    (j : Nat) (h : idxs ≠ []) (hj : ∀ i ∈ idxs, normIdx ps.length i ≠ some j) :
    (parse eng s idxs ps)[j]? = ps[j]? := by
  rw [parse_get, effective_of_ne h]
  have : hits ps.length j idxs = 0 := by
    unfold hits; rw [List.countP_eq_zero]; intro a ha; simpa using hj a ha
  rw [this]
  have h2 : (iter (PageSt.parse eng s j) 0 : PageSt L → PageSt L) = id := rfl
  rw [h2]; simp

/-- Page 1 fails, pages 0 and 2 are parsed as if it had not been selected. -/
example : parse (S := Unit) (L := Nat) (fun k _ _ => if k = 1 then .parseFail 9 else .ok k) () [0, 1, 2] (init 7 3)
    = [⟨0, true, 0⟩, ⟨1, false, 9⟩, ⟨2, true, 2⟩] := rfl

/-! ## C05 -/

/-- C05: for every state of the pages and every behaviour of page creation, a completed `make_docx` has created
exactly the parsed pages, in increasing page order, each once. -/
theorem C05_document_order {L Doc : Type} (create : Nat → L → Doc → Doc) (blank : Doc) (saveOk : Bool)
    (pdf : List Char) (docx : Option (List Char)) (ps : Pages L) (fs : FS Doc) (out : List Nat)
    (h : (makeDocx create blank saveOk pdf docx ps fs).2 = .ok out) :
    Enumerates (fun k => ∃ p, ps[k]? = some p ∧ p.finalized = true) out := by
  unfold makeDocx at h
  split at h
  · simp at h
  · dsimp only at h
    split at h
    · simp only [Except.ok.injEq] at h
      rw [← h, createPages_snd]
      exact ⟨finalizedIdx_pairwise _, mem_finalizedIdx ps⟩
    · simp at h

/-- C05: the document written is the blank document with the creation steps of exactly these pages, in this order. -/
theorem C05_document_content {L Doc : Type} (create : Nat → L → Doc → Doc) (blank : Doc)
    (pdf : List Char) (docx : Option (List Char)) (ps : Pages L) (fs : FS Doc) (out : List Nat)
    (h : (makeDocx create blank true pdf docx ps fs).2 = .ok out) :
    ∃ final, (makeDocx create blank true pdf docx ps fs).1.getLast? = some final ∧
      final (docxName pdf docx) = some (.doc ((out.filterMap fun i => ps[i]?.map (fun p => create i p.layout)).foldl
        (fun d f => f d) blank)) := by
  unfold makeDocx at h ⊢
  split at h
  · simp at h
  · rename_i hne
    simp only [if_true, Except.ok.injEq] at h
    rw [if_neg hne]
    simp only [if_true, List.getLast?_cons_cons, List.getLast?_singleton, Option.some.injEq, exists_eq_left']
    unfold FS.write
    simp only [if_true]
    congr 2
    rw [← h, createPages_snd]
    have key : ∀ (l : List Nat) (acc : Doc × List Nat),
        (l.foldl (createStep create ps) acc).1 =
          (l.filterMap fun i => ps[i]?.map (fun p => create i p.layout)).foldl (fun d f => f d) acc.1 := by
      intro l
      induction l with
      | nil => intro acc; rfl
      | cons i l ih =>
        intro acc
        rw [List.foldl_cons, ih, List.filterMap_cons]
        unfold createStep
        cases ps[i]? <;> rfl
    exact key _ _

example : (makeDocx (L := Nat) (Doc := List Nat) (fun _ l d => d ++ [l]) [] true "a.pdf".toList none
    [⟨0, true, 5⟩, ⟨-1, false, 0⟩, ⟨2, true, 6⟩] (fun _ => none)).2 = .ok [0, 2] := rfl

/-! ## C06 -/

/-- C06: after any history of `parse` and `restore` calls on a fresh converter, page `k` is a converted page
(takes part in `make_docx`, `store`, `extract_tables`) iff it was successfully processed at some point and not
un-done later. -/
theorem C06_history {S L D : Type} (eng : Engine S L) (load : D → L → L) (l0 : L) (n : Nat)
    (ops : List (Op S D)) (k : Nat) (hk : k < n) :
    k ∈ finalizedIdx (ops.foldl (fun ps op => op.run eng load ps) (init l0 n)) ↔
      Converted (opLog eng load ops (init l0 n)) k := by
  have key : ∀ (ops : List (Op S D)) (ps : Pages L) (p : PageSt L), ps[k]? = some p →
      ∃ q, (ops.foldl (fun ps op => op.run eng load ps) ps)[k]? = some q ∧
        q.finalized = status k (opLog eng load ops ps) p.finalized := by
    intro ops
    induction ops with
    | nil => intro ps p hp; exact ⟨p, hp, rfl⟩
    | cons op ops ih =>
      intro ps p hp
      rw [List.foldl_cons]
      unfold opLog
      rw [status_append]
      cases op with
      | parse s idxs =>
        obtain ⟨q, h1, h2⟩ := finalized_parseLog eng s (effective ps.length idxs) ps k p hp
        obtain ⟨q', h3, h4⟩ := ih _ q h1
        exact ⟨q', h3, by rw [h4, h2]; rfl⟩
      | restore rs =>
        obtain ⟨q, h1, h2⟩ := finalized_restoreLog load rs ps k p hp
        obtain ⟨q', h3, h4⟩ := ih _ q h1
        exact ⟨q', h3, by rw [h4, h2]; rfl⟩
  rw [mem_finalizedIdx]
  obtain ⟨q, h1, h2⟩ := key ops (init l0 n) _ (by rw [init_get, if_pos hk])
  rw [h1]
  simp only [Option.some.injEq, exists_eq_left', h2]
  rw [status_true_iff]
  simp

/-- A history with a success, a failing re-parse and a restore: page 0 undone, page 1 converted. -/
example : Converted (opLog (S := Bool) (L := Nat) (D := Nat) (fun k s _ => if s then .ok k else .parseFail 0)
      (fun d _ => d) [.parse true [0, 1], .parse false [0, 1], .restore [⟨some 1, 3⟩]] (init 0 2)) 1 ∧
    finalizedIdx ([Op.parse true [0, 1], .parse false [0, 1], .restore [⟨some 1, 3⟩]].foldl
      (fun ps op => op.run (S := Bool) (L := Nat) (D := Nat) (fun k s _ => if s then .ok k else .parseFail 0)
      (fun d _ => d) ps) (init 0 2)) = [1] :=
  ⟨⟨[(0, .done), (1, .done), (0, .undone), (1, .undone)], [], by decide, by decide⟩, by decide⟩

/-! ## C07 -/

/-- C07: nothing parsed → an exception, and no state of the file system other than the initial one occurs. -/
theorem C07_nothing_parsed {L Doc : Type} (create : Nat → L → Doc → Doc) (blank : Doc) (saveOk : Bool)
    (pdf : List Char) (docx : Option (List Char)) (ps : Pages L) (fs : FS Doc)
    (h : ∀ p ∈ ps, p.finalized = false) :
    (∃ e, (makeDocx create blank saveOk pdf docx ps fs).2 = .error e) ∧
      ∀ st ∈ (makeDocx create blank saveOk pdf docx ps fs).1, st = fs := by
  have : finalizedIdx ps = [] := by
    apply List.eq_nil_iff_forall_not_mem.2
    intro i hi
    obtain ⟨p, h1, h2⟩ := (mem_finalizedIdx ps i).1 hi
    rw [h p (List.mem_of_getElem? h1)] at h2
    cases h2
  unfold makeDocx
  rw [if_pos this]
  exact ⟨⟨_, rfl⟩, by simp⟩

/-- C07: with a parsed page (and a working disk) it never raises, whatever page creation does. -/
theorem C07_otherwise_no_exception {L Doc : Type} (create : Nat → L → Doc → Doc) (blank : Doc)
    (pdf : List Char) (docx : Option (List Char)) (ps : Pages L) (fs : FS Doc)
    (h : ∃ p ∈ ps, p.finalized = true) :
    ∃ out, (makeDocx create blank true pdf docx ps fs).2 = .ok out := by
  obtain ⟨p, hp, hf⟩ := h
  obtain ⟨i, hi⟩ := List.mem_iff_getElem?.1 hp
  have hm : i ∈ finalizedIdx ps := (mem_finalizedIdx ps i).2 ⟨p, hi, hf⟩
  unfold makeDocx
  rw [if_neg (List.ne_nil_of_mem hm)]
  exact ⟨_, rfl⟩

example : (∀ p ∈ init (0 : Nat) 3, p.finalized = false) ∧
    ∃ p ∈ ([⟨0, true, 4⟩] : Pages Nat), p.finalized = true := by decide

/-! ## C08 -/

/-- A complete new document. -/
def complete {Doc : Type} : File Doc → Prop
  | .doc _ => True
  | _ => False

/-- C08 is false: whenever there is something to convert and the output file exists, there is a crash point at
which the old file is gone and nothing has replaced it; and a failing save ends with a torn file. -/
theorem C08_refuted_old_output_lost {L Doc : Type} (create : Nat → L → Doc → Doc) (blank : Doc) (saveOk : Bool)
    (pdf : List Char) (docx : Option (List Char)) (ps : Pages L) (fs : FS Doc) (b : Nat)
    (hps : ∃ p ∈ ps, p.finalized = true) (hold : fs (docxName pdf docx) = some (.old b)) :
    (∃ st ∈ (makeDocx create blank saveOk pdf docx ps fs).1,
        ¬ Safe complete (fs (docxName pdf docx)) (st (docxName pdf docx))) ∧
      (saveOk = false → ∃ st, (makeDocx create blank saveOk pdf docx ps fs).1.getLast? = some st ∧
        st (docxName pdf docx) = some .torn) := by
  obtain ⟨p, hp, hf⟩ := hps
  obtain ⟨i, hi⟩ := List.mem_iff_getElem?.1 hp
  have hm : i ∈ finalizedIdx ps := (mem_finalizedIdx ps i).2 ⟨p, hi, hf⟩
  unfold makeDocx
  rw [if_neg (List.ne_nil_of_mem hm)]
  have h1 : (fs (docxName pdf docx)).isSome = true := by rw [hold]; rfl
  simp only [h1, if_true]
  constructor
  · refine ⟨fs.remove (docxName pdf docx), by split <;> simp, ?_⟩
    rw [hold]
    simp [Safe, FS.remove]
  · rintro rfl
    simp [FS.write]

/-- C08, what does hold at every crash point: every file other than the output file is untouched, and when the
call succeeds the output file holds the complete document. -/
theorem C08_crash_points_partial {L Doc : Type} (create : Nat → L → Doc → Doc) (blank : Doc) (saveOk : Bool)
    (pdf : List Char) (docx : Option (List Char)) (ps : Pages L) (fs : FS Doc) :
    (∀ st ∈ (makeDocx create blank saveOk pdf docx ps fs).1, ∀ g, g ≠ docxName pdf docx → st g = fs g) ∧
    (∀ out, (makeDocx create blank saveOk pdf docx ps fs).2 = .ok out →
      ∃ st d, (makeDocx create blank saveOk pdf docx ps fs).1.getLast? = some st ∧
        st (docxName pdf docx) = some (.doc d)) := by
  unfold makeDocx
  split
  · simp
  · constructor
    · intro st hst g hg
      revert hst
      dsimp only
      repeat' split
      all_goals
        simp only [List.mem_cons, List.not_mem_nil, or_false]
        rintro (rfl | rfl | rfl | rfl)
        all_goals simp [FS.remove, FS.write, hg]
    · intro out h
      dsimp only at h ⊢
      split at h
      · rename_i hs
        subst hs
        simp [FS.write]
      · simp at h

example : ∃ p ∈ ([⟨0, true, 4⟩] : Pages Nat), p.finalized = true := by decide

/-! ## C09 -/

/-- C09 holds when the PDF's name contains ".pdf": the default output name is another name, so no state of the
file system that occurs during `make_docx` differs from the initial one at the PDF. -/
theorem C09_default_name_partial {L Doc : Type} (create : Nat → L → Doc → Doc) (blank : Doc) (saveOk : Bool)
    (pdf : List Char) (ps : Pages L) (fs : FS Doc) (hpdf : ".pdf".toList <:+: pdf) :
    docxName pdf none ≠ pdf ∧
      ∀ st ∈ (makeDocx create blank saveOk pdf none ps fs).1, st pdf = fs pdf := by
  have h1 : docxName pdf none ≠ pdf := by
    intro h
    have h2 := (length_replace ".pdf".toList ".docx".toList (by decide) pdf).2 (by decide) hpdf
    unfold docxName at h
    dsimp only at h
    rw [h] at h2
    omega
  exact ⟨h1, fun st hst => (C08_crash_points_partial create blank saveOk pdf none ps fs).1 st hst pdf (Ne.symm h1)⟩

/-- C09 is false for every name without ".pdf" in it (for instance "X.PDF"): the output name is the PDF's own name;
the PDF is removed and then overwritten by the document. -/
theorem C09_refuted_no_lowercase_extension {L Doc : Type} (create : Nat → L → Doc → Doc) (blank : Doc)
    (pdf : List Char) (ps : Pages L) (fs : FS Doc) (b : Nat) (hpdf : ¬ ".pdf".toList <:+: pdf)
    (hps : ∃ p ∈ ps, p.finalized = true) (hold : fs pdf = some (.old b)) :
    docxName pdf none = pdf ∧
    (∃ st ∈ (makeDocx create blank true pdf none ps fs).1, st pdf = none) ∧
    ∃ st d, (makeDocx create blank true pdf none ps fs).1.getLast? = some st ∧ st pdf = some (.doc d) := by
  have h1 : docxName pdf none = pdf := replace_of_not_infix _ _ _ hpdf
  refine ⟨h1, ?_, ?_⟩
  · obtain ⟨p, hp, hf⟩ := hps
    obtain ⟨i, hi⟩ := List.mem_iff_getElem?.1 hp
    have hm : i ∈ finalizedIdx ps := (mem_finalizedIdx ps i).2 ⟨p, hi, hf⟩
    unfold makeDocx
    rw [if_neg (List.ne_nil_of_mem hm), h1]
    refine ⟨fs.remove pdf, by simp [hold], by simp [FS.remove]⟩
  · obtain ⟨out, ho⟩ := C07_otherwise_no_exception create blank pdf none ps fs hps
    obtain ⟨st, d, h2, h3⟩ := (C08_crash_points_partial create blank true pdf none ps fs).2 out ho
    rw [h1] at h3
    exact ⟨st, d, h2, h3⟩

example : ".pdf".toList <:+: "a.pdf".toList ∧ ¬ ".pdf".toList <:+: "X.PDF".toList ∧
    docxName "a.pdf".toList none = "a.docx".toList := by
  refine ⟨by decide, by decide, by decide +kernel⟩

/-! ## C10 -/

/-- One-based meaning: page number `p` (counted from one) is page index `p-1`; `start … end` is half-open. -/
def OneBasedRange (n : Nat) (start : Int) (end_ : Option Int) (i : Int) : Prop :=
  0 ≤ i ∧ i < n ∧ start ≤ i + 1 ∧ ∀ e, end_ = some e → i + 1 < e

/-- C10 for ranges: proved for `start ≥ 1` and `end` omitted or `≥ 2`; `end = 1` is refuted below, other values
are not page numbers. -/
theorem C10_one_based_range_partial (start : Int) (end_ : Option Int) (n : Nat) (hs : 1 ≤ start)
    (he : ∀ e, end_ = some e → 2 ≤ e) :
    Enumerates (OneBasedRange n start end_) (cliIndexes false ⟨start, end_, none⟩ n) := by
  have hsel : cliIndexes false ⟨start, end_, none⟩ n = pageIndexes (start - 1) (end_.map (· - 1)) none n := by
    unfold cliIndexes oneBased
    simp only [Bool.false_eq_true, if_false]
    congr 1
    · omega
    · cases end_ with
      | none => rfl
      | some e =>
        have := he e rfl
        have h0 : e ≠ 0 := by omega
        simp [h0]
  rw [hsel]
  have := C02_start_end_partial (start - 1) (end_.map (· - 1)) n (by
    cases end_ with
    | none => simp
    | some e => have := he e rfl; simp; omega)
  refine ⟨this.1, fun i => ?_⟩
  rw [this.2]
  unfold InRange OneBasedRange bound
  cases end_ with
  | none => simp; split <;> omega
  | some e =>
    have := he e rfl
    simp only [Option.map_some, Option.some.injEq, forall_eq']
    repeat' split
    all_goals omega

/-- C10 for page lists: exactly the numbered pages. -/
theorem C10_one_based_pages (start : Int) (end_ : Option Int) (req : List Int) (n : Nat) (hreq : req ≠ []) :
    ExactlyThose (fun i => 1 ≤ i + 1 ∧ i + 1 ≤ n) (req.map (· - 1)) (cliIndexes false ⟨start, end_, some req⟩ n) := by
  cases req with
  | nil => exact absurd rfl hreq
  | cons x xs =>
    have h := C01_pages_selection (oneBased ⟨start, end_, some (x :: xs)⟩).start
      (oneBased ⟨start, end_, some (x :: xs)⟩).end_ ((x :: xs).map (· - 1)) n (by simp)
    refine ⟨h.1, fun i => ?_⟩
    have h2 := h.2 i
    refine Eq.trans h2 ?_
    have hc : (0 ≤ i ∧ i < n) ↔ (1 ≤ i + 1 ∧ i + 1 ≤ n) := by omega
    simp only [hc]

/-- C10 is false for `--end=1`: it selects everything from `start` although no page number is `< 1`. -/
theorem C10_refuted_end_one (start : Int) (n : Nat) (hs : 1 ≤ start) :
    (∀ i, ¬ OneBasedRange n start (some 1) i) ∧
      Enumerates (OneBasedRange n start none) (cliIndexes false ⟨start, some 1, none⟩ n) := by
  constructor
  · rintro i ⟨h0, _, _, h⟩
    have := h 1 rfl
    omega
  · exact C10_one_based_range_partial start none n hs (by simp)

example : cliIndexes false ⟨1, some 3, none⟩ 5 = [0, 1] ∧ cliIndexes false ⟨1, some 1, none⟩ 5 = [0, 1, 2, 3, 4] ∧
    cliIndexes false ⟨0, none, some [1, 3]⟩ 5 = [0, 2] := by decide

end Props
