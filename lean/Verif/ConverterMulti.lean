import Verif.ConverterLemmas
/-! # Helper lemmas: segments, store/restore, multi-processing, slices -/

namespace Conv
open Py

/-! ## Segments -/

theorem range_append {a b c : Int} (h1 : a ≤ b) (h2 : b ≤ c) : range a b 1 ++ range b c 1 = range a c 1 := by
  apply eq_of_pairwise_lt_of_mem_iff
  · rw [List.pairwise_append]
    refine ⟨range_pairwise_pos (by decide), range_pairwise_pos (by decide), ?_⟩
    intro x hx y hy
    rw [mem_range_one] at hx hy
    omega
  · exact range_pairwise_pos (by decide)
  · intro x
    rw [List.mem_append, mem_range_one, mem_range_one, mem_range_one]
    omega

theorem rangeCount_one (a b : Int) : rangeCount a b 1 = (b - a).toNat := by
  simp [rangeCount]

theorem range_shift (a b s : Int) : (range a b 1).map (fun i => s + i) = range (s + a) (s + b) 1 := by
  apply eq_of_pairwise_lt_of_mem_iff
  · rw [List.pairwise_map]
    exact List.Pairwise.imp (fun h => by omega) (range_pairwise_pos (by decide))
  · exact range_pairwise_pos (by decide)
  · intro x
    rw [mem_range_one, List.mem_map]
    constructor
    · rintro ⟨y, hy, rfl⟩
      rw [mem_range_one] at hy
      omega
    · intro h
      exact ⟨x - s, by rw [mem_range_one]; omega, by omega⟩

/-- Pages per worker (converter.py L334). -/
def segSize (cpu : Nat) (s e : Int) : Nat := (e + 1 - s).toNat / cpu + 1

theorem segment_eq (idx cpu : Nat) (s e : Int) :
    segment idx cpu s e =
      range (s + (idx * segSize cpu s e : Nat)) (s + (min (idx * segSize cpu s e + segSize cpu s e) (e + 1 - s).toNat : Nat)) 1 := by
  unfold segment
  dsimp only
  rw [rangeCount_one, range_shift]
  rfl

theorem mem_segment (idx cpu : Nat) (s e : Int) (x : Int) :
    x ∈ segment idx cpu s e ↔
      s ≤ x ∧ x ≤ e ∧ idx * segSize cpu s e ≤ (x - s).toNat ∧ (x - s).toNat < (idx + 1) * segSize cpu s e := by
  rw [segment_eq, mem_range_one, Nat.add_mul, Nat.one_mul]
  omega

theorem segments_concat (cpu : Nat) (s e : Int) (m : Nat) :
    (List.range m).flatMap (fun i => segment i cpu s e) =
      range s (s + (min (m * segSize cpu s e) (e + 1 - s).toNat : Nat)) 1 := by
  induction m with
  | zero => rw [range_empty_of_le (by decide) (by simp)]; rfl
  | succ m ih =>
    rw [List.range_succ, List.flatMap_append, ih, List.flatMap_cons, List.flatMap_nil, List.append_nil, segment_eq,
      Nat.add_mul, Nat.one_mul]
    by_cases h : m * segSize cpu s e ≤ (e + 1 - s).toNat
    · rw [Nat.min_eq_left h, range_append (by omega)]
      omega
    · rw [range_empty_of_le (by decide) (a := s + _)]
      · rw [List.append_nil]
        congr 2
        omega
      · omega

theorem lt_cpu_mul_segSize {cpu : Nat} (hc : 0 < cpu) (s e : Int) : (e + 1 - s).toNat < cpu * segSize cpu s e := by
  unfold segSize
  have := Nat.div_add_mod (e + 1 - s).toNat cpu
  have h2 := Nat.mod_lt (e + 1 - s).toNat hc
  rw [Nat.mul_add, Nat.mul_one]
  omega

theorem segment_eq_nil_iff (idx cpu : Nat) (s e : Int) :
    segment idx cpu s e = [] ↔ (e + 1 - s).toNat ≤ idx * segSize cpu s e := by
  constructor
  · intro h
    apply Classical.byContradiction
    intro hn
    have : (s + (idx * segSize cpu s e : Nat)) ∈ segment idx cpu s e := by
      rw [mem_segment, Nat.add_mul, Nat.one_mul]
      have h1 : 0 < segSize cpu s e := Nat.succ_pos _
      omega
    rw [h] at this
    simp at this
  · intro h
    rw [segment_eq, range_empty_of_le (by decide)]
    omega

/-! ## Restoring stored pages -/

@[simp] theorem restore_length {L D} (load : D → L → L) (rs : List (RawPage D)) (ps : Pages L) :
    (restore load rs ps).1.length = ps.length := by
  induction rs generalizing ps with
  | nil => rfl
  | cons r rs ih =>
    unfold restore
    split
    · rw [ih]; simp
    · rfl

/-- Restoring pages with proper ids: no error, and each page gets exactly the data with its id. -/
theorem restore_get {L D} (load : D → L → L) (rs : List (RawPage D)) (ps : Pages L)
    (h : ∀ r ∈ rs, ∃ k : Nat, k < ps.length ∧ r.id = some (k : Int)) :
    (restore load rs ps).2 = none ∧ ∀ k : Nat, (restore load rs ps).1[k]? =
      ps[k]?.map (fun p => (rs.filter (fun r => decide (r.id = some (k : Int)))).foldl
        (fun p r => PageSt.restore load r.id r.data p) p) := by
  induction rs generalizing ps with
  | nil => simp [restore]
  | cons r rs ih =>
    obtain ⟨j, hj, hr⟩ := h r (by simp)
    unfold restore
    rw [hr, Option.getD_some, normIdx_ofNat hj]
    dsimp only
    have ih' := ih (ps.modify j (PageSt.restore load (some ↑j) r.data))
      (fun r' hr' => by simpa using h r' (by simp [hr']))
    refine ⟨ih'.1, fun k => ?_⟩
    rw [ih'.2, List.getElem?_modify]
    by_cases hjk : j = k
    · subst hjk
      simp [hr, Function.comp_def]
    · have : ¬ ((j : Int) = (k : Int)) := by omega
      simp [hr, hjk, this]

/-- Every finalised page carries its own page index as id. -/
def WFid {L} (W : Pages L) : Prop := ∀ (i : Nat) (p : PageSt L), W[i]? = some p → p.finalized = true → p.id = i

theorem filter_id {L} (W : Pages L) (off : Nat) (k : Nat)
    (h : ∀ (i : Nat) (p : PageSt L), W[i]? = some p → p.finalized = true → p.id = ((off + i : Nat) : Int)) :
    W.filter (fun p => p.finalized && decide (p.id = ((off + k : Nat) : Int))) =
      match W[k]? with
      | some p => if p.finalized then [p] else []
      | none => [] := by
  induction W generalizing off k with
  | nil => simp
  | cons w W ih =>
    have h' : ∀ (i : Nat) (p : PageSt L), W[i]? = some p → p.finalized = true → p.id = ((off + 1 + i : Nat) : Int) := by
      intro i p hp hf
      have := h (i + 1) p (by simpa using hp) hf
      rw [this]; congr 1; omega
    have hnil : ∀ m : Nat, m ≤ off → W.filter (fun p => p.finalized && decide (p.id = (m : Int))) = [] := by
      intro m hm
      rw [List.filter_eq_nil_iff]
      intro p hp
      obtain ⟨i, hi⟩ := List.mem_iff_getElem?.1 hp
      simp only [Bool.and_eq_true, decide_eq_true_eq, not_and]
      intro hf
      rw [h' i p hi hf]
      omega
    rw [List.filter_cons]
    cases k with
    | zero =>
      simp only [Nat.add_zero, List.getElem?_cons_zero]
      rw [hnil off (by omega)]
      cases hf : w.finalized with
      | false => simp
      | true =>
        have := h 0 w rfl hf
        simp at this
        simp [this]
    | succ k =>
      simp only [List.getElem?_cons_succ]
      have h2 := ih (off + 1) k h'
      have e : off + 1 + k = off + (k + 1) := by omega
      rw [e] at h2
      rw [h2]
      cases hf : w.finalized with
      | false => simp
      | true =>
        have := h 0 w rfl hf
        simp at this
        have h3 : ¬ ((off : Int) = ((off + (k + 1) : Nat) : Int)) := by omega
        simp only [this, h3, decide_false, Bool.and_false, Bool.false_eq_true, if_false]

theorem store_filter {L D} (save : L → D) (W : Pages L) (hW : WFid W) (k : Nat) :
    (store save W).2.filter (fun r => decide (r.id = some (k : Int))) =
      match W[k]? with
      | some p => if p.finalized then [{ id := some (k : Int), data := save p.layout }] else []
      | none => [] := by
  unfold store
  dsimp only
  rw [List.filter_map, List.filter_filter]
  have h := filter_id W 0 k (by simpa [WFid] using hW)
  have e : W.filter (fun a => (((fun r : RawPage D => decide (r.id = some (k : Int))) ∘
      fun p => { id := some p.id, data := save p.layout : RawPage D }) a && a.finalized)) =
      W.filter (fun p => p.finalized && decide (p.id = ((0 + k : Nat) : Int))) := by
    congr 1
    funext p
    simp [Bool.and_comm]
  rw [e, h]
  cases hk : W[k]? with
  | none => simp
  | some p =>
    dsimp only
    split
    · rename_i hf
      simp [hW k p hk hf]
    · rfl

/-- Restoring what `W` stored: finalised pages of `W` are transferred, the others stay. -/
theorem restore_store {L D} (save : L → D) (load : D → L → L) (W ps : Pages L) (hW : WFid W)
    (hlen : W.length = ps.length) :
    (restore load (store save W).2 ps).2 = none ∧ ∀ k : Nat, (restore load (store save W).2 ps).1[k]? =
      match W[k]?, ps[k]? with
      | some w, some p => some (if w.finalized then
          { id := k, finalized := true, layout := load (save w.layout) p.layout } else p)
      | _, _ => none := by
  have hid : ∀ r ∈ (store save W).2, ∃ k : Nat, k < ps.length ∧ r.id = some (k : Int) := by
    intro r hr
    unfold store at hr
    simp only [List.mem_map, List.mem_filter] at hr
    obtain ⟨p, ⟨hp, hf⟩, rfl⟩ := hr
    obtain ⟨i, hi⟩ := List.mem_iff_getElem?.1 hp
    refine ⟨i, ?_, by simp [hW i p hi hf]⟩
    rw [← hlen]; exact (List.getElem?_eq_some_iff.1 hi).1
  have h := restore_get load (store save W).2 ps hid
  refine ⟨h.1, fun k => ?_⟩
  rw [h.2, store_filter save W hW]
  by_cases hk : k < ps.length
  · have hk' : k < W.length := by omega
    rw [List.getElem?_eq_getElem hk, List.getElem?_eq_getElem hk']
    dsimp only
    split <;> simp [PageSt.restore]
  · have hk' : ¬ k < W.length := by omega
    rw [List.getElem?_eq_none (by omega), List.getElem?_eq_none (by omega)]
    simp

theorem WFid_init {L} (l0 : L) (n : Nat) : WFid (init l0 n) := by
  intro i p hp hf
  rw [init_get] at hp
  split at hp
  · simp at hp; subst hp; simp at hf
  · simp at hp

theorem WFid_parseOne {S L} (eng : Engine S L) (s : S) (ps : Pages L) (i : Int) (h : WFid ps) :
    WFid (parseOne eng s ps i) := by
  intro j p hp hf
  rw [parseOne_get] at hp
  split at hp
  · rw [Option.map_eq_some_iff] at hp
    obtain ⟨q, hq, rfl⟩ := hp
    revert hf
    unfold PageSt.parse
    split
    · intro hf
      dsimp only at hf ⊢
      split
      · rfl
      · exact h j q hq hf
    · intro _; rfl
    · intro _; rfl
  · exact h j p hp hf

theorem WFid_parse {S L} (eng : Engine S L) (s : S) (is : List Int) (ps : Pages L) (h : WFid ps) :
    WFid (parse eng s is ps) := by
  unfold parse
  generalize effective ps.length is = l
  induction l generalizing ps with
  | nil => exact h
  | cons i l ih => exact ih _ (WFid_parseOne eng s ps i h)

theorem effective_segment_nodup (n idx cpu : Nat) (s e : Int) : (effective n (segment idx cpu s e)).Nodup := by
  unfold effective
  split
  · refine List.Pairwise.map _ (fun a b h => ?_) List.nodup_range
    intro h'; exact h (Int.ofNat.inj h')
  · rw [segment_eq]
    exact (range_pairwise_pos (by decide)).imp (fun h => by omega)

theorem mem_effective_segment {n : Nat} (k : Nat) (hk : k < n) (idx cpu : Nat) (s e : Int) :
    (k : Int) ∈ effective n (segment idx cpu s e) ↔ (k : Int) ∈ segment idx cpu s e ∨ segment idx cpu s e = [] := by
  unfold effective
  cases h : segment idx cpu s e with
  | nil =>
    simp only [List.isEmpty_nil, if_true, List.mem_map, List.mem_range, List.not_mem_nil, or_true, iff_true]
    exact ⟨k, hk, rfl⟩
  | cons a l => simp

theorem minMax_spec : ∀ {l : List Int} {a b : Int}, minMax l = some (a, b) →
    a ∈ l ∧ b ∈ l ∧ ∀ x ∈ l, a ≤ x ∧ x ≤ b := by
  have key : ∀ (l : List Int) (x : Int), (l.foldl min x = x ∨ l.foldl min x ∈ l) ∧
      (l.foldl max x = x ∨ l.foldl max x ∈ l) ∧ l.foldl min x ≤ x ∧ x ≤ l.foldl max x ∧
      ∀ y ∈ l, l.foldl min x ≤ y ∧ y ≤ l.foldl max x := by
    intro l
    induction l with
    | nil => intro x; simp
    | cons y l ih =>
      intro x
      simp only [List.foldl_cons, List.mem_cons]
      have h1 := ih (min x y)
      have h2 := ih (max x y)
      obtain ⟨a1, -, a3, -, a5⟩ := h1
      obtain ⟨-, b2, -, b4, b5⟩ := h2
      refine ⟨?_, ?_, by omega, by omega, ?_⟩
      · rcases a1 with h | h
        · rw [h]; omega
        · exact Or.inr (Or.inr h)
      · rcases b2 with h | h
        · rw [h]; omega
        · exact Or.inr (Or.inr h)
      · rintro z (rfl | hz)
        · omega
        · exact ⟨(a5 z hz).1, (b5 z hz).2⟩
  intro l a b h
  cases l with
  | nil => simp [minMax] at h
  | cons x l =>
    simp only [minMax, Option.some.injEq, Prod.mk.injEq] at h
    obtain ⟨rfl, rfl⟩ := h
    obtain ⟨h1, h2, h3, h4, h5⟩ := key l x
    refine ⟨?_, ?_, ?_⟩
    · rw [List.mem_cons]; exact h1
    · rw [List.mem_cons]; exact h2
    · intro y hy
      rw [List.mem_cons] at hy
      rcases hy with rfl | hy
      · exact ⟨h3, h4⟩
      · exact h5 y hy

theorem runWorkers_apply {D} (w : Nat → List (RawPage D)) (order : List Nat)
    (files : Nat → Option (List (RawPage D))) (j : Nat) :
    runWorkers w order files j = if j ∈ order then some (w j) else files j := by
  unfold runWorkers
  induction order generalizing files with
  | nil => simp
  | cons i order ih =>
    rw [List.foldl_cons, ih]
    by_cases h : j ∈ order
    · simp [h]
    · by_cases h2 : j = i
      · subst h2; simp
      · simp [h, h2]

/-- Restoring the files of workers: a page is finalised iff it was before or some worker finalised it. -/
theorem restoreFiles_get {L D} (save : L → D) (load : D → L → L) (W : Nat → Pages L) (n : Nat)
    (hW : ∀ i, WFid (W i) ∧ (W i).length = n) (files : Nat → Option (List (RawPage D))) (is : List Nat)
    (hfiles : ∀ i ∈ is, files i = some (store save (W i)).2) (ps : Pages L) (hps : ps.length = n) :
    ∃ ps', restoreFiles load files is ps = .ok ps' ∧ ps'.length = n ∧ ∀ (k : Nat), k < n →
      (k ∈ finalizedIdx ps' ↔ k ∈ finalizedIdx ps ∨ ∃ i ∈ is, k ∈ finalizedIdx (W i)) := by
  induction is generalizing ps with
  | nil => exact ⟨ps, rfl, hps, by simp⟩
  | cons i is ih =>
    unfold restoreFiles
    rw [hfiles i (by simp)]
    dsimp only
    have h := restore_store save load (W i) ps (hW i).1 (by rw [(hW i).2, hps])
    have hl := restore_length load (store save (W i)).2 ps
    generalize restore load (store save (W i)).2 ps = rr at h hl
    obtain ⟨ps1, err⟩ := rr
    dsimp only at h hl
    rw [h.1]
    dsimp only
    obtain ⟨ps', h1, h2, h3⟩ := ih (fun j hj => hfiles j (by simp [hj])) ps1 (by rw [hl, hps])
    refine ⟨ps', h1, h2, fun k hk => ?_⟩
    rw [h3 k hk]
    have h4 : k ∈ finalizedIdx ps1 ↔ k ∈ finalizedIdx ps ∨ k ∈ finalizedIdx (W i) := by
      rw [mem_finalizedIdx, mem_finalizedIdx, mem_finalizedIdx, h.2]
      have hkW : k < (W i).length := by rw [(hW i).2]; exact hk
      have hkp : k < ps.length := by omega
      rw [List.getElem?_eq_getElem hkW, List.getElem?_eq_getElem hkp]
      simp only [Option.some.injEq, exists_eq_left']
      split <;> simp_all
    rw [h4]
    simp only [List.mem_cons, exists_eq_or_imp]
    constructor
    · rintro ((h | h) | h)
      · exact Or.inl h
      · exact Or.inr (Or.inl h)
      · exact Or.inr (Or.inr h)
    · rintro (h | h | h)
      · exact Or.inl (Or.inl h)
      · exact Or.inl (Or.inr h)
      · exact Or.inr h

/-! ## Slices -/

theorem range_congr_of_le {a a' b b' s : Int} (hs : 0 < s) (h : a = a' ∧ b = b' ∨ b ≤ a ∧ b' ≤ a') :
    range a b s = range a' b' s := by
  rcases h with ⟨rfl, rfl⟩ | ⟨h1, h2⟩
  · rfl
  · rw [range_empty_of_le hs h1, range_empty_of_le hs h2]

end Conv
