import Verif.Converter
/-! # Helper lemmas about the converter model -/

namespace Conv
open Py

theorem normIdx_lt {n : Nat} {i : Int} {k : Nat} (h : normIdx n i = some k) : k < n := by
  unfold normIdx at h
  split at h <;> split at h <;> simp at h <;> omega

theorem normIdx_nonneg {n : Nat} {i : Int} (h0 : 0 ≤ i) (h1 : i < n) : normIdx n i = some i.toNat := by
  simp [normIdx, h0, h1]

theorem normIdx_ofNat {n k : Nat} (h1 : k < n) : normIdx n (k : Int) = some k := by
  rw [normIdx_nonneg (by omega) (by omega)]; simp

theorem normIdx_eq_iff {n : Nat} {i : Int} {k : Nat} (h0 : 0 ≤ i) :
    normIdx n i = some k ↔ i = k ∧ k < n := by
  unfold normIdx
  rw [if_pos h0]
  split
  · simp; omega
  · simp; omega

@[simp] theorem parseOne_length {S L} (eng : Engine S L) (s : S) (ps : Pages L) (i : Int) :
    (parseOne eng s ps i).length = ps.length := by
  unfold parseOne; split <;> simp

@[simp] theorem foldl_parseOne_length {S L} (eng : Engine S L) (s : S) (is : List Int) (ps : Pages L) :
    (is.foldl (parseOne eng s) ps).length = ps.length := by
  induction is generalizing ps with
  | nil => rfl
  | cons i is ih => simp [ih]

@[simp] theorem parse_length {S L} (eng : Engine S L) (s : S) (is : List Int) (ps : Pages L) :
    (parse eng s is ps).length = ps.length := by simp [parse]

/-- `f` applied `n` times. -/
def iter {α : Type} (f : α → α) : Nat → α → α
  | 0, a => a
  | n + 1, a => iter f n (f a)

/-- How many entries of the list designate page `j` of an `n`-page document. -/
def hits (n j : Nat) (idxs : List Int) : Nat := idxs.countP fun i => normIdx n i == some j

theorem parseOne_get {S L} (eng : Engine S L) (s : S) (ps : Pages L) (i : Int) (j : Nat) :
    (parseOne eng s ps i)[j]? =
      if normIdx ps.length i = some j then ps[j]?.map (PageSt.parse eng s j) else ps[j]? := by
  unfold parseOne
  split
  · rename_i k hk
    rw [List.getElem?_modify, hk]
    by_cases h : k = j
    · subst h; simp
    · simp [h]
  · rename_i hk
    simp [hk]

theorem foldl_parseOne_get {S L} (eng : Engine S L) (s : S) (is : List Int) (ps : Pages L) (j : Nat) :
    (is.foldl (parseOne eng s) ps)[j]? =
      ps[j]?.map (iter (PageSt.parse eng s j) (hits ps.length j is)) := by
  induction is generalizing ps with
  | nil => simp [hits, iter]
  | cons i is ih =>
    rw [List.foldl_cons, ih, parseOne_get, parseOne_length]
    unfold hits
    rw [List.countP_cons]
    by_cases h : normIdx ps.length i = some j
    · simp [h, Function.comp_def, iter]
    · simp [h]

/-- The state of each page after `parse` depends only on that page. -/
theorem parse_get {S L} (eng : Engine S L) (s : S) (is : List Int) (ps : Pages L) (j : Nat) :
    (parse eng s is ps)[j]? =
      ps[j]?.map (iter (PageSt.parse eng s j) (hits ps.length j (effective ps.length is))) :=
  foldl_parseOne_get ..

theorem mem_finalizedIdx {L} (ps : Pages L) (i : Nat) :
    i ∈ finalizedIdx ps ↔ ∃ p, ps[i]? = some p ∧ p.finalized = true := by
  unfold finalizedIdx
  simp only [List.mem_filter, List.mem_range]
  constructor
  · rintro ⟨h1, h2⟩
    cases h : ps[i]? with
    | none => simp [h] at h2
    | some p => simp only [h, Option.map_some, Option.getD_some] at h2; exact ⟨p, rfl, h2⟩
  · rintro ⟨p, h1, h2⟩
    refine ⟨?_, by simp [h1, h2]⟩
    exact (List.getElem?_eq_some_iff.1 h1).1

theorem finalizedIdx_pairwise {L} (ps : Pages L) : (finalizedIdx ps).Pairwise (· < ·) :=
  List.Pairwise.filter _ List.pairwise_lt_range

theorem createPages_snd {L Doc} (create : Nat → L → Doc → Doc) (blank : Doc) (ps : Pages L) :
    (createPages create blank ps).2 = finalizedIdx ps := by
  have key : ∀ (l : List Nat) (acc : Doc × List Nat), (∀ i ∈ l, i < ps.length) →
      (l.foldl (createStep create ps) acc).2 = acc.2 ++ l := by
    intro l
    induction l with
    | nil => intro acc _; simp
    | cons i l ih =>
      intro acc h
      rw [List.foldl_cons, ih _ (fun j hj => h j (by simp [hj]))]
      have hi : i < ps.length := h i (by simp)
      unfold createStep
      rw [List.getElem?_eq_getElem hi]
      simp
  unfold createPages
  rw [key _ _ (fun i hi => ?_)]
  · simp
  · have := (mem_finalizedIdx ps i).1 hi
    obtain ⟨p, hp, _⟩ := this
    exact (List.getElem?_eq_some_iff.1 hp).1

theorem init_get {L} (l0 : L) (n k : Nat) :
    (init l0 n)[k]? = if k < n then some { id := -1, finalized := false, layout := l0 } else none := by
  simp [init, List.getElem?_replicate]

@[simp] theorem init_length {L} (l0 : L) (n : Nat) : (init l0 n).length = n := by simp [init]

theorem hits_nodup {n j : Nat} {is : List Int} (hn : is.Nodup) (hr : ∀ i ∈ is, 0 ≤ i) (hj : j < n) :
    hits n j is = if (j : Int) ∈ is then 1 else 0 := by
  induction is with
  | nil => simp [hits]
  | cons i is ih =>
    rw [List.nodup_cons] at hn
    have h1 := ih hn.2 (fun x hx => hr x (by simp [hx]))
    have h0 := hr i (by simp)
    unfold hits at *
    rw [List.countP_cons, h1]
    by_cases h : i = (j : Int)
    · subst h
      simp [hn.1, normIdx_ofNat hj]
    · have h2 : ¬ normIdx n i = some j := by
        rw [normIdx_eq_iff h0]; omega
      have h3 : ¬ (j : Int) = i := fun e => h e.symm
      simp [h2, h3]

theorem effective_of_ne {n : Nat} {is : List Int} (h : is ≠ []) : effective n is = is := by
  cases is with
  | nil => exact absurd rfl h
  | cons => rfl

/-- Whether the outcome is a success. -/
def Outcome.isOk {L} : Outcome L → Bool
  | .ok _ => true
  | _ => false

/-- Fresh converter, no repetition: each selected page is finalised iff its parsing succeeded. -/
theorem finalizedIdx_parse_init {S L} (eng : Engine S L) (s : S) (is : List Int) (l0 : L) (n : Nat)
    (hn : (effective n is).Nodup) (hr : ∀ i ∈ is, 0 ≤ i) (k : Nat) :
    k ∈ finalizedIdx (parse eng s is (init l0 n)) ↔
      k < n ∧ (k : Int) ∈ effective n is ∧ (eng k s l0).isOk = true := by
  rw [mem_finalizedIdx, parse_get, init_get, init_length]
  have hr' : ∀ i ∈ effective n is, 0 ≤ i := by
    unfold effective
    split
    · intro i hi
      simp only [List.mem_map] at hi
      obtain ⟨a, _, rfl⟩ := hi
      exact Int.natCast_nonneg a
    · exact hr
  by_cases hk : k < n
  · rw [hits_nodup hn hr' hk]
    by_cases hm : (k : Int) ∈ effective n is
    · simp only [hk, hm, if_true, Option.map_some, iter, true_and, Option.some.injEq, exists_eq_left']
      unfold PageSt.parse Outcome.isOk
      dsimp only
      split <;> simp_all
    · simp [hk, hm, iter]
  · simp [hk]

end Conv
