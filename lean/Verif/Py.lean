/-!
# Python primitives used by the model

Everything in this file is a hand-written account of CPython behaviour; it is part of the trusted
reading (see DESIGN.md).
-/

namespace Py

/-- The Python exceptions that the modelled code raises (or lets escape). -/
inductive Err where
  | index | value | key | zeroDiv | typ | attr
  | exn (msg : String)
  deriving Repr, DecidableEq

/-- Normalised position of `xs[i]` in a list of length `n`: negative indexes count from the end;
`none` stands for `IndexError`. -/
def normIdx (n : Nat) (i : Int) : Option Nat :=
  if 0 ≤ i then (if i < n then some i.toNat else none)
  else (if 0 ≤ i + n then some (i + n).toNat else none)

/-- `xs[i]`, `none` = `IndexError`. -/
def getIdx {α : Type _} (xs : List α) (i : Int) : Option α :=
  match normIdx xs.length i with
  | some k => xs[k]?
  | none => none

/-- Number of elements of `range(a, b, s)` (`s ≠ 0`). -/
def rangeCount (a b s : Int) : Nat :=
  if 0 < s then ((b - a + s - 1) / s).toNat
  else if s < 0 then ((a - b - s - 1) / (-s)).toNat
  else 0

/-- The elements of `range(a, b, s)`. -/
def range (a b s : Int) : List Int :=
  (List.range (rangeCount a b s)).map fun (k : Nat) => a + (k : Int) * s

/-- CPython's `PySlice_AdjustIndices` for one bound. -/
def adjust (n : Nat) (step i : Int) : Int :=
  if i < 0 then
    (if i + n < 0 then (if step < 0 then -1 else 0) else i + n)
  else if i ≥ n then (if step < 0 then (n : Int) - 1 else n)
  else i

/-- `slice(start, stop, step).indices(n)`, as the list of selected positions (`step ≠ 0`). -/
def sliceIdx (n : Nat) (start stop : Option Int) (step : Int) : List Int :=
  let a := match start with
    | some i => adjust n step i
    | none => if step < 0 then (n : Int) - 1 else 0
  let b := match stop with
    | some i => adjust n step i
    | none => if step < 0 then -1 else n
  range a b step

/-- `xs[start:stop:step]`; `slice step cannot be zero` is a `ValueError`. -/
def slice {α : Type _} (xs : List α) (start stop step : Option Int) : Except Err (List α) :=
  let s := step.getD 1
  if s = 0 then .error .value
  else .ok ((sliceIdx xs.length start stop s).filterMap fun i => xs[i.toNat]?)

/-- `str.replace(pat, rep)` on character lists, for a non-empty pattern: leftmost, non-overlapping. -/
def replace (pat rep : List Char) : List Char → List Char
  | [] => []
  | c :: cs =>
    if pat ≠ [] ∧ pat.isPrefixOf (c :: cs) then rep ++ replace pat rep ((c :: cs).drop pat.length)
    else c :: replace pat rep cs
termination_by s => s.length
decreasing_by
  · rename_i h
    have : 0 < pat.length := by
      cases pat with
      | nil => exact absurd rfl h.1
      | cons => simp
    simp only [List.length_drop, List.length_cons]; omega
  · simp

/-! ## Lemmas -/

theorem mem_range_pos {a b s : Int} (hs : 0 < s) (x : Int) :
    x ∈ range a b s ↔ ∃ k : Nat, x = a + (k : Int) * s ∧ x < b := by
  simp only [range, rangeCount, if_pos hs, List.mem_map, List.mem_range]
  constructor
  · rintro ⟨k, hk, rfl⟩
    refine ⟨k, rfl, ?_⟩
    have h1 : (k : Int) < (b - a + s - 1) / s := by omega
    have h2 : ((k : Int) + 1) * s ≤ b - a + s - 1 :=
      (Int.le_ediv_iff_mul_le hs).1 (by omega)
    rw [Int.add_mul, Int.one_mul] at h2
    omega
  · rintro ⟨k, rfl, hlt⟩
    refine ⟨k, ?_, rfl⟩
    have h2 : ((k : Int) + 1) ≤ (b - a + s - 1) / s := by
      apply (Int.le_ediv_iff_mul_le hs).2
      rw [Int.add_mul, Int.one_mul]; omega
    omega

theorem mem_range_one {a b : Int} (x : Int) : x ∈ range a b 1 ↔ a ≤ x ∧ x < b := by
  rw [mem_range_pos (by decide)]
  constructor
  · rintro ⟨k, rfl, h⟩; omega
  · rintro ⟨h1, h2⟩; exact ⟨(x - a).toNat, by omega, h2⟩

theorem range_pairwise_pos {a b s : Int} (hs : 0 < s) : (range a b s).Pairwise (· < ·) := by
  unfold range
  rw [List.pairwise_map]
  refine List.Pairwise.imp ?_ List.pairwise_lt_range
  intro i j hij
  have : ((i : Int)) * s < (j : Int) * s := Int.mul_lt_mul_of_pos_right (by omega) hs
  omega

theorem range_empty_of_le {a b s : Int} (hs : 0 < s) (h : b ≤ a) : range a b s = [] := by
  apply List.eq_nil_iff_forall_not_mem.2
  intro x hx
  obtain ⟨k, rfl, hk⟩ := (mem_range_pos hs x).1 hx
  have : 0 ≤ (k : Int) * s := Int.mul_nonneg (by omega) (by omega)
  omega

/-- Two strictly increasing integer lists with the same members are equal. -/
theorem eq_of_pairwise_lt_of_mem_iff : ∀ {l₁ l₂ : List Int}, l₁.Pairwise (· < ·) → l₂.Pairwise (· < ·) →
    (∀ x, x ∈ l₁ ↔ x ∈ l₂) → l₁ = l₂
  | [], [], _, _, _ => rfl
  | [], b :: l₂, _, _, h => by have := (h b).2 (by simp); simp at this
  | a :: l₁, [], _, _, h => by have := (h a).1 (by simp); simp at this
  | a :: l₁, b :: l₂, h₁, h₂, h => by
    rw [List.pairwise_cons] at h₁ h₂
    have hab : a = b := by
      have ha := (h a).1 (by simp)
      have hb := (h b).2 (by simp)
      simp only [List.mem_cons] at ha hb
      rcases ha with rfl | ha
      · rfl
      · rcases hb with rfl | hb
        · rfl
        · have := h₁.1 b hb; have := h₂.1 a ha; omega
    subst hab
    congr 1
    refine eq_of_pairwise_lt_of_mem_iff h₁.2 h₂.2 ?_
    intro x
    constructor
    · intro hx
      have := (h x).1 (by simp [hx])
      simp only [List.mem_cons] at this
      rcases this with rfl | h'
      · have := h₁.1 x hx; omega
      · exact h'
    · intro hx
      have := (h x).2 (by simp [hx])
      simp only [List.mem_cons] at this
      rcases this with rfl | h'
      · have := h₂.1 x hx; omega
      · exact h'

theorem replace_nil (pat rep : List Char) : replace pat rep [] = [] := by
  simp [replace]

/-- If the pattern does not occur, nothing changes. -/
theorem replace_of_not_infix (pat rep : List Char) : ∀ s : List Char, ¬ pat <:+: s →
    replace pat rep s = s := by
  intro s
  induction s with
  | nil => intro _; simp [replace]
  | cons c cs ih =>
    intro h
    rw [replace]
    have h1 : ¬ (pat ≠ [] ∧ pat.isPrefixOf (c :: cs)) := by
      rintro ⟨_, hp⟩
      exact h (List.IsPrefix.isInfix (List.isPrefixOf_iff_prefix.1 hp))
    rw [if_neg h1, ih]
    intro hi
    exact h (List.IsInfix.trans hi (List.suffix_cons c cs).isInfix)

/-- Replacing by something longer never shortens, and lengthens as soon as the pattern occurs. -/
theorem length_replace (pat rep : List Char) (hlen : pat.length < rep.length) (s : List Char) :
    s.length ≤ (replace pat rep s).length ∧
      (pat ≠ [] → pat <:+: s → s.length < (replace pat rep s).length) := by
  induction hn : s.length using Nat.strongRecOn generalizing s with
  | _ n ih =>
    cases s with
    | nil =>
      simp only [List.length_nil] at hn
      subst hn
      refine ⟨Nat.zero_le _, ?_⟩
      intro h1 h2
      exact absurd (List.infix_nil.1 h2) h1
    | cons c cs =>
      rw [replace]
      subst hn
      split
      · rename_i h
        have hp : 0 < pat.length := by
          cases pat with
          | nil => exact absurd rfl h.1
          | cons => simp
        have h3 := (ih ((c :: cs).drop pat.length).length
          (by simp only [List.length_drop, List.length_cons]; omega) _ rfl).1
        have hle : pat.length ≤ (c :: cs).length :=
          (List.isPrefixOf_iff_prefix.1 h.2).length_le
        simp only [List.length_append, List.length_drop] at *
        constructor
        · omega
        · intro _ _; omega
      · rename_i h
        have h3 := ih cs.length (by simp) cs rfl
        simp only [List.length_cons]
        constructor
        · omega
        · intro hne hi
          rcases List.infix_cons_iff.1 hi with hp | hi
          · exact absurd ⟨hne, List.isPrefixOf_iff_prefix.2 hp⟩ h
          · have := h3.2 hne hi; omega

end Py
