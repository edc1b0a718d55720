import Mathlib.Data.Rat.Floor
import Mathlib.Algebra.Order.Field.Rat
import Mathlib.Tactic.Linarith
import Mathlib.Tactic.Ring
import Mathlib.Tactic.NormNum
import Mathlib.Tactic.Positivity
import Mathlib.Tactic.FieldSimp
/-!
# Python number functions on rationals

Floats are idealised as rationals (DESIGN.md).
-/

namespace Py

/-- `int(x)`: truncation towards zero. -/
def trunc (x : ℚ) : ℤ := if 0 ≤ x then ⌊x⌋ else ⌈x⌉

/-- `round(x)`: nearest integer, ties to even. -/
def roundHE (x : ℚ) : ℤ :=
  if x - ⌊x⌋ < 1 / 2 then ⌊x⌋
  else if 1 / 2 < x - ⌊x⌋ then ⌊x⌋ + 1
  else if ⌊x⌋ % 2 = 0 then ⌊x⌋ else ⌊x⌋ + 1

/-- `round(x, 1)`. -/
def round1 (x : ℚ) : ℚ := (roundHE (10 * x) : ℚ) / 10

theorem roundHE_cases (x : ℚ) :
    (roundHE x = ⌊x⌋ ∧ x - ⌊x⌋ ≤ 1 / 2) ∨ (roundHE x = ⌊x⌋ + 1 ∧ 1 / 2 ≤ x - ⌊x⌋) := by
  unfold roundHE
  split
  · left; exact ⟨rfl, by linarith⟩
  · split
    · right; exact ⟨rfl, by linarith⟩
    · split
      · left; exact ⟨rfl, by linarith⟩
      · right; exact ⟨rfl, by linarith⟩

theorem abs_roundHE_sub (x : ℚ) : |(roundHE x : ℚ) - x| ≤ 1 / 2 := by
  have h1 := Int.floor_le x
  have h2 := Int.lt_floor_add_one x
  rw [abs_le]
  rcases roundHE_cases x with ⟨h, h'⟩ | ⟨h, h'⟩
  · rw [h]; constructor <;> linarith
  · rw [h]; push_cast; constructor <;> linarith

@[simp] theorem roundHE_intCast (z : ℤ) : roundHE (z : ℚ) = z := by
  unfold roundHE; simp

theorem roundHE_mono {x y : ℚ} (h : x ≤ y) : roundHE x ≤ roundHE y := by
  have hf : ⌊x⌋ ≤ ⌊y⌋ := Int.floor_le_floor h
  rcases eq_or_lt_of_le hf with he | hl
  · unfold roundHE
    rw [he]
    repeat' split
    all_goals first
      | omega
      | (exfalso; linarith)
  · have h1 : roundHE x ≤ ⌊x⌋ + 1 := by
      rcases roundHE_cases x with ⟨h, _⟩ | ⟨h, _⟩ <;> omega
    have h2 : ⌊y⌋ ≤ roundHE y := by
      rcases roundHE_cases y with ⟨h, _⟩ | ⟨h, _⟩ <;> omega
    omega

theorem abs_round1_sub (x : ℚ) : |round1 x - x| ≤ 1 / 20 := by
  have h := abs_roundHE_sub (10 * x)
  unfold round1
  rw [abs_le] at *
  constructor <;> linarith [h.1, h.2]

theorem round1_mono {x y : ℚ} (h : x ≤ y) : round1 x ≤ round1 y := by
  unfold round1
  have := roundHE_mono (x := 10 * x) (y := 10 * y) (by linarith)
  have h2 : (roundHE (10 * x) : ℚ) ≤ roundHE (10 * y) := by exact_mod_cast this
  linarith

@[simp] theorem round1_round1 (x : ℚ) : round1 (round1 x) = round1 x := by
  unfold round1
  have : 10 * ((roundHE (10 * x) : ℚ) / 10) = ((roundHE (10 * x) : ℤ) : ℚ) := by ring
  rw [this, roundHE_intCast]

theorem round1_tenths (z : ℤ) : round1 ((z : ℚ) / 10) = z / 10 := by
  unfold round1
  have : 10 * ((z : ℚ) / 10) = z := by ring
  rw [this, roundHE_intCast]

theorem round1_intCast (z : ℤ) : round1 (z : ℚ) = z := by
  have h := round1_tenths (10 * z)
  push_cast at h
  have e : (10 * (z : ℚ)) / 10 = z := by ring
  rw [e] at h
  exact h

@[simp] theorem round1_zero : round1 0 = 0 := by
  have := round1_intCast 0
  simpa using this

theorem round1_nonneg {x : ℚ} (h : 0 ≤ x) : 0 ≤ round1 x := by
  have := round1_mono h
  rwa [round1_zero] at this

theorem trunc_nonneg {x : ℚ} (h : 0 ≤ x) : trunc x = ⌊x⌋ := by unfold trunc; rw [if_pos h]

end Py
