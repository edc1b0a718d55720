import Verif.Num
import Mathlib.Data.Nat.Digits.Lemmas
/-! # Model of the colour functions of `common/share.py` (L129-176) -/

namespace Color
open Py

/-- `hex(srgb)[2:]`: hexadecimal digits, most significant first, for `srgb ≥ 0` (`0` gives no digit here, `"0"` in
Python; both become six zeros in `zfill(6)`). -/
def hexDigits (srgb : ℕ) : List ℕ := (Nat.digits 16 srgb).reverse

/-- `str.zfill(w)` on digits. -/
def zfill (w : ℕ) (s : List ℕ) : List ℕ := List.replicate (w - s.length) 0 ++ s

/-- `int(s, 16)` for a digit list. -/
def ofHex (s : List ℕ) : ℕ := s.foldl (fun acc d => 16 * acc + d) 0

/-- `rgb_component` (share.py L129-138): `[int(s[i:i+2], 16) for i in [0, 2, 4]]`. A negative argument (which raises
in Python) is outside the type. -/
def rgbComponent (srgb : ℕ) : List ℕ :=
  let s := zfill 6 (hexDigits srgb)
  [0, 2, 4].map fun i => ofHex ((s.drop i).take 2)

/-- `rgb_to_value` (share.py L141-146) for three components. -/
def rgbToValue (r g b : ℚ) : ℤ := trunc (r * 255) * 65536 + trunc (g * 255) * 256 + trunc (b * 255)

/-- `cmyk_to_rgb` (share.py L149-155). -/
def cmykToRgb (c m y k scale : ℚ) : ℤ :=
  rgbToValue ((1 - c / scale) * (1 - k / scale)) ((1 - m / scale) * (1 - k / scale)) ((1 - y / scale) * (1 - k / scale))

/-- `rgb_value` (share.py L158-176). -/
def rgbValue : List ℚ → ℤ
  | [c, m, y, k] => cmykToRgb c m y k 1
  | [r, g, b] => rgbToValue r g b
  | [g] => rgbToValue g g g
  | _ => 0

/-! ## Lemmas -/

theorem floor255 {x : ℚ} (h0 : 0 ≤ x) (h1 : x ≤ 1) : 0 ≤ trunc (x * 255) ∧ trunc (x * 255) ≤ 255 := by
  rw [trunc_nonneg (by linarith)]
  constructor
  · exact Int.floor_nonneg.2 (by linarith)
  · have : ⌊x * 255⌋ ≤ ⌊(255 : ℚ)⌋ := Int.floor_le_floor (by linarith)
    simpa using this

theorem trunc_exact (a : ℕ) : trunc ((a : ℚ) / 255 * 255) = a := by
  have : ((a : ℚ) / 255 * 255) = a := by ring
  rw [this, trunc_nonneg (by positivity), Int.floor_natCast]

/-- The last six hex digits of a number below `16^6`. -/
theorem zfill_hexDigits (n : ℕ) (h : n < 16777216) :
    zfill 6 (hexDigits n) = [n / 1048576 % 16, n / 65536 % 16, n / 4096 % 16, n / 256 % 16, n / 16 % 16, n % 16] := by
  have key : ∀ (w n : ℕ), n < 16 ^ w → zfill w (hexDigits n) = (List.range w).reverse.map (fun i => n / 16 ^ i % 16) := by
    intro w
    induction w with
    | zero =>
      intro n hn
      have : n = 0 := by simpa using hn
      subst this
      simp [zfill, hexDigits]
    | succ w ih =>
      intro n hn
      have hd : n / 16 < 16 ^ w := by
        rw [Nat.div_lt_iff_lt_mul (by decide)]
        calc n < 16 ^ (w + 1) := hn
          _ = 16 ^ w * 16 := by ring
      have h1 := ih (n / 16) hd
      have h2 : (List.range (w + 1)).reverse.map (fun i => n / 16 ^ i % 16) =
          (List.range w).reverse.map (fun i => n / 16 / 16 ^ i % 16) ++ [n % 16] := by
        rw [List.range_succ_eq_map, List.reverse_cons, List.map_append, ← List.map_reverse, List.map_map]
        congr 1
        · apply List.map_congr_left
          intro i _
          simp only [Function.comp, Nat.succ_eq_add_one]
          rw [Nat.div_div_eq_div_mul, pow_succ, Nat.mul_comm]
        · simp
      rw [h2, ← h1]
      rcases Nat.eq_zero_or_pos n with h0 | h0
      · subst h0
        simp [zfill, hexDigits, List.replicate_succ']
      · unfold hexDigits zfill
        rw [Nat.digits_def' (by decide) h0]
        simp only [List.reverse_cons, List.length_append, List.length_reverse, List.length_cons, List.length_nil]
        rw [List.append_assoc]
        congr 2
        omega
  have h6 := key 6 n (by simpa using h)
  rw [h6]
  simp [List.range_succ]

theorem rgbComponent_eq (n : ℕ) (h : n < 16777216) : rgbComponent n = [n / 65536, n / 256 % 256, n % 256] := by
  unfold rgbComponent
  rw [zfill_hexDigits n h]
  simp [ofHex]
  omega

end Color
