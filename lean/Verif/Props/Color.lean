import Verif.Color
/-! # Property theorems: colours (C18–C20) -/

namespace Props
open Py Color

/-! ## C18 -/

/-- C18: for every 24-bit colour the three decoded components are the unique bytes with `c = R·65536 + G·256 + B`. -/
theorem C18_decode (c : ℕ) (h : c < 2 ^ 24) :
    ∃ r g b : ℕ, rgbComponent c = [r, g, b] ∧ r ≤ 255 ∧ g ≤ 255 ∧ b ≤ 255 ∧ c = r * 65536 + g * 256 + b := by
  refine ⟨_, _, _, rgbComponent_eq c (by simpa using h), ?_, ?_, ?_, ?_⟩ <;> omega

example : (16711935 : ℕ) < 2 ^ 24 ∧ rgbComponent 16711935 = [255, 0, 255] := by
  refine ⟨by decide, ?_⟩
  rw [rgbComponent_eq _ (by decide)]

/-! ## C19 -/

/-- C19: encoding bytes (as fractions of 255) and decoding returns them. -/
theorem C19_round_trip (r g b : ℕ) (hr : r ≤ 255) (hg : g ≤ 255) (hb : b ≤ 255) :
    rgbComponent (rgbToValue (r / 255) (g / 255) (b / 255)).toNat = [r, g, b] := by
  have : rgbToValue (r / 255) (g / 255) (b / 255) = ((r * 65536 + g * 256 + b : ℕ) : ℤ) := by
    unfold rgbToValue
    rw [trunc_exact, trunc_exact, trunc_exact]
    push_cast
    rfl
  rw [this, Int.toNat_natCast, rgbComponent_eq _ (by omega)]
  simp only [List.cons.injEq, and_true]
  omega

/-- C19: encoding distinct byte triples gives distinct values. -/
theorem C19_injective (r g b r' g' b' : ℕ) (hr : r ≤ 255) (hg : g ≤ 255) (hb : b ≤ 255) (hr' : r' ≤ 255)
    (hg' : g' ≤ 255) (hb' : b' ≤ 255)
    (h : rgbToValue (r / 255) (g / 255) (b / 255) = rgbToValue (r' / 255) (g' / 255) (b' / 255)) :
    r = r' ∧ g = g' ∧ b = b' := by
  have h1 := C19_round_trip r g b hr hg hb
  rw [h, C19_round_trip r' g' b' hr' hg' hb'] at h1
  simp only [List.cons.injEq, and_true] at h1
  exact ⟨h1.1.symm, h1.2.1.symm, h1.2.2.symm⟩

/-- C19: for arbitrary components in [0,1] each decoded byte is the component scaled to 255 and rounded down: the
error is below one level, and the value fits in 24 bits. -/
theorem C19_decode_encode_error (r g b : ℚ) (hr : 0 ≤ r ∧ r ≤ 1) (hg : 0 ≤ g ∧ g ≤ 1) (hb : 0 ≤ b ∧ b ≤ 1) :
    0 ≤ rgbToValue r g b ∧ rgbToValue r g b < 2 ^ 24 ∧
    ∃ R G B : ℕ, rgbComponent (rgbToValue r g b).toNat = [R, G, B] ∧
      ((R : ℚ) ≤ r * 255 ∧ r * 255 < R + 1) ∧ ((G : ℚ) ≤ g * 255 ∧ g * 255 < G + 1) ∧
      ((B : ℚ) ≤ b * 255 ∧ b * 255 < B + 1) := by
  have h1 := floor255 hr.1 hr.2
  have h2 := floor255 hg.1 hg.2
  have h3 := floor255 hb.1 hb.2
  have e : ∀ x : ℚ, 0 ≤ x → ((trunc (x * 255)).toNat : ℚ) ≤ x * 255 ∧ x * 255 < (trunc (x * 255)).toNat + 1 := by
    intro x hx
    have hn : trunc (x * 255) = ⌊x * 255⌋ := trunc_nonneg (by linarith)
    have h0 : 0 ≤ ⌊x * 255⌋ := Int.floor_nonneg.2 (by linarith)
    have hc : ((trunc (x * 255)).toNat : ℚ) = ((⌊x * 255⌋ : ℤ) : ℚ) := by
      rw [hn]
      have : ((⌊x * 255⌋.toNat : ℤ) : ℚ) = ((⌊x * 255⌋ : ℤ) : ℚ) := by rw [Int.toNat_of_nonneg h0]
      exact_mod_cast this
    rw [hc]
    exact ⟨Int.floor_le _, Int.lt_floor_add_one _⟩
  refine ⟨by unfold rgbToValue; omega, by unfold rgbToValue; omega, (trunc (r * 255)).toNat, (trunc (g * 255)).toNat,
    (trunc (b * 255)).toNat, ?_, e r hr.1, e g hg.1, e b hb.1⟩
  unfold rgbToValue
  rw [rgbComponent_eq _ (by omega)]
  simp only [List.cons.injEq, and_true]
  omega

example : rgbToValue 1 0 (1 / 2) = 16711807 := by
  have h1 : trunc ((1 : ℚ) * 255) = 255 := by
    rw [trunc_nonneg (by norm_num)]; exact_mod_cast Int.floor_intCast (255 : ℤ) (R := ℚ)
  have h2 : trunc ((0 : ℚ) * 255) = 0 := by rw [trunc_nonneg (by norm_num)]; simp
  have h3 : trunc ((1 / 2 : ℚ) * 255) = 127 := by
    rw [trunc_nonneg (by norm_num), Int.floor_eq_iff]; norm_num
  rw [rgbToValue, h1, h2, h3]; norm_num

/-! ## C20 -/

/-- C20: the colour value of a shape is a 24-bit value for every component tuple (of any length) in [0,1]. -/
theorem C20_range (cs : List ℚ) (h : ∀ c ∈ cs, 0 ≤ c ∧ c ≤ 1) : 0 ≤ rgbValue cs ∧ rgbValue cs < 2 ^ 24 := by
  have key : ∀ r g b : ℚ, (0 ≤ r ∧ r ≤ 1) → (0 ≤ g ∧ g ≤ 1) → (0 ≤ b ∧ b ≤ 1) →
      0 ≤ rgbToValue r g b ∧ rgbToValue r g b < 2 ^ 24 :=
    fun r g b hr hg hb => ⟨(C19_decode_encode_error r g b hr hg hb).1, (C19_decode_encode_error r g b hr hg hb).2.1⟩
  have hm : ∀ a k : ℚ, (0 ≤ a ∧ a ≤ 1) → (0 ≤ k ∧ k ≤ 1) →
      (0 ≤ (1 - a / 1) * (1 - k / 1) ∧ (1 - a / 1) * (1 - k / 1) ≤ 1) := by
    intro a k ha hk
    have h1 : 0 ≤ 1 - a := by linarith [ha.2]
    have h2 : 0 ≤ 1 - k := by linarith [hk.2]
    rw [div_one, div_one]
    refine ⟨mul_nonneg h1 h2, ?_⟩
    exact mul_le_one₀ (by linarith [ha.1]) h2 (by linarith [hk.1])
  unfold rgbValue
  split
  · rename_i c m y k
    have hc := h c (by simp); have hm' := h m (by simp); have hy := h y (by simp); have hk := h k (by simp)
    exact key _ _ _ (hm c k hc hk) (hm m k hm' hk) (hm y k hy hk)
  · rename_i r g b
    exact key _ _ _ (h r (by simp)) (h g (by simp)) (h b (by simp))
  · rename_i g
    exact key _ _ _ (h g (by simp)) (h g (by simp)) (h g (by simp))
  · decide

/-- C20: gray is RGB with equal components; CMYK without black is the complement; full black ink is black; and
tuples of an unsupported length are black. -/
theorem C20_colour_spaces (g c m y : ℚ) :
    rgbValue [g] = rgbValue [g, g, g] ∧ rgbValue [c, m, y, 0] = rgbValue [1 - c, 1 - m, 1 - y] ∧
    rgbValue [c, m, y, 1] = 0 ∧ ∀ cs : List ℚ, cs.length ≠ 1 → cs.length ≠ 3 → cs.length ≠ 4 → rgbValue cs = 0 := by
  refine ⟨rfl, ?_, ?_, ?_⟩
  · simp [rgbValue, cmykToRgb]
  · simp [rgbValue, cmykToRgb, rgbToValue, trunc]
  · intro cs h1 h3 h4
    unfold rgbValue
    split <;> simp_all

example : ∀ c ∈ [(1 / 2 : ℚ), 0, 1, 1 / 4], 0 ≤ c ∧ c ≤ 1 := by
  intro c hc
  simp only [List.mem_cons, List.not_mem_nil, or_false] at hc
  rcases hc with rfl | rfl | rfl | rfl <;> norm_num

end Props
