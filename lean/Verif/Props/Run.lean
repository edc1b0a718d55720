import Verif.Spec.Run
import Verif.Props.TextSpan
import Verif.Props.CellDocx
/-! # C93: the formatting of a piece of text in the docx -/

namespace Props
open Py Spec Text Run

/-! ## Setting a property -/

theorem ru_put_other (x : RPr) (l : List RPr) (k : Kind) (h : x.kind ≠ k) : (put x l).filter (fun y => decide (y.kind = k)) = l.filter fun y => decide (y.kind = k) := by
  unfold put
  rw [List.filter_append, List.filter_filter, List.filter_cons_of_neg (by simpa using h), List.filter_nil, List.append_nil]
  refine List.filter_congr fun y _ => ?_
  by_cases hy : y.kind = k
  · simp [hy, Ne.symm h]
  · simp [hy]

theorem ru_put_same (x : RPr) (l : List RPr) : (put x l).filter (fun y => decide (y.kind = x.kind)) = [x] := by
  unfold put
  rw [List.filter_append, List.filter_filter, List.filter_cons_of_pos (by simp), List.filter_nil]
  have : (l.filter fun a => decide (a.kind = x.kind) && decide (a.kind ≠ x.kind)) = [] := by
    rw [List.filter_eq_nil_iff]
    intro a _
    by_cases h : a.kind = x.kind <;> simp [h]
  rw [this, List.nil_append]

theorem ru_put_at (x : RPr) (l : List RPr) (k : Kind) (h : x.kind = k) : (put x l).filter (fun y => decide (y.kind = k)) = [x] := by
  subst h; exact ru_put_same x l

theorem ru_cons_other (x : RPr) (l : List RPr) (k : Kind) (h : x.kind ≠ k) : (x :: l).filter (fun y => decide (y.kind = k)) = l.filter fun y => decide (y.kind = k) :=
  List.filter_cons_of_neg (by simpa using h)

/-- Kinds a style can change. -/
def styleKind (k : Kind) : Prop := k = .highlight ∨ k = .shd ∨ k = .u ∨ k = .strike

theorem ru_style_other (c : ℤ) (l : List RPr) (st : Style) (k : Kind) (h : ¬ styleKind k) :
    (setStyle c l st).filter (fun y => decide (y.kind = k)) = l.filter fun y => decide (y.kind = k) := by
  unfold styleKind at h
  push Not at h
  obtain ⟨h1, h2, h3, h4⟩ := h
  unfold setStyle
  split
  · unfold setShading
    split
    · exact ru_put_other _ _ _ fun e => h1 e.symm
    · exact ru_cons_other _ _ _ fun e => h2 e.symm
  · split_ifs
    · exact ru_put_other _ _ _ fun e => h3 e.symm
    · exact ru_cons_other _ _ _ fun e => h3 e.symm
  · exact ru_put_other _ _ _ fun e => h4 e.symm
  · rfl

theorem ru_styles_other (c : ℤ) (sts : List Style) (l : List RPr) (k : Kind) (h : ¬ styleKind k) :
    (sts.foldl (setStyle c) l).filter (fun y => decide (y.kind = k)) = l.filter fun y => decide (y.kind = k) := by
  induction sts generalizing l with
  | nil => rfl
  | cons st sts ih => rw [List.foldl_cons, ih, ru_style_other _ _ _ _ h]

theorem ru_scaling_other (sc : Option ℚ) (l : List RPr) (k : Kind) (h : k ≠ .w) : (setScaling sc l).filter (fun y => decide (y.kind = k)) = l.filter fun y => decide (y.kind = k) := by
  cases sc with
  | none => rfl
  | some x => exact ru_cons_other _ _ _ fun e => h e.symm

/-- The elements of the kinds not set by styles. -/
theorem ru_kind (s : Span) (f : ℚ × Option ℚ) (k : Kind) (h : ¬ styleKind k) :
    (s.style.foldl (setStyle s.color) (setScaling f.2 (put (.sz (trunc (f.1 * 2))) (basics s)))).filter (fun y => decide (y.kind = k)) =
      (setScaling f.2 (put (.sz (trunc (f.1 * 2))) (basics s))).filter fun y => decide (y.kind = k) := ru_styles_other _ _ _ _ h

theorem ru_trunc (k : ℤ) : trunc ((k : ℚ) / 2 * 2) = k := by
  have : (k : ℚ) / 2 * 2 = k := by ring
  rw [this]
  unfold trunc
  split_ifs <;> simp

/-- **C93**: bold, italic, font, colour and size of the text. The run says bold and italic exactly according to the font flags, names one font for all scripts, has the colour of the text,
and a size and scaling that give back the size in the PDF up to 1%. -/
theorem C93_font (s : Span) (hs : 1 / 4 < s.size) (hc : Colours s) : ∃ rPr, format s = .ok rPr ∧
    The rPr (.b (s.flags.testBit 4)) ∧ The rPr (.i (s.flags.testBit 1)) ∧ (∃ f, The rPr (.fonts f f f) ∧ f = fontOf s.font.toList) ∧
    (∃ h, The rPr (.color h) ∧ HexOf h s.color.toNat) ∧
    ∃ k : ℤ, The rPr (.sz k) ∧ |(k : ℚ) / 2 - s.size| ≤ 1 / 4 ∧
      ((∃ p, The rPr (.w p) ∧ p / 100 * ((k : ℚ) / 2) = s.size) ∨ (Without rPr .w ∧ |(k : ℚ) / 2 - s.size| < 1 / 100 * ((k : ℚ) / 2))) := by
  obtain ⟨k, sc, e, hk, hd, hsc⟩ := (C50_font_size s.size (by linarith)).2 hs
  have hfl := font_flags_bits s.flags
  have hb : (fontFlags s.flags).2.2 = s.flags.testBit 4 := by
    rw [hfl, Nat.testBit_eq_decide_div_mod_eq]
  have hi : (fontFlags s.flags).2.1 = s.flags.testBit 1 := by
    rw [hfl, Nat.testBit_eq_decide_div_mod_eq]
  refine ⟨s.style.foldl (setStyle s.color) (setScaling sc (put (.sz (trunc ((k : ℚ) / 2 * 2))) (basics s))), ?_, ?_, ?_, ⟨_, ?_, rfl⟩, ⟨CellDocx.hex6 s.color.toNat, ?_, ?_⟩, ⟨k, ?_, hd, ?_⟩⟩
  · unfold format
    rw [e]
  · unfold The
    refine (ru_kind s (_, sc) .b (by unfold styleKind; simp)).trans ?_
    rw [ru_scaling_other _ _ _ (by simp), ru_put_other _ _ _ (by simp [RPr.kind])]
    unfold basics
    rw [ru_put_other _ _ _ (by simp [RPr.kind]), ru_put_other _ _ _ (by simp [RPr.kind]), hb]
    exact ru_put_at _ _ _ rfl
  · unfold The
    refine (ru_kind s (_, sc) .i (by unfold styleKind; simp)).trans ?_
    rw [ru_scaling_other _ _ _ (by simp), ru_put_other _ _ _ (by simp [RPr.kind])]
    unfold basics
    rw [ru_put_other _ _ _ (by simp [RPr.kind]), ru_put_other _ _ _ (by simp [RPr.kind]), ru_put_other _ _ _ (by simp [RPr.kind]), hi]
    exact ru_put_at _ _ _ rfl
  · unfold The
    refine (ru_kind s (_, sc) .fonts (by unfold styleKind; simp)).trans ?_
    rw [ru_scaling_other _ _ _ (by simp), ru_put_other _ _ _ (by simp [RPr.kind])]
    unfold basics
    rw [ru_put_other _ _ _ (by simp [RPr.kind])]
    exact ru_put_at _ _ _ rfl
  · unfold The
    refine (ru_kind s (_, sc) .color (by unfold styleKind; simp)).trans ?_
    rw [ru_scaling_other _ _ _ (by simp), ru_put_other _ _ _ (by simp [RPr.kind])]
    unfold basics
    exact ru_put_at _ _ _ rfl
  · refine cd_hex _ ?_
    have := hc.1.2
    have := hc.1.1
    omega
  · unfold The
    refine (ru_kind s (_, sc) .sz (by unfold styleKind; simp)).trans ?_
    rw [ru_scaling_other _ _ _ (by simp), ru_trunc]
    exact ru_put_at _ _ _ rfl
  · have hw : ∀ x : RPr, x.kind ≠ .w → ∀ l : List RPr, Without l .w → Without (put x l) .w := by
      intro x hx l hl y hy
      unfold put at hy
      rcases List.mem_append.1 hy with h | h
      · exact hl y (List.mem_filter.1 h).1
      · rw [List.mem_singleton] at h; subst h; exact hx
    have h0 : Without (put (.sz (trunc ((k : ℚ) / 2 * 2))) (basics s)) .w := by
      unfold basics
      refine hw _ (by simp [RPr.kind]) _ (hw _ (by simp [RPr.kind]) _ (hw _ (by simp [RPr.kind]) _ (hw _ (by simp [RPr.kind]) _ (hw _ (by simp [RPr.kind]) _ ?_))))
      intro y hy; cases hy
    have hnil : (put (.sz (trunc ((k : ℚ) / 2 * 2))) (basics s)).filter (fun y => decide (y.kind = .w)) = [] := by
      rw [List.filter_eq_nil_iff]
      intro y hy
      simpa using h0 y hy
    have hst := ru_kind s ((k : ℚ) / 2, sc) .w (by unfold styleKind; simp)
    dsimp only at hst
    cases sc with
    | some x =>
      left
      refine ⟨100 * x, ?_, ?_⟩
      · unfold The
        refine hst.trans ?_
        unfold setScaling
        rw [List.filter_cons_of_pos (by simp [RPr.kind]), hnil]
      · dsimp only at hsc
        rw [← hsc]; ring
    | none =>
      right
      refine ⟨?_, hsc⟩
      intro y hy hky
      have : y ∈ (s.style.foldl (setStyle s.color) (setScaling none (put (.sz (trunc ((k : ℚ) / 2 * 2))) (basics s)))).filter fun y => decide (y.kind = .w) :=
        List.mem_filter.2 ⟨hy, by simpa using hky⟩
      rw [hst] at this
      unfold setScaling at this
      rw [hnil] at this
      cases this

/-! ## Decorations -/

theorem ru_mem_filter {k : Kind} {l : List RPr} {x : RPr} : x ∈ l.filter (fun y => decide (y.kind = k)) ↔ x ∈ l ∧ x.kind = k := by
  rw [List.mem_filter, decide_eq_true_eq]

/-- The underlines of the text, one style after the other. -/
theorem ru_underline (c : ℤ) (l : List RPr) (hl : Without l .u) (sts : List Style) (hs : ∀ st ∈ sts, IsColour st.color) :
    ((∃ x ∈ sts.foldl (setStyle c) l, x.kind = .u) ↔ ∃ st ∈ sts, st.type = .underline) ∧
    (∀ x ∈ sts.foldl (setStyle c) l, x.kind = .u → ∃ st ∈ sts, st.type = .underline ∧ Underlines c.toNat st.color.toNat x) ∧
    ∀ d, ((sts.filter fun st => decide (st.type = .underline)).map Style.color) = [d] →
      ∃ x, (sts.foldl (setStyle c) l).filter (fun y => decide (y.kind = .u)) = [x] ∧ Underlines c.toNat d.toNat x := by
  induction sts using List.reverseRecOn with
  | nil =>
    refine ⟨⟨?_, ?_⟩, ?_, ?_⟩
    · rintro ⟨x, hx, hk⟩; exact absurd hk (hl x hx)
    · rintro ⟨_, h, _⟩; cases h
    · intro x hx hk; exact absurd hk (hl x hx)
    · intro d h; cases h
  | append_singleton sts st ih =>
    obtain ⟨i1, i2, i3⟩ := ih (fun s h => hs s (List.mem_append_left _ h))
    rw [List.foldl_append, List.foldl_cons, List.foldl_nil]
    set L := sts.foldl (setStyle c) l with hL
    have hst := hs st (by simp)
    by_cases hu : st.type = .underline
    · -- an underline
      have hcase : ∃ x, (setStyle c L st).filter (fun y => decide (y.kind = .u)) = x :: (if c = st.color then [] else L.filter fun y => decide (y.kind = .u)) ∧
          Underlines c.toNat st.color.toNat x ∧ x.kind = .u := by
        unfold setStyle
        rw [hu]
        dsimp only
        by_cases he : c = st.color
        · rw [if_pos he, if_pos he]
          exact ⟨.u none, ru_put_same (.u none) L, by unfold Underlines; rw [he], rfl⟩
        · rw [if_neg he, if_neg he]
          refine ⟨.u (some (CellDocx.hex6 st.color.toNat)), ?_, ?_, rfl⟩
          · unfold setUnderline
            rw [List.filter_cons_of_pos (by simp [RPr.kind])]
          · refine cd_hex _ ?_
            have := hst.2; have := hst.1; omega
      obtain ⟨x, e, hx, hxk⟩ := hcase
      have hxm : x ∈ setStyle c L st := (ru_mem_filter.1 (by rw [e]; simp : x ∈ (setStyle c L st).filter fun y => decide (y.kind = .u))).1
      refine ⟨⟨fun _ => ⟨st, by simp, hu⟩, fun _ => ⟨x, hxm, hxk⟩⟩, ?_, ?_⟩
      · intro y hy hk
        have : y ∈ (setStyle c L st).filter fun y => decide (y.kind = .u) := ru_mem_filter.2 ⟨hy, hk⟩
        rw [e] at this
        rcases List.mem_cons.1 this with rfl | h
        · exact ⟨st, by simp, hu, hx⟩
        · split_ifs at h
          · cases h
          · obtain ⟨s', h1, h2⟩ := i2 y (ru_mem_filter.1 h).1 hk
            exact ⟨s', List.mem_append_left _ h1, h2⟩
      · intro d hd
        rw [List.filter_append, List.filter_cons_of_pos (by simpa using hu), List.map_append] at hd
        have hnil : (sts.filter fun st => decide (st.type = .underline)) = [] := by
          have := congrArg List.length hd
          simp only [List.length_append, List.length_map, List.length_cons, List.filter_nil, List.length_nil] at this
          exact List.length_eq_zero_iff.1 (by omega)
        rw [hnil] at hd
        have hd' : st.color = d := by simpa using hd
        have hLn : (L.filter fun y => decide (y.kind = .u)) = [] := by
          rw [List.filter_eq_nil_iff]
          intro y hy hk
          obtain ⟨s', h1, h2⟩ := i1.1 ⟨y, hy, by simpa using hk⟩
          have : s' ∈ sts.filter fun st => decide (st.type = .underline) := List.mem_filter.2 ⟨h1, by simpa using h2⟩
          rw [hnil] at this; cases this
        refine ⟨x, ?_, hd' ▸ hx⟩
        rw [e, hLn]
        simp
    · -- anything else
      have e : (setStyle c L st).filter (fun y => decide (y.kind = .u)) = L.filter fun y => decide (y.kind = .u) := by
        unfold setStyle
        split
        · unfold setShading
          split
          · exact ru_put_other _ _ _ (by simp [RPr.kind])
          · exact ru_cons_other _ _ _ (by simp [RPr.kind])
        · rename_i h; exact absurd h hu
        · exact ru_put_other _ _ _ (by simp [RPr.kind])
        · rfl
      have em : ∀ y : RPr, y.kind = .u → (y ∈ setStyle c L st ↔ y ∈ L) := by
        intro y hk
        have h1 := ru_mem_filter (k := .u) (l := setStyle c L st) (x := y)
        have h2 := ru_mem_filter (k := .u) (l := L) (x := y)
        rw [e] at h1
        exact ⟨fun h => (h2.1 (h1.2 ⟨h, hk⟩)).1, fun h => (h1.1 (h2.2 ⟨h, hk⟩)).1⟩
      refine ⟨⟨?_, ?_⟩, ?_, ?_⟩
      · rintro ⟨x, hx, hk⟩
        obtain ⟨s', h1, h2⟩ := i1.1 ⟨x, (em x hk).1 hx, hk⟩
        exact ⟨s', List.mem_append_left _ h1, h2⟩
      · rintro ⟨s', h1, h2⟩
        rcases List.mem_append.1 h1 with h1 | h1
        · obtain ⟨x, hx, hk⟩ := i1.2 ⟨s', h1, h2⟩
          exact ⟨x, (em x hk).2 hx, hk⟩
        · rw [List.mem_singleton] at h1; subst h1; exact absurd h2 hu
      · intro x hx hk
        obtain ⟨s', h1, h2⟩ := i2 x ((em x hk).1 hx) hk
        exact ⟨s', List.mem_append_left _ h1, h2⟩
      · intro d hd
        rw [List.filter_append, List.filter_cons_of_neg (by simpa using hu), List.filter_nil, List.append_nil] at hd
        rw [e]
        exact i3 d hd

/-- A property that gives a background. -/
def isBackground (x : RPr) : Bool := decide (x.kind = .highlight) || decide (x.kind = .shd)

theorem ru_named (c : ℕ) (n : Named) (h : named c = some n) : namedRGB n = c := by
  unfold named at h
  split_ifs at h with h1 h2 h3 h4 h5 h6 <;> (obtain rfl := Option.some.inj h; first | exact h1.symm | exact h2.symm | exact h3.symm | exact h4.symm | exact h5.symm | exact h6.symm)

/-- The backgrounds of the text, one style after the other. -/
theorem ru_background (c : ℤ) (l : List RPr) (hl : ∀ x ∈ l, isBackground x = false) (sts : List Style) (hs : ∀ st ∈ sts, IsColour st.color) :
    ((∃ x ∈ sts.foldl (setStyle c) l, isBackground x = true) ↔ ∃ st ∈ sts, st.type = .highlight) ∧
    (∀ x ∈ sts.foldl (setStyle c) l, isBackground x = true → ∃ st ∈ sts, st.type = .highlight ∧ Background st.color.toNat x) ∧
    ∀ d, ((sts.filter fun st => decide (st.type = .highlight)).map Style.color) = [d] →
      ∃ x, (sts.foldl (setStyle c) l).filter isBackground = [x] ∧ Background d.toNat x := by
  induction sts using List.reverseRecOn with
  | nil =>
    refine ⟨⟨?_, ?_⟩, ?_, ?_⟩
    · rintro ⟨x, hx, hk⟩; rw [hl x hx] at hk; cases hk
    · rintro ⟨_, h, _⟩; cases h
    · intro x hx hk; rw [hl x hx] at hk; cases hk
    · intro d h; cases h
  | append_singleton sts st ih =>
    obtain ⟨i1, i2, i3⟩ := ih (fun s h => hs s (List.mem_append_left _ h))
    rw [List.foldl_append, List.foldl_cons, List.foldl_nil]
    set L := sts.foldl (setStyle c) l with hL
    have hst := hs st (by simp)
    by_cases hu : st.type = .highlight
    · have hcase : ∃ x, x ∈ setStyle c L st ∧ Background st.color.toNat x ∧ isBackground x = true ∧
          (∀ y ∈ setStyle c L st, isBackground y = true → y = x ∨ y ∈ L) ∧ ((L.filter isBackground) = [] → (setStyle c L st).filter isBackground = [x]) := by
        unfold setStyle
        rw [hu]
        dsimp only
        unfold setShading
        cases hn : named st.color.toNat with
        | some n =>
          refine ⟨.highlight n, ?_, ru_named _ _ hn, rfl, ?_, ?_⟩
          · unfold put; simp
          · intro y hy _
            unfold put at hy
            rcases List.mem_append.1 hy with h | h
            · exact Or.inr (List.mem_filter.1 h).1
            · exact Or.inl (List.mem_singleton.1 h)
          · intro h
            dsimp only
            unfold put
            rw [List.filter_append, List.filter_filter, List.filter_cons_of_pos (by rfl), List.filter_nil]
            have : (L.filter fun a => isBackground a && decide (a.kind ≠ (RPr.highlight n).kind)) = [] := by
              rw [List.filter_eq_nil_iff] at h ⊢
              intro a ha hb
              exact h a ha (Bool.and_eq_true_iff.1 hb).1
            rw [this]; rfl
        | none =>
          refine ⟨.shd (CellDocx.hex6 st.color.toNat), ?_, ?_, rfl, ?_, ?_⟩
          · simp
          · refine cd_hex _ ?_
            have := hst.2; have := hst.1; omega
          · intro y hy _
            rcases List.mem_cons.1 hy with h | h
            · exact Or.inl h
            · exact Or.inr h
          · intro h
            dsimp only
            rw [List.filter_cons_of_pos (by rfl), h]
      obtain ⟨x, hxm, hx, hxk, hold, huniq⟩ := hcase
      refine ⟨⟨fun _ => ⟨st, by simp, hu⟩, fun _ => ⟨x, hxm, hxk⟩⟩, ?_, ?_⟩
      · intro y hy hk
        rcases hold y hy hk with rfl | h
        · exact ⟨st, by simp, hu, hx⟩
        · obtain ⟨s', h1, h2⟩ := i2 y h hk
          exact ⟨s', List.mem_append_left _ h1, h2⟩
      · intro d hd
        rw [List.filter_append, List.filter_cons_of_pos (by simpa using hu), List.map_append] at hd
        have hnil : (sts.filter fun st => decide (st.type = .highlight)) = [] := by
          have := congrArg List.length hd
          simp only [List.length_append, List.length_map, List.length_cons, List.filter_nil, List.length_nil] at this
          exact List.length_eq_zero_iff.1 (by omega)
        rw [hnil] at hd
        have hd' : st.color = d := by simpa using hd
        have hLn : L.filter isBackground = [] := by
          rw [List.filter_eq_nil_iff]
          intro y hy hk
          obtain ⟨s', h1, h2⟩ := i1.1 ⟨y, hy, by simpa using hk⟩
          have : s' ∈ sts.filter fun st => decide (st.type = .highlight) := List.mem_filter.2 ⟨h1, by simpa using h2⟩
          rw [hnil] at this; cases this
        exact ⟨x, huniq hLn, hd' ▸ hx⟩
    · have e : (setStyle c L st).filter isBackground = L.filter isBackground := by
        have hput : ∀ x : RPr, isBackground x = false → (put x L).filter isBackground = L.filter isBackground := by
          intro x hx
          unfold put
          rw [List.filter_append, List.filter_filter, List.filter_cons_of_neg (by simp [hx]), List.filter_nil, List.append_nil]
          refine List.filter_congr fun y _ => ?_
          by_cases hy : isBackground y = true
          · have : y.kind ≠ x.kind := by
              intro he
              unfold isBackground at hx hy
              rw [he, hx] at hy; cases hy
            simp [hy, this]
          · simp [hy]
        unfold setStyle
        split
        · rename_i h; exact absurd h hu
        · split_ifs
          · exact hput _ rfl
          · exact List.filter_cons_of_neg (by simp [isBackground, RPr.kind])
        · exact hput _ rfl
        · rfl
      have em : ∀ y : RPr, isBackground y = true → (y ∈ setStyle c L st ↔ y ∈ L) := by
        intro y hk
        have h1 : y ∈ (setStyle c L st).filter isBackground ↔ _ := List.mem_filter
        have h2 : y ∈ L.filter isBackground ↔ _ := List.mem_filter
        rw [e] at h1
        exact ⟨fun h => (h2.1 (h1.2 ⟨h, hk⟩)).1, fun h => (h1.1 (h2.2 ⟨h, hk⟩)).1⟩
      refine ⟨⟨?_, ?_⟩, ?_, ?_⟩
      · rintro ⟨x, hx, hk⟩
        obtain ⟨s', h1, h2⟩ := i1.1 ⟨x, (em x hk).1 hx, hk⟩
        exact ⟨s', List.mem_append_left _ h1, h2⟩
      · rintro ⟨s', h1, h2⟩
        rcases List.mem_append.1 h1 with h1 | h1
        · obtain ⟨x, hx, hk⟩ := i1.2 ⟨s', h1, h2⟩
          exact ⟨x, (em x hk).2 hx, hk⟩
        · rw [List.mem_singleton] at h1; subst h1; exact absurd h2 hu
      · intro x hx hk
        obtain ⟨s', h1, h2⟩ := i2 x ((em x hk).1 hx) hk
        exact ⟨s', List.mem_append_left _ h1, h2⟩
      · intro d hd
        rw [List.filter_append, List.filter_cons_of_neg (by simpa using hu), List.filter_nil, List.append_nil] at hd
        rw [e]
        exact i3 d hd

/-- The strike of the text. -/
theorem ru_strike (c : ℤ) (l : List RPr) (hl : Without l .strike) (sts : List Style) :
    (sts.foldl (setStyle c) l).filter (fun y => decide (y.kind = .strike)) = if ∃ st ∈ sts, st.type = .strike then [.strike true] else [] := by
  induction sts using List.reverseRecOn with
  | nil =>
    rw [if_neg (by simp)]
    rw [List.filter_eq_nil_iff]
    intro y hy
    simpa using hl y hy
  | append_singleton sts st ih =>
    rw [List.foldl_append, List.foldl_cons, List.foldl_nil]
    set L := sts.foldl (setStyle c) l with hL
    by_cases hu : st.type = .strike
    · rw [if_pos ⟨st, by simp, hu⟩]
      unfold setStyle
      rw [hu]
      exact ru_put_same (.strike true) L
    · have e : (setStyle c L st).filter (fun y => decide (y.kind = .strike)) = L.filter fun y => decide (y.kind = .strike) := by
        unfold setStyle
        split
        · unfold setShading
          split
          · exact ru_put_other _ _ _ (by simp [RPr.kind])
          · exact ru_cons_other _ _ _ (by simp [RPr.kind])
        · split_ifs
          · exact ru_put_other _ _ _ (by simp [RPr.kind])
          · exact ru_cons_other _ _ _ (by simp [RPr.kind])
        · rename_i h; exact absurd h hu
        · rfl
      rw [e, ih]
      congr 1
      simp only [List.mem_append, List.mem_singleton, eq_iff_iff]
      constructor
      · rintro ⟨s', h1, h2⟩; exact ⟨s', Or.inl h1, h2⟩
      · rintro ⟨s', h1 | h1, h2⟩
        · exact ⟨s', h1, h2⟩
        · subst h1; exact absurd h2 hu

/-- What is set before the styles has no decoration. -/
theorem ru_plain (s : Span) (f : ℚ × Option ℚ) : ∀ x ∈ setScaling f.2 (put (.sz (trunc (f.1 * 2))) (basics s)), ¬ styleKind x.kind ∧ x.kind ≠ .vertAlign := by
  have hput : ∀ (x : RPr) (l : List RPr), (¬ styleKind x.kind ∧ x.kind ≠ .vertAlign) → (∀ y ∈ l, ¬ styleKind y.kind ∧ y.kind ≠ .vertAlign) →
      ∀ y ∈ put x l, ¬ styleKind y.kind ∧ y.kind ≠ .vertAlign := by
    intro x l hx hl y hy
    unfold put at hy
    rcases List.mem_append.1 hy with h | h
    · exact hl y (List.mem_filter.1 h).1
    · rw [List.mem_singleton] at h; subst h; exact hx
  have h0 : ∀ y ∈ put (.sz (trunc (f.1 * 2))) (basics s), ¬ styleKind y.kind ∧ y.kind ≠ .vertAlign := by
    unfold basics
    refine hput _ _ (by simp [styleKind, RPr.kind]) (hput _ _ (by simp [styleKind, RPr.kind]) (hput _ _ (by simp [styleKind, RPr.kind]) (hput _ _ (by simp [styleKind, RPr.kind])
      (hput _ _ (by simp [styleKind, RPr.kind]) ?_))))
    intro y hy; cases hy
  intro x hx
  cases hf : f.2 with
  | none => rw [hf] at hx; exact h0 x hx
  | some v =>
    rw [hf] at hx
    rcases List.mem_cons.1 hx with rfl | h
    · simp [styleKind, RPr.kind]
    · exact h0 x h

/-- **C93**: the decorations. Text is underlined exactly if a line under it was recognised, in the colour of such a line (the colour of the line, if there is one only); struck through exactly
if a line through it was recognised; and has a background exactly if a coloured area behind it was recognised, of the colour of such an area. -/
theorem C93_decoration (s : Span) (hc : Colours s) (rPr : List RPr) (h : format s = .ok rPr) :
    (((∃ x ∈ rPr, x.kind = .u) ↔ colours .underline s ≠ []) ∧ (∀ x ∈ rPr, x.kind = .u → ∃ c ∈ colours .underline s, Underlines s.color.toNat c.toNat x) ∧
      ∀ c, colours .underline s = [c] → ∃ x, The rPr x ∧ Underlines s.color.toNat c.toNat x) ∧
    (if colours .strike s = [] then Without rPr .strike else The rPr (.strike true)) ∧
    (((∃ x ∈ rPr, isBackground x = true) ↔ colours .highlight s ≠ []) ∧ (∀ x ∈ rPr, isBackground x = true → ∃ c ∈ colours .highlight s, Background c.toNat x) ∧
      ∀ c, colours .highlight s = [c] → ∃ x, rPr.filter isBackground = [x] ∧ Background c.toNat x) := by
  unfold format at h
  cases hf : fontSize s.size with
  | error e => rw [hf] at h; cases h
  | ok f =>
    rw [hf] at h
    have h' : s.style.foldl (setStyle s.color) (setScaling f.2 (put (.sz (trunc (f.1 * 2))) (basics s))) = rPr := by injection h
    have hp := ru_plain s f
    set l := setScaling f.2 (put (.sz (trunc (f.1 * 2))) (basics s)) with hl
    have hne : ∀ t, colours t s ≠ [] ↔ ∃ st ∈ s.style, st.type = t := by
      intro t
      unfold colours
      constructor
      · intro h
        obtain ⟨c, hc⟩ := List.exists_mem_of_ne_nil _ h
        obtain ⟨st, h1, _⟩ := List.mem_map.1 hc
        exact ⟨st, (List.mem_filter.1 h1).1, by simpa using (List.mem_filter.1 h1).2⟩
      · rintro ⟨st, h1, h2⟩
        exact List.ne_nil_of_mem (List.mem_map_of_mem (List.mem_filter.2 ⟨h1, by simpa using h2⟩))
    have hmem : ∀ t c, c ∈ colours t s ↔ ∃ st ∈ s.style, st.type = t ∧ st.color = c := by
      intro t c
      unfold colours
      simp only [List.mem_map, List.mem_filter, decide_eq_true_eq]
      constructor
      · rintro ⟨st, ⟨h1, h2⟩, h3⟩; exact ⟨st, h1, h2, h3⟩
      · rintro ⟨st, h1, h2, h3⟩; exact ⟨st, ⟨h1, h2⟩, h3⟩
    obtain ⟨u1, u2, u3⟩ := ru_underline s.color l (fun x hx hk => (hp x hx).1 (by rw [hk]; simp [styleKind])) s.style hc.2
    obtain ⟨b1, b2, b3⟩ := ru_background s.color l (fun x hx => by
      have := (hp x hx).1
      unfold styleKind at this
      push Not at this
      simp [isBackground, this.1, this.2.1]) s.style hc.2
    have st := ru_strike s.color l (fun x hx hk => (hp x hx).1 (by rw [hk]; simp [styleKind])) s.style
    rw [h'] at u1 u2 u3 b1 b2 b3 st
    refine ⟨⟨u1.trans (hne _).symm, ?_, ?_⟩, ?_, b1.trans (hne _).symm, ?_, b3⟩
    · intro x hx hk
      obtain ⟨s', h1, h2, h3⟩ := u2 x hx hk
      exact ⟨s'.color, (hmem _ _).2 ⟨s', h1, h2, rfl⟩, h3⟩
    · intro c hcc
      obtain ⟨x, h1, h2⟩ := u3 c hcc
      refine ⟨x, ?_, h2⟩
      have : x.kind = .u := (ru_mem_filter.1 (by rw [h1]; simp : x ∈ rPr.filter fun y => decide (y.kind = .u))).2
      unfold The
      rw [this]; exact h1
    · split_ifs with hs
      · rw [if_neg (fun hh => (hne _).2 hh hs)] at st
        intro y hy hk
        have : y ∈ rPr.filter fun y => decide (y.kind = .strike) := ru_mem_filter.2 ⟨hy, hk⟩
        rw [st] at this; cases this
      · rw [if_pos ((hne _).1 hs)] at st
        exact st
    · intro x hx hk
      obtain ⟨s', h1, h2, h3⟩ := b2 x hx hk
      exact ⟨s'.color, (hmem _ _).2 ⟨s', h1, h2, rfl⟩, h3⟩

/-- Superscript text is not superscript in the docx: whatever the flags, the run has no vertical alignment. -/
theorem C93_refuted_superscript (s : Span) (rPr : List RPr) (h : format s = .ok rPr) : Without rPr .vertAlign := by
  unfold format at h
  cases hf : fontSize s.size with
  | error e => rw [hf] at h; cases h
  | ok f =>
    rw [hf] at h
    have h' : s.style.foldl (setStyle s.color) (setScaling f.2 (put (.sz (trunc (f.1 * 2))) (basics s))) = rPr := by injection h
    have := ru_kind s f .vertAlign (by simp [styleKind])
    rw [h'] at this
    intro y hy hk
    have hm : y ∈ rPr.filter fun y => decide (y.kind = .vertAlign) := ru_mem_filter.2 ⟨hy, hk⟩
    rw [this] at hm
    exact (ru_plain s f y (ru_mem_filter.1 hm).1).2 hk

/-- Two lines of different colours under one piece of text: the run gets two underlines. -/
theorem C93_refuted_two_underlines : (format ⟨[], Geom.Rect.zero, [⟨.underline, 255, none⟩, ⟨.underline, 65280, none⟩], 0, "", 12, 0⟩).toOption.map
    (fun l => (l.filter fun x => decide (x.kind = .u)).length) = some 2 := by decide +kernel

/-- A span with a red underline, a grey background and a strike: the hypotheses are met. -/
def ruSpan : Span := ⟨[⟨'a', ⟨0, 0, 5, 10⟩⟩], ⟨0, 0, 5, 10⟩, [⟨.underline, 0xFF0000, none⟩, ⟨.strike, 0, none⟩, ⟨.highlight, 0x808080, none⟩, ⟨.hyperlink, 0, some "http://x"⟩], 0, "Arial-Bold", 511 / 50, 16⟩

example : Colours ruSpan ∧ 1 / 4 < ruSpan.size := by
  unfold Colours IsColour
  refine ⟨⟨by decide +kernel, by decide +kernel⟩, by decide +kernel⟩

example : (format ruSpan).toOption = some [.shd [8, 0, 8, 0, 8, 0], .u (some [15, 15, 0, 0, 0, 0]), .w (511 / 5), .i false, .b true, .fonts "Arial".toList "Arial".toList "Arial".toList,
    .color [0, 0, 0, 0, 0, 0], .sz 20, .strike true] := by decide +kernel

end Props
