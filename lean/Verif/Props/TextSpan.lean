import Verif.TextSpan
import Verif.Spec.Geom
import Mathlib.Data.Nat.Bitwise
/-! # C28–C30, C49, C50: text spans -/

namespace Props
open Geom Spec Py Text

/-! ## Splitting -/

theorem split_chars (s : Span) (rect : Shape) (h : Bool) : (s.split rect h).1.flatMap Span.chars = s.chars := by
  unfold Span.split
  split
  · simp
  · generalize hp : (fun c : Chr => c.containedIn rect.bbox h) = p
    obtain ⟨bl, bm, br⟩ := partBoxes s.bbox rect.bbox h
    dsimp only
    have hpos : firstIdx p s.chars = -1 ∧ s.chars.countP p = 0 ∨ 0 ≤ firstIdx p s.chars ∧ 0 < s.chars.countP p := by
      unfold firstIdx
      cases hf : s.chars.findIdx? p with
      | none =>
        left
        refine ⟨rfl, ?_⟩
        rw [List.findIdx?_eq_none_iff] at hf
        rw [List.countP_eq_zero]
        intro a ha
        simp [hf a ha]
      | some i =>
        right
        refine ⟨by simp, ?_⟩
        rw [List.findIdx?_eq_some_iff_getElem] at hf
        obtain ⟨hi, hpi, _⟩ := hf
        rw [List.countP_pos_iff]
        exact ⟨_, List.getElem_mem hi, hpi⟩
    generalize firstIdx p s.chars = pos at *
    generalize s.chars.countP p = len at *
    rcases hpos with ⟨rfl, rfl⟩ | ⟨h0, h1⟩
    · simp only [Nat.cast_zero, add_zero, lt_self_iff_false, if_false, List.append_nil]
      rw [if_neg (by omega)]
      simp only [show max (-1 : ℤ) 0 = 0 by decide, List.nil_append, Int.toNat_zero, List.drop_zero]
      cases s.chars with
      | nil => simp
      | cons c cs => simp
    · have e1 : ∀ b : Rect, (if 0 < pos then [({ s with chars := s.chars.take pos.toNat, bbox := b } : Span)] else []).flatMap
          Span.chars = s.chars.take pos.toNat := by
        intro b
        split
        · simp
        · have : pos.toNat = 0 := by omega
          simp [this]
      have e3 : ∀ b : Rect, (if max (pos + (len : ℤ)) 0 < s.chars.length then
          [({ s with chars := s.chars.drop (max (pos + (len : ℤ)) 0).toNat, bbox := b } : Span)] else []).flatMap
          Span.chars = s.chars.drop (max (pos + (len : ℤ)) 0).toNat := by
        intro b
        split
        · simp
        · rename_i hlt
          rw [List.drop_eq_nil_of_le (by omega)]; simp
      rw [if_pos h1]
      simp only [List.flatMap_append, e1, e3, List.flatMap_cons, List.flatMap_nil, List.append_nil]
      have hle : pos.toNat ≤ (max (pos + (len : ℤ)) 0).toNat := by omega
      generalize (max (pos + (len : ℤ)) 0).toNat = m at *
      generalize pos.toNat = k at *
      have : s.chars.take k = (s.chars.take m).take k := by rw [List.take_take, Nat.min_eq_left hle]
      rw [this, List.take_append_drop, List.take_append_drop]

/-- **C28** (one span). Splitting a span by a shape keeps all characters, in order, for every shape and span. -/
theorem C28_split_conserves_text (s : Span) (rect : Shape) (horizontal : Bool) :
    ((s.split rect horizontal).1.map Span.text).flatten = s.text := by
  have := congrArg (List.map Chr.c) (split_chars s rect horizontal)
  rw [← List.flatMap_def]
  unfold Span.text
  rw [← this, List.map_flatMap]

/-- Content of a line: images and characters in order. -/
def content (items : List Item) : List ((Rect × ℕ) ⊕ Chr) :=
  items.flatMap fun
    | .image b n => [.inl (b, n)]
    | .text s => s.chars.map .inr

/-- Entries as they come from a parsed page: images and text with real, stored boxes. -/
def Parsed : Item → Prop
  | .image b _ => Proper b
  | .text s => Proper s.bbox ∧ Tenths s.bbox

/-- Invariant kept by splitting: the extent across the text direction stays positive. -/
def Kept (h : Bool) : Item → Prop
  | .image b _ => b.truthy = true
  | .text s => (El.ext (!h) s.bbox).1 < (El.ext (!h) s.bbox).2 ∧ round1 (El.ext (!h) s.bbox).1 = (El.ext (!h) s.bbox).1 ∧
      round1 (El.ext (!h) s.bbox).2 = (El.ext (!h) s.bbox).2

theorem kept_truthy (h : Bool) (i : Item) (k : Kept h i) : i.bbox.truthy = true := by
  cases i with
  | image b n => exact k
  | text s =>
    have := k.1
    refine decide_eq_true ?_
    intro e
    change s.bbox = Rect.zero at e
    rw [e] at this
    cases h <;> simp [El.ext, Rect.zero] at this

theorem kept_split (h : Bool) (s : Span) (rect : Shape) (k : Kept h (.text s)) :
    ∀ x ∈ (s.split rect h).1, Kept h (.text x) := by
  have hb : ∀ b : Rect, b = (partBoxes s.bbox rect.bbox h).1 ∨ b = (partBoxes s.bbox rect.bbox h).2.1 ∨
      b = (partBoxes s.bbox rect.bbox h).2.2 → ∀ x : Span, x.bbox = b.round → Kept h (.text x) := by
    intro b hb x hx
    have e : El.ext (!h) b = El.ext (!h) s.bbox := by
      rcases hb with rfl | rfl | rfl <;> cases h <;> simp [partBoxes, El.ext]
    have e2 : El.ext (!h) b.round = (round1 (El.ext (!h) b).1, round1 (El.ext (!h) b).2) := by
      cases h <;> simp [El.ext, Rect.round]
    unfold Kept at *
    dsimp only at k ⊢
    rw [hx, e2, e, k.2.1, k.2.2]
    exact ⟨k.1, k.2.1, k.2.2⟩
  unfold Span.split
  split
  · intro x hx
    simp only [List.mem_singleton] at hx
    subst hx; exact k
  · generalize hP : partBoxes s.bbox rect.bbox h = P at *
    obtain ⟨bl, bm, br⟩ := P
    dsimp only at *
    intro x hx
    simp only [List.mem_append] at hx
    rcases hx with (hx | hx) | hx
    · split at hx
      · simp only [List.mem_singleton] at hx; subst hx; exact hb bl (Or.inl rfl) _ rfl
      · simp at hx
    · split at hx
      · simp only [List.mem_singleton] at hx; subst hx; exact hb bm (Or.inr (Or.inl rfl)) _ rfl
      · simp at hx
    · split at hx
      · simp only [List.mem_singleton] at hx; subst hx; exact hb br (Or.inr (Or.inr rfl)) _ rfl
      · simp at hx

theorem splitItems_spec (h : Bool) (rect : Shape) (items : List Item) (k : ∀ i ∈ items, Kept h i) :
    content (splitItems rect h items).1 = content items ∧ ∀ i ∈ (splitItems rect h items).1, Kept h i := by
  induction items generalizing rect with
  | nil => simp [splitItems]
  | cons i is ih =>
    cases i with
    | image b n =>
      obtain ⟨h1, h2⟩ := ih rect (fun i hi => k i (by simp [hi]))
      simp only [splitItems]
      constructor
      · unfold content at *; simp only [List.flatMap_cons, h1]
      · intro i hi
        rcases List.mem_cons.1 hi with rfl | hi
        · exact k _ (by simp)
        · exact h2 i hi
    | text s =>
      obtain ⟨h1, h2⟩ := ih { rect with type := (s.split rect h).2 } (fun i hi => k i (by simp [hi]))
      simp only [splitItems]
      constructor
      · unfold content at *
        simp only [List.flatMap_append, List.flatMap_cons, h1]
        congr 1
        rw [List.flatMap_map]
        rw [← split_chars s rect h, List.map_flatMap]
      · intro i hi
        rcases List.mem_append.1 hi with hi | hi
        · obtain ⟨x, hx, rfl⟩ := List.mem_map.1 hi
          exact kept_split h s rect (k _ (by simp)) x hx
        · exact h2 i hi

/-- **C28** (whole line). Any sequence of shapes applied to a line keeps all its images and characters, in order. -/
theorem C28_line_conserves_text (horizontal : Bool) (items : List Item) (hp : ∀ i ∈ items, Parsed i)
    (rects : List Shape) : content (applyShapes horizontal items rects) = content items := by
  have hk : ∀ i ∈ items, Kept horizontal i := by
    intro i hi
    have := hp i hi
    cases i with
    | image b n =>
      simp only [Kept, Rect.truthy, decide_eq_true_eq]
      rintro rfl
      exact absurd this.1 (lt_irrefl _)
    | text s =>
      obtain ⟨⟨h1, h2⟩, a, b, c, d, h3⟩ := this
      unfold Kept
      dsimp only
      rw [h3] at h1 h2 ⊢
      cases horizontal
      · simp only [El.ext, Bool.not_false, if_true]; exact ⟨h1, round1_tenths _, round1_tenths _⟩
      · simp only [El.ext, Bool.not_true, Bool.false_eq_true, if_false]; exact ⟨h2, round1_tenths _, round1_tenths _⟩
  clear hp
  unfold applyShapes
  induction rects generalizing items with
  | nil => rfl
  | cons r rs ih =>
    rw [List.foldl_cons]
    obtain ⟨h1, h2⟩ := splitItems_spec horizontal r items hk
    have e : (applyShape r horizontal items).1 = (splitItems r horizontal items).1 := by
      unfold applyShape
      exact List.filter_eq_self.2 fun i hi => kept_truthy horizontal i (h2 i hi)
    rw [e, ih _ h2, h1]

/-- The characters of a small test span, from left to right. -/
def abc : List Chr := [⟨'a', ⟨0, 0, 10, 10⟩⟩, ⟨'b', ⟨10, 0, 20, 10⟩⟩, ⟨'c', ⟨20, 0, 30, 10⟩⟩]

/-- Non-vacuity: an underline below `b` splits the span in three. -/
example : Parsed (.text ⟨abc, ⟨0, 0, 30, 10⟩, [], 0, "", 12, 0⟩) ∧
    ((⟨abc, ⟨0, 0, 30, 10⟩, [], 0, "", 12, 0⟩ : Span).split ⟨⟨10, 9, 20, 10⟩, 0, .undefined, ""⟩ true).1.map
      (fun s => (s.text, s.style.map Style.type)) = [(['a'], []), (['b'], [.underline]), (['c'], [])] :=
  ⟨⟨⟨by norm_num, by norm_num⟩, 0, 0, 300, 100, by norm_num⟩, by decide +kernel⟩

/-! ## C29 -/

/-- Every character with the style of its span. -/
def styled (ss : List Span) : List (Chr × List Style) := ss.flatMap fun s => s.chars.map fun c => (c, s.style)

theorem findIdx?_append_none (p : Chr → Bool) (A B : List Chr) (hA : ∀ c ∈ A, p c = false) :
    (A ++ B).findIdx? p = (B.findIdx? p).map (· + A.length) := by
  induction A with
  | nil => simp
  | cons a A ih =>
    rw [List.cons_append, List.findIdx?_cons, hA a (by simp)]
    simp only [Bool.false_eq_true, if_false]
    rw [ih fun c hc => hA c (by simp [hc])]
    cases B.findIdx? p with
    | none => rfl
    | some i => simp; omega

/-- **C29** (partial). If the shape meets the span and the characters it covers are consecutive – `A` before, `B` covered,
`C` after – then exactly the characters of `B` get the style decided for the shape (if one is decided), and every other
character keeps its style. The style of a hyperlink is the link with its address; table borders and shadings give none. Missing: covered characters that are not consecutive – see `C29_refuted_not_consecutive`. -/
theorem C29_exactly_covered_partial (s : Span) (rect : Shape) (horizontal : Bool) (A B C : List Chr)
    (hmeet : (rect.bbox.inter s.bbox).truthy = true) (hs : s.chars = A ++ B ++ C)
    (hA : ∀ c ∈ A, c.containedIn rect.bbox horizontal = false) (hB : ∀ c ∈ B, c.containedIn rect.bbox horizontal = true)
    (hC : ∀ c ∈ C, c.containedIn rect.bbox horizontal = false) :
    ∃ new : Option Style, styled (s.split rect horizontal).1 =
      A.map (fun c => (c, s.style)) ++ B.map (fun c => (c, s.style ++ new.toList)) ++ C.map (fun c => (c, s.style)) ∧
      (rect.type = .hyperlink → new = some ⟨.hyperlink, rect.color, some rect.uri⟩) ∧
      (rect.type = .border ∨ rect.type = .shading → new = none) ∧
      (∀ st ∈ new, rect.type ≠ .hyperlink → st.color = rect.color ∧ st.uri = none ∧ st.type ≠ .undefined) := by
  refine ⟨(parseFormat (partBoxes s.bbox rect.bbox horizontal).2.1.round rect horizontal).2, ?_, ?_, ?_, ?_⟩
  rotate_left
  · intro h
    unfold parseFormat
    rw [if_neg (by rw [h]; decide), if_pos h]
  · intro h
    unfold parseFormat
    rw [if_pos h]
  · intro st hst hne
    unfold parseFormat at hst
    by_cases h : rect.type = .border ∨ rect.type = .shading
    · rw [if_pos h] at hst; cases hst
    · rw [if_neg h, if_neg hne] at hst
      dsimp only at hst
      split at hst
      · cases hst
      · rename_i ht
        simp only [Option.mem_def, Option.some.injEq] at hst
        subst hst
        exact ⟨rfl, rfl, ht⟩
  unfold Span.split
  rw [if_neg (by rw [hmeet]; simp)]
  generalize partBoxes s.bbox rect.bbox horizontal = P
  obtain ⟨bl, bm, br⟩ := P
  dsimp only
  generalize hp : (fun c : Chr => c.containedIn rect.bbox horizontal) = p
  have hA' : ∀ c ∈ A, p c = false := by rw [← hp]; exact hA
  have hB' : ∀ c ∈ B, p c = true := by rw [← hp]; exact hB
  have hC' : ∀ c ∈ C, p c = false := by rw [← hp]; exact hC
  have hcount : s.chars.countP p = B.length := by
    rw [hs, List.countP_append, List.countP_append, List.countP_eq_zero.2 (fun c hc => by simp [hA' c hc]),
      List.countP_eq_length.2 (fun c hc => hB' c hc), List.countP_eq_zero.2 (fun c hc => by simp [hC' c hc])]
    omega
  have hpos : firstIdx p s.chars = if B = [] then -1 else (A.length : ℤ) := by
    unfold firstIdx
    rw [hs, List.append_assoc, findIdx?_append_none p A (B ++ C) hA']
    cases B with
    | nil =>
      have : ([] ++ C).findIdx? p = none := by
        rw [List.nil_append, List.findIdx?_eq_none_iff]; intro c hc; exact hC' c hc
      rw [this]; simp
    | cons b B =>
      have : ((b :: B) ++ C).findIdx? p = some 0 := by
        rw [List.cons_append, List.findIdx?_cons, hB' b (by simp)]; simp
      rw [this]; simp
  rw [hcount, hpos]
  by_cases hBn : B = []
  · subst hBn
    simp only [if_true, List.length_nil, Nat.cast_zero, add_zero, lt_self_iff_false, if_false, List.append_nil,
      show max (-1 : ℤ) 0 = 0 by decide, Int.toNat_zero, List.drop_zero]
    rw [if_neg (by omega), hs]
    simp only [List.append_nil, List.nil_append, List.map_nil]
    rw [← List.map_append]
    cases hAC : A ++ C with
    | nil => simp [styled]
    | cons c cs => simp [styled]
  · have hBl : 0 < B.length := List.length_pos_iff.2 hBn
    rw [if_neg hBn, if_pos hBl]
    have e1 : (max ((A.length : ℤ) + B.length) 0).toNat = A.length + B.length := by omega
    have e2 : ((A.length : ℤ)).toNat = A.length := by omega
    rw [e1, e2, hs]
    have t1 : (A ++ B ++ C).take A.length = A := by rw [List.append_assoc, List.take_left]
    have t2 : ((A ++ B ++ C).take (A.length + B.length)).drop A.length = B := by
      rw [show A.length + B.length = (A ++ B).length by simp, List.take_left, List.drop_left]
    have t3 : (A ++ B ++ C).drop (A.length + B.length) = C := by
      rw [show A.length + B.length = (A ++ B).length by simp, List.drop_left]
    rw [t1, t2, t3]
    unfold styled
    simp only [List.flatMap_append, List.flatMap_cons, List.flatMap_nil, List.append_nil]
    congr 1
    · congr 1
      split
      · simp
      · rename_i h
        have : A = [] := List.eq_nil_of_length_eq_zero (by omega)
        subst this; simp
    · split
      · simp
      · rename_i h
        have : C = [] := by
          apply List.eq_nil_of_length_eq_zero
          simp only [List.length_append] at h
          push_cast at h
          omega
        subst this; simp

/-- Non-vacuity: `B = [b]` in the three-character span. -/
example : (Rect.inter ⟨10, 9, 20, 10⟩ ⟨0, 0, 30, 10⟩).truthy = true ∧
    abc.map (fun c => c.containedIn ⟨10, 9, 20, 10⟩ true) = [false, true, false] := by decide +kernel

/-- A shape that does not meet the span leaves it as it is. -/
theorem C29_untouched (s : Span) (rect : Shape) (horizontal : Bool) (h : (rect.bbox.inter s.bbox).truthy = false) :
    (s.split rect horizontal).1 = [s] := by
  unfold Span.split
  rw [if_pos h]

/-- **C29 is false** for characters that are covered but not consecutive (overlapping glyphs such as accents): the shape
covers `a` and `´`, but the style goes to `a` and `W`. -/
theorem C29_refuted_not_consecutive :
    ∃ (s : Span) (rect : Shape), s.chars.map (fun c => c.containedIn rect.bbox true) = [true, false, true] ∧
      (styled (s.split rect true).1).map (fun p => p.2.map Style.type) = [[.underline], [.underline], []] :=
  ⟨⟨[⟨'a', ⟨0, 0, 10, 10⟩⟩, ⟨'W', ⟨9, 0, 40, 10⟩⟩, ⟨'´', ⟨10, 0, 12, 10⟩⟩], ⟨0, 0, 40, 10⟩, [], 0, "", 12, 0⟩,
    ⟨⟨0, 9, 12, 10⟩, 0, .undefined, ""⟩, by decide +kernel, by decide +kernel⟩

/-- **C29**: which style is decided. A thin line near the bottom of the span is an underline, one near the centre a
strike-through, a thick, coloured, largely overlapping box a highlight; in between and elsewhere there is no style. `hs` is
the span's height, `hr` the shape's, `d` the distance of the shape's top edge to the span's bottom edge. -/
theorem C29_style_decision (color : ℤ) (hr hs d : ℚ) (isMain : Bool) (h0 : 0 < hs) :
    (decideType .undefined color hr hs d isMain = .underline ↔ hr < hs / 2 ∧ d ≤ hs / 4) ∧
    (decideType .undefined color hr hs d isMain = .strike ↔ hr < hs / 2 ∧ 35 / 100 * hs < d ∧ d < 3 / 4 * hs) ∧
    (decideType .undefined color hr hs d isMain = .highlight ↔ hs / 2 ≤ hr ∧ color ≠ 0xFFFFFF ∧ isMain = true) ∧
    (decideType .undefined color hr hs d isMain ∈ [RType.undefined, .underline, .strike, .highlight]) := by
  by_cases h1 : 1 / 2 * hs ≤ hr
  · have h1' : hs / 2 ≤ hr := by linarith
    have h1'' : ¬ hr < hs / 2 := by linarith
    by_cases h2 : color ≠ white ∧ isMain = true
    · have e : decideType .undefined color hr hs d isMain = .highlight := by
        unfold decideType; rw [if_pos h1, if_pos h2]
      rw [e]
      refine ⟨by simp [h1''], by simp [h1''], ?_, by simp⟩
      exact ⟨fun _ => ⟨h1', h2⟩, fun _ => rfl⟩
    · have e : decideType .undefined color hr hs d isMain = .undefined := by
        unfold decideType; rw [if_pos h1, if_neg h2]
      rw [e]
      refine ⟨by simp [h1''], by simp [h1''], ?_, by simp⟩
      exact ⟨fun h => by simp at h, fun h => absurd h.2 h2⟩
  · have h1' : ¬ hs / 2 ≤ hr := by linarith
    have h1'' : hr < hs / 2 := by linarith
    by_cases h2 : d ≤ 1 / 4 * hs
    · have h2' : d ≤ hs / 4 := by linarith
      have h2'' : ¬ 35 / 100 * hs < d := by linarith
      have e : decideType .undefined color hr hs d isMain = .underline := by
        unfold decideType; rw [if_neg h1, if_pos h2]
      rw [e]
      exact ⟨⟨fun _ => ⟨h1'', h2'⟩, fun _ => rfl⟩, ⟨by simp, fun h => absurd h.2.1 h2''⟩,
        ⟨by simp, fun h => absurd h.1 h1'⟩, by simp⟩
    · have h2' : ¬ d ≤ hs / 4 := by linarith
      by_cases h3 : 35 / 100 * hs < d ∧ d < 3 / 4 * hs
      · have e : decideType .undefined color hr hs d isMain = .strike := by
          unfold decideType; rw [if_neg h1, if_neg h2, if_pos h3]
        rw [e]
        exact ⟨⟨by simp, fun h => absurd h.2 h2'⟩, ⟨fun _ => ⟨h1'', h3⟩, fun _ => rfl⟩,
          ⟨by simp, fun h => absurd h.1 h1'⟩, by simp⟩
      · have e : decideType .undefined color hr hs d isMain = .undefined := by
          unfold decideType; rw [if_neg h1, if_neg h2, if_neg h3]
        rw [e]
        exact ⟨⟨by simp, fun h => absurd h.2 h2'⟩, ⟨by simp, fun h => absurd h.2 h3⟩,
          ⟨by simp, fun h => absurd h.1 h1'⟩, by simp⟩

/-- Non-vacuity. -/
example : decideType .undefined 0 1 10 1 true = .underline ∧ decideType .undefined 0 1 10 5 true = .strike ∧
    decideType .undefined 0xFFFF00 9 10 9 true = .highlight ∧ decideType .undefined 0 1 10 9 true = .undefined := by
  decide +kernel

/-- **C29 is false across spans of different size**: a thick shape that is no highlight keeps the type it got from an
earlier span, so a small span next to an underlined one is underlined although the shape is not an underline for it. -/
theorem C29_refuted_type_carried_over :
    ∃ (items : List Item) (rect : Shape),
      ((splitItems rect true items).1.map fun
        | .image _ _ => []
        | .text s => s.style.map Style.type) = [[.underline], [.underline]] ∧
      (∃ small, items[1]? = some (.text small) ∧ (small.split rect true).1.map (fun s => s.style.map Style.type) = [[]]) :=
  ⟨[.text ⟨[⟨'A', ⟨0, 0, 10, 20⟩⟩], ⟨0, 0, 10, 20⟩, [], 0, "", 12, 0⟩,
    .text ⟨[⟨'x', ⟨10, 16, 12, 20⟩⟩], ⟨10, 16, 12, 20⟩, [], 0, "", 12, 0⟩], ⟨⟨0, 18, 12, 20⟩, 0xFFFFFF, .undefined, ""⟩,
    by decide +kernel, _, rfl, by decide +kernel⟩

/-! ## C30 -/

/-- The visible (non-blank) characters. -/
def visible (ws : Char → Bool) (cs : List Chr) : List Chr := cs.filter fun c => !ws c.c

theorem dropWhile_map (ws : Char → Bool) (cs : List Chr) :
    ((cs.map Chr.c).dropWhile ws).length = (cs.dropWhile fun c => ws c.c).length := by
  induction cs with
  | nil => rfl
  | cons c cs ih =>
    simp only [List.map_cons, List.dropWhile_cons]
    split
    · exact ih
    · simp

theorem takeWhile_ge_two (ws : Char → Bool) (hws : ws ' ' = true) (cs : List Chr)
    (h : (cs.map Chr.c).take 2 = [' ', ' ']) : 2 ≤ (cs.takeWhile fun c => ws c.c).length := by
  match cs, h with
  | a :: b :: cs, h =>
    simp only [List.map_cons, List.take_succ_cons, List.take_zero, List.cons.injEq] at h
    simp [h.1, h.2.1, hws]
  | [a], h => simp at h
  | [], h => simp at h

/-- The left strip in closed form: the last of the leading blanks, and the rest. -/
theorem lstrip_eq (ws : Char → Bool) (hws : ws ' ' = true) (cs : List Chr) (h : (cs.map Chr.c).take 2 = [' ', ' ']) :
    ∃ b, ws b.c = true ∧ (lstripChars ws cs).1 = b :: cs.dropWhile (fun c => ws c.c) := by
  have h2 := takeWhile_ge_two ws hws cs h
  have hsplit := List.takeWhile_append_dropWhile (p := fun c : Chr => ws c.c) (l := cs)
  have hlen := congrArg List.length hsplit
  rw [List.length_append] at hlen
  unfold lstripChars
  rw [if_pos h]
  dsimp only
  rw [dropWhile_map, List.length_map]
  have e : cs.length - (cs.dropWhile fun c => ws c.c).length = (cs.takeWhile fun c => ws c.c).length := by omega
  rw [e]
  have hlt : (cs.takeWhile fun c => ws c.c).length - 1 < (cs.takeWhile fun c => ws c.c).length := by omega
  refine ⟨(cs.takeWhile fun c => ws c.c)[(cs.takeWhile fun c => ws c.c).length - 1], ?_, ?_⟩
  · have := List.all_takeWhile (p := fun c : Chr => ws c.c) (l := cs)
    exact List.all_eq_true.1 this _ (List.getElem_mem _)
  · generalize htw : (cs.takeWhile fun c => ws c.c) = T at *
    rw [← hsplit]
    rw [List.drop_append_of_le_length (by omega)]
    have : T.drop (T.length - 1) = [T[T.length - 1]] := by
      rw [List.drop_eq_getElem_cons hlt, List.drop_eq_nil_of_le (by omega)]
    rw [this, hsplit]
    rfl

theorem visible_dropWhile (ws : Char → Bool) (cs : List Chr) :
    visible ws (cs.dropWhile fun c => ws c.c) = visible ws cs := by
  unfold visible
  induction cs with
  | nil => rfl
  | cons c cs ih =>
    rw [List.dropWhile_cons]
    split
    · rename_i hc
      rw [ih, List.filter_cons]; simp [hc]
    · rfl

theorem dropWhile_head (ws : Char → Bool) (cs : List Chr) (x : Chr) (xs : List Chr)
    (h : cs.dropWhile (fun c => ws c.c) = x :: xs) : ws x.c = false := by
  induction cs with
  | nil => simp at h
  | cons c cs ih =>
    rw [List.dropWhile_cons] at h
    split at h
    · exact ih h
    · rename_i hc
      simp only [List.cons.injEq] at h
      rw [← h.1]; simpa using hc

/-- **C30** (one side, left). Stripping keeps the visible characters; if something was stripped exactly one blank is left
in front of the visible text; otherwise nothing changes; stripping again changes nothing. -/
theorem C30_lstrip (ws : Char → Bool) (hws : ws ' ' = true) (cs : List Chr) :
    visible ws (lstripChars ws cs).1 = visible ws cs ∧
    ((lstripChars ws cs).2 = false → (lstripChars ws cs).1 = cs) ∧
    ((lstripChars ws cs).2 = true → ∃ b rest, (lstripChars ws cs).1 = b :: rest ∧ ws b.c = true ∧
      ∀ x ∈ rest.head?, ws x.c = false) ∧
    (lstripChars ws (lstripChars ws cs).1) = ((lstripChars ws cs).1, false) := by
  by_cases h : (cs.map Chr.c).take 2 = [' ', ' ']
  · obtain ⟨b, hb, he⟩ := lstrip_eq ws hws cs h
    have hst : (lstripChars ws cs).2 = true := by unfold lstripChars; rw [if_pos h]
    refine ⟨?_, ?_, ?_, ?_⟩
    · rw [he]
      have : visible ws (b :: cs.dropWhile fun c => ws c.c) = visible ws (cs.dropWhile fun c => ws c.c) := by
        unfold visible; rw [List.filter_cons]; simp [hb]
      rw [this, visible_dropWhile]
    · rw [hst]; simp
    · intro _
      refine ⟨b, _, he, hb, ?_⟩
      intro x hx
      cases hd : cs.dropWhile (fun c => ws c.c) with
      | nil => rw [hd] at hx; simp at hx
      | cons y ys =>
        rw [hd] at hx
        simp only [List.head?_cons, Option.mem_def, Option.some.injEq] at hx
        subst hx
        exact dropWhile_head ws cs _ _ hd
    · rw [he]
      have hn : ¬ ((b :: cs.dropWhile (fun c => ws c.c)).map Chr.c).take 2 = [' ', ' '] := by
        intro h'
        cases hd : cs.dropWhile (fun c => ws c.c) with
        | nil => rw [hd] at h'; simp at h'
        | cons y ys =>
          rw [hd] at h'
          simp only [List.map_cons, List.take_succ_cons, List.take_zero, List.cons.injEq] at h'
          have := dropWhile_head ws cs _ _ hd
          rw [h'.2.1, hws] at this
          simp at this
      unfold lstripChars
      rw [if_neg hn]
  · have e : lstripChars ws cs = (cs, false) := by unfold lstripChars; rw [if_neg h]
    rw [e]
    exact ⟨rfl, fun _ => rfl, by simp, e⟩

/-- `rstrip` mirrors `lstrip`. -/
theorem rstrip_eq_reverse (ws : Char → Bool) (cs : List Chr) :
    rstripChars ws cs = ((lstripChars ws cs.reverse).1.reverse, (lstripChars ws cs.reverse).2) := by
  unfold rstripChars lstripChars
  rw [List.map_reverse]
  split
  · dsimp only
    rw [List.length_reverse, Prod.mk.injEq]
    refine ⟨?_, rfl⟩
    rw [List.reverse_drop, List.reverse_reverse]
    congr 1
    simp
  · simp

/-- **C30** (one side, right). -/
theorem C30_rstrip (ws : Char → Bool) (hws : ws ' ' = true) (cs : List Chr) :
    visible ws (rstripChars ws cs).1 = visible ws cs ∧
    ((rstripChars ws cs).2 = false → (rstripChars ws cs).1 = cs) ∧
    ((rstripChars ws cs).2 = true → ∃ b rest, (rstripChars ws cs).1 = rest ++ [b] ∧ ws b.c = true ∧
      ∀ x ∈ rest.getLast?, ws x.c = false) ∧
    (rstripChars ws (rstripChars ws cs).1) = ((rstripChars ws cs).1, false) := by
  obtain ⟨h1, h2, h3, h4⟩ := C30_lstrip ws hws cs.reverse
  rw [rstrip_eq_reverse]
  dsimp only
  have hv : ∀ l : List Chr, visible ws l.reverse = (visible ws l).reverse := fun l => by
    unfold visible; rw [List.filter_reverse]
  refine ⟨?_, ?_, ?_, ?_⟩
  · rw [hv, h1, hv, List.reverse_reverse]
  · intro h; rw [h2 h, List.reverse_reverse]
  · intro h
    obtain ⟨b, rest, e, hb, hr⟩ := h3 h
    refine ⟨b, rest.reverse, by rw [e]; simp, hb, ?_⟩
    rw [List.getLast?_reverse]; exact hr
  · rw [rstrip_eq_reverse, List.reverse_reverse, h4]

/-- Non-vacuity: `"   a "` and `"a  "`. -/
example : ((lstripChars (· == ' ') ([' ', ' ', ' ', 'a', ' '].map fun c => ⟨c, Rect.zero⟩)).1.map Chr.c = [' ', 'a', ' ']) ∧
    ((rstripChars (· == ' ') (['a', ' ', ' '].map fun c => ⟨c, Rect.zero⟩)).1.map Chr.c = ['a', ' ']) := by
  decide +kernel

/-- **C30** (line). Stripping a line never changes its visible characters. -/
theorem C30_line_visible (ws : Char → Bool) (hws : ws ' ' = true) (spans : List (Option (List Chr))) :
    (stripSpans ws spans).1.map (Option.map (visible ws)) = spans.map (Option.map (visible ws)) := by
  unfold stripSpans
  split
  · rfl
  · rename_i first rest
    have key : ∀ (first' : Option (List Chr)) (st : Bool), Option.map (visible ws) first' = Option.map (visible ws) first →
        (match (first' :: rest).getLast? with
          | some (some cs) =>
            if st then (first' :: rest, true) else ((first' :: rest).dropLast ++ [some (rstripChars ws cs).1], (rstripChars ws cs).2)
          | _ => (first' :: rest, st)).1.map (Option.map (visible ws)) = (first :: rest).map (Option.map (visible ws)) := by
      intro first' st hf
      have h0 : (first' :: rest).map (Option.map (visible ws)) = (first :: rest).map (Option.map (visible ws)) := by
        simp [hf]
      split
      · rename_i cs hl
        split
        · exact h0
        · rw [← h0]
          have hd : (first' :: rest) = (first' :: rest).dropLast ++ [some cs] := by
            exact (List.dropLast_append_getLast? _ hl).symm
          conv_rhs => rw [hd]
          simp only [List.map_append, List.map_cons, List.map_nil, Option.map_some, (C30_rstrip ws hws cs).1]
      · exact h0
    cases first with
    | none => exact key none false rfl
    | some cs => exact key (some (lstripChars ws cs).1) _ (by simp [(C30_lstrip ws hws cs).1])

/-- **C30 is false for a line with blanks on both sides**: when the left side was stripped the right side is not
(`stripped or right_span.rstrip()`), so two blanks remain there and stripping again changes the line once more. -/
theorem C30_refuted_both_sides :
    ∃ spans : List (Option (List Chr)),
      (stripSpans (· == ' ') spans).1.map (Option.map (List.map Chr.c)) = [some [' ', 'a', ' ', ' ']] ∧
      (stripSpans (· == ' ') (stripSpans (· == ' ') spans).1).1.map (Option.map (List.map Chr.c)) = [some [' ', 'a', ' ']] :=
  ⟨[some ([' ', ' ', 'a', ' ', ' '].map fun c => ⟨c, Rect.zero⟩)], by decide +kernel, by decide +kernel⟩

/-! ## C49: text of extracted tables -/

/-- **C49** (partial). The text of a line, as returned by `extract_tables`, contains exactly the visible characters of its
spans, in order. Missing: the blanks at the ends of spans are lost, see `C49_refuted_words_glued`. -/
theorem C49_visible_text_partial (ws : Char → Bool) (spans : List Span) :
    (lineText ws spans).filter (fun c => !ws c) = (spans.flatMap Span.text).filter (fun c => !ws c) := by
  have hs : ∀ t : List Char, (t.dropWhile ws).filter (fun c => !ws c) = t.filter (fun c => !ws c) := by
    intro t
    induction t with
    | nil => rfl
    | cons c t ih =>
      rw [List.dropWhile_cons]
      split
      · rename_i hc; rw [ih, List.filter_cons]; simp [hc]
      · rfl
  have hstrip : ∀ t : List Char, (strip ws t).filter (fun c => !ws c) = t.filter (fun c => !ws c) := by
    intro t
    unfold strip
    rw [List.filter_reverse, hs, ← List.filter_reverse, List.reverse_reverse, hs]
  unfold lineText
  induction spans with
  | nil => rfl
  | cons s ss ih =>
    simp only [List.map_cons, List.flatten_cons, List.flatMap_cons, List.filter_append, hstrip, ih]

/-- **C49 is false for blanks**: two spans `"Hello "`, `"world"` are returned as `"Helloworld"`. -/
theorem C49_refuted_words_glued :
    ∃ spans : List Span, spans.flatMap Span.text = "Hello world".toList ∧ lineText (· == ' ') spans = "Helloworld".toList :=
  ⟨[⟨"Hello ".toList.map fun c => ⟨c, Rect.zero⟩, Rect.zero, [], 0, "", 12, 0⟩,
    ⟨"world".toList.map fun c => ⟨c, Rect.zero⟩, Rect.zero, [], 0, "Bold", 12, 0⟩], by decide +kernel, by decide +kernel⟩

/-! ## C50: rendering of a span -/

/-- **C50**: a span is written exactly once and completely – as a link if it has a hyperlink style and visible text, as
plain text otherwise. -/
theorem C50_text_once (ws : Char → Bool) (s : Span) :
    (s.makeDocx ws).text = s.text ∧
    ((∃ u t, s.makeDocx ws = .link u t) ↔ (∃ st ∈ s.style, st.type = .hyperlink) ∧ strip ws s.text ≠ []) := by
  unfold Span.makeDocx
  cases hf : s.style.find? fun st => decide (st.type = .hyperlink ∧ strip ws s.text ≠ []) with
  | none =>
    refine ⟨rfl, ⟨by rintro ⟨u, t, h⟩; simp at h, ?_⟩⟩
    rintro ⟨⟨st, hst, ht⟩, hne⟩
    rw [List.find?_eq_none] at hf
    have := hf st hst
    simp [ht, hne] at this
  | some st =>
    have h1 := List.find?_some hf
    have h2 := List.mem_of_find?_eq_some hf
    simp only [decide_eq_true_eq] at h1
    exact ⟨rfl, fun _ => ⟨⟨st, h2, h1.1⟩, h1.2⟩, fun _ => ⟨_, _, rfl⟩⟩

/-- Non-vacuity: a linked word. -/
example : (⟨abc, ⟨0, 0, 30, 10⟩, [⟨.hyperlink, 0, some "http://x"⟩], 0, "", 12, 0⟩ : Span).makeDocx (· == ' ') =
    .link "http://x" ['a', 'b', 'c'] := by decide +kernel

/-- **C50**: for every positive font size: sizes up to 1/4pt raise (the page is then not created); all others are written
as a multiple of 0.5pt at most 0.25pt away, and the character scaling restores the exact size up to 1%. -/
theorem C50_font_size (size : ℚ) (h : 0 < size) :
    (size ≤ 1 / 4 → fontSize size = .error .zeroDiv) ∧
    (1 / 4 < size → ∃ (k : ℤ) (sc : Option ℚ), fontSize size = .ok ((k : ℚ) / 2, sc) ∧ 0 < k ∧ |(k : ℚ) / 2 - size| ≤ 1 / 4 ∧
      (match sc with
        | some x => x * ((k : ℚ) / 2) = size
        | none => |(k : ℚ) / 2 - size| < 1 / 100 * ((k : ℚ) / 2))) := by
  have hb := abs_roundHE_sub (size * 2)
  rw [abs_le] at hb
  constructor
  · intro h1
    have : roundHE (size * 2) = 0 := by
      have hfl : ⌊size * 2⌋ = 0 := by rw [Int.floor_eq_iff]; constructor <;> push_cast <;> linarith
      unfold roundHE
      rw [hfl]
      push_cast
      split
      · rfl
      · split
        · exfalso; linarith
        · simp
    unfold fontSize
    rw [this]; simp
  · intro h1
    have hk : 0 < roundHE (size * 2) := by
      by_contra hneg
      rw [not_lt] at hneg
      have : (roundHE (size * 2) : ℚ) ≤ 0 := by exact_mod_cast hneg
      linarith [hb.1]
    have hkq : (0 : ℚ) < (roundHE (size * 2) : ℚ) / 2 := by
      have : (0 : ℚ) < (roundHE (size * 2) : ℚ) := by exact_mod_cast hk
      linarith
    refine ⟨roundHE (size * 2), if 1 / 100 ≤ |size / ((roundHE (size * 2) : ℚ) / 2) - 1| then
      some (size / ((roundHE (size * 2) : ℚ) / 2)) else none, ?_, hk, ?_, ?_⟩
    · unfold fontSize
      dsimp only
      rw [if_neg (ne_of_gt hkq)]
    · rw [abs_le]; constructor <;> linarith [hb.1, hb.2]
    · split
      · rename_i x hx
        split at hx
        · simp only [Option.some.injEq] at hx
          rw [← hx]; field_simp
        · simp at hx
      · rename_i hx
        split at hx
        · simp at hx
        · rename_i hn
          rw [not_le] at hn
          have e : (roundHE (size * 2) : ℚ) / 2 - size =
              -((size / ((roundHE (size * 2) : ℚ) / 2) - 1) * ((roundHE (size * 2) : ℚ) / 2)) := by
            field_simp; ring
          rw [e, abs_neg, abs_mul, abs_of_pos hkq]
          exact mul_lt_mul_of_pos_right hn hkq

/-- Non-vacuity. -/
example : fontSize (1/5) = .error .zeroDiv ∧ fontSize (1012/100) = .ok (10, some (1012/1000)) ∧ fontSize 12 = .ok (12, none) := by
  decide +kernel

/-- The values assigned to superscript, italic and bold are exactly bits 0, 1 and 4 of the font flags (what reaches the docx: C93). -/
theorem font_flags_bits (flags : ℕ) :
    fontFlags flags = (decide (flags % 2 = 1), decide (flags / 2 % 2 = 1), decide (flags / 16 % 2 = 1)) := by
  have key : ∀ k, (flags &&& 2 ^ k != 0) = decide (flags / 2 ^ k % 2 = 1) := by
    intro k
    rw [Nat.and_comm, Nat.two_pow_and, Nat.testBit_eq_decide_div_mod_eq]
    by_cases hd : flags / 2 ^ k % 2 = 1
    · simp [hd]
    · simp [hd]
  unfold fontFlags
  rw [key, key, key]
  simp

/-- Non-vacuity: bold italic serif. -/
example : fontFlags 22 = (false, true, true) := by decide

end Props
