import Verif.Spec.Format
import Verif.Props.Tight
import Verif.Props.Page
import Verif.Props.Assign
/-! # C94: exactly the text under a link area is clickable -/

namespace Props
open Geom Spec Py Text Styl

/-! ## Characters of a span -/

theorem fo_half_mid {r : Rect} {c : Chr} (h : Half r c) : r.x0 < mid c ∧ mid c < r.x1 := by
  unfold Half at h
  unfold mid
  have h1 := min_le_left c.bbox.x1 r.x1
  have h2 := min_le_right c.bbox.x1 r.x1
  have h3 := le_max_left c.bbox.x0 r.x0
  have h4 := le_max_right c.bbox.x0 r.x0
  constructor <;> linarith

/-- A character right of a covered one, whose middle lies left of the box's right edge, is covered. -/
theorem fo_half_right {r : Rect} {c d : Chr} (h : Half r c) (hcd : c.bbox.x1 ≤ d.bbox.x0) (hd : d.bbox.x0 < d.bbox.x1)
    (hc : c.bbox.x0 < c.bbox.x1) (hm : mid d < r.x1) : Half r d := by
  have h1 := (fo_half_mid h).1
  unfold Half
  unfold mid at *
  have : max d.bbox.x0 r.x0 = d.bbox.x0 := max_eq_left (by linarith)
  rw [this]
  rcases le_total d.bbox.x1 r.x1 with h2 | h2
  · rw [min_eq_left h2]; linarith
  · rw [min_eq_right h2]; linarith

/-- A character left of a covered one, whose middle lies right of the box's left edge, is covered. -/
theorem fo_half_left {r : Rect} {c d : Chr} (h : Half r c) (hcd : d.bbox.x1 ≤ c.bbox.x0) (hd : d.bbox.x0 < d.bbox.x1)
    (hc : c.bbox.x0 < c.bbox.x1) (hm : r.x0 < mid d) : Half r d := by
  have h1 := (fo_half_mid h).2
  unfold Half
  unfold mid at *
  have : min d.bbox.x1 r.x1 = d.bbox.x1 := min_eq_left (by linarith)
  rw [this]
  rcases le_total r.x0 d.bbox.x0 with h2 | h2
  · rw [max_eq_left h2]; linarith
  · rw [max_eq_right h2]; linarith

/-- Cutting a list at a property that holds for consecutive elements only. -/
theorem fo_cut {α : Type} (R : α → α → Prop) (p : α → Prop) [DecidablePred p]
    (conv : ∀ a b c, R a b → R b c → p a → p c → p b) (l : List α) (h : l.Pairwise R) :
    ∃ A B C, l = A ++ B ++ C ∧ (∀ x ∈ A, ¬ p x) ∧ (∀ x ∈ B, p x) ∧ ∀ x ∈ C, ¬ p x := by
  induction l with
  | nil => exact ⟨[], [], [], rfl, by simp, by simp, by simp⟩
  | cons a l ih =>
    obtain ⟨A, B, C, e, hA, hB, hC⟩ := ih (List.pairwise_cons.1 h).2
    by_cases ha : p a
    · by_cases hn : B = []
      · refine ⟨[], [a], A ++ C, by rw [e, hn]; simp, by simp, by simpa using ha, ?_⟩
        intro x hx
        rcases List.mem_append.1 hx with hx | hx
        exacts [hA x hx, hC x hx]
      · obtain ⟨b, B', rfl⟩ := List.exists_cons_of_ne_nil hn
        have hA0 : A = [] := by
          cases A with
          | nil => rfl
          | cons x A =>
            exfalso
            have h1 : R a x := (List.pairwise_cons.1 h).1 x (by rw [e]; simp)
            have h2 : R x b := by
              have := (List.pairwise_cons.1 h).2
              rw [e] at this
              have := (List.pairwise_cons.1 this).1 b
              exact this (by simp)
            exact hA x (by simp) (conv a x b h1 h2 ha (hB b (by simp)))
        subst hA0
        exact ⟨[], a :: b :: B', C, by rw [e]; simp, by simp, by
          intro x hx
          rcases List.mem_cons.1 hx with rfl | hx
          exacts [ha, hB x hx], hC⟩
    · refine ⟨a :: A, B, C, by rw [e]; simp, ?_, hB, hC⟩
      intro x hx
      rcases List.mem_cons.1 hx with rfl | hx
      exacts [ha, hA x hx]

/-! ## The parts of a span -/

/-- The parts of a span met by a shape. -/
theorem fo_split (s : Span) (rect : Shape) (A B C : List Chr)
    (hmeet : (rect.bbox.inter s.bbox).truthy = true) (hs : s.chars = A ++ B ++ C)
    (hA : ∀ c ∈ A, c.containedIn rect.bbox true = false) (hB : ∀ c ∈ B, c.containedIn rect.bbox true = true)
    (hC : ∀ c ∈ C, c.containedIn rect.bbox true = false) :
    ∀ P' ∈ (s.split rect true).1,
      (B ≠ [] ∧ P' = { s with chars := A, bbox := (partBoxes s.bbox rect.bbox true).1.round }) ∨
      (P' = { s with chars := B, bbox := (partBoxes s.bbox rect.bbox true).2.1.round,
                     style := s.style ++ (parseFormat (partBoxes s.bbox rect.bbox true).2.1.round rect true).2.toList }) ∨
      (B ≠ [] ∧ P' = { s with chars := C, bbox := (partBoxes s.bbox rect.bbox true).2.2.round }) ∨
      (B = [] ∧ P' = { s with bbox := (partBoxes s.bbox rect.bbox true).2.2.round }) := by
  unfold Span.split
  rw [if_neg (by rw [hmeet]; simp)]
  generalize partBoxes s.bbox rect.bbox true = P
  obtain ⟨bl, bm, br⟩ := P
  dsimp only
  generalize hp : (fun c : Chr => c.containedIn rect.bbox true) = p
  have hA' : ∀ c ∈ A, p c = false := by rw [← hp]; exact hA
  have hB' : ∀ c ∈ B, p c = true := by rw [← hp]; exact hB
  have hC' : ∀ c ∈ C, p c = false := by rw [← hp]; exact hC
  have hcount : s.chars.countP p = B.length := by
    rw [hs, List.countP_append, List.countP_append, List.countP_eq_zero.2 (fun c hc => by simp [hA' c hc]),
      List.countP_eq_length.2 (fun c hc => hB' c hc), List.countP_eq_zero.2 (fun c hc => by simp [hC' c hc])]
    omega
  have hpos : firstIdx p s.chars = if B = [] then -1 else (A.length : ℤ) := by
    unfold firstIdx
    rw [hs, List.append_assoc, findIdx?_append_none p A (B ++ C) hA']
    cases B with
    | nil =>
      have : ([] ++ C).findIdx? p = none := by
        rw [List.nil_append, List.findIdx?_eq_none_iff]; intro c hc; exact hC' c hc
      rw [this]; simp
    | cons b B =>
      have : ((b :: B) ++ C).findIdx? p = some 0 := by
        rw [List.cons_append, List.findIdx?_cons, hB' b (by simp)]; simp
      rw [this]; simp
  rw [hcount, hpos]
  by_cases hBn : B = []
  · subst hBn
    simp only [if_true, List.length_nil, Nat.cast_zero, add_zero, lt_self_iff_false, if_false, List.append_nil,
      show max (-1 : ℤ) 0 = 0 by decide, Int.toNat_zero, List.drop_zero]
    rw [if_neg (by omega)]
    intro P' hP
    refine Or.inr (Or.inr (Or.inr ⟨trivial, ?_⟩))
    rw [List.nil_append] at hP
    split at hP
    · simpa using hP
    · simp at hP
  · have hBl : 0 < B.length := List.length_pos_iff.2 hBn
    rw [if_neg hBn, if_pos hBl]
    have e1 : (max ((A.length : ℤ) + B.length) 0).toNat = A.length + B.length := by omega
    have e2 : ((A.length : ℤ)).toNat = A.length := by omega
    rw [e1, e2, hs]
    have t1 : (A ++ B ++ C).take A.length = A := by rw [List.append_assoc, List.take_left]
    have t2 : ((A ++ B ++ C).take (A.length + B.length)).drop A.length = B := by
      rw [show A.length + B.length = (A ++ B).length by simp, List.take_left, List.drop_left]
    have t3 : (A ++ B ++ C).drop (A.length + B.length) = C := by
      rw [show A.length + B.length = (A ++ B).length by simp, List.drop_left]
    rw [t1, t2, t3]
    intro P' hP
    rcases List.mem_append.1 hP with hP | hP
    · rcases List.mem_append.1 hP with hP | hP
      · split at hP
        · exact Or.inl ⟨hBn, by simpa using hP⟩
        · simp at hP
      · exact Or.inr (Or.inl (by simpa using hP))
    · split at hP
      · exact Or.inr (Or.inr (Or.inl ⟨hBn, by simpa using hP⟩))
      · simp at hP

theorem fo_decide (q : RType) (hq : q = .hyperlink ∨ q = .border ∨ q = .shading) (o : RType) (c : ℤ) (h s d : ℚ) (m : Bool) (ho : o ≠ q) :
    decideType o c h s d m ≠ q := by
  have h1 : RType.highlight ≠ q := by rintro rfl; simp at hq
  have h2 : RType.underline ≠ q := by rintro rfl; simp at hq
  have h3 : RType.strike ≠ q := by rintro rfl; simp at hq
  have h4 : RType.undefined ≠ q := by rintro rfl; simp at hq
  unfold decideType
  split_ifs <;> assumption

/-- A shape stays a link, a border or a shading if it is one, and does not become one. -/
theorem fo_stays (q : RType) (hq : q = .hyperlink ∨ q = .border ∨ q = .shading) (s : Span) (r : Shape) (h : Bool) : (s.split r h).2 = q ↔ r.type = q := by
  have key : ∀ b : Rect, (parseFormat b r h).1 = q ↔ r.type = q := by
    intro b
    unfold parseFormat
    by_cases h1 : r.type = .border ∨ r.type = .shading
    · rw [if_pos h1]
    · rw [if_neg h1]
      by_cases h2 : r.type = .hyperlink
      · rw [if_pos h2]
      · rw [if_neg h2]
        dsimp only
        have hne : r.type ≠ q := by
          rintro rfl
          rcases hq with hq | hq
          · exact h2 hq
          · exact h1 hq
        split
        · exact ⟨fun hh => absurd hh (fo_decide q hq _ _ _ _ _ _ hne), fun hh => absurd hh hne⟩
        · exact ⟨fun hh => absurd hh (fo_decide q hq _ _ _ _ _ _ hne), fun hh => absurd hh hne⟩
  unfold Span.split
  split
  · rfl
  · dsimp only
    split
    · exact key _
    · rfl

/-- A shape keeps its box, colour, address, and whether it is a link or part of a table. -/
theorem fo_type (s : Span) (r : Shape) (h : Bool) : areaOf { r with type := (s.split r h).2 } = areaOf r := by
  unfold areaOf
  simp only [fo_stays .hyperlink (by simp), fo_stays .border (by simp), fo_stays .shading (by simp)]

/-! ## The invariant -/

/-- What is looked for: the marks an area stands for, for text with a given box, and the marks of a span. -/
structure Reader where
  T : Type
  tag : Area → Rect → List T
  view : List Style → List T
  app : ∀ a b, view (a ++ b) = view a ++ view b

/-- The area is one of those looked for. -/
def Reader.imp (R : Reader) (a : Area) (b : Rect) : Prop := R.tag a b ≠ []

/-- The marks over a character of text with box `b`. -/
def Reader.over (R : Reader) (areas : List Area) (b : Rect) (c : Chr) : List R.T := (areas.filter fun a => decide (Under a.box c)).flatMap fun a => R.tag a b

/-- The text covered by area `a` is given its marks, whatever the type of the shape. -/
def Reader.Reads (R : Reader) (a : Area) (s : Rect) : Prop :=
  ∀ r : Shape, areaOf r = a → ∀ b : Rect, b.y0 = s.y0 → b.y1 = s.y1 → r.bbox.x0 ≤ b.x0 → b.x1 ≤ r.bbox.x1 → (R.imp a s → b.x0 < b.x1) →
    R.view (parseFormat b r true).2.toList = R.tag a s

/-- A character that an area looked for, still to come, lies over. -/
def Awaited (R : Reader) (b : Rect) (todo : List Area) (c : Chr) : Prop := ∃ r ∈ todo, R.imp r b ∧ Under r.box c

/-- State of a part `P` of the span `s` when the areas `done` have been dealt with and `todo` are to come. -/
structure PartOK (R : Reader) (s : Span) (done todo : List Area) (P : Span) : Prop where
  y0 : P.bbox.y0 = s.bbox.y0
  y1 : P.bbox.y1 = s.bbox.y1
  x0 : s.bbox.x0 ≤ P.bbox.x0
  x01 : P.bbox.x0 ≤ P.bbox.x1
  x1 : P.bbox.x1 ≤ s.bbox.x1
  rd : P.bbox.round = P.bbox
  sub : P.chars.Sublist s.chars
  inBox : ∀ c ∈ P.chars, Awaited R s.bbox todo c → P.bbox.x0 < mid c ∧ mid c < P.bbox.x1
  sep : ∀ c ∈ P.chars, Awaited R s.bbox todo c → ∀ d ∈ s.chars, mid c < mid d → d ∉ P.chars →
    ∃ p ∈ done, Meets p.box s.bbox ∧ (P.bbox.x1 ≤ p.box.x0 ∧ p.box.x0 < mid d ∨ P.bbox.x1 ≤ p.box.x1 ∧ p.box.x1 ≤ mid d)
  look : lookOf P = lookOf s
  links : ∀ c ∈ P.chars, R.view P.style = R.view s.style ++ R.over done s.bbox c

theorem fo_over_snoc (R : Reader) (done : List Area) (q : Area) (b : Rect) (c : Chr) :
    R.over (done ++ [q]) b c = R.over done b c ++ (if Under q.box c then R.tag q b else []) := by
  unfold Reader.over
  rw [List.filter_append, List.flatMap_append]
  congr 1
  by_cases h : Under q.box c
  · rw [List.filter_cons_of_pos (by simpa using h), if_pos h]
    simp
  · rw [List.filter_cons_of_neg (by simpa using h), if_neg h]; simp

variable {R : Reader}

/-- An area that is not applied. -/
theorem fo_skip (s : Span) (done todo : List Area) (q : Area) (P : Span) (h : PartOK R s done (q :: todo) P)
    (hq : R.imp q s.bbox → ∀ c ∈ P.chars, ¬ Under q.box c) : PartOK R s (done ++ [q]) todo P := by
  have aw : ∀ c, Awaited R s.bbox todo c → Awaited R s.bbox (q :: todo) c := fun c ⟨r, hr, x⟩ => ⟨r, List.mem_cons_of_mem _ hr, x⟩
  refine ⟨h.y0, h.y1, h.x0, h.x01, h.x1, h.rd, h.sub, fun c hc a => h.inBox c hc (aw c a), ?_, h.look, ?_⟩
  · intro c hc a d hd hm hn
    obtain ⟨p, hp, x⟩ := h.sep c hc (aw c a) d hd hm hn
    exact ⟨p, List.mem_append_left _ hp, x⟩
  · intro c hc
    rw [h.links c hc, fo_over_snoc]
    by_cases hl : R.imp q s.bbox
    · rw [if_neg (hq hl c hc)]; simp
    · have : R.tag q s.bbox = [] := by unfold Reader.imp at hl; simpa using hl
      simp [this]

theorem fo_order {s : Span} (hs : PlainSpan s) {c d : Chr} (hc : c ∈ s.chars) (hd : d ∈ s.chars) (h : mid c < mid d) :
    c.bbox.x1 ≤ d.bbox.x0 := by
  obtain ⟨_, h1, h2⟩ := hs
  have := List.pairwise_iff_getElem.1 h2
  obtain ⟨i, hi, rfl⟩ := List.mem_iff_getElem.1 hc
  obtain ⟨j, hj, rfl⟩ := List.mem_iff_getElem.1 hd
  rcases lt_trichotomy i j with hij | hij | hij
  · exact this i j hi hj hij
  · subst hij; exact absurd h (lt_irrefl _)
  · exfalso
    have h3 := this j i hj hi hij
    have h4 := (h1 _ hc).1
    have h5 := (h1 _ hd).1
    unfold mid at h
    linarith

theorem fo_before {s : Span} (hs : PlainSpan s) {c d : Chr} (hc : c ∈ s.chars) (hd : d ∈ s.chars) (h : c.bbox.x1 ≤ d.bbox.x0) :
    mid c < mid d := by
  have h4 := (hs.2.1 _ hc).1
  have h5 := (hs.2.1 _ hd).1
  unfold mid
  linarith

theorem fo_max_round {a b : ℚ} (ha : round1 a = a) (hb : round1 b = b) : round1 (max a b) = max a b := by
  rcases le_total a b with h | h
  · rw [max_eq_right h, hb]
  · rw [max_eq_left h, ha]

theorem fo_min_round {a b : ℚ} (ha : round1 a = a) (hb : round1 b = b) : round1 (min a b) = min a b := by
  rcases le_total a b with h | h
  · rw [min_eq_left h, ha]
  · rw [min_eq_right h, hb]

/-- An area applied to a part of the span. -/
theorem fo_step (s : Span) (hs : PlainSpan s) (done todo : List Area) (q : Shape) (P : Span)
    (hq : RealBox q.bbox) (hpv : ∀ p ∈ done, p.box.x0 ≤ p.box.x1) (hu : Undisturbed R.imp (done ++ areaOf q :: todo) s) (hrd : Meets q.bbox s.bbox → R.Reads (areaOf q) s.bbox) (h : PartOK R s done (areaOf q :: todo) P) :
    ∀ P' ∈ (P.split q true).1, PartOK R s (done ++ [areaOf q]) todo P' := by
  obtain ⟨tie, touch, clean⟩ := hu
  have hqm : areaOf q ∈ done ++ areaOf q :: todo := by simp
  have aw : ∀ c, Awaited R s.bbox todo c → Awaited R s.bbox (areaOf q :: todo) c := fun c ⟨r, hr, x⟩ => ⟨r, List.mem_cons_of_mem _ hr, x⟩
  have hqe : ¬ q.bbox.isEmpty := not_empty_of_proper hq.1
  have sy := hs.1.1.2
  have hcy : ∀ c ∈ P.chars, c.bbox.y0 = s.bbox.y0 ∧ c.bbox.y1 = s.bbox.y1 := fun c hc => (hs.2.1 c (h.sub.subset hc)).2.2.2
  by_cases hm : (q.bbox.inter P.bbox).truthy = true
  swap
  · -- the area does not meet the part
    have hm' : (q.bbox.inter P.bbox).truthy = false := by simpa using hm
    rw [C29_untouched P q true hm']
    intro P' hP
    obtain rfl : P' = P := by simpa using hP
    refine fo_skip s done todo (areaOf q) P' h ?_
    intro hl c hc hun
    apply hm
    have hin := h.inBox c hc ⟨_, List.mem_cons_self, hl, hun⟩
    obtain ⟨u1, u2, u3⟩ := hun
    have hmid := fo_half_mid u3
    have e : (areaOf q).box = q.bbox := rfl
    rw [e] at u1 u2 hmid
    rw [(hcy c hc).1] at u2
    rw [(hcy c hc).2] at u1
    have hpe : ¬ P'.bbox.isEmpty := by
      unfold Rect.isEmpty
      rw [h.y0, h.y1]
      rintro (hh | hh)
      · linarith [hin.1, hin.2]
      · exact absurd hh (ne_of_lt sy)
    unfold Rect.inter
    rw [if_neg (by rintro (hh | hh); exacts [hqe hh, hpe hh])]
    dsimp only
    have m1 : max q.bbox.x0 P'.bbox.x0 < min q.bbox.x1 P'.bbox.x1 :=
      lt_trans (max_lt hmid.1 hin.1) (lt_min hmid.2 hin.2)
    have m2 : max q.bbox.y0 P'.bbox.y0 < min q.bbox.y1 P'.bbox.y1 := by
      rw [h.y0, h.y1]
      exact max_lt (lt_min hq.1.2 u1) (lt_min u2 sy)
    rw [if_neg (by push Not; exact ⟨le_of_lt m1, le_of_lt m2⟩)]
    unfold Rect.truthy
    rw [decide_eq_true_eq]
    intro hz
    have z1 := congrArg Rect.x0 hz
    have z2 := congrArg Rect.x1 hz
    simp only [Rect.zero] at z1 z2
    rw [z1, z2] at m1
    exact lt_irrefl _ m1
  · -- it does: the common box
    obtain ⟨i, hi⟩ : ∃ i, q.bbox.inter P.bbox = i := ⟨_, rfl⟩
    have hib : max q.bbox.x0 P.bbox.x0 ≤ min q.bbox.x1 P.bbox.x1 ∧ max q.bbox.y0 P.bbox.y0 ≤ min q.bbox.y1 P.bbox.y1 ∧
        i = ⟨max q.bbox.x0 P.bbox.x0, max q.bbox.y0 P.bbox.y0, min q.bbox.x1 P.bbox.x1, min q.bbox.y1 P.bbox.y1⟩ := by
      have hi' := hi
      unfold Rect.inter at hi'
      split at hi'
      · rw [hi, ← hi'] at hm; exact absurd hm (by decide)
      · dsimp only at hi'
        split at hi'
        · rw [hi, ← hi'] at hm; exact absurd hm (by decide)
        · rename_i hd
          push Not at hd
          exact ⟨hd.1, hd.2, hi'.symm⟩
    obtain ⟨ix, iy, ie⟩ := hib
    have hx : max q.bbox.x0 P.bbox.x0 ≤ q.bbox.x1 ∧ P.bbox.x0 ≤ q.bbox.x1 ∧ q.bbox.x0 ≤ P.bbox.x1 :=
      ⟨le_trans ix (min_le_left _ _), le_trans (le_trans (le_max_right _ _) ix) (min_le_left _ _),
        le_trans (le_trans (le_max_left _ _) ix) (min_le_right _ _)⟩
    have hyy : P.bbox.y0 ≤ q.bbox.y1 ∧ q.bbox.y0 ≤ P.bbox.y1 :=
      ⟨le_trans (le_trans (le_max_right _ _) iy) (min_le_left _ _), le_trans (le_trans (le_max_left _ _) iy) (min_le_right _ _)⟩
    have hyy' := hyy
    rw [h.y0, h.y1] at hyy'
    have hmeets : Meets (areaOf q).box s.bbox :=
      ⟨le_trans hx.2.2 h.x1, le_trans h.x0 hx.2.1, hyy'.2, hyy'.1⟩
    -- covered characters
    have hcov : ∀ c ∈ P.chars, c.containedIn q.bbox true = true ↔ Half q.bbox c := by
      intro c hc
      have hcp : Proper c.bbox := by
        refine ⟨(hs.2.1 c (h.sub.subset hc)).1, ?_⟩
        rw [(hcy c hc).1, (hcy c hc).2]; exact sy
      rw [(C29_char_covered c q.bbox hcp hq.1).1, (hcy c hc).1, (hcy c hc).2]
      unfold Half Rect.width
      constructor
      · exact fun x => x.2
      · exact fun x => ⟨max_le (le_min (le_of_lt sy) hyy'.1) (le_min hyy'.2 (le_of_lt hq.1.2)), x⟩
    have hcov' : ∀ c ∈ P.chars, c.containedIn q.bbox true = false ↔ ¬ Half q.bbox c := by
      intro c hc
      rw [← hcov c hc]; simp
    have hord : P.chars.Pairwise fun c d => c.bbox.x1 ≤ d.bbox.x0 := hs.2.2.sublist h.sub
    obtain ⟨A, B, C, eABC, hA, hB, hC⟩ := fo_cut
      (fun c d : Chr => c.bbox.x1 ≤ d.bbox.x0 ∧ c ∈ s.chars ∧ d ∈ s.chars) (fun c => Half q.bbox c)
      (by
        rintro a b c ⟨h1, ha, hb⟩ ⟨h2, _, hc⟩ p1 p2
        have := fo_before hs hb hc h2
        exact fo_half_right p1 h1 (hs.2.1 b hb).1 (hs.2.1 a ha).1 (lt_trans this (fo_half_mid p2).2)) P.chars
      (by
        refine List.Pairwise.imp_of_mem ?_ hord
        intro a b ha hb hab
        exact ⟨hab, h.sub.subset ha, h.sub.subset hb⟩)
    have mA : ∀ c ∈ A, c ∈ P.chars := fun c hc => by rw [eABC]; simp [hc]
    have mB : ∀ c ∈ B, c ∈ P.chars := fun c hc => by rw [eABC]; simp [hc]
    have mC : ∀ c ∈ C, c ∈ P.chars := fun c hc => by rw [eABC]; simp [hc]
    have ms : ∀ c ∈ P.chars, c ∈ s.chars := fun c hc => h.sub.subset hc
    rw [eABC] at hord
    have pAB : ∀ a ∈ A, ∀ b ∈ B, mid a < mid b := fun a ha b hb =>
      fo_before hs (ms _ (mA a ha)) (ms _ (mB b hb))
        ((List.pairwise_append.1 (List.pairwise_append.1 hord).1).2.2 a ha b hb)
    have pC : ∀ a ∈ A ++ B, ∀ b ∈ C, mid a < mid b := fun a ha b hb =>
      fo_before hs (ms _ (by rw [eABC]; simp only [List.mem_append] at ha ⊢; exact Or.inl ha)) (ms _ (mC b hb))
        ((List.pairwise_append.1 hord).2.2 a ha b hb)
    -- uncovered next to covered characters
    have leftOf : ∀ c ∈ s.chars, ∀ b ∈ s.chars, ¬ Half q.bbox c → Half q.bbox b → mid c < mid b → mid c < q.bbox.x0 := by
      intro c hc b hb n1 n2 hcb
      by_contra hge
      push Not at hge
      have hne := (tie (areaOf q) hqm hmeets c hc).1
      have : q.bbox.x0 < mid c := lt_of_le_of_ne hge hne
      exact n1 (fo_half_left n2 (fo_order hs hc hb hcb) (hs.2.1 c hc).1 (hs.2.1 b hb).1 this)
    have rightOf : ∀ c ∈ s.chars, ∀ b ∈ s.chars, ¬ Half q.bbox c → Half q.bbox b → mid b < mid c → q.bbox.x1 < mid c := by
      intro c hc b hb n1 n2 hcb
      by_contra hge
      push Not at hge
      have hne := (tie (areaOf q) hqm hmeets c hc).2
      have : mid c < q.bbox.x1 := lt_of_le_of_ne hge (Ne.symm hne)
      exact n1 (fo_half_right n2 (fo_order hs hb hc hcb) (hs.2.1 c hc).1 (hs.2.1 b hb).1 this)
    -- rounding
    have rq : q.bbox.round = q.bbox := tenths_round hq.2
    have rqx0 : round1 q.bbox.x0 = q.bbox.x0 := congrArg Rect.x0 rq
    have rqx1 : round1 q.bbox.x1 = q.bbox.x1 := congrArg Rect.x1 rq
    have rpx0 : round1 P.bbox.x0 = P.bbox.x0 := congrArg Rect.x0 h.rd
    have rpx1 : round1 P.bbox.x1 = P.bbox.x1 := congrArg Rect.x1 h.rd
    have rpy0 : round1 P.bbox.y0 = P.bbox.y0 := congrArg Rect.y0 h.rd
    have rpy1 : round1 P.bbox.y1 = P.bbox.y1 := congrArg Rect.y1 h.rd
    have rmx := fo_max_round rqx0 rpx0
    have rmn := fo_min_round rqx1 rpx1
    have eb : partBoxes P.bbox q.bbox true =
        (⟨P.bbox.x0, P.bbox.y0, max q.bbox.x0 P.bbox.x0, P.bbox.y1⟩,
         ⟨max q.bbox.x0 P.bbox.x0, P.bbox.y0, min q.bbox.x1 P.bbox.x1, P.bbox.y1⟩,
         ⟨min q.bbox.x1 P.bbox.x1, P.bbox.y0, P.bbox.x1, P.bbox.y1⟩) := by
      unfold partBoxes
      rw [hi, ie]
      simp
    have r1 : (⟨P.bbox.x0, P.bbox.y0, max q.bbox.x0 P.bbox.x0, P.bbox.y1⟩ : Rect).round =
        ⟨P.bbox.x0, P.bbox.y0, max q.bbox.x0 P.bbox.x0, P.bbox.y1⟩ := by
      simp only [Rect.round, rpx0, rpy0, rpy1, rmx]
    have r2 : (⟨max q.bbox.x0 P.bbox.x0, P.bbox.y0, min q.bbox.x1 P.bbox.x1, P.bbox.y1⟩ : Rect).round =
        ⟨max q.bbox.x0 P.bbox.x0, P.bbox.y0, min q.bbox.x1 P.bbox.x1, P.bbox.y1⟩ := by
      simp only [Rect.round, rpy0, rpy1, rmx, rmn]
    have r3 : (⟨min q.bbox.x1 P.bbox.x1, P.bbox.y0, P.bbox.x1, P.bbox.y1⟩ : Rect).round =
        ⟨min q.bbox.x1 P.bbox.x1, P.bbox.y0, P.bbox.x1, P.bbox.y1⟩ := by
      simp only [Rect.round, rpy0, rpy1, rpx1, rmn]
    have nUn : ∀ c, ¬ Half q.bbox c → R.over (done ++ [areaOf q]) s.bbox c = R.over done s.bbox c := by
      intro c hc
      rw [fo_over_snoc, if_neg (fun hh => hc hh.2.2)]; simp
    have oldSep : ∀ c ∈ P.chars, Awaited R s.bbox todo c → ∀ d ∈ s.chars, mid c < mid d → d ∉ P.chars → ∀ x1 ≤ P.bbox.x1,
        ∃ p ∈ done ++ [areaOf q], Meets p.box s.bbox ∧
          (x1 ≤ p.box.x0 ∧ p.box.x0 < mid d ∨ x1 ≤ p.box.x1 ∧ p.box.x1 ≤ mid d) := by
      intro c hc a d hd hmd hn x1 hx1
      obtain ⟨p, hp, hpm, hh⟩ := h.sep c hc (aw c a) d hd hmd hn
      refine ⟨p, List.mem_append_left _ hp, hpm, ?_⟩
      rcases hh with hh | hh
      · exact Or.inl ⟨le_trans hx1 hh.1, hh.2⟩
      · exact Or.inr ⟨le_trans hx1 hh.1, hh.2⟩
    intro P' hP
    have hsp := fo_split P q A B C hm eABC (fun c hc => (hcov' c (mA c hc)).2 (hA c hc)) (fun c hc => (hcov c (mB c hc)).2 (hB c hc))
      (fun c hc => (hcov' c (mC c hc)).2 (hC c hc)) P' hP
    rw [eb] at hsp
    dsimp only at hsp
    rw [r1, r2, r3] at hsp
    have subA : A.Sublist s.chars := (List.Sublist.trans (by rw [eABC, List.append_assoc]; exact List.sublist_append_left _ _) h.sub)
    have subB : B.Sublist s.chars := (List.Sublist.trans (by
      rw [eABC]; exact List.Sublist.trans (List.sublist_append_right A B) (List.sublist_append_left _ _)) h.sub)
    have subC : C.Sublist s.chars := (List.Sublist.trans (by rw [eABC]; exact List.sublist_append_right _ _) h.sub)
    rcases hsp with ⟨hBn, rfl⟩ | rfl | ⟨hBn, rfl⟩ | ⟨hBn, rfl⟩
    · -- left part
      obtain ⟨b, hb⟩ := List.exists_mem_of_ne_nil _ hBn
      have lt0 : ∀ c ∈ A, mid c < q.bbox.x0 := fun c hc =>
        leftOf c (ms _ (mA c hc)) b (ms _ (mB b hb)) (hA c hc) (hB b hb) (pAB c hc b hb)
      have key : ∀ c ∈ A, Awaited R s.bbox todo c → P.bbox.x0 < q.bbox.x0 := fun c hc a =>
        lt_trans (h.inBox c (mA c hc) (aw c a)).1 (lt0 c hc)
      refine ⟨h.y0, h.y1, h.x0, le_max_right _ _, ?_, r1, subA, ?_, ?_, h.look, ?_⟩
      · exact le_trans (max_le hx.2.2 h.x01) h.x1
      · intro c hc a
        refine ⟨(h.inBox c (mA c hc) (aw c a)).1, ?_⟩
        exact lt_of_lt_of_le (lt0 c hc) (le_max_left _ _)
      · intro c hc a d hd hmd hn
        dsimp only at hn ⊢
        have e0 : max q.bbox.x0 P.bbox.x0 = q.bbox.x0 := max_eq_left (le_of_lt (key c hc a))
        by_cases hdP : d ∈ P.chars
        · refine ⟨areaOf q, by simp, hmeets, Or.inl ⟨?_, ?_⟩⟩
          · rw [e0]; rfl
          · change q.bbox.x0 < mid d
            rw [eABC] at hdP
            rcases List.mem_append.1 hdP with hdP | hdC
            · rcases List.mem_append.1 hdP with hdA | hdB
              · exact absurd hdA hn
              · exact (fo_half_mid (hB d hdB)).1
            · exact lt_trans (fo_half_mid (hB b hb)).1 (pC b (List.mem_append_right _ hb) d hdC)
        · exact oldSep c (mA c hc) a d hd hmd hdP _ (max_le hx.2.2 h.x01)
      · intro c hc
        rw [nUn c (hA c hc)]
        exact h.links c (mA c hc)
    · -- the covered part
      refine ⟨h.y0, h.y1, le_trans h.x0 (le_max_right _ _), ix, le_trans (min_le_right _ _) h.x1, r2, subB, ?_, ?_, h.look, ?_⟩
      · intro c hc a
        have h1 := h.inBox c (mB c hc) (aw c a)
        have h2 := fo_half_mid (hB c hc)
        exact ⟨max_lt h2.1 h1.1, lt_min h2.2 h1.2⟩
      · intro c hc a d hd hmd hn
        dsimp only at hn ⊢
        by_cases hdP : d ∈ P.chars
        · refine ⟨areaOf q, by simp, hmeets, Or.inr ⟨min_le_left _ _, ?_⟩⟩
          change q.bbox.x1 ≤ mid d
          rw [eABC] at hdP
          rcases List.mem_append.1 hdP with hdP | hdC
          · rcases List.mem_append.1 hdP with hdA | hdB
            · exact absurd (pAB d hdA c hc) (not_lt.2 (le_of_lt hmd))
            · exact absurd hdB hn
          · exact le_of_lt (rightOf d hd c (ms _ (mB c hc)) (hC d hdC) (hB c hc) hmd)
        · exact oldSep c (mB c hc) a d hd hmd hdP _ (min_le_right _ _)
      · intro c hc
        dsimp only
        have hstrict : R.imp (areaOf q) s.bbox → Under q.bbox c := by
          intro hl
          have ht := touch (areaOf q) hqm hl
          refine ⟨?_, ?_, hB c hc⟩
          · rw [(hcy c (mB c hc)).2]
            exact lt_of_le_of_ne hyy'.2 ht.2
          · rw [(hcy c (mB c hc)).1]
            exact lt_of_le_of_ne hyy'.1 (Ne.symm ht.1)
        rw [R.app, hrd hmeets q rfl ⟨max q.bbox.x0 P.bbox.x0, P.bbox.y0, min q.bbox.x1 P.bbox.x1, P.bbox.y1⟩ h.y0 h.y1 (le_max_left _ _) (min_le_left _ _) ?_,
          h.links c (mB c hc), fo_over_snoc, List.append_assoc]
        · congr 2
          by_cases hl : R.imp (areaOf q) s.bbox
          · rw [if_pos]
            exact hstrict hl
          · have : R.tag (areaOf q) s.bbox = [] := by unfold Reader.imp at hl; simpa using hl
            simp [this]
        · intro hl
          have h1 := h.inBox c (mB c hc) ⟨_, List.mem_cons_self, hl, hstrict hl⟩
          have h2 := fo_half_mid (hB c hc)
          exact lt_trans (max_lt h2.1 h1.1) (lt_min h2.2 h1.2)
    · -- right part
      obtain ⟨b, hb⟩ := List.exists_mem_of_ne_nil _ hBn
      refine ⟨h.y0, h.y1, ?_, min_le_right _ _, h.x1, r3, subC, ?_, ?_, h.look, ?_⟩
      · exact le_trans h.x0 (le_trans (le_max_right _ _) ix)
      · intro c hc a
        refine ⟨?_, (h.inBox c (mC c hc) (aw c a)).2⟩
        exact lt_of_le_of_lt (min_le_left _ _)
          (rightOf c (ms _ (mC c hc)) b (ms _ (mB b hb)) (hC c hc) (hB b hb) (pC b (List.mem_append_right _ hb) c hc))
      · intro c hc a d hd hmd hn
        dsimp only at hn ⊢
        refine oldSep c (mC c hc) a d hd hmd ?_ _ (le_refl _)
        intro hdP
        rw [eABC] at hdP
        rcases List.mem_append.1 hdP with hdP | hdC
        · exact absurd (pC d hdP c hc) (not_lt.2 (le_of_lt hmd))
        · exact hn hdC
      · intro c hc
        rw [nUn c (hC c hc)]
        exact h.links c (mC c hc)
    · -- nothing covered
      subst hBn
      have hno : ∀ c ∈ P.chars, ¬ Half q.bbox c := by
        intro c hc
        rw [eABC] at hc
        rcases List.mem_append.1 hc with hc | hc
        · exact hA c (by simpa using hc)
        · exact hC c hc
      refine ⟨h.y0, h.y1, ?_, min_le_right _ _, h.x1, r3, h.sub, ?_, ?_, h.look, ?_⟩
      · exact le_trans h.x0 (le_trans (le_max_right _ _) ix)
      · intro c hc a
        refine ⟨?_, (h.inBox c hc (aw c a)).2⟩
        dsimp only at hc ⊢
        refine lt_of_le_of_lt (min_le_left _ _) ?_
        by_contra hge
        push Not at hge
        have hlt : mid c < q.bbox.x1 := lt_of_le_of_ne hge (Ne.symm (tie (areaOf q) hqm hmeets c (ms c hc)).2)
        obtain ⟨r, hr, hrl, hru⟩ := a
        obtain ⟨⟨d, hd, hdq⟩, hcl⟩ := clean done (areaOf q) todo rfl hmeets ⟨r, hr, hrl, c, ms c hc, hru, hlt, hno c hc⟩
        change Half q.bbox d at hdq
        have hdm := fo_half_mid hdq
        have hdP : d ∉ P.chars := fun hh => hno d hh hdq
        have hcd : mid c < mid d := by
          rcases lt_trichotomy (mid c) (mid d) with hh | hh | hh
          · exact hh
          · rw [hh] at hlt
            exact absurd (fo_half_left (c := d) (d := c) hdq) (by
              intro _
              have h1 := hs.2.2
              have hne : c ≠ d := by rintro rfl; exact hdP hc
              obtain ⟨k, hk, rfl⟩ := List.mem_iff_getElem.1 (ms c hc)
              obtain ⟨j, hj, rfl⟩ := List.mem_iff_getElem.1 hd
              rcases lt_trichotomy k j with hkj | hkj | hkj
              · have := fo_before hs (ms _ hc) hd (List.pairwise_iff_getElem.1 h1 k j hk hj hkj)
                rw [hh] at this; exact lt_irrefl _ this
              · subst hkj; exact hne rfl
              · have := fo_before hs hd (ms _ hc) (List.pairwise_iff_getElem.1 h1 j k hj hk hkj)
                rw [hh] at this; exact lt_irrefl _ this)
          · have := rightOf c (ms c hc) d hd (hno c hc) hdq hh
            linarith
        obtain ⟨p, hp, hpm, hh⟩ := h.sep c hc (aw c ⟨r, hr, hrl, hru⟩) d hd hcd hdP
        have tri : p.box.x1 < q.bbox.x0 ∨ q.bbox.x1 < p.box.x0 ∨ p.box.x0 < q.bbox.x0 ∧ q.bbox.x1 < p.box.x1 := hcl p hp hpm
        have hpx : p.box.x0 ≤ p.box.x1 := hpv p hp
        rcases hh with hh | hh <;> rcases tri with t | t | t <;> linarith [hh.1, hh.2, hx.2.2, hdm.1, hdm.2]
      · intro c hc a d hd hmd hn
        exact oldSep c hc a d hd hmd hn _ (le_refl _)
      · intro c hc
        rw [nUn c (hno c hc)]
        exact h.links c hc

/-! ## Lines and blocks -/

/-- State of what has become of an entry of a line. -/
def GroupOK (R : Reader) (done todo : List Area) : Item → List Item → Prop
  | .image b n, g => g = [.image b n]
  | .text s, g => ∃ parts : List Span, g = parts.map .text ∧ parts.flatMap Span.chars = s.chars ∧ ∀ P ∈ parts, PartOK R s done todo P

/-- State of a line. -/
def LineState (R : Reader) (done todo : List Area) (l0 l : TLine) : Prop :=
  l.bbox = l0.bbox ∧ l.horizontal = l0.horizontal ∧ ∃ gs, List.Forall₂ (GroupOK R done todo) l0.items gs ∧ l.items = gs.flatten

theorem fo_splitItems_append (r : Shape) (h : Bool) (xs ys : List Item) :
    splitItems r h (xs ++ ys) = ((splitItems r h xs).1 ++ (splitItems { r with type := (splitItems r h xs).2 } h ys).1,
      (splitItems { r with type := (splitItems r h xs).2 } h ys).2) := by
  induction xs generalizing r with
  | nil => simp [splitItems]
  | cons x xs ih =>
    cases x with
    | image b n => simp only [List.cons_append, splitItems, ih]
    | text s => simp only [List.cons_append, splitItems, ih, List.append_assoc]

/-- The parts of one span. -/
theorem fo_parts (s : Span) (hs : PlainSpan s) (done todo : List Area) (a : Area) (ha : RealBox a.box)
    (hpv : ∀ p ∈ done, p.box.x0 ≤ p.box.x1) (hu : Undisturbed R.imp (done ++ a :: todo) s) (hrd : Meets a.box s.bbox → R.Reads a s.bbox) (parts : List Span)
    (h : ∀ P ∈ parts, PartOK R s done (a :: todo) P) (r : Shape) (hr : areaOf r = a) :
    (∃ parts' : List Span, (splitItems r true (parts.map .text)).1 = parts'.map .text ∧
      parts'.flatMap Span.chars = parts.flatMap Span.chars ∧ ∀ P ∈ parts', PartOK R s (done ++ [a]) todo P) ∧
    areaOf { r with type := (splitItems r true (parts.map .text)).2 } = a := by
  induction parts generalizing r with
  | nil => exact ⟨⟨[], rfl, rfl, by simp⟩, by simpa [splitItems] using hr⟩
  | cons P parts ih =>
    have h1 : areaOf { r with type := (P.split r true).2 } = a := by rw [fo_type, hr]
    obtain ⟨⟨parts', e1, e2, e3⟩, e4⟩ := ih (fun P hP => h P (by simp [hP])) _ h1
    refine ⟨⟨(P.split r true).1 ++ parts', ?_, ?_, ?_⟩, ?_⟩
    · simp only [List.map_cons, splitItems, e1, List.map_append]
    · rw [List.flatMap_append, split_chars, e2, List.flatMap_cons]
    · intro P' hP
      rcases List.mem_append.1 hP with hP | hP
      · have hq : RealBox r.bbox := by rw [← hr] at ha; exact ha
        subst hr
        exact fo_step s hs done todo r P hq hpv hu hrd (h P (by simp)) P' hP
      · exact e3 P' hP
    · simpa only [List.map_cons, splitItems] using e4

/-- The entries of a line. -/
theorem fo_groups (done todo : List Area) (a : Area) (ha : RealBox a.box) (hpv : ∀ p ∈ done, p.box.x0 ≤ p.box.x1)
    (items : List Item) (gs : List (List Item)) (hf : List.Forall₂ (GroupOK R done (a :: todo)) items gs)
    (hok : ∀ s, Item.text s ∈ items → PlainSpan s ∧ Undisturbed R.imp (done ++ a :: todo) s)
    (hrd : ∀ s, Item.text s ∈ items → Meets a.box s.bbox → R.Reads a s.bbox) (r : Shape) (hr : areaOf r = a) :
    (∃ gs', List.Forall₂ (GroupOK R (done ++ [a]) todo) items gs' ∧ (splitItems r true gs.flatten).1 = gs'.flatten) ∧
    areaOf { r with type := (splitItems r true gs.flatten).2 } = a := by
  induction hf generalizing r with
  | nil => exact ⟨⟨[], .nil, rfl⟩, by simpa [splitItems] using hr⟩
  | @cons i g items gs hg _ ih =>
    have ih := ih (fun s hs => hok s (List.mem_cons_of_mem _ hs)) (fun s hs => hrd s (List.mem_cons_of_mem _ hs))
    rw [List.flatten_cons, fo_splitItems_append]
    have key : (∃ g', (splitItems r true g).1 = g' ∧ GroupOK R (done ++ [a]) todo i g') ∧
        areaOf { r with type := (splitItems r true g).2 } = a := by
      cases i with
      | image b n =>
        obtain rfl : g = [.image b n] := hg
        exact ⟨⟨[.image b n], by simp [splitItems], rfl⟩, by simpa [splitItems] using hr⟩
      | text s =>
        obtain ⟨parts, rfl, e, hp⟩ := hg
        obtain ⟨hs, hu⟩ := hok s (by simp)
        obtain ⟨⟨parts', e1, e2, e3⟩, e4⟩ := fo_parts s hs done todo a ha hpv hu (hrd s (by simp)) parts hp r hr
        exact ⟨⟨parts'.map .text, e1, parts', rfl, by rw [e2, e], e3⟩, e4⟩
    obtain ⟨⟨g', eg, hg'⟩, et⟩ := key
    obtain ⟨⟨gs', f1, f2⟩, f3⟩ := ih { r with type := (splitItems r true g).2 } et
    exact ⟨⟨g' :: gs', .cons hg' f1, by rw [eg, List.flatten_cons]; exact congrArg (g' ++ ·) f2⟩, f3⟩

theorem fo_union_in {a b : Rect} (ha : RealBox a) (h : Covers a b) : (a.union b).round = a := by
  have hr := tenths_round ha.2
  unfold Rect.union
  rw [if_neg (not_empty_of_proper ha.1)]
  split
  · exact hr
  · obtain ⟨h1, h2, h3, h4⟩ := h
    rw [min_eq_left h1, min_eq_left h2, max_eq_left h3, max_eq_left h4]
    exact hr

theorem fo_fold_in {a : Rect} (ha : RealBox a) (l : List Item) (h : ∀ i ∈ l, Covers a i.bbox) :
    l.foldl (fun b i => (b.union i.bbox).round) a = a := by
  induction l with
  | nil => rfl
  | cons i l ih =>
    rw [List.foldl_cons, fo_union_in ha (h i (by simp))]
    exact ih fun j hj => h j (by simp [hj])

/-- What an entry has become lies in the line and has a box. -/
theorem fo_group_box (done todo : List Area) (l0 : TLine) (i : Item) (h1 : Covers l0.bbox i.bbox)
    (hi : ∀ b n, i = .image b n → RealBox b) (ht : ∀ s, i = .text s → PlainSpan s) (g : List Item) (hg : GroupOK R done todo i g) :
    ∀ j ∈ g, Covers l0.bbox j.bbox ∧ j.bbox.truthy = true := by
  intro j hj
  cases i with
  | image b n =>
    obtain rfl : g = [.image b n] := hg
    obtain rfl : j = .image b n := by simpa using hj
    exact ⟨h1, truthy_of_proper _ (hi b n rfl).1⟩
  | text s =>
    obtain ⟨parts, rfl, e, hp⟩ := hg
    obtain ⟨P, hP, rfl⟩ := List.mem_map.1 hj
    have h := hp P hP
    have c : Covers l0.bbox s.bbox := h1
    refine ⟨⟨le_trans c.1 h.x0, ?_, le_trans h.x1 c.2.2.1, ?_⟩, ?_⟩
    · change l0.bbox.y0 ≤ P.bbox.y0
      rw [h.y0]; exact c.2.1
    · change P.bbox.y1 ≤ l0.bbox.y1
      rw [h.y1]; exact c.2.2.2
    · change P.bbox.truthy = true
      unfold Rect.truthy
      rw [decide_eq_true_eq]
      intro hz
      have sy : s.bbox.y0 < s.bbox.y1 := (ht s rfl).1.1.2
      rw [← h.y0, ← h.y1, hz] at sy
      exact lt_irrefl _ sy

theorem fo_mem_flatten {done todo : List Area} {items : List Item} {gs : List (List Item)}
    (hf : List.Forall₂ (GroupOK R done todo) items gs) : ∀ j ∈ gs.flatten, ∃ i ∈ items, ∃ g, GroupOK R done todo i g ∧ j ∈ g := by
  induction hf with
  | nil => simp
  | @cons i g items gs hg _ ih =>
    intro j hj
    rw [List.flatten_cons] at hj
    rcases List.mem_append.1 hj with hj | hj
    · exact ⟨i, by simp, g, hg, hj⟩
    · obtain ⟨i', hi, x⟩ := ih j hj
      exact ⟨i', by simp [hi], x⟩

/-- An area applied to a line. -/
theorem fo_line (done todo : List Area) (a : Area) (ha : RealBox a.box) (hpv : ∀ p ∈ done, p.box.x0 ≤ p.box.x1)
    (l0 l : TLine) (hl : LineFine R.imp (done ++ a :: todo) l0) (hrd : ∀ s, Item.text s ∈ l0.items → Meets a.box s.bbox → R.Reads a s.bbox) (h : LineState R done (a :: todo) l0 l) (r : Shape) (hr : areaOf r = a) :
    LineState R (done ++ [a]) todo l0 (resetSpans l (applyShape r l.horizontal l.items).1) ∧
    areaOf { r with type := (applyShape r l.horizontal l.items).2 } = a := by
  obtain ⟨hb, hh, gs, hf, he⟩ := h
  obtain ⟨lh, lb, li⟩ := hl
  have hH : l.horizontal = true := by rw [hh, lh]
  have hok : ∀ s, Item.text s ∈ l0.items → PlainSpan s ∧ Undisturbed R.imp (done ++ a :: todo) s := fun s hs => (li _ hs).2
  obtain ⟨⟨gs', f1, f2⟩, f3⟩ := fo_groups done todo a ha hpv l0.items gs hf hok hrd r hr
  have hall : ∀ j ∈ gs'.flatten, Covers l0.bbox j.bbox ∧ j.bbox.truthy = true := by
    intro j hj
    obtain ⟨i, hi, g, hg, hjg⟩ := fo_mem_flatten f1 j hj
    have hli := li i hi
    refine fo_group_box (done ++ [a]) todo l0 i hli.1 ?_ ?_ g hg j hjg
    · rintro b n rfl; exact hli.2
    · rintro s rfl; exact hli.2.1
  have e1 : applyShape r l.horizontal l.items = (gs'.flatten, (splitItems r true gs.flatten).2) := by
    unfold applyShape
    rw [hH, he]
    refine Prod.ext ?_ rfl
    dsimp only
    rw [f2]
    exact List.filter_eq_self.2 fun j hj => (hall j hj).2
  rw [e1]
  refine ⟨⟨?_, hh, gs', f1, rfl⟩, f3⟩
  unfold resetSpans
  dsimp only
  rw [hb, fo_fold_in lb gs'.flatten fun j hj => (hall j hj).1]

/-- An area not applied to a line. -/
theorem fo_line_skip (done todo : List Area) (a : Area) (l0 l : TLine) (h : LineState R done (a :: todo) l0 l)
    (hn : ∀ s, Item.text s ∈ l0.items → R.imp a s.bbox → ∀ c ∈ s.chars, ¬ Under a.box c) :
    LineState R (done ++ [a]) todo l0 l := by
  obtain ⟨hb, hh, gs, hf, he⟩ := h
  refine ⟨hb, hh, gs, ?_, he⟩
  clear he
  generalize l0.items = items at *
  induction hf with
  | nil => exact .nil
  | @cons i g items gs hg _ ih =>
    refine .cons ?_ (ih fun s hs => hn s (List.mem_cons_of_mem _ hs))
    cases i with
    | image b n => exact hg
    | text s =>
      obtain ⟨parts, e, e2, hp⟩ := hg
      refine ⟨parts, e, e2, fun P hP => fo_skip s done todo a P (hp P hP) ?_⟩
      intro hl c hc
      exact hn s (by simp) hl c ((hp P hP).sub.subset hc)

/-- An area not applied to any of the lines. -/
theorem fo_lines_skip (done todo : List Area) (a : Area) (ls0 ls : List TLine) (h : List.Forall₂ (LineState R done (a :: todo)) ls0 ls)
    (hn : ∀ l ∈ ls0, ∀ s, Item.text s ∈ l.items → R.imp a s.bbox → ∀ c ∈ s.chars, ¬ Under a.box c) :
    List.Forall₂ (LineState R (done ++ [a]) todo) ls0 ls := by
  induction h with
  | nil => exact .nil
  | @cons m0 m ms0 ms g1 g2 ih =>
    exact .cons (fo_line_skip done todo a m0 m g1 (hn m0 (by simp))) (ih fun l hl => hn l (List.mem_cons_of_mem _ hl))

/-- Text under an area: the area meets the line strictly. -/
theorem fo_under_meets (areas : List Area) (a : Area) (l0 : TLine) (hl : LineFine R.imp areas l0) (s : Span)
    (hs : Item.text s ∈ l0.items) (c : Chr) (hc : c ∈ s.chars) (hu : Under a.box c) :
    l0.bbox.x0 < a.box.x1 ∧ a.box.x0 < l0.bbox.x1 ∧ l0.bbox.y0 < a.box.y1 ∧ a.box.y0 < l0.bbox.y1 := by
  obtain ⟨_, _, li⟩ := hl
  obtain ⟨cv, ⟨_, hp, _⟩, _⟩ := li _ hs
  have cv : Covers l0.bbox s.bbox := cv
  obtain ⟨q1, q2, q3, q4, q5⟩ := hp c hc
  obtain ⟨u1, u2, u3⟩ := hu
  have hm := fo_half_mid u3
  unfold mid at hm
  obtain ⟨k1, k2, k3, k4⟩ := cv
  rw [q5] at u1
  rw [q4] at u2
  refine ⟨?_, ?_, ?_, ?_⟩ <;> linarith [hm.1, hm.2]

/-- One area on the lines of a block. -/
theorem fo_lines (done todo : List Area) (a : Area) (ha : RealBox a.box) (hpv : ∀ p ∈ done, p.box.x0 ≤ p.box.x1)
    (ls0 ls : List TLine) (hl : ∀ l ∈ ls0, LineFine R.imp (done ++ a :: todo) l)
    (hrd : ∀ l ∈ ls0, ∀ s, Item.text s ∈ l.items → Meets a.box s.bbox → R.Reads a s.bbox)
    (hs : ls0.Pairwise fun l m => l.bbox.y0 ≤ m.bbox.y0)
    (h : List.Forall₂ (LineState R done (a :: todo)) ls0 ls) (r : Shape) (hr : areaOf r = a) :
    List.Forall₂ (LineState R (done ++ [a]) todo) ls0 (linesFormat r ls).1 ∧ areaOf (linesFormat r ls).2 = a := by
  induction h generalizing r with
  | nil => exact ⟨.nil, hr⟩
  | @cons l0 l ls0 ls h1 h2 ih =>
    have ih := ih (fun m hm => hl m (List.mem_cons_of_mem _ hm)) (fun m hm => hrd m (List.mem_cons_of_mem _ hm)) (List.pairwise_cons.1 hs).2
    have hl0 := hl l0 (by simp)
    have eb : r.bbox = a.box := by rw [← hr]; rfl
    unfold linesFormat
    by_cases hm : (r.bbox.inter (l.bbox.expand majorDist majorDist)).truthy = false
    · rw [if_pos hm]
      have hskip : ∀ s, Item.text s ∈ l0.items → R.imp a s.bbox → ∀ c ∈ s.chars, ¬ Under a.box c := by
        intro s hs' _ c hc hu
        have k := fo_under_meets _ a l0 hl0 s hs' c hc hu
        have lb := hl0.2.1.1
        rw [eb, h1.1] at hm
        have : Proper (l0.bbox.expand majorDist majorDist) := by
          unfold Rect.expand majorDist
          exact ⟨by dsimp only; linarith [lb.1], by dsimp only; linarith [lb.2]⟩
        have ne1 := not_empty_of_proper ha.1
        have ne2 := not_empty_of_proper this
        unfold Rect.inter at hm
        rw [if_neg (by rintro (hh | hh); exacts [ne1 hh, ne2 hh])] at hm
        dsimp only at hm
        have m1 : max a.box.x0 (l0.bbox.expand majorDist majorDist).x0 < min a.box.x1 (l0.bbox.expand majorDist majorDist).x1 := by
          unfold Rect.expand majorDist
          dsimp only
          refine max_lt (lt_min ha.1.1 ?_) (lt_min ?_ ?_) <;> linarith [lb.1]
        have m2 : max a.box.y0 (l0.bbox.expand majorDist majorDist).y0 < min a.box.y1 (l0.bbox.expand majorDist majorDist).y1 := by
          unfold Rect.expand majorDist
          dsimp only
          refine max_lt (lt_min ha.1.2 ?_) (lt_min ?_ ?_) <;> linarith [lb.2]
        rw [if_neg (by push Not; exact ⟨le_of_lt m1, le_of_lt m2⟩)] at hm
        unfold Rect.truthy at hm
        rw [decide_eq_false_iff_not, not_not] at hm
        have z1 := congrArg Rect.x0 hm
        have z2 := congrArg Rect.x1 hm
        simp only [Rect.zero] at z1 z2
        rw [z1, z2] at m1
        exact lt_irrefl _ m1
      by_cases hy : r.bbox.y1 < l.bbox.y0
      · rw [if_pos hy]
        refine ⟨.cons (fo_line_skip done todo a l0 l h1 hskip) ?_, hr⟩
        rw [h1.1, eb] at hy
        have hge := (List.pairwise_cons.1 hs).1
        refine fo_lines_skip done todo a ls0 ls h2 ?_
        intro m hm0 s hs' _ c hc hu
        have k := fo_under_meets _ a m (hl m (List.mem_cons_of_mem _ hm0)) s hs' c hc hu
        have := hge m hm0
        linarith [k.2.2.1]
      · rw [if_neg hy]
        obtain ⟨i1, i2⟩ := ih r hr
        exact ⟨.cons (fo_line_skip done todo a l0 l h1 hskip) i1, i2⟩
    · rw [if_neg hm]
      obtain ⟨e1, e2⟩ := fo_line done todo a ha hpv l0 l hl0 (hrd l0 (by simp)) h1 r hr
      obtain ⟨i1, i2⟩ := ih _ e2
      exact ⟨.cons e1 i1, i2⟩

/-- All areas on one block. -/
theorem fo_block (done : List Area) (rs : List Shape) (b0 b : TBlock) (hA : ∀ a ∈ done ++ rs.map areaOf, RealBox a.box)
    (hb : BlockFine R.imp (done ++ rs.map areaOf) b0) (hbb : b.bbox = b0.bbox)
    (hrd : ∀ r ∈ rs, ∀ l ∈ b0.lines, ∀ s, Item.text s ∈ l.items → Meets r.bbox s.bbox → R.Reads (areaOf r) s.bbox)
    (hkn : ∀ r ∈ rs, r.type ≠ .hyperlink → r.type ≠ .undefined → ∀ l ∈ b0.lines, ∀ s, Item.text s ∈ l.items → R.imp (areaOf r) s.bbox → ∀ c ∈ s.chars, ¬ Under r.bbox c)
    (h : List.Forall₂ (LineState R done (rs.map areaOf)) b0.lines b.lines) :
    List.Forall₂ (LineState R (done ++ rs.map areaOf) []) b0.lines (blockFormat rs b).2.lines ∧
    (blockFormat rs b).1.map areaOf = rs.map areaOf ∧
    List.Forall₂ (fun r r' => r'.type = r.type ∨ b0.bbox.intersects r.bbox = true) rs (blockFormat rs b).1 := by
  induction rs generalizing done b with
  | nil => simpa [blockFormat] using h
  | cons r rs ih =>
    have ea : done ++ (r :: rs).map areaOf = (done ++ [areaOf r]) ++ rs.map areaOf := by simp
    have hr : RealBox (areaOf r).box := hA _ (by simp)
    have hpv : ∀ p ∈ done, p.box.x0 ≤ p.box.x1 := fun p hp => le_of_lt (hA p (by simp [hp])).1.1
    obtain ⟨bb, bl, bs⟩ := id hb
    have hA' : ∀ a ∈ (done ++ [areaOf r]) ++ rs.map areaOf, RealBox a.box := by rw [← ea]; exact hA
    have hb' : BlockFine R.imp ((done ++ [areaOf r]) ++ rs.map areaOf) b0 := by rw [← ea]; exact hb
    rw [ea]
    unfold blockFormat
    by_cases hc : (r.type ≠ .hyperlink ∧ r.type ≠ .undefined) ∨ b.bbox.intersects r.bbox = false
    · rw [if_pos hc]
      have hskip : List.Forall₂ (LineState R (done ++ [areaOf r]) (rs.map areaOf)) b0.lines b.lines := by
        refine fo_lines_skip done (rs.map areaOf) (areaOf r) _ _ h ?_
        intro l0 hl0 s hs' hlk c hcc hu
        rcases hc with hc | hc
        · exact hkn r (by simp) hc.1 hc.2 l0 hl0 s hs' hlk c hcc hu
        · obtain ⟨cv, lf⟩ := bl l0 hl0
          have k := fo_under_meets _ (areaOf r) l0 lf s hs' c hcc hu
          obtain ⟨c1, c2, c3, c4⟩ := cv
          rw [hbb] at hc
          have hr' : RealBox r.bbox := hr
          have e : (areaOf r).box = r.bbox := rfl
          rw [e] at k
          have : b0.bbox.intersects r.bbox = true := by
            rw [intersects_iff _ _ bb.1 hr'.1]
            refine ⟨max_lt (lt_min bb.1.1 ?_) (lt_min ?_ hr'.1.1), max_lt (lt_min bb.1.2 ?_) (lt_min ?_ hr'.1.2)⟩ <;>
              linarith [k.1, k.2.1, k.2.2.1, k.2.2.2]
          rw [this] at hc
          cases hc
      obtain ⟨i1, i2, i3⟩ := ih (done ++ [areaOf r]) b hA' hb' hbb (fun r' hr' => hrd r' (List.mem_cons_of_mem _ hr')) (fun r' hr' => hkn r' (List.mem_cons_of_mem _ hr')) hskip
      exact ⟨i1, by rw [List.map_cons, i2, List.map_cons], .cons (Or.inl rfl) i3⟩
    · rw [if_neg hc]
      obtain ⟨e1, e2⟩ := fo_lines done (rs.map areaOf) (areaOf r) hr hpv b0.lines b.lines (fun l hl => (bl l hl).2) (hrd r (by simp)) bs h r rfl
      obtain ⟨i1, i2, i3⟩ := ih (done ++ [areaOf r]) ⟨b.bbox, (linesFormat r b.lines).1⟩ hA' hb' hbb (fun r' hr' => hrd r' (List.mem_cons_of_mem _ hr'))
        (fun r' hr' => hkn r' (List.mem_cons_of_mem _ hr')) e1
      exact ⟨i1, by dsimp only; rw [List.map_cons, i2, e2, List.map_cons], .cons (Or.inr (by push Not at hc; rw [← hbb]; simpa using hc.2)) i3⟩

/-- The state at the beginning. -/
theorem fo_start (areas : List Area) (l : TLine) (hl : LineFine R.imp areas l) : LineState R [] areas l l := by
  refine ⟨rfl, rfl, l.items.map fun i => [i], ?_, ?_⟩
  · obtain ⟨_, _, li⟩ := hl
    generalize l.items = items at *
    induction items with
    | nil => exact .nil
    | cons i items ih =>
      refine .cons ?_ (ih fun j hj => li j (List.mem_cons_of_mem _ hj))
      cases i with
      | image b n => rfl
      | text s =>
        obtain ⟨_, ⟨hb, hp, ho⟩, _⟩ := li (.text s) (by simp)
        refine ⟨[s], rfl, by simp, ?_⟩
        intro P hP
        obtain rfl : P = s := by simpa using hP
        refine ⟨rfl, rfl, le_refl _, le_of_lt hb.1.1, le_refl _, tenths_round hb.2, List.Sublist.refl _, ?_, ?_, rfl, ?_⟩
        · intro c hc _
          obtain ⟨h1, h2, h3, _⟩ := hp c hc
          unfold mid
          constructor <;> linarith
        · intro c hc _ d hd _ hn
          exact absurd hd hn
        · intro c _; simp [Reader.over]
  · generalize l.items = items
    induction items with
    | nil => rfl
    | cons i items ih => simpa using ih

/-- The marks seen in a line. -/
def Reader.line (R : Reader) (l : TLine) : List (ℕ ⊕ (Chr × Look × List R.T)) :=
  l.items.flatMap fun
    | .image _ n => [.inl n]
    | .text s => s.chars.map fun c => .inr (c, lookOf s, R.view s.style)

/-- The marks to be seen in a line. -/
def Reader.want (R : Reader) (areas : List Area) (l : TLine) : List (ℕ ⊕ (Chr × Look × List R.T)) :=
  l.items.flatMap fun
    | .image _ n => [.inl n]
    | .text s => s.chars.map fun c => .inr (c, lookOf s, R.view s.style ++ R.over areas s.bbox c)

/-- The state at the end. -/
theorem fo_end (areas : List Area) (l0 l : TLine) (h : LineState R areas [] l0 l) : R.line l = R.want areas l0 := by
  obtain ⟨_, _, gs, hf, he⟩ := h
  unfold Reader.line Reader.want
  rw [he]
  generalize l0.items = items at *
  clear he
  induction hf with
  | nil => rfl
  | @cons i g items gs hg _ ih =>
    rw [List.flatten_cons, List.flatMap_append, ih, List.flatMap_cons]
    congr 1
    cases i with
    | image b n =>
      obtain rfl : g = [.image b n] := hg
      rfl
    | text s =>
      obtain ⟨parts, rfl, e, hp⟩ := hg
      dsimp only
      rw [← e, List.map_flatMap, List.flatMap_map]
      clear e
      induction parts with
      | nil => rfl
      | cons P parts ih2 =>
        rw [List.flatMap_cons, List.flatMap_cons, ih2 fun Q hQ => hp Q (by simp [hQ])]
        congr 1
        refine List.map_congr_left fun c hc => ?_
        rw [(hp P (by simp)).links c hc, (hp P (by simp)).look]

theorem fo_forall_of {α β : Type} {P : α → β → Prop} {l : List α} {m : List β} (h : List.Forall₂ P l m) : ∀ y ∈ m, ∃ x ∈ l, P x y := by
  induction h with
  | nil => simp
  | @cons x y l m h1 _ ih =>
    intro z hz
    rcases List.mem_cons.1 hz with rfl | hz
    · exact ⟨x, by simp, h1⟩
    · obtain ⟨w, hw, k⟩ := ih z hz
      exact ⟨w, by simp [hw], k⟩

theorem fo_forall_area {rs rs' : List Shape} {P : Shape → Shape → Prop} (h : List.Forall₂ P rs rs') (e : rs'.map areaOf = rs.map areaOf) :
    List.Forall₂ (fun r r' => P r r' ∧ areaOf r' = areaOf r) rs rs' := by
  induction h with
  | nil => exact .nil
  | @cons x y l m h1 _ ih =>
    rw [List.map_cons, List.map_cons, List.cons.injEq] at e
    exact .cons ⟨h1, e.1⟩ (ih e.2)

/-- Text of the block lies under the area, and the area is one of those looked for. -/
def Reader.Touches (R : Reader) (a : Area) (b : TBlock) : Prop := ∃ l ∈ b.lines, ∃ s, Item.text s ∈ l.items ∧ R.imp a s.bbox ∧ ∃ c ∈ s.chars, Under a.box c

/-- All areas on all blocks. -/
theorem fo_blocks (A : List Area) (rects : List Shape) (eA : rects.map areaOf = A) (bs : List TBlock) (hF : Fine R.imp A bs)
    (hrd : ∀ b ∈ bs, ∀ l ∈ b.lines, ∀ s, Item.text s ∈ l.items → ∀ a ∈ A, Meets a.box s.bbox → R.Reads a s.bbox)
    (hone : bs.Pairwise fun b b' => ∀ a ∈ A, a.link = none → R.Touches a b' → b.bbox.intersects a.box = false)
    (hkn : ∀ r ∈ rects, r.type ≠ .hyperlink → r.type ≠ .undefined → ∀ b ∈ bs, ¬ R.Touches (areaOf r) b) :
    (blocksFormat rects bs).2.map (fun b => b.lines.map R.line) = bs.map fun b => b.lines.map (R.want A) := by
  obtain ⟨hA, hb⟩ := hF
  induction bs generalizing rects with
  | nil => rfl
  | cons b bs ih =>
    have hb0 := hb b (by simp)
    obtain ⟨e1, e2, e3⟩ := fo_block (R := R) [] rects b b (by simpa [eA] using hA) (by simpa [eA] using hb0) rfl
      (fun r hr l hl s hs => hrd b (by simp) l hl s hs (areaOf r) (by rw [← eA]; exact List.mem_map_of_mem hr))
      (fun r hr h1 h2 l hl s hs hi c hc hu => hkn r hr h1 h2 b (by simp) ⟨l, hl, s, hs, hi, c, hc, hu⟩) (by
      rw [eA]
      have := fun l hl => fo_start A l ((hb0.2.1 l hl).2)
      generalize b.lines = L at *
      clear hb0 hb ih hrd hkn hone
      induction L with
      | nil => exact .nil
      | cons l L ih => exact .cons (this l (by simp)) (ih fun m hm => this m (by simp [hm])))
    rw [List.nil_append, eA] at e1
    have ih := ih (blockFormat rects b).1 (by rw [e2, eA]) (fun c hc => hrd c (List.mem_cons_of_mem _ hc)) (List.pairwise_cons.1 hone).2 (by
      intro r' hr' h1 h2 c hc ht
      obtain ⟨r, hr, hor, ea⟩ := fo_forall_of (fo_forall_area e3 e2) r' hr'
      rcases hor with hor | hor
      · rw [hor] at h1 h2
        rw [ea] at ht
        exact hkn r hr h1 h2 c (List.mem_cons_of_mem _ hc) ht
      · rw [ea] at ht
        have hl : (areaOf r).link = none := by
          rw [← ea]; unfold areaOf; rw [if_neg h1]
        have := (List.pairwise_cons.1 hone).1 c hc (areaOf r) (by rw [← eA]; exact List.mem_map_of_mem hr) hl ht
        change b.bbox.intersects r.bbox = false at this
        rw [hor] at this; cases this) (fun c hc => hb c (List.mem_cons_of_mem _ hc))
    unfold blocksFormat
    dsimp only
    rw [List.map_cons, ih, List.map_cons]
    congr 1
    generalize b.lines = L at *
    generalize (blockFormat rects b).2.lines = L' at *
    clear hb0 hb ih hrd hkn hone e3
    induction e1 with
    | nil => rfl
    | @cons l0 l ls0 ls h1 h2 ih => rw [List.map_cons, List.map_cons, ih, fo_end A l0 l h1]

/-! ## Links -/

/-- The addresses a shape adds to the covered text. -/
theorem fo_format (b : Rect) (r : Shape) : linksOf (parseFormat b r true).2.toList = (areaOf r).link.toList := by
  unfold parseFormat areaOf
  by_cases h1 : r.type = .border ∨ r.type = .shading
  · rw [if_pos h1]
    have : r.type ≠ .hyperlink := by rintro e; rw [e] at h1; simp at h1
    simp [this, linksOf]
  · rw [if_neg h1]
    by_cases h2 : r.type = .hyperlink
    · rw [if_pos h2]; simp [h2, linksOf]
    · rw [if_neg h2]
      dsimp only
      split
      · simp [linksOf]
      · rename_i h3
        have : ∀ (o : RType) (c : ℤ) (h s d : ℚ) (m : Bool), o ≠ .hyperlink → decideType o c h s d m ≠ .hyperlink := by
          intro o c h s d m ho
          unfold decideType
          split
          · split
            · simp
            · exact ho
          · split
            · simp
            · split <;> simp
        simp [linksOf, this _ _ _ _ _ _ h2]

/-- Links and their addresses. -/
def linkReader : Reader := ⟨String, fun a _ => a.link.toList, linksOf, fun a b => by unfold linksOf; rw [List.filterMap_append]⟩

theorem fo_link_imp : linkReader.imp = IsLink := by
  funext a b
  unfold Reader.imp IsLink linkReader
  cases h : a.link <;> simp [h]

theorem fo_link_reads (a : Area) (s : Rect) : linkReader.Reads a s := by
  intro r hr b _ _ _ _ _
  subst hr
  exact fo_format b r

theorem fo_link_over (areas : List Area) (b : Rect) (c : Chr) : linkReader.over areas b c = addresses areas c := by
  unfold Reader.over addresses linkReader
  generalize areas.filter _ = l
  induction l with
  | nil => rfl
  | cons a l ih =>
    rw [List.flatMap_cons, ih, List.filterMap_cons]
    cases h : a.link <;> simp [h]

/-- **C94** (partial): the characters that lie under a link area lead to its address, all other text is left as it is, and nothing is lost: the
lines of the page look as before, except that every character carries, in order, the addresses of exactly those link areas it lies under.
`rects` are the drawn shapes in the order in which they are looked at (underlines and strike-through lines, highlights, links), of any number and
size. *Missing*: pages on which the shapes disturb each other (`Undisturbed`), or with lines of very different height side by side; see the refuted
theorems below. -/
theorem C94_links_partial (rects : List Shape) (bs : List TBlock) (h : Fine IsLink (rects.map areaOf) bs) :
    pageView (blocksFormat rects bs).2 = (pageView bs).map fun b => b.map fun l => l.map (marked (rects.map areaOf)) := by
  have key := fo_blocks (R := linkReader) (rects.map areaOf) rects rfl bs (by rw [fo_link_imp]; exact h) (fun _ _ _ _ _ _ _ _ _ => fo_link_reads _ _)
    (List.pairwise_of_forall fun b b' a _ hl ⟨_, _, _, _, hi, _⟩ => by
      rw [fo_link_imp] at hi; exact absurd hl hi)
    (fun r _ h1 _ b _ ⟨_, _, _, _, hi, _⟩ => by
      rw [fo_link_imp] at hi
      exact hi (by unfold areaOf; rw [if_neg h1]))
  have e1 : ∀ l, lineView l = (linkReader.line l).map (Sum.map id fun x => (x.1, x.2.2)) := by
    intro l
    unfold lineView Reader.line
    rw [List.map_flatMap]
    refine List.flatMap_congr fun i _ => ?_
    cases i with
    | image b n => rfl
    | text s =>
      dsimp only
      rw [List.map_map]
      rfl
  have e2 : pageView (blocksFormat rects bs).2 = ((blocksFormat rects bs).2.map fun b => b.lines.map linkReader.line).map
      fun b => b.map fun l => l.map (Sum.map id fun x => (x.1, x.2.2)) := by
    unfold pageView
    rw [List.map_map]
    refine List.map_congr_left fun b _ => ?_
    rw [Function.comp, List.map_map]
    exact List.map_congr_left fun l _ => e1 l
  rw [e2, key]
  unfold pageView
  rw [List.map_map, List.map_map]
  refine List.map_congr_left fun b _ => ?_
  rw [Function.comp, Function.comp, List.map_map, List.map_map]
  refine List.map_congr_left fun l _ => ?_
  unfold Reader.want lineView
  rw [Function.comp, Function.comp, List.map_flatMap, List.map_flatMap]
  refine List.flatMap_congr fun i _ => ?_
  cases i with
  | image b n => rfl
  | text s =>
    dsimp only
    rw [List.map_map, List.map_map]
    refine List.map_congr_left fun c _ => ?_
    rw [Function.comp, fo_link_over]
    rfl

theorem fo_mem_dropWhile {α : Type} (p : α → Bool) (l : List α) (a : α) (h : a ∈ l) (hp : p a = false) : a ∈ l.dropWhile p := by
  induction l with
  | nil => cases h
  | cons b l ih =>
    rw [List.dropWhile_cons]
    split
    · rename_i hb
      rcases List.mem_cons.1 h with rfl | h
      · rw [hp] at hb; cases hb
      · exact ih h
    · exact h

theorem fo_find (st : List Style) (q : Prop) [Decidable q] (hq : q) :
    (st.find? fun x => decide (x.type = .hyperlink ∧ q)).map (fun x => x.uri.getD "") = (linksOf st).head? := by
  induction st with
  | nil => rfl
  | cons x st ih =>
    unfold linksOf at ih ⊢
    rw [List.find?_cons]
    by_cases h : x.type = .hyperlink
    · simp [h, hq]
    · simp only [h, hq, false_and, decide_false, if_false, List.filterMap_cons]
      simpa [hq] using ih

/-- **C94** (partial), in the docx: every visible character of the page that lies under a link area is rendered as a hyperlink to the address of the
first such area; every other visible character is rendered as plain text. *Missing*: as above. -/
theorem C94_clickable_partial (ws : Char → Bool) (rects : List Shape) (bs : List TBlock) (h : Fine IsLink (rects.map areaOf) bs)
    (fresh : ∀ b ∈ bs, ∀ l ∈ b.lines, ∀ s, Item.text s ∈ l.items → s.style = []) :
    ∀ b ∈ (blocksFormat rects bs).2, ∀ l ∈ b.lines, ∀ s, Item.text s ∈ l.items → ∀ c ∈ s.chars, ws c.c = false →
      s.makeDocx ws = match (addresses (rects.map areaOf) c).head? with
        | some u => .link u s.text
        | none => .plain s.text := by
  intro b hb l hl s hs c hc hw
  have e := C94_links_partial rects bs h
  have m1 : lineView l ∈ b.lines.map lineView := List.mem_map_of_mem hl
  have m2 : b.lines.map lineView ∈ pageView (blocksFormat rects bs).2 :=
    List.mem_map.2 ⟨b, hb, rfl⟩
  rw [e] at m2
  obtain ⟨vb, hvb, evb⟩ := List.mem_map.1 m2
  rw [← evb] at m1
  obtain ⟨vl, hvl, evl⟩ := List.mem_map.1 m1
  have m3 : Sum.inr (c, linksOf s.style) ∈ lineView l :=
    List.mem_flatMap.2 ⟨.text s, hs, List.mem_map.2 ⟨c, hc, rfl⟩⟩
  rw [← evl] at m3
  obtain ⟨v, hv, ev⟩ := List.mem_map.1 m3
  obtain ⟨b0, hb0, rfl⟩ := List.mem_map.1 hvb
  obtain ⟨l0, hl0, rfl⟩ := List.mem_map.1 hvl
  obtain ⟨i, hi, hvi⟩ := List.mem_flatMap.1 hv
  have key : linksOf s.style = addresses (rects.map areaOf) c := by
    cases i with
    | image b n =>
      obtain rfl : v = .inl n := by simpa using hvi
      cases ev
    | text s0 =>
      obtain ⟨c0, hc0, rfl⟩ := List.mem_map.1 hvi
      simp only [marked, Sum.inr.injEq, Prod.mk.injEq] at ev
      rw [fresh b0 hb0 l0 hl0 s0 hi] at ev
      obtain ⟨rfl, ev⟩ := ev
      rw [← ev]; simp [linksOf]
  have hne : strip ws s.text ≠ [] := by
    unfold strip
    intro hz
    have h1 := fo_mem_dropWhile ws s.text c.c (List.mem_map_of_mem hc) hw
    have h2 := fo_mem_dropWhile ws (s.text.dropWhile ws).reverse c.c (List.mem_reverse.2 h1) hw
    rw [List.reverse_eq_nil_iff.1 hz] at h2
    cases h2
  have hf := fo_find s.style _ hne
  rw [key] at hf
  rw [← hf]
  unfold Span.makeDocx
  cases (s.style.find? fun x => decide (x.type = .hyperlink ∧ strip ws s.text ≠ [])) <;> rfl

/-! ## A page with two underlined links -/

/-- `n` characters of width 10 from `x` on, between 100 and 112. -/
def foText (x : ℚ) : List Char → List Chr
  | [] => []
  | c :: cs => ⟨c, ⟨x, 100, x + 10, 112⟩⟩ :: foText (x + 10) cs

/-- "to A or B" with A and B underlined and linked, the link areas a little larger than the letters. -/
def foSpan : Span := ⟨foText 0 "to A or B.".toList, ⟨0, 100, 100, 112⟩, [], 0, "", 12, 0⟩

def foBlocks : List TBlock := [⟨⟨0, 100, 100, 112⟩, [⟨⟨0, 100, 100, 112⟩, true, [.text foSpan]⟩]⟩]

def foRects : List Shape := styleShapes
  [⟨⟨30, 111, 40, 112⟩, 0, .undefined, ""⟩, ⟨⟨80, 111, 90, 112⟩, 0, .undefined, ""⟩] []
  [⟨⟨29, 99, 41, 113⟩, 0, .hyperlink, "a"⟩, ⟨⟨79, 99, 91, 113⟩, 0, .hyperlink, "b"⟩]

theorem fo_real {r : Rect} (h : Proper r ∧ r.round = r) : RealBox r := ⟨h.1, (tenths_iff r).2 h.2⟩

theorem fo_splits (areas : List Area) (P : List Area → Area → List Area → Prop)
    (h : ∀ i (hi : i < areas.length), P (areas.take i) areas[i] (areas.drop (i + 1))) :
    ∀ before q later, areas = before ++ q :: later → P before q later := by
  intro before q later e
  subst e
  have := h before.length (by simp)
  simpa using this

instance (before : List Area) (q : Rect) (s : Span) : Decidable (Clean before q s) := by unfold Clean; infer_instance

theorem fo_example : Fine IsLink (foRects.map areaOf) foBlocks := by
  refine ⟨?_, ?_⟩
  · intro a ha
    refine fo_real ?_
    revert a
    decide +kernel
  · intro b hb
    obtain rfl : b = _ := by simpa [foBlocks] using hb
    refine ⟨fo_real (by decide +kernel), ?_, List.pairwise_singleton _ _⟩
    intro l hl
    obtain rfl : l = _ := by simpa using hl
    refine ⟨by decide +kernel, rfl, fo_real (by decide +kernel), ?_⟩
    intro i hi
    obtain rfl : i = _ := by simpa using hi
    refine ⟨by decide +kernel, ⟨fo_real (by decide +kernel), by decide +kernel, by decide +kernel⟩, by decide +kernel, by decide +kernel, ?_⟩
    refine fo_splits _ (fun before q later => Meets q.box foSpan.bbox → (∃ r ∈ later, IsLink r foSpan.bbox ∧ ∃ c ∈ foSpan.chars, Under r.box c ∧ mid c < q.box.x1 ∧ ¬ Half q.box c) → Clean before q.box foSpan) ?_
    decide +kernel

/-- Non-vacuity: a line with two underlined links fulfils the hypotheses; here is how it is rendered. -/
example : Fine IsLink (foRects.map areaOf) foBlocks ∧
    ((blocksFormat foRects foBlocks).2.flatMap fun b => b.lines.flatMap fun l => l.items.flatMap fun
      | .image _ _ => []
      | .text s => [s.makeDocx fun c => c = ' ']) =
      [.plain "to ".toList, .link "a" "A".toList, .plain " or ".toList, .link "b" "B".toList, .plain ".".toList] :=
  ⟨fo_example, by decide +kernel⟩

/-! ## What is missing -/

/-- The addresses in a line of one span, with the text. -/
def foLinks (bs : List TBlock) : List (List Char × List String) :=
  bs.flatMap fun b => b.lines.flatMap fun l => l.items.flatMap fun
    | .image _ _ => []
    | .text s => [(s.text, linksOf s.style)]

/-- **C94 is false** when the shapes disturb each other: the right link (its area a little higher on the page, hence looked at first) is underlined
over its whole width. Its area then touches the text left of it, whose box is cut to nothing – and the link on the left is lost: it is
not clickable in the docx. -/
theorem C94_refuted_lost_link :
    ∃ (rects : List Shape) (bs : List TBlock), ∃ b ∈ bs, ∃ l ∈ b.lines, ∃ s, Item.text s ∈ l.items ∧ PlainSpan s ∧
      (∃ c ∈ s.chars, c.c = 'A' ∧ addresses (rects.map areaOf) c = ["a"]) ∧
      foLinks (blocksFormat rects bs).2 = [("to A or ".toList, []), ("B".toList, ["b"]), (".".toList, [])] := by
  refine ⟨styleShapes [⟨⟨80, 111, 90, 112⟩, 0, .undefined, ""⟩] []
      [⟨⟨80, 99, 90, 113⟩, 0, .hyperlink, "b"⟩, ⟨⟨30, 100, 40, 113⟩, 0, .hyperlink, "a"⟩],
    foBlocks, _, List.mem_singleton.2 rfl, _, List.mem_singleton.2 rfl, foSpan, List.mem_singleton.2 rfl,
    ⟨fo_real (by decide +kernel), by decide +kernel, by decide +kernel⟩, by decide +kernel, by decide +kernel⟩

/-- **C94 is false** for a line standing lower than the top of a taller line beside it: the lines of a row are looked at from left to right,
and the search stops at the first line that begins below the area. Here the link on the tall title on the right is lost, because the small text
on the left begins lower. -/
theorem C94_refuted_row :
    ∃ (rects : List Shape) (bs : List TBlock), ∃ b ∈ bs, ∃ l ∈ b.lines, ∃ s, Item.text s ∈ l.items ∧ PlainSpan s ∧
      (∃ c ∈ s.chars, addresses (rects.map areaOf) c = ["x"]) ∧
      foLinks (blocksFormat rects bs).2 = [("a".toList, []), ("T".toList, [])] := by
  refine ⟨[⟨⟨50, 100, 90, 120⟩, 0, .hyperlink, "x"⟩],
    [⟨⟨0, 100, 90, 140⟩, [⟨⟨0, 126, 10, 138⟩, true, [.text ⟨[⟨'a', ⟨0, 126, 10, 138⟩⟩], ⟨0, 126, 10, 138⟩, [], 0, "", 12, 0⟩]⟩,
      ⟨⟨50, 100, 90, 140⟩, true, [.text ⟨[⟨'T', ⟨50, 100, 90, 140⟩⟩], ⟨50, 100, 90, 140⟩, [], 0, "", 40, 0⟩]⟩]⟩],
    _, List.mem_singleton.2 rfl, _, by right; exact List.mem_singleton.2 rfl, _, List.mem_singleton.2 rfl,
    ⟨fo_real (by decide +kernel), by decide +kernel, by decide +kernel⟩, by decide +kernel, by decide +kernel⟩

/-- **C29 is false** across blocks: an underline drawn across two blocks underlines only the first of them, in reading order: a shape whose type is known is not looked at again. -/
theorem C29_refuted_two_blocks :
    ∃ (rects : List Shape) (bs : List TBlock), rects.map areaOf = [⟨⟨0, 111, 100, 112⟩, 0, none, false⟩] ∧
      ((blocksFormat rects bs).2.map fun b => b.lines.map fun l => l.items.map fun
        | .image _ _ => []
        | .text s => s.style.map Style.type) = [[[[.underline]]], [[[]]]] ∧
      ((blocksFormat rects bs.reverse).2.map fun b => b.lines.map fun l => l.items.map fun
        | .image _ _ => []
        | .text s => s.style.map Style.type) = [[[[.underline]]], [[[]]]] := by
  refine ⟨[⟨⟨0, 111, 100, 112⟩, 0, .undefined, ""⟩],
    [⟨⟨0, 100, 40, 112⟩, [⟨⟨0, 100, 40, 112⟩, true, [.text ⟨foText 0 "left".toList, ⟨0, 100, 40, 112⟩, [], 0, "", 12, 0⟩]⟩]⟩,
     ⟨⟨50, 100, 100, 112⟩, [⟨⟨50, 100, 100, 112⟩, true, [.text ⟨foText 50 "right".toList, ⟨50, 100, 100, 112⟩, [], 0, "", 12, 0⟩]⟩]⟩],
    by decide +kernel, by decide +kernel, by decide +kernel⟩

end Props
