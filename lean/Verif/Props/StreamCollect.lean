import Verif.Spec.StreamCollect
import Verif.Props.Stream
/-! # C79: which text becomes a stream table -/
namespace Props
open Stream Geom Py Spec

theorem align_noBlock (b : SBlock) : b.el.horizontallyAlign noBlock.el 0 true = false := by
  unfold El.horizontallyAlign
  have : noBlock.el.truthy = false := by decide +kernel
  simp [this]

theorem splitOnP_cons' {α : Type} (p : α → Bool) (x : α) (xs : List α) :
    ∃ s ss, xs.splitOnP p = s :: ss ∧ (x :: xs).splitOnP p = if p x then [] :: s :: ss else (x :: s) :: ss := by
  cases h : xs.splitOnP p with
  | nil => exact absurd h (List.splitOnP_ne_nil _ _)
  | cons s ss =>
    refine ⟨s, ss, rfl, ?_⟩
    rw [List.splitOnP_cons, h]
    rfl

theorem stepShading_nil (b n : SBlock) (s : CSt) (h : s.shadings = []) : stepShading b n s = s := by
  unfold stepShading; rw [h]

theorem collectLoop_eq (bs : List SBlock) : ∀ (b : SBlock) (res : List (List El)) (cur0 : List El) (nl : Bool), ∃ s ss,
    (marks (!nl) (b :: bs)).splitOnP (fun m => !m.1) = s :: ss ∧
    (collectLoop (b :: bs) ⟨res, cur0 ++ (if nl then [] else b.lines.filter El.truthy), nl, []⟩).res =
      res ++ (((cur0 ++ runLines s) :: ss.map runLines).filter fun t => !t.isEmpty) := by
  induction bs with
  | nil =>
    intro b res cur0 nl
    obtain ⟨s, ss, h1, h2⟩ := splitOnP_cons' (fun m : Bool × SBlock => !m.1) (!nl || !b.flow, b) []
    rw [List.splitOnP_nil] at h1
    cases h1
    unfold marks
    rw [h2]
    simp only [collectLoop]
    rw [stepShading_nil _ _ _ rfl]
    unfold stepFlow stepRow
    dsimp only
    rw [align_noBlock]
    cases hn : nl <;> cases hf : b.flow
    · refine ⟨_, _, rfl, ?_⟩
      by_cases he : (cur0 ++ List.filter El.truthy b.lines) = []
      · simp [runLines, he]
      · simp [runLines, he]
    · refine ⟨_, _, rfl, ?_⟩
      by_cases he : (cur0 ++ List.filter El.truthy b.lines) = []
      · simp [runLines, he]
      · simp [runLines, he]
    · refine ⟨_, _, rfl, ?_⟩
      by_cases he : (cur0 ++ List.filter El.truthy b.lines) = []
      · simp [runLines, he, addLines]
      · simp [runLines, he, addLines]
    · refine ⟨_, _, rfl, ?_⟩
      by_cases he : cur0 = []
      · simp [runLines, he]
      · simp [runLines, he]
  | cons n bs ih =>
    intro b res cur0 nl
    have hcl : ∀ st, collectLoop (b :: n :: bs) st = collectLoop (n :: bs) (stepRow b n false (stepFlow b (stepShading b n st))) := fun _ => rfl
    have hmk : marks (!nl) (b :: n :: bs) = (!nl || !b.flow || sameRow b n, b) :: marks (sameRow b n) (n :: bs) := rfl
    rw [hcl, stepShading_nil _ _ _ rfl, hmk]
    obtain ⟨s, ss, h1, h2⟩ := splitOnP_cons' (fun m : Bool × SBlock => !m.1) (!nl || !b.flow || sameRow b n, b) (marks (sameRow b n) (n :: bs))
    rw [h2]
    unfold stepFlow stepRow
    dsimp only
    have hal : b.el.horizontallyAlign n.el 0 true = sameRow b n := rfl
    rw [hal]
    cases ha : sameRow b n
    · -- a new row begins
      rw [ha] at h1
      cases hn : nl <;> cases hf : b.flow
      · refine ⟨_, _, rfl, ?_⟩
        obtain ⟨s', ss', k1, k2⟩ := ih n res (cur0 ++ b.lines.filter El.truthy) true
        rw [Bool.not_true, h1] at k1
        cases k1
        simpa [runLines] using k2
      · refine ⟨_, _, rfl, ?_⟩
        obtain ⟨s', ss', k1, k2⟩ := ih n res (cur0 ++ b.lines.filter El.truthy) true
        rw [Bool.not_true, h1] at k1
        cases k1
        simpa [runLines] using k2
      · refine ⟨_, _, rfl, ?_⟩
        obtain ⟨s', ss', k1, k2⟩ := ih n res (cur0 ++ b.lines.filter El.truthy) true
        rw [Bool.not_true, h1] at k1
        cases k1
        simpa [runLines, addLines] using k2
      · refine ⟨_, _, rfl, ?_⟩
        by_cases he : cur0 = []
        · obtain ⟨s', ss', k1, k2⟩ := ih n res [] true
          rw [Bool.not_true, h1] at k1
          cases k1
          simpa [runLines, he] using k2
        · obtain ⟨s', ss', k1, k2⟩ := ih n (res ++ [cur0]) [] true
          rw [Bool.not_true, h1] at k1
          cases k1
          simpa [runLines, he] using k2
    · rw [ha] at h1
      obtain ⟨s', ss', k1, k2⟩ := ih n res (cur0 ++ b.lines.filter El.truthy) false
      rw [Bool.not_false, h1] at k1
      cases k1
      cases hn : nl <;> cases hf : b.flow <;> (refine ⟨_, _, rfl, ?_⟩; simpa [runLines, addLines] using k2)

/-- **C79**: without shadings, the candidates for stream tables are, in order, the lines of the maximal runs of consecutive blocks that are not in
flow layout or lie in one row with a neighbour: each such line once, in its order, and no other line. -/
theorem C79_candidates (bs : List SBlock) : collect [] bs = tablesOf bs := by
  unfold collect tablesOf
  cases bs with
  | nil => decide
  | cons b bs =>
    obtain ⟨s, ss, h1, h2⟩ := collectLoop_eq bs b [] [] true
    rw [Bool.not_true] at h1
    rw [h1]
    simpa using h2

/-- A block of one line (for examples). -/
def oneLineBlock (x0 y0 x1 y1 : ℚ) (flow : Bool) : SBlock := ⟨tln x0 y0 x1 y1, [tln x0 y0 x1 y1], flow⟩

/-- Non-vacuity: a heading, two blocks side by side, a paragraph, and a block of separate columns. -/
example : collect [] [oneLineBlock 50 10 300 20 true, oneLineBlock 50 40 100 50 true, oneLineBlock 200 40 250 50 true, oneLineBlock 50 70 300 80 true,
      oneLineBlock 50 100 300 110 false] =
    [[tln 50 40 100 50, tln 200 40 250 50], [tln 50 100 300 110]] := by decide +kernel

/-! ## With shadings -/

theorem mem_addLines (cur ls : List El) (x : El) : x ∈ addLines cur ls ↔ x ∈ cur ∨ (x ∈ ls ∧ x.truthy = true) := by
  unfold addLines; rw [List.mem_append, List.mem_filter]

/-- The lines of the current block are collected or not, the rest is kept. -/
def Grow (b : SBlock) (s s' : CSt) : Prop :=
  s'.res = s.res ∧ (∀ x ∈ s.cur, x ∈ s'.cur) ∧ (∀ x ∈ s'.cur, x ∈ s.cur ∨ x ∈ b.lines) ∧ (s.newLine = false → s'.newLine = false) ∧
    (s'.newLine = false → ∀ x ∈ b.lines, x.truthy = true → x ∈ s'.cur)

theorem grow_shading (b n : SBlock) (s : CSt) (hs : s.newLine = false → ∀ x ∈ b.lines, x.truthy = true → x ∈ s.cur) :
    Grow b s (stepShading b n s) ∧
    (∀ sh rest, s.shadings = sh :: rest → sh.determined = false → El.contains ⟨sh.bbox, .leftRight⟩ b.el (9 / 10) = true →
      (stepShading b n s).newLine = false) := by
  unfold stepShading
  cases hsh : s.shadings with
  | nil => exact ⟨⟨rfl, fun x h => h, fun x h => Or.inl h, id, hs⟩, by simp⟩
  | cons sh rest =>
    simp only []
    by_cases h1 : (!sh.determined && El.contains ⟨sh.bbox, .leftRight⟩ b.el (9 / 10)) = true
    · rw [if_pos h1]
      exact ⟨⟨rfl, fun x h => (mem_addLines _ _ _).2 (Or.inl h), fun x h => ((mem_addLines _ _ _).1 h).imp id And.left, fun _ => rfl,
        fun _ x hx ht => (mem_addLines _ _ _).2 (Or.inr ⟨hx, ht⟩)⟩, fun _ _ _ _ _ => rfl⟩
    · rw [if_neg h1]
      refine ⟨?_, ?_⟩
      · by_cases h2 : sh.bbox.y1 < n.el.bbox.y0
        · rw [if_pos h2]; exact ⟨rfl, fun x h => h, fun x h => Or.inl h, id, hs⟩
        · rw [if_neg h2]; exact ⟨rfl, fun x h => h, fun x h => Or.inl h, id, hs⟩
      · intro sh' rest' he hd hc
        cases he
        rw [hd, hc] at h1
        simp at h1

theorem grow_flow (b : SBlock) (s : CSt) (hs : s.newLine = false → ∀ x ∈ b.lines, x.truthy = true → x ∈ s.cur) :
    Grow b s (stepFlow b s) ∧ (b.flow = false → (stepFlow b s).newLine = false) := by
  unfold stepFlow
  by_cases h : (s.newLine && !b.flow) = true
  · rw [if_pos h]
    exact ⟨⟨rfl, fun x h => (mem_addLines _ _ _).2 (Or.inl h), fun x h => ((mem_addLines _ _ _).1 h).imp id And.left, fun _ => rfl,
        fun _ x hx ht => (mem_addLines _ _ _).2 (Or.inr ⟨hx, ht⟩)⟩, fun _ => rfl⟩
  · rw [if_neg h]
    refine ⟨⟨rfl, fun x h => h, fun x h => Or.inl h, id, hs⟩, ?_⟩
    intro hf
    rw [hf] at h
    simpa using h

theorem Grow.trans {b : SBlock} {s s' s'' : CSt} (h1 : Grow b s s') (h2 : Grow b s' s'') : Grow b s s'' :=
  ⟨h2.1.trans h1.1, fun x hx => h2.2.1 x (h1.2.1 x hx), fun x hx => (h2.2.2.1 x hx).elim (h1.2.2.1 x) Or.inr,
    fun h => h2.2.2.2.1 (h1.2.2.2.1 h), h2.2.2.2.2⟩

/-- The last part of a step. -/
theorem row_spec (b n : SBlock) (last : Bool) (s : CSt) (hs : s.newLine = false → ∀ x ∈ b.lines, x.truthy = true → x ∈ s.cur) :
    (∀ x, x ∈ s.res.flatten ∨ x ∈ s.cur → x ∈ (stepRow b n last s).res.flatten ∨ x ∈ (stepRow b n last s).cur) ∧
    (∀ x, x ∈ (stepRow b n last s).res.flatten ∨ x ∈ (stepRow b n last s).cur → x ∈ s.res.flatten ∨ x ∈ s.cur ∨ x ∈ b.lines ∨ x ∈ n.lines) ∧
    ((s.newLine = false ∨ sameRow b n = true) → ∀ x ∈ b.lines, x.truthy = true →
      x ∈ (stepRow b n last s).res.flatten ∨ x ∈ (stepRow b n last s).cur) ∧
    (last = false → (stepRow b n last s).newLine = false → ∀ x ∈ n.lines, x.truthy = true → x ∈ (stepRow b n last s).cur) ∧
    (stepRow b n last s).newLine = !sameRow b n ∧ (last = true → (stepRow b n last s).cur = []) := by
  have hal : b.el.horizontallyAlign n.el 0 true = sameRow b n := rfl
  -- closing the table keeps everything
  have close : ∀ (r : CSt) (e : Bool) (x : El), (x ∈ (if (!r.cur.isEmpty && e) = true then { r with res := r.res ++ [r.cur], cur := [] } else r).res.flatten ∨
      x ∈ (if (!r.cur.isEmpty && e) = true then { r with res := r.res ++ [r.cur], cur := [] } else r).cur) ↔ (x ∈ r.res.flatten ∨ x ∈ r.cur) := by
    intro r e x
    split_ifs
    · simp
    · rfl
  have closeN : ∀ (r : CSt) (e : Bool), (if (!r.cur.isEmpty && e) = true then { r with res := r.res ++ [r.cur], cur := [] } else r).newLine = r.newLine := by
    intro r e; split_ifs <;> rfl
  have closeL : ∀ (r : CSt), (if (!r.cur.isEmpty && true) = true then { r with res := r.res ++ [r.cur], cur := [] } else r).cur = [] := by
    intro r
    by_cases h : r.cur = []
    · simp [h]
    · simp [h]
  unfold stepRow
  rw [hal]
  cases ha : sameRow b n
  · simp only [Bool.false_eq_true, if_false]
    refine ⟨fun x hx => (close ⟨s.res, s.cur, true, s.shadings⟩ _ x).2 hx, fun x hx => ?_, ?_, ?_, ?_, ?_⟩
    · rcases (close ⟨s.res, s.cur, true, s.shadings⟩ _ x).1 hx with h | h
      · exact Or.inl h
      · exact Or.inr (Or.inl h)
    · intro h x hx ht
      exact (close ⟨s.res, s.cur, true, s.shadings⟩ _ x).2 (Or.inr (hs (h.resolve_right (by simp)) x hx ht))
    · intro _ h
      have := closeN ⟨s.res, s.cur, true, s.shadings⟩ (s.newLine || last)
      rw [h] at this
      cases this
    · exact closeN ⟨s.res, s.cur, true, s.shadings⟩ (s.newLine || last)
    · rintro rfl
      simp only [Bool.or_true]
      exact closeL ⟨s.res, s.cur, true, s.shadings⟩
  · simp only [if_true]
    have hcur : ∀ x, x ∈ addLines (if s.newLine = true then addLines s.cur b.lines else s.cur) n.lines ↔
        x ∈ s.cur ∨ (s.newLine = true ∧ x ∈ b.lines ∧ x.truthy = true) ∨ (x ∈ n.lines ∧ x.truthy = true) := by
      intro x
      rw [mem_addLines]
      cases s.newLine
      · simp
      · simp [mem_addLines, or_assoc]
    refine ⟨fun x hx => (close ⟨s.res, addLines (if s.newLine = true then addLines s.cur b.lines else s.cur) n.lines, false, s.shadings⟩ _ x).2 ?_, fun x hx => ?_, ?_, ?_, ?_, ?_⟩
    · exact hx.imp id fun h => (hcur x).2 (Or.inl h)
    · rcases (close ⟨s.res, addLines (if s.newLine = true then addLines s.cur b.lines else s.cur) n.lines, false, s.shadings⟩ _ x).1 hx with h | h
      · exact Or.inl h
      · rcases (hcur x).1 h with h | h | h
        · exact Or.inr (Or.inl h)
        · exact Or.inr (Or.inr (Or.inl h.2.1))
        · exact Or.inr (Or.inr (Or.inr h.1))
    · intro _ x hx ht
      refine (close ⟨s.res, addLines (if s.newLine = true then addLines s.cur b.lines else s.cur) n.lines, false, s.shadings⟩ _ x).2 (Or.inr ((hcur x).2 ?_))
      cases hn : s.newLine
      · exact Or.inl (hs hn x hx ht)
      · exact Or.inr (Or.inl ⟨rfl, hx, ht⟩)
    · rintro rfl _ x hx ht
      simp only [Bool.or_self, Bool.and_false, Bool.false_eq_true, if_false]
      exact (hcur x).2 (Or.inr (Or.inr ⟨hx, ht⟩))
    · exact closeN ⟨s.res, addLines (if s.newLine = true then addLines s.cur b.lines else s.cur) n.lines, false, s.shadings⟩ (false || last)
    · rintro rfl
      simp only [Bool.or_true]
      exact closeL ⟨s.res, addLines (if s.newLine = true then addLines s.cur b.lines else s.cur) n.lines, false, s.shadings⟩

/-- One step: what is collected stays, the lines of a marked block are collected, and nothing else than lines of the block and the next one. -/
theorem step_spec (b n : SBlock) (last : Bool) (s s' : CSt) (he : s' = stepRow b n last (stepFlow b (stepShading b n s)))
    (hs : s.newLine = false → ∀ x ∈ b.lines, x.truthy = true → x ∈ s.cur) :
    (∀ x, x ∈ s.res.flatten ∨ x ∈ s.cur → x ∈ s'.res.flatten ∨ x ∈ s'.cur) ∧
    (∀ x, x ∈ s'.res.flatten ∨ x ∈ s'.cur → x ∈ s.res.flatten ∨ x ∈ s.cur ∨ x ∈ b.lines ∨ x ∈ n.lines) ∧
    ((!s.newLine || !b.flow || sameRow b n) = true → ∀ x ∈ b.lines, x.truthy = true → x ∈ s'.res.flatten ∨ x ∈ s'.cur) ∧
    (last = false → s'.newLine = false → ∀ x ∈ n.lines, x.truthy = true → x ∈ s'.cur) ∧
    s'.newLine = !sameRow b n ∧ (last = true → s'.cur = []) := by
  have g1 := grow_shading b n s hs
  have g2 := grow_flow b _ g1.1.2.2.2.2
  have g := g1.1.trans g2.1
  have r := row_spec b n last _ g.2.2.2.2
  rw [← he] at r
  refine ⟨fun x hx => r.1 x ?_, fun x hx => ?_, ?_, r.2.2.2.1, r.2.2.2.2.1, r.2.2.2.2.2⟩
  · rw [g.1]; exact hx.imp id (g.2.1 x)
  · rcases r.2.1 x hx with h | h | h | h
    · rw [g.1] at h; exact Or.inl h
    · exact Or.inr ((g.2.2.1 x h).imp id Or.inl)
    · exact Or.inr (Or.inr (Or.inl h))
    · exact Or.inr (Or.inr (Or.inr h))
  · intro hm
    refine r.2.2.1 ?_
    simp only [Bool.or_eq_true, Bool.not_eq_true'] at hm
    rcases hm with (h | h) | h
    · exact Or.inl (g.2.2.2.1 h)
    · exact Or.inl (g2.2 h)
    · exact Or.inr h

theorem collectLoop_mem (bs : List SBlock) : ∀ (b : SBlock) (s : CSt), (s.newLine = false → ∀ x ∈ b.lines, x.truthy = true → x ∈ s.cur) →
    (∀ x, x ∈ s.res.flatten ∨ x ∈ s.cur → x ∈ (collectLoop (b :: bs) s).res.flatten) ∧
    (∀ x ∈ (collectLoop (b :: bs) s).res.flatten, x ∈ s.res.flatten ∨ x ∈ s.cur ∨ ∃ k ∈ b :: bs, x ∈ k.lines) ∧
    ∀ m ∈ marks (!s.newLine) (b :: bs), m.1 = true → ∀ x ∈ m.2.lines, x.truthy = true → x ∈ (collectLoop (b :: bs) s).res.flatten := by
  induction bs with
  | nil =>
    intro b s hs
    have h := step_spec b noBlock true s _ rfl hs
    have hn : sameRow b noBlock = false := align_noBlock b
    have hc := h.2.2.2.2.2 rfl
    show (∀ x, x ∈ s.res.flatten ∨ x ∈ s.cur → x ∈ (stepRow b noBlock true (stepFlow b (stepShading b noBlock s))).res.flatten) ∧
      (∀ x ∈ (stepRow b noBlock true (stepFlow b (stepShading b noBlock s))).res.flatten, x ∈ s.res.flatten ∨ x ∈ s.cur ∨ ∃ k ∈ [b], x ∈ k.lines) ∧
      ∀ m ∈ marks (!s.newLine) [b], m.1 = true → ∀ x ∈ m.2.lines, x.truthy = true →
        x ∈ (stepRow b noBlock true (stepFlow b (stepShading b noBlock s))).res.flatten
    rw [hc] at h
    refine ⟨fun x hx => (h.1 x hx).resolve_right (by simp), fun x hx => ?_, ?_⟩
    · rcases h.2.1 x (Or.inl hx) with h' | h' | h' | h'
      · exact Or.inl h'
      · exact Or.inr (Or.inl h')
      · exact Or.inr (Or.inr ⟨b, by simp, h'⟩)
      · simp [noBlock] at h'
    · intro m hm hm1 x hx ht
      simp only [marks, List.mem_singleton] at hm
      subst hm
      refine (h.2.2.1 ?_ x hx ht).resolve_right (by simp)
      rw [hn]
      simpa using hm1
  | cons n bs ih =>
    intro b s hs
    have h := step_spec b n false s _ rfl hs
    have i := ih n (stepRow b n false (stepFlow b (stepShading b n s))) (h.2.2.2.1 rfl)
    have hcl : collectLoop (b :: n :: bs) s = collectLoop (n :: bs) (stepRow b n false (stepFlow b (stepShading b n s))) := rfl
    rw [hcl]
    refine ⟨fun x hx => i.1 x (h.1 x hx), fun x hx => ?_, ?_⟩
    · rcases i.2.1 x hx with h' | h' | ⟨k, hk, h'⟩
      · rcases h.2.1 x (Or.inl h') with h' | h' | h' | h'
        · exact Or.inl h'
        · exact Or.inr (Or.inl h')
        · exact Or.inr (Or.inr ⟨b, by simp, h'⟩)
        · exact Or.inr (Or.inr ⟨n, by simp, h'⟩)
      · rcases h.2.1 x (Or.inr h') with h' | h' | h' | h'
        · exact Or.inl h'
        · exact Or.inr (Or.inl h')
        · exact Or.inr (Or.inr ⟨b, by simp, h'⟩)
        · exact Or.inr (Or.inr ⟨n, by simp, h'⟩)
      · exact Or.inr (Or.inr ⟨k, by simp [List.mem_cons.1 hk], h'⟩)
    · intro m hm hm1 x hx ht
      have hmk : marks (!s.newLine) (b :: n :: bs) = (!s.newLine || !b.flow || sameRow b n, b) :: marks (sameRow b n) (n :: bs) := rfl
      rw [hmk, List.mem_cons] at hm
      rcases hm with rfl | hm
      · exact i.1 x (h.2.2.1 hm1 x hx ht)
      · refine i.2.2 m ?_ hm1 x hx ht
        rw [h.2.2.2.2.1]
        simpa using hm

/-- **C79**: with any shadings, every line with a box of a block that is not in flow layout or lies in one row with a neighbour is a candidate,
and every candidate is a line of the page. -/
theorem C79_with_shadings (shadings : List SShape) (bs : List SBlock) :
    (∀ m ∈ marks false bs, m.1 = true → ∀ x ∈ m.2.lines, x.truthy = true → x ∈ (collect shadings bs).flatten) ∧
    ∀ x ∈ (collect shadings bs).flatten, ∃ b ∈ bs, x ∈ b.lines := by
  unfold collect
  cases bs with
  | nil => simp [marks, collectLoop]
  | cons b bs =>
    have h := collectLoop_mem bs b ⟨[], [], true, shadings⟩ (by simp)
    refine ⟨h.2.2, fun x hx => ?_⟩
    rcases h.2.1 x hx with h' | h' | h'
    · simp at h'
    · simp at h'
    · exact h'

end Props
