import Verif.Spec.StyledSound
import Verif.Props.StyledText
import Verif.Props.FullStyle
import Verif.Props.Sound
/-! # C119: no decoration without a drawing -/

namespace Props
open Geom Py Pipe Spec

section One
open Text (Item Shape Style RType)
open Styl

/-- A shape of text styling and what it was drawn as. -/
structure Of (uri : Rect → String) (sh : Full.Sh) (r : Shape) : Prop where
  box : r.bbox = sh.bbox
  color : r.color = Deco.colorOf sh
  uri : r.uri = uri sh.bbox
  link : r.type = .hyperlink ↔ ∃ a, sh = .link a

/-- The types a shape has while it is applied to a block. -/
def Live (r : Shape) : Prop :=
  r.type = .hyperlink ∨ r.type = .undefined ∨ r.type = .underline ∨ r.type = .strike ∨ (r.type = .highlight ∧ r.color ≠ Text.white)

/-- A span with decorations that come from drawings. -/
structure SpanFrom (S : List Full.Sh) (uri : Rect → String) (h : Bool) (s : Text.Span) : Prop where
  tenths : Tenths s.bbox
  drawn : ∀ st ∈ s.style, ∃ sh ∈ S, Decorates uri h sh st s.bbox

theorem ss_shrink {uri : Rect → String} {h : Bool} {sh : Full.Sh} {st : Style} {b b' : Rect} (hd : Decorates uri h sh st b)
    (h1 : (alongText h b).1 ≤ (alongText h b').1 ∧ (alongText h b').2 ≤ (alongText h b).2) (h2 : acrossText h b' = acrossText h b) : Decorates uri h sh st b' := by
  refine ⟨⟨hd.along.1.trans h1.1, h1.2.trans hd.along.2⟩, by rw [h2]; exact hd.across, ?_⟩
  have := hd.kind
  cases sh <;> simp only [KindOf, LooksLike, h2] at this ⊢ <;> exact this

theorem ss_parseFormat {uri : Rect → String} {sh : Full.Sh} {r : Shape} (ho : Of uri sh r) (hl : Live r) (b : Rect) (h : Bool) :
    Of uri sh { r with type := (Text.parseFormat b r h).1 } ∧ Live { r with type := (Text.parseFormat b r h).1 } ∧
    ∀ st, (Text.parseFormat b r h).2 = some st → KindOf uri h b st sh := by
  have hext : ∀ x, El.ext (!h) x = acrossText h x := by intro x; cases h <;> simp [El.ext, acrossText]
  by_cases hy : r.type = .hyperlink
  · obtain ⟨a, rfl⟩ := ho.link.1 hy
    have hp : Text.parseFormat b r h = (.hyperlink, some ⟨.hyperlink, r.color, some r.uri⟩) := by
      unfold Text.parseFormat
      rw [if_neg (by rw [hy]; decide), if_pos hy, hy]
    rw [hp]
    refine ⟨⟨ho.box, ho.color, ho.uri, by simp⟩, .inl rfl, ?_⟩
    rintro st ⟨⟩
    simp only [KindOf]
    rw [ho.color, ho.uri]
    rfl
  · have hns : ∀ a, sh ≠ .link a := fun a e => hy (ho.link.2 ⟨a, e⟩)
    have hbs : ¬ (r.type = .border ∨ r.type = .shading) := by
      rintro (e | e) <;> simp [Live, e] at hl
    obtain ⟨t, ht⟩ : ∃ t, t = Text.decideType r.type r.color ((acrossText h r.bbox).2 - (acrossText h r.bbox).1) ((acrossText h b).2 - (acrossText h b).1)
      |(acrossText h b).2 - (acrossText h r.bbox).1| (El.mainBbox b r.bbox Text.factorMajor).isSome := ⟨_, rfl⟩
    have hp : Text.parseFormat b r h = if t = .undefined then (t, none) else (t, some ⟨t, r.color, none⟩) := by
      unfold Text.parseFormat
      rw [if_neg hbs, if_neg hy]
      dsimp only
      simp only [hext, ← ht]
    have h1 : (Text.parseFormat b r h).1 = t := by rw [hp]; split_ifs <;> rfl
    rw [h1]
    have key : t = .undefined ∨ LooksLike h r.bbox r.color b ⟨t, r.color, none⟩ := by
      unfold Text.decideType at ht
      unfold LooksLike
      dsimp only
      simp only [true_and]
      split_ifs at ht with c1 c2 c3 c4
      · refine .inr (.inr (.inr ⟨ht, by linarith, c2.1⟩))
      · rw [ht]
        have hthin : ¬ ((acrossText h r.bbox).2 - (acrossText h r.bbox).1 < ((acrossText h b).2 - (acrossText h b).1) / 2) := by
          rw [not_lt]; linarith
        rcases hl with e | e | e | e | ⟨e, e'⟩
        · exact absurd e hy
        · exact .inl e
        · exact .inr (.inl ⟨e, fun h => absurd h hthin⟩)
        · exact .inr (.inr (.inl ⟨e, fun h => absurd h hthin⟩))
        · exact .inr (.inr (.inr ⟨e, by linarith, e'⟩))
      · exact .inr (.inl ⟨ht, fun _ => by linarith⟩)
      · exact .inr (.inr (.inl ⟨ht, fun _ => c4⟩))
      · exact .inl ht
    refine ⟨⟨ho.box, ho.color, ho.uri, ?_⟩, ?_, ?_⟩
    · dsimp only
      constructor
      · rintro rfl
        rcases key with e | e
        · cases e
        · exfalso
          have := e.2.2
          simp at this
      · rintro ⟨a, e⟩
        exact absurd e (hns a)
    · rcases key with e | e
      · exact .inr (.inl e)
      · rcases e.2.2 with e | e | e
        · exact .inr (.inr (.inl e.1))
        · exact .inr (.inr (.inr (.inl e.1)))
        · exact .inr (.inr (.inr (.inr ⟨e.1, e.2.2⟩)))
    · intro st hst
      rw [hp] at hst
      split_ifs at hst with c
      obtain rfl := Option.some.inj hst
      replace key := key.resolve_left c
      rw [ho.box, ho.color] at key
      rw [ho.color]
      cases sh with
      | link a => exact absurd rfl (hns a)
      | stroke s => exact key
      | fill a k => exact key

theorem ss_round_max {a b : ℚ} (ha : round1 a = a) (hb : round1 b = b) : round1 (max a b) = max a b := by
  rcases max_cases a b with ⟨h, _⟩ | ⟨h, _⟩ <;> rw [h] <;> assumption

theorem ss_round_min {a b : ℚ} (ha : round1 a = a) (hb : round1 b = b) : round1 (min a b) = min a b := by
  rcases min_cases a b with ⟨h, _⟩ | ⟨h, _⟩ <;> rw [h] <;> assumption

/-- The common part of two boxes in tenths. -/
theorem ss_inter {a b : Rect} (ha : Tenths a) (hb : Tenths b) (h : (a.inter b).truthy ≠ false) :
    Tenths (a.inter b) ∧ (a.inter b).x0 ≤ (a.inter b).x1 ∧ (a.inter b).y0 ≤ (a.inter b).y1 ∧
      (∀ r ∈ [a, b], r.x0 ≤ (a.inter b).x0 ∧ (a.inter b).x1 ≤ r.x1 ∧ r.y0 ≤ (a.inter b).y0 ∧ (a.inter b).y1 ≤ r.y1) := by
  rw [tenths_iff] at ha hb ⊢
  unfold Rect.inter at h ⊢
  split at h
  · exact absurd rfl h
  · rename_i he
    rw [if_neg he]
    dsimp only at h ⊢
    split at h
    · exact absurd rfl h
    · rename_i hd
      rw [if_neg hd]
      push Not at hd
      refine ⟨?_, hd.1, hd.2, ?_⟩
      · have e := fun f : Rect → ℚ => congrArg f ha
        have e' := fun f : Rect → ℚ => congrArg f hb
        unfold Rect.round
        rw [ss_round_max (e Rect.x0) (e' Rect.x0), ss_round_max (e Rect.y0) (e' Rect.y0), ss_round_min (e Rect.x1) (e' Rect.x1), ss_round_min (e Rect.y1) (e' Rect.y1)]
      · intro r hr
        simp only [List.mem_cons, List.not_mem_nil, or_false] at hr
        rcases hr with rfl | rfl
        · exact ⟨le_max_left _ _, min_le_left _ _, le_max_left _ _, min_le_left _ _⟩
        · exact ⟨le_max_right _ _, min_le_right _ _, le_max_right _ _, min_le_right _ _⟩

theorem ss_mk {a b c d : ℚ} (h1 : round1 a = a) (h2 : round1 b = b) (h3 : round1 c = c) (h4 : round1 d = d) : (⟨a, b, c, d⟩ : Rect).round = ⟨a, b, c, d⟩ := by
  simp [Rect.round, h1, h2, h3, h4]

/-- The parts of a span: their boxes. -/
theorem ss_parts {s r : Rect} (hs : Tenths s) (hr : Tenths r) (hm : (r.inter s).truthy ≠ false) (h : Bool) (p : Rect)
    (hp : p = (Text.partBoxes s r h).1.round ∨ p = (Text.partBoxes s r h).2.1.round ∨ p = (Text.partBoxes s r h).2.2.round) :
    Tenths p ∧ ((alongText h s).1 ≤ (alongText h p).1 ∧ (alongText h p).2 ≤ (alongText h s).2) ∧ acrossText h p = acrossText h s := by
  obtain ⟨i1, i2, i3, i4⟩ := ss_inter hr hs hm
  have i5 := i4 s (by simp)
  rw [tenths_iff] at hs i1 ⊢
  unfold Text.partBoxes at hp
  dsimp only at hp
  generalize r.inter s = i at *
  have e := fun f : Rect → ℚ => congrArg f hs
  have e' := fun f : Rect → ℚ => congrArg f i1
  have e0 := e Rect.x0; have e1 := e Rect.y0; have e2 := e Rect.x1; have e3 := e Rect.y1
  have f0 := e' Rect.x0; have f1 := e' Rect.y0; have f2 := e' Rect.x1; have f3 := e' Rect.y1
  simp only [Rect.round] at e0 e1 e2 e3 f0 f1 f2 f3
  cases h <;> simp only [Bool.false_eq_true, if_false, if_true, Rect.round, e0, e1, e2, e3, f0, f1, f2, f3] at hp <;> rcases hp with rfl | rfl | rfl <;>
    refine ⟨ss_mk (by assumption) (by assumption) (by assumption) (by assumption), ?_, by simp [acrossText]⟩ <;> simp only [alongText, Bool.false_eq_true, if_false, if_true] <;>
    constructor <;> linarith [i5.1, i5.2.1, i5.2.2.1, i5.2.2.2]

theorem ss_mid {s r : Rect} (hs : Tenths s) (hr : Tenths r) (hm : (r.inter s).truthy ≠ false) (h : Bool) :
    ((alongText h r).1 ≤ (alongText h (Text.partBoxes s r h).2.1.round).1 ∧ (alongText h (Text.partBoxes s r h).2.1.round).2 ≤ (alongText h r).2) ∧
    ((acrossText h r).1 ≤ (acrossText h (Text.partBoxes s r h).2.1.round).2 ∧ (acrossText h (Text.partBoxes s r h).2.1.round).1 ≤ (acrossText h r).2) := by
  rw [(ss_parts hs hr hm h _ (.inr (.inl rfl))).2.2]
  obtain ⟨i1, i2, i3, i4⟩ := ss_inter hr hs hm
  have i5 := i4 s (by simp)
  have i6 := i4 r (by simp)
  rw [tenths_iff] at i1
  unfold Text.partBoxes
  dsimp only
  generalize r.inter s = i at *
  have e' := fun f : Rect → ℚ => congrArg f i1
  have f0 := e' Rect.x0; have f1 := e' Rect.y0; have f2 := e' Rect.x1; have f3 := e' Rect.y1
  simp only [Rect.round] at f0 f1 f2 f3
  cases h <;> simp only [alongText, acrossText, Bool.false_eq_true, if_false, if_true, Rect.round, f0, f1, f2, f3] <;>
    refine ⟨⟨?_, ?_⟩, ?_, ?_⟩ <;> linarith [i5.1, i5.2.1, i5.2.2.1, i5.2.2.2, i6.1, i6.2.1, i6.2.2.1, i6.2.2.2]

theorem ss_split {S : List Full.Sh} {uri : Rect → String} {h : Bool} {s : Text.Span} {sh : Full.Sh} {r : Shape} (hsh : sh ∈ S) (ho : Of uri sh r) (hl : Live r) (ht : Tenths r.bbox) :
    (SpanFrom S uri h s → ∀ p ∈ (s.split r h).1, SpanFrom S uri h p) ∧ Of uri sh { r with type := (s.split r h).2 } ∧ Live { r with type := (s.split r h).2 } := by
  by_cases hm : (r.bbox.inter s.bbox).truthy = false
  · unfold Text.Span.split
    rw [if_pos hm]
    refine ⟨?_, ho, hl⟩
    intro hs p hp
    obtain rfl : p = s := by simpa using hp
    exact hs
  · unfold Text.Span.split
    rw [if_neg hm]
    dsimp only
    obtain ⟨k1, k2, k3⟩ := ss_parseFormat ho hl (Text.partBoxes s.bbox r.bbox h).2.1.round h
    refine ⟨?_, ?_, ?_⟩
    · intro hs p hp
      have parts := ss_parts hs.tenths ht hm h
      have mid := ss_mid hs.tenths ht hm h
      rw [List.mem_append, List.mem_append] at hp
      have keep : ∀ b : Rect, b = (Text.partBoxes s.bbox r.bbox h).1.round ∨ b = (Text.partBoxes s.bbox r.bbox h).2.1.round ∨ b = (Text.partBoxes s.bbox r.bbox h).2.2.round →
          ∀ st ∈ s.style, ∃ sh ∈ S, Decorates uri h sh st b := by
        intro b hb st hst
        obtain ⟨sh', h1, h2⟩ := hs.drawn st hst
        exact ⟨sh', h1, ss_shrink h2 (parts b hb).2.1 (parts b hb).2.2⟩
      rcases hp with (hp | hp) | hp
      · split_ifs at hp
        · obtain rfl := List.mem_singleton.1 hp
          exact ⟨(parts _ (.inl rfl)).1, keep _ (.inl rfl)⟩
        · cases hp
      · split_ifs at hp
        · obtain rfl := List.mem_singleton.1 hp
          refine ⟨(parts _ (.inr (.inl rfl))).1, ?_⟩
          intro st hst
          rcases List.mem_append.1 hst with hst | hst
          · exact keep _ (.inr (.inl rfl)) st hst
          · refine ⟨sh, hsh, ?_, ?_, k3 st (by simpa using hst)⟩
            · rw [← ho.box]; exact mid.1
            · rw [← ho.box]; exact mid.2
        · cases hp
      · split_ifs at hp
        · obtain rfl := List.mem_singleton.1 hp
          exact ⟨(parts _ (.inr (.inr rfl))).1, keep _ (.inr (.inr rfl))⟩
        · cases hp
    · split_ifs
      · exact k1
      · exact ho
    · split_ifs
      · exact k2
      · exact hl

/-- A line with decorations that come from drawings. -/
def LineFrom (S : List Full.Sh) (uri : Rect → String) (l : TLine) : Prop := ∀ s, Item.text s ∈ l.items → SpanFrom S uri l.horizontal s

theorem ss_items {S : List Full.Sh} {uri : Rect → String} {h : Bool} {sh : Full.Sh} (hsh : sh ∈ S) (is : List Item) {r : Shape} (ho : Of uri sh r) (hl : Live r) (ht : Tenths r.bbox) :
    ((∀ s, Item.text s ∈ is → SpanFrom S uri h s) → ∀ s, Item.text s ∈ (Text.splitItems r h is).1 → SpanFrom S uri h s) ∧ Of uri sh { r with type := (Text.splitItems r h is).2 } ∧ Live { r with type := (Text.splitItems r h is).2 } := by
  induction is generalizing r with
  | nil => exact ⟨by simp [Text.splitItems], ho, hl⟩
  | cons i is ih =>
    cases i with
    | image b n =>
      obtain ⟨h1, h2⟩ := ih ho hl ht
      refine ⟨?_, h2⟩
      intro hs s hs'
      replace h1 := h1 (fun s hs' => hs s (by simp [hs']))
      simp only [Text.splitItems, List.mem_cons, reduceCtorEq, false_or] at hs'
      exact h1 s hs'
    | text s0 =>
      obtain ⟨k1, k2, k3⟩ := ss_split (s := s0) (h := h) hsh ho hl ht
      obtain ⟨h1, h2⟩ := ih k2 k3 ht
      refine ⟨?_, h2⟩
      intro hs s hs'
      replace h1 := h1 (fun s hs' => hs s (by simp [hs']))
      replace k1 := k1 (hs s0 (by simp))
      simp only [Text.splitItems, List.mem_append, List.mem_map] at hs'
      rcases hs' with ⟨p, hp, e⟩ | hs'
      · cases e
        exact k1 _ hp
      · exact h1 s hs'

theorem ss_lines {S : List Full.Sh} {uri : Rect → String} {sh : Full.Sh} (hsh : sh ∈ S) (ls : List TLine) {r : Shape} (ho : Of uri sh r) (hl : Live r) (ht : Tenths r.bbox) :
    ((∀ l ∈ ls, LineFrom S uri l) → ∀ l ∈ (linesFormat r ls).1, LineFrom S uri l) ∧ (linesFormat r ls).1.map TLine.horizontal = ls.map TLine.horizontal ∧ Of uri sh (linesFormat r ls).2 := by
  induction ls generalizing r with
  | nil => exact ⟨by simp [linesFormat], rfl, ho⟩
  | cons l ls ih =>
    unfold linesFormat
    split
    · split
      · exact ⟨id, rfl, ho⟩
      · obtain ⟨h1, h2, h3⟩ := ih ho hl ht
        refine ⟨?_, by rw [List.map_cons, List.map_cons, h2], h3⟩
        intro hs m hm
        replace h1 := h1 (fun m hm => hs m (by simp [hm]))
        rcases List.mem_cons.1 hm with rfl | hm
        · exact hs m (by simp)
        · exact h1 m hm
    · dsimp only
      obtain ⟨k1, k2, k3⟩ := ss_items (h := l.horizontal) hsh l.items ho hl ht
      obtain ⟨h1, h2, h3⟩ := ih (r := { r with type := (Text.applyShape r l.horizontal l.items).2 }) k2 k3 ht
      refine ⟨?_, by rw [List.map_cons, List.map_cons, h2]; rfl, h3⟩
      intro hs m hm
      replace h1 := h1 (fun m hm => hs m (by simp [hm]))
      replace k1 := k1 (hs l (by simp))
      rcases List.mem_cons.1 hm with rfl | hm
      · intro s hs'
        exact k1 s (List.mem_filter.1 hs').1
      · exact h1 m hm

/-- A shape that is not used any more, or drawn in `S`. -/
def UsedOf (S : List Full.Sh) (uri : Rect → String) (r : Shape) : Prop := (r.type ≠ .hyperlink ∧ r.type ≠ .undefined) ∨ ∃ sh ∈ S, Of uri sh r ∧ Tenths sh.bbox

theorem ss_block {S : List Full.Sh} {uri : Rect → String} (rs : List Shape) (hr : ∀ r ∈ rs, UsedOf S uri r) (b : TBlock) :
    (∀ r ∈ (blockFormat rs b).1, UsedOf S uri r) ∧ ((∀ l ∈ b.lines, LineFrom S uri l) → ∀ l ∈ (blockFormat rs b).2.lines, LineFrom S uri l) ∧
      (blockFormat rs b).2.lines.map TLine.horizontal = b.lines.map TLine.horizontal := by
  induction rs generalizing b with
  | nil => exact ⟨by simp [blockFormat], id, rfl⟩
  | cons r rs ih =>
    have hr0 := hr r (by simp)
    unfold blockFormat
    split
    · obtain ⟨h1, h2⟩ := ih (fun x hx => hr x (by simp [hx])) b
      refine ⟨?_, h2⟩
      intro x hx
      rcases List.mem_cons.1 hx with rfl | hx
      · exact hr0
      · exact h1 x hx
    · rename_i hc
      push Not at hc
      obtain ⟨sh, hsh, ho, ht⟩ := hr0.resolve_left fun h => h.2 (hc.1 h.1)
      have hl : Live r := by
        by_cases e : r.type = .hyperlink
        · exact .inl e
        · exact .inr (.inl (hc.1 e))
      dsimp only
      obtain ⟨k1, k2, k3⟩ := ss_lines hsh b.lines ho hl (by rw [ho.box]; exact ht)
      obtain ⟨h1, h2, h3⟩ := ih (fun x hx => hr x (by simp [hx])) ⟨b.bbox, (linesFormat r b.lines).1⟩
      refine ⟨?_, fun hb => h2 (k1 hb), h3.trans k2⟩
      intro x hx
      rcases List.mem_cons.1 hx with rfl | hx
      · exact .inr ⟨sh, hsh, k3, ht⟩
      · exact h1 x hx

theorem ss_blocks {S : List Full.Sh} {uri : Rect → String} (bs : List TBlock) (rs : List Shape) (hr : ∀ r ∈ rs, UsedOf S uri r) :
    List.Forall₂ (fun t b => ((∀ l ∈ b.lines, LineFrom S uri l) → ∀ l ∈ t.lines, LineFrom S uri l) ∧ t.lines.map TLine.horizontal = b.lines.map TLine.horizontal) (blocksFormat rs bs).2 bs := by
  induction bs generalizing rs with
  | nil => exact .nil
  | cons b bs ih =>
    obtain ⟨h1, h2⟩ := ss_block rs hr b
    exact .cons h2 (ih _ h1)

end One

section Layouts119

/-- Each line of a text has decorations that come from drawings. -/
def TextFrom (S : List Full.Sh) (uri : Rect → String) (ls : List (Lay.Ln Tok)) (s : Styl.TBlock) : Prop :=
  List.Forall₂ (fun l t => ∀ sp, Text.Item.text sp ∈ t.items → ∀ st ∈ sp.style, ∃ sh ∈ S, Decorates uri (decide (l.dir = .leftRight)) sh st sp.bbox) ls s.lines

theorem ss_shape_of (uri : Rect → String) (ty : Full.Types) (sh : Full.Sh) : Of uri sh (Deco.shape uri ty sh) := by
  refine ⟨rfl, rfl, rfl, ?_⟩
  unfold Deco.shape
  cases sh with
  | link a => simp [Deco.typeOf]
  | stroke s => simp only [Deco.typeOf]; split_ifs <;> simp
  | fill a k => simp only [Deco.typeOf]; split_ifs <;> simp

theorem ss_candidates {S : List Full.Sh} (st st' : Full.State Tok) (h : ∀ s ∈ st.sub.shapes, s ∈ S) (h' : ∀ s ∈ st'.sub.shapes, s ∈ S) : ∀ s ∈ Deco.candidates st st', s ∈ S := by
  intro s hs
  unfold Deco.candidates Deco.lines Deco.highlights Deco.links at hs
  simp only [List.mem_append, List.mem_filter] at hs
  rcases hs with (hs | hs) | hs
  · exact h s hs.1
  · exact h s hs.1
  · exact h' s hs.1

theorem ss_line_from (S : List Full.Sh) (uri : Rect → String) (l : Lay.Ln Tok) (h : LineOK l) : LineFrom S uri (Deco.line l) := by
  intro s hs
  obtain ⟨x, hx, e⟩ := List.mem_map.1 hs
  have hok := (h.2 x hx).2.1
  cases hs2 : x.2 with
  | image b t => rw [hs2] at e; cases t <;> cases e
  | text b cs =>
    rw [hs2] at hok e
    cases e
    refine ⟨hok.1.2, ?_⟩
    intro st hst
    cases hst

theorem ss_cells (P : List (Lay.Ln Tok) → Styl.TBlock → Prop) (Q : Full.Cell → Prop)
    (sub : ℕ → Full.Types → Full.Cell → List (Full.Blk Tok) → Except Err (List Deco.Blk × Full.Types))
    (h : ∀ i ty cell bs r, Q cell → (∀ b ∈ bs, EachCell Q b) → sub i ty cell bs = .ok r → EachTextIn P r.1) (i : ℕ) (ty : Full.Types) (cs : List (Full.Cell × List (Full.Blk Tok)))
    (hq : ∀ c ∈ cs, Q c.1 ∧ ∀ b ∈ c.2, EachCell Q b) (r) (hr : Deco.parseCells sub i ty cs = .ok r) : EachTextOf P r.1 := by
  induction cs generalizing i ty r with
  | nil =>
    unfold Deco.parseCells at hr
    obtain rfl := Except.ok.inj hr
    trivial
  | cons c cs ih =>
    unfold Deco.parseCells at hr
    cases h1 : sub i ty c.1 c.2 with
    | error e => rw [h1] at hr; cases hr
    | ok x =>
      rw [h1] at hr
      dsimp only at hr
      cases h2 : Deco.parseCells sub (i + 1) x.2 cs with
      | error e => rw [h2] at hr; cases hr
      | ok q =>
        rw [h2] at hr
        obtain rfl := Except.ok.inj hr
        simp only [EachTextOf]
        exact ⟨h _ _ _ _ _ (hq c (by simp)).1 (hq c (by simp)).2 h1, ih _ _ (fun c hc => hq c (by simp [hc])) _ h2⟩

theorem ss_tables (P : List (Lay.Ln Tok) → Styl.TBlock → Prop) (Q : Full.Cell → Prop)
    (sub : ℕ → ℕ → Full.Types → Full.Cell → List (Full.Blk Tok) → Except Err (List Deco.Blk × Full.Types))
    (h : ∀ i j ty cell bs r, Q cell → (∀ b ∈ bs, EachCell Q b) → sub i j ty cell bs = .ok r → EachTextIn P r.1) (i : ℕ) (ty : Full.Types) (ts : List Styl.TBlock) (bs : List (Full.Blk Tok))
    (hq : ∀ b ∈ bs, EachCell Q b) (hts : List.Forall₂ (fun t x => P x t) ts (bs.filterMap fun | .text _ ls => some ls | _ => none)) (r)
    (hr : Deco.parseTables sub i ty ts bs = .ok r) : EachTextIn P r.1 := by
  induction bs generalizing i ty ts r with
  | nil =>
    unfold Deco.parseTables at hr
    obtain rfl := Except.ok.inj hr
    trivial
  | cons b bs ih =>
    have hq' : ∀ b ∈ bs, EachCell Q b := fun x hx => hq x (by simp [hx])
    cases b with
    | text b ls =>
      simp only [List.filterMap_cons] at hts
      obtain ⟨t, ts, h1, h2, rfl⟩ := List.forall₂_cons_right_iff.1 hts
      unfold Deco.parseTables at hr
      rw [List.tail_cons, List.headD_cons] at hr
      cases h3 : Deco.parseTables sub (i + 1) ty ts bs with
      | error e => rw [h3] at hr; cases hr
      | ok q =>
        rw [h3] at hr
        obtain rfl := Except.ok.inj hr
        simp only [EachTextIn, EachText]
        exact ⟨h1, ih _ _ _ hq' h2 _ h3⟩
    | table b g cs =>
      simp only [List.filterMap_cons] at hts
      unfold Deco.parseTables at hr
      cases h2 : Deco.parseCells (sub i) 0 ty cs with
      | error e => rw [h2] at hr; cases hr
      | ok q =>
        rw [h2] at hr
        dsimp only at hr
        cases h3 : Deco.parseTables sub (i + 1) q.2 ts bs with
        | error e => rw [h3] at hr; cases hr
        | ok x =>
          rw [h3] at hr
          obtain rfl := Except.ok.inj hr
          simp only [EachTextIn, EachText]
          exact ⟨ss_cells P Q _ (h i) _ _ _ ((cs_table Q b g cs).1 (hq _ (by simp))) _ h2, ih _ _ _ hq' hts _ h3⟩

/-- The lines of text blocks. -/
theorem ss_texts (bs : List (Full.Blk Tok)) : Deco.texts bs = bs.filterMap fun | .text b ls => some ⟨b, ls.map Deco.line⟩ | _ => none := by
  induction bs with
  | nil => rfl
  | cons b bs ih => cases b <;> simp [Deco.texts, ih]

/-- A shape that may still be given a text style: a link, or not yet anything. -/
def Free (ty : Full.Types) (s : Full.Sh) : Prop := (∃ a, s = .link a) ∨ (s ∉ ty.done ∧ s ∉ ty.styled)

theorem ss_pass_of (S : List Full.Sh) (hS : ∀ s ∈ S, Tenths s.bbox) (uri : Rect → String) (st st' : Full.State Tok) (h : ∀ s ∈ Deco.candidates st st', Free st'.types s → s ∈ S)
    (bs : List (Full.Blk Tok)) :
    List.Forall₂ (fun t ls => (∀ l ∈ ls, LineOK l) → TextFrom S uri ls t) (Deco.pass uri st st' bs).2 (bs.filterMap fun | .text _ ls => some ls | _ => none) := by
  have key := ss_blocks (S := S) (uri := uri) (Deco.texts bs) ((Deco.candidates st st').map (Deco.shape uri st'.types)) (by
    intro r hr
    obtain ⟨sh, hsh, rfl⟩ := List.mem_map.1 hr
    by_cases hf : Free st'.types sh
    · have := h sh hsh hf
      exact .inr ⟨sh, this, ss_shape_of uri _ sh, hS sh this⟩
    · refine .inl ?_
      unfold Free at hf
      push Not at hf
      unfold Deco.shape
      cases sh with
      | link a => exact absurd rfl (hf.1 a)
      | stroke s =>
        simp only [Deco.typeOf]
        split_ifs with h1 h2
        · simp
        · simp
        · exact absurd (hf.2 h1) h2
      | fill a k =>
        simp only [Deco.typeOf]
        split_ifs with h1 h2
        · simp
        · simp
        · exact absurd (hf.2 h1) h2)
  have e : Deco.texts bs = (bs.filterMap fun | .text b ls => some (b, ls) | _ => none).map fun x : Rect × List (Lay.Ln Tok) => ⟨x.1, x.2.map Deco.line⟩ := by
    rw [ss_texts, List.map_filterMap]
    refine List.filterMap_congr fun b _ => ?_
    cases b <;> rfl
  have e' : (bs.filterMap fun | .text _ ls => some ls | _ => none) = (bs.filterMap fun | .text b ls => some (b, ls) | _ => none).map (Prod.snd : Rect × List (Lay.Ln Tok) → _) := by
    rw [List.map_filterMap]
    refine List.filterMap_congr fun b _ => ?_
    cases b <;> rfl
  unfold Deco.pass
  rw [e']
  rw [e] at key ⊢
  rw [List.forall₂_map_right_iff] at key ⊢
  refine key.imp ?_
  rintro t ⟨b, ls⟩ ⟨k1, k2⟩ hok
  dsimp only at k1 k2 hok ⊢
  replace k1 := k1 (by
    intro l hl
    obtain ⟨m, hm, rfl⟩ := List.mem_map.1 hl
    exact ss_line_from S uri m (hok m hm))
  unfold TextFrom
  rw [List.map_map] at k2
  rw [List.forall₂_iff_get]
  have hlen : t.lines.length = ls.length := by simpa using congrArg List.length k2
  refine ⟨hlen.symm, ?_⟩
  intro i h1 h2 sp hsp st hst
  have hh := congrArg (fun l => l[i]?) k2
  simp only [List.getElem?_map, List.getElem?_eq_getElem h1, List.getElem?_eq_getElem h2, Option.map_some, Option.some.injEq] at hh
  have := (k1 _ (List.get_mem t.lines ⟨i, h2⟩) sp hsp).drawn st hst
  rw [List.get_eq_getElem] at this hsp ⊢
  rw [hh] at this
  exact this

theorem ss_pass (S : List Full.Sh) (hS : ∀ s ∈ S, Tenths s.bbox) (uri : Rect → String) (st st' : Full.State Tok) (h : ∀ s ∈ st.sub.shapes, s ∈ S) (h' : ∀ s ∈ st'.sub.shapes, s ∈ S)
    (bs : List (Full.Blk Tok)) :
    List.Forall₂ (fun t ls => (∀ l ∈ ls, LineOK l) → TextFrom S uri ls t) (Deco.pass uri st st' bs).2 (bs.filterMap fun | .text _ ls => some ls | _ => none) :=
  ss_pass_of S hS uri st st' (fun s hs _ => ss_candidates st st' h h' s hs) bs

/-- **C119** for one layout: a line that is the border of a table found there or around it, an area that is the background of a cell, and what decorates text of an enclosing layout, does not
decorate text of the layout. -/
theorem C119_not_borders (uri : Rect → String) (before after : Full.State Tok) (bs : List (Full.Blk Tok))
    (hl : ∀ b ls, Full.Blk.text b ls ∈ bs → ∀ l ∈ ls, LineOK l) (hS : ∀ s ∈ before.sub.shapes ++ after.sub.shapes, Tenths s.bbox) :
    ∀ t ∈ (Deco.pass uri before after bs).2, ∀ l ∈ t.lines, ∀ sp, Text.Item.text sp ∈ l.items → ∀ st ∈ sp.style,
      ∃ sh ∈ before.sub.shapes ++ after.sub.shapes, ((∃ a, sh = .link a) ∨ (sh ∉ after.types.done ∧ sh ∉ after.types.styled)) ∧ ∃ horizontal, Decorates uri horizontal sh st sp.bbox := by
  obtain ⟨S, eS⟩ : ∃ S, S = (before.sub.shapes ++ after.sub.shapes).filter fun s => (match s with | .link _ => true | _ => false) || decide (s ∉ after.types.done ∧ s ∉ after.types.styled) := ⟨_, rfl⟩
  have memS : ∀ s, s ∈ S ↔ s ∈ before.sub.shapes ++ after.sub.shapes ∧ Free after.types s := by
    intro s
    rw [eS, List.mem_filter]
    refine and_congr_right fun _ => ?_
    unfold Free
    cases s <;> simp
  have key := ss_pass_of S (fun s hs => hS s ((memS s).1 hs).1) uri before after (by
    intro s hs hf
    refine (memS s).2 ⟨?_, hf⟩
    unfold Deco.candidates Deco.lines Deco.highlights Deco.links at hs
    simp only [List.mem_append, List.mem_filter] at hs ⊢
    rcases hs with (hs | hs) | hs
    · exact .inl hs.1
    · exact .inl hs.1
    · exact .inr hs.1) bs
  have hok : ∀ ls ∈ (bs.filterMap fun | .text _ ls => some ls | _ => none : List (List (Lay.Ln Tok))), ∀ l ∈ ls, LineOK l := by
    intro ls hls
    obtain ⟨b, hb, e⟩ := List.mem_filterMap.1 hls
    cases b with
    | table b g cs => cases e
    | text b ls' =>
      obtain rfl := Option.some.inj e
      exact hl b ls' hb
  intro t ht l hlt sp hsp st hst
  generalize (bs.filterMap fun | .text _ ls => some ls | _ => none : List (List (Lay.Ln Tok))) = L at key hok
  generalize (Deco.pass uri before after bs).2 = T at key ht
  clear hl hS eS
  induction key with
  | nil => cases ht
  | cons h1 h2 ih =>
    rcases List.mem_cons.1 ht with rfl | ht
    · have hf := h1 (hok _ (by simp))
      unfold TextFrom at hf
      generalize t.lines = ts at hf hlt
      clear h1 ih hok
      induction hf with
      | nil => cases hlt
      | cons k1 k2 ih2 =>
        rcases List.mem_cons.1 hlt with rfl | hlt
        · obtain ⟨sh, q1, q2⟩ := k1 sp hsp st hst
          exact ⟨sh, ((memS sh).1 q1).1, ((memS sh).1 q1).2, _, q2⟩
        · exact ih2 hlt
    · exact ih (fun ls hls => hok ls (by simp [hls])) ht

theorem ss_parse (S : List Full.Sh) (hS : ∀ s ∈ S, Tenths s.bbox) (c : Full.Cfg) (hi : ∀ l, (c.base.lay.iter l).Perm l) (uri : Rect → String) (nid : Lay.Ids) (depth : ℕ) (path : List ℕ)
    (box : Rect) (ss : List ℕ) (st : Full.State Tok) (hb : ∀ b ∈ st.blocks, EachCell (CellDrawn S) b) (hs : SubDrawn S st.sub) (r)
    (hr : Deco.parse c uri nid depth path box ss st = .ok r) : EachTextIn (fun ls t => (∀ l ∈ ls, LineOK l) → TextFrom S uri ls t) r.1 := by
  induction depth generalizing path box ss st r with
  | zero => cases hr
  | succ depth ih =>
    unfold Deco.parse at hr
    cases h1 : Full.stages c nid path box ss st with
    | error e => rw [h1] at hr; cases hr
    | ok st' =>
      rw [h1] at hr
      dsimp only at hr
      obtain ⟨k1, k2⟩ := cs_stages S c hi nid path box ss st st' hb hs h1
      cases h2 : Full.splitBack c.base.lay st'.blocks with
      | error e => rw [h2] at hr; cases hr
      | ok bs =>
        rw [h2] at hr
        exact ss_tables _ (CellDrawn S) _ (fun i j ty cell sub r hq hbs h => ih _ _ _ _ hbs hq.2 _ h) _ _ _ _
          (cs_splitBack _ _ _ _ h2 k1) (ss_pass S hS uri st st' hs.shapes k2.shapes bs) _ hr

mutual
theorem ss_each (P Q : List (Lay.Ln Tok) → Styl.TBlock → Prop) (R : Rect × List (Lay.Ln Tok) → Prop) (hpq : ∀ b ls t, R (b, ls) → P ls t → Q ls t) :
    (b : Deco.Blk) → (∀ t ∈ b.plain.erase.texts, R t) → EachText P b → EachText Q b
  | .text b ls s, h1, h2 => by
    simp only [EachText] at h2 ⊢
    exact hpq b ls s (h1 (b, ls) (by simp [Deco.Blk.plain, Full.Blk.erase, Lay.Blk.texts])) h2
  | .table b g cs, h1, h2 => by
    simp only [EachText] at h2 ⊢
    exact ss_each_of P Q R hpq cs (by simpa [Deco.Blk.plain, Full.Blk.erase, Lay.Blk.texts] using h1) h2
theorem ss_each_of (P Q : List (Lay.Ln Tok) → Styl.TBlock → Prop) (R : Rect × List (Lay.Ln Tok) → Prop) (hpq : ∀ b ls t, R (b, ls) → P ls t → Q ls t) :
    (cs : List (Full.Cell × List Deco.Blk)) → (∀ t ∈ Lay.cellsTexts (Full.eraseCells (Deco.plainCells cs)), R t) → EachTextOf P cs → EachTextOf Q cs
  | [], _, _ => by simp [EachTextOf]
  | (c, bs) :: cs, h1, h2 => by
    simp only [Deco.plainCells, Full.eraseCells, Lay.cellsTexts, List.mem_append, or_imp, forall_and] at h1
    simp only [EachTextOf] at h2 ⊢
    exact ⟨ss_each_in P Q R hpq bs h1.1 h2.1, ss_each_of P Q R hpq cs h1.2 h2.2⟩
theorem ss_each_in (P Q : List (Lay.Ln Tok) → Styl.TBlock → Prop) (R : Rect × List (Lay.Ln Tok) → Prop) (hpq : ∀ b ls t, R (b, ls) → P ls t → Q ls t) :
    (bs : List Deco.Blk) → (∀ t ∈ Lay.texts (Full.erase (Deco.plain bs)), R t) → EachTextIn P bs → EachTextIn Q bs
  | [], _, _ => by simp [EachTextIn]
  | b :: bs, h1, h2 => by
    simp only [Deco.plain, Full.erase, Lay.texts, List.mem_append, or_imp, forall_and] at h1
    simp only [EachTextIn] at h2 ⊢
    exact ⟨ss_each P Q R hpq b h1.1 h2.1, ss_each_in P Q R hpq bs h1.2 h2.2⟩
end

/-- **C119** for the layout of a page: whatever is drawn, at any nesting of tables, every decoration and every link on a piece of text comes from a line, area or link area of the page, of the
same colour or address, that runs along the whole piece and reaches it. -/
theorem C119_layout (c : Full.Cfg) (hi : ∀ l, (c.base.lay.iter l).Perm l) (uri : Rect → String) (nid : Lay.Ids) (depth : ℕ) (area : Rect) (shapes : List Full.Sh)
    (hS : ∀ s ∈ shapes, Tenths s.bbox) (js : List Raw) (hjs : ∀ b ∈ js, TextOK (b.bbox, b.lines)) (r) (hr : Deco.layout c uri nid depth area shapes (js.map fun b => .text b.bbox b.lines) = .ok r) :
    EachTextIn (fun ls t => List.Forall₂ (fun l t => ∀ sp, Text.Item.text sp ∈ t.items → ∀ st ∈ sp.style,
      ∃ sh ∈ shapes, Decorates uri (decide (l.dir = .leftRight)) sh st sp.bbox) ls t.lines) r.1 := by
  have hb : ∀ b ∈ Full.sortBlocks (js.map fun b => Full.Blk.text b.bbox b.lines), EachCell (CellDrawn shapes) b := by
    intro b hb
    obtain ⟨x, -, rfl⟩ := List.mem_map.1 ((ft_sort_perm _).subset hb)
    exact cs_text _ _ _
  have h1 := ss_parse shapes hS c hi uri nid depth [] area [0, 1, 2] _ hb (cs_mkSub shapes _ _ fun s hs => hs) r hr
  refine ss_each_in _ _ TextOK (fun b ls t h2 h3 => h3 fun l hl => (h2.2 l hl).1) r.1 ?_ h1
  have href := sy_refines c uri nid depth [] area [0, 1, 2]
    ⟨Full.sortBlocks (js.map fun b => .text b.bbox b.lines), Full.mkSub (Full.sortBlocks (js.map fun b => .text b.bbox b.lines)) shapes, ⟨[], []⟩⟩
  have hfull : Full.parsePage c (Deco.format uri) nid depth area shapes (js.map fun b => .text b.bbox b.lines) = _ := href.symm
  unfold Deco.layout at hr
  rw [hr] at hfull
  have key := C83_shapes_boxes_nested c hi (Deco.format uri) nid depth area shapes _ _ _ ?_ hfull
  · have e : ∀ bs : List (Full.Blk Tok), Full.erase bs = bs.map Full.Blk.erase := by
      intro bs
      induction bs with
      | nil => simp [Full.erase]
      | cons b bs ih => simp [Full.erase, ih]
    rw [e]
    exact key
  · intro t ht
    have : ∃ b ∈ js, t = (b.bbox, b.lines) := by
      clear hfull href hr h1 hb hjs
      induction js with
      | nil => simp [Lay.texts] at ht
      | cons b js ih =>
        simp only [List.map_cons, Lay.texts, Full.Blk.erase, Lay.Blk.texts, List.cons_append, List.nil_append, List.mem_cons] at ht
        rcases ht with rfl | ht
        · exact ⟨b, by simp, rfl⟩
        · obtain ⟨b, hb, h⟩ := ih ht
          exact ⟨b, by simp [hb], h⟩
    obtain ⟨b, hb, rfl⟩ := this
    exact hjs b hb

end Layouts119

section Doc119

mutual
theorem ss_leaves_block (f : Fmt) (P : List (Lay.Ln Tok) → Styl.TBlock → Prop) (Q : Deco.Par → Prop) (hpq : ∀ b ls t, P ls t → Q (Deco.paragraph f (b, ls) t)) :
    (b : Deco.Blk) → EachText P b → ∀ q ∈ leaves (ofBlocks [Deco.block f b]), Q q
  | .text b ls s, h, q, hq => by
    simp only [Deco.block, ofBlocks, leaves, List.mem_singleton] at hq
    simp only [EachText] at h
    rw [hq]
    exact hpq b ls s h
  | .table b g cs, h, q, hq => by
    simp only [Deco.block, ofBlocks, leaves, List.append_nil] at hq
    simp only [EachText] at h
    obtain ⟨r, hr, bs, hbs, hq'⟩ := so_leaves_rows _ _ hq
    exact ss_leaves_cells f P Q hpq cs h bs (so_place _ _ r hr bs hbs) q hq'
theorem ss_leaves_cells (f : Fmt) (P : List (Lay.Ln Tok) → Styl.TBlock → Prop) (Q : Deco.Par → Prop) (hpq : ∀ b ls t, P ls t → Q (Deco.paragraph f (b, ls) t)) :
    (cs : List (Full.Cell × List Deco.Blk)) → EachTextOf P cs → ∀ bs ∈ Deco.cells f cs, ∀ q ∈ leaves (ofBlocks bs), Q q
  | [], _, bs, hbs, q, hq => by simp [Deco.cells] at hbs
  | (c, x) :: cs, h, bs, hbs, q, hq => by
    simp only [EachTextOf] at h
    simp only [Deco.cells, List.mem_cons] at hbs
    rcases hbs with rfl | hbs
    · exact ss_leaves f P Q hpq x h.1 q hq
    · exact ss_leaves_cells f P Q hpq cs h.2 bs hbs q hq
theorem ss_leaves (f : Fmt) (P : List (Lay.Ln Tok) → Styl.TBlock → Prop) (Q : Deco.Par → Prop) (hpq : ∀ b ls t, P ls t → Q (Deco.paragraph f (b, ls) t)) :
    (bs : List Deco.Blk) → EachTextIn P bs → ∀ q ∈ leaves (ofBlocks (Deco.blocks f bs)), Q q
  | [], _, q, hq => by simp [Deco.blocks, ofBlocks, leaves] at hq
  | b :: bs, h, q, hq => by
    simp only [EachTextIn] at h
    simp only [Deco.blocks] at hq
    have hc : ∀ (x : Docx.Block Deco.Par) (xs : List (Docx.Block Deco.Par)), leaves (ofBlocks (x :: xs)) = leaves (ofBlocks [x]) ++ leaves (ofBlocks xs) := by
      intro x xs
      cases x <;> simp [ofBlocks, leaves]
    rw [hc, List.mem_append] at hq
    rcases hq with hq | hq
    · exact ss_leaves_block f P Q hpq b h.1 q hq
    · exact ss_leaves f P Q hpq bs h.2 q hq
end

variable {π : Type}

/-- **C119**: in the document every underline, strike-through line, highlight and link on a piece of text - in paragraphs and in cells of tables, however nested - comes from a line, area or link
area drawn on the same page, of the same colour or address, that runs along the whole piece and reaches it (`horizontal`: the direction of the line of text, see `C119_layout`). Only assumed:
extracted text is sound, boxes of drawings are in tenths of a point as the program stores them. -/
theorem C119_drawn (c : Whole.Cfg) (hws : c.ws ' ' = true) (hi : ∀ l, (c.full.base.lay.iter l).Perm l) (depth : ℕ) (p0 : π) (pages : List (Deco.Page π)) (d : Docx.Doc Deco.Par Sp π)
    (h : Deco.convert c depth p0 pages = .ok d) (i : ℕ) (p : Deco.Page π) (s : π × List (Docx.Item Deco.Par Sp π)) (hp : pages[i]? = some p) (hs : (sectionsOf d)[i]? = some s)
    (hraw : ∀ b ∈ p.raw, RawOK b) (hS : ∀ s ∈ p.shapes, Tenths s.bbox) :
    ∀ q ∈ leaves (ofItems s.2), ∀ sp ∈ parSpans q, ∀ st ∈ sp.style, ∃ sh ∈ p.shapes, ∃ horizontal, Decorates p.uri horizontal sh st sp.bbox := by
  obtain ⟨dd, h1, h2⟩ := sy_section c depth p0 pages d h i p s hp hs
  rw [h2]
  obtain ⟨js, fs, bs, -, g2, g3, -, -, -, -⟩ := pp_cleanUp c.pipe hws hi p.box p.raw hraw
  unfold Deco.parsePage at h1
  rw [g2] at h1
  dsimp only at h1
  cases hd : Deco.layout c.full p.uri p.ids depth p.work p.shapes (js.map fun b => .text b.bbox b.lines) with
  | error e => rw [hd] at h1; cases h1
  | ok r =>
    rw [hd] at h1
    obtain rfl := Except.ok.inj h1
    have key := C119_layout c.full hi p.uri p.ids depth p.work p.shapes hS js (fun b hb => (g3 b hb).1) r hd
    refine ss_leaves p.fmt _ _ ?_ r.1 key
    intro b ls t hf sp hsp st hst
    unfold parSpans at hsp
    obtain ⟨o, ho, hsp⟩ := List.mem_flatMap.1 hsp
    cases o with
    | tab => cases hsp
    | brk => cases hsp
    | content is =>
      have hm : is ∈ Props.contents (Deco.paragraph p.fmt (b, ls) t) := by
        unfold Props.contents
        exact List.mem_filterMap.2 ⟨_, ho, rfl⟩
      unfold Deco.paragraph at hm
      rw [C51_lines_once_in_order, List.map_map] at hm
      obtain ⟨x, hx, rfl⟩ := List.mem_map.1 hm
      have hx' : x.1 ∈ t.lines := (List.mem_zipIdx hx).2.2 ▸ List.getElem_mem _
      obtain ⟨it, hit, e⟩ := List.mem_filterMap.1 hsp
      cases it with
      | image b n => cases e
      | text s' =>
        obtain rfl := Option.some.inj e
        have : ∀ {ls : List (Lay.Ln Tok)} {ts : List Styl.TLine} (x), x ∈ ts → List.Forall₂ (fun l t => ∀ sp, Text.Item.text sp ∈ t.items → ∀ st ∈ sp.style,
            ∃ sh ∈ p.shapes, Decorates p.uri (decide (l.dir = .leftRight)) sh st sp.bbox) ls ts →
            ∃ h : Bool, ∀ sp, Text.Item.text sp ∈ x.items → ∀ st ∈ sp.style, ∃ sh ∈ p.shapes, Decorates p.uri h sh st sp.bbox := by
          intro ls ts x hx hf
          induction hf with
          | nil => cases hx
          | cons h1 h2 ih =>
            rcases List.mem_cons.1 hx with rfl | hx
            · exact ⟨_, h1⟩
            · exact ih hx
        obtain ⟨h', hh⟩ := this x.1 hx' hf
        obtain ⟨sh, h1, h2⟩ := hh s' hit st hst
        exact ⟨sh, h1, h', h2⟩

/-- The page with a table of `whPage`, with a line below the text of its first cell, a link on the text of the second, and a line through the title. -/
def ssPage : Deco.Page ℕ := ⟨whPage.box, whPage.work, whPage.props, whPage.raw, fyShapes ++ [.link ⟨205, 108, 255, 122⟩, .stroke ⟨128, 239 / 2, 152, 239 / 2, ⟨128, 119, 152, 120⟩, 1, 0xFF0000⟩,
  .stroke ⟨18, 25, 302, 25, ⟨18, 49 / 2, 302, 51 / 2⟩, 1, 0⟩], fun _ => "f.pdf", whPage.ids, whPage.fmt⟩

/-- Characters and styles of the spans of a document, section by section. -/
def ssSeen (d : Except Err (Docx.Doc Deco.Par Sp ℕ)) : Option (List (List (List Char × List Text.Style))) :=
  d.toOption.map fun d => (sectionsOf d).map fun s => ((leaves (ofItems s.2)).flatMap parSpans).map fun x => (x.text, x.style)

/-- Non-vacuity: the page meets the hypotheses, is converted, and text outside and inside the table is decorated. -/
example : (∀ b ∈ ssPage.raw, RawOK b) ∧ (∀ s ∈ ssPage.shapes, Tenths s.bbox) ∧ ssSeen (Deco.convert whCfg 3 0 [ssPage]) =
    some [[(['a'], [⟨.strike, 0, none⟩]), ([' '], []), (['b'], [⟨.underline, 0xFF0000, none⟩]), (['d'], [⟨.hyperlink, 0, some "f.pdf"⟩]), (['c'], []), (['e'], [])]] := by
  refine ⟨wh_ex_page.raw, ?_, by decide +kernel⟩
  have : ∀ s ∈ ssPage.shapes, Rect.round s.bbox = s.bbox := by decide +kernel
  intro s hs
  rw [tenths_iff]
  exact this s hs

/-- The title. -/
def ssTitle : Raw := plText 1 ⟨20, 20, 300, 30⟩ [(⟨20, 20, 300, 30⟩, [(⟨20, 20, 300, 30⟩, 'a')])]

/-- A layout with the title, with a line below it of which the type may be known. -/
def ssState (types : Full.Types) : Full.State Tok := ⟨[.text ssTitle.bbox ssTitle.lines], ⟨[.stroke ⟨20, 30, 300, 30, ⟨20, 59 / 2, 300, 61 / 2⟩, 1, 0⟩], [], []⟩, types⟩

/-- The styles of the title. -/
def ssStyles (types : Full.Types) : List (List Text.Style) :=
  ((Deco.pass (fun _ => "") (ssState ⟨[], []⟩) (ssState types) [.text ssTitle.bbox ssTitle.lines]).2.flatMap fun t => t.lines.flatMap fun l => l.items.flatMap syTexts).map (fun s => s.style)

/-- Non-vacuity of `C119_not_borders`: the line underlines the title, unless it is a border of a table or decorates something else. -/
example : RawOK ssTitle ∧ ssStyles ⟨[], []⟩ = [[⟨.underline, 0, none⟩]] ∧ ssStyles ⟨(ssState ⟨[], []⟩).sub.shapes, []⟩ = [[]] ∧ ssStyles ⟨[], (ssState ⟨[], []⟩).sub.shapes⟩ = [[]] :=
  ⟨wh_ex_page.raw _ (by simp [whPage, whRaw, ssTitle]), by decide +kernel, by decide +kernel, by decide +kernel⟩

end Doc119
end Props
