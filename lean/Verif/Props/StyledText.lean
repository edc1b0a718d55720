import Verif.Spec.StyledText
import Verif.Props.Styled
/-! # C118: styling changes no text -/

namespace Props
open Geom Py Pipe Spec

section Conserve
open Text (Item Shape)
open Styl

theorem sx_kept (h : Bool) (i : Item) (hp : Parsed i) : Kept h i := by
  cases i with
  | image b n =>
    simp only [Kept, Rect.truthy, decide_eq_true_eq]
    rintro rfl
    exact absurd hp.1 (lt_irrefl _)
  | text s =>
    obtain ⟨⟨h1, h2⟩, a, b, c, d, h3⟩ := hp
    unfold Kept
    dsimp only
    rw [h3] at h1 h2 ⊢
    cases h
    · simp only [El.ext, Bool.not_false, if_true]; exact ⟨h1, round1_tenths _, round1_tenths _⟩
    · simp only [El.ext, Bool.not_true, Bool.false_eq_true, if_false]; exact ⟨h2, round1_tenths _, round1_tenths _⟩

/-- A line whose entries have a positive extent across the text direction. -/
def LineKept (l : TLine) : Prop := ∀ i ∈ l.items, Kept l.horizontal i

theorem sx_lines (r : Shape) (ls : List TLine) (h : ∀ l ∈ ls, LineKept l) :
    (linesFormat r ls).1.map (fun l => Props.content l.items) = ls.map (fun l => Props.content l.items) ∧ ∀ l ∈ (linesFormat r ls).1, LineKept l := by
  induction ls generalizing r with
  | nil => exact ⟨rfl, by simp [linesFormat]⟩
  | cons l ls ih =>
    unfold linesFormat
    split
    · split
      · exact ⟨rfl, h⟩
      · obtain ⟨h1, h2⟩ := ih r (fun m hm => h m (by simp [hm]))
        refine ⟨by rw [List.map_cons, List.map_cons, h1], fun m hm => ?_⟩
        rcases List.mem_cons.1 hm with rfl | hm
        · exact h m (by simp)
        · exact h2 m hm
    · dsimp only
      obtain ⟨h1, h2⟩ := ih { r with type := (Text.applyShape r l.horizontal l.items).2 } (fun m hm => h m (by simp [hm]))
      obtain ⟨k1, k2⟩ := splitItems_spec l.horizontal r l.items (h l (by simp))
      have e : (Text.applyShape r l.horizontal l.items).1 = (Text.splitItems r l.horizontal l.items).1 := by
        unfold Text.applyShape
        exact List.filter_eq_self.2 fun i hi => kept_truthy l.horizontal i (k2 i hi)
      refine ⟨?_, fun m hm => ?_⟩
      · rw [List.map_cons, List.map_cons, h1]
        congr 1
        show Props.content (Text.applyShape r l.horizontal l.items).1 = _
        rw [e, k1]
      · rcases List.mem_cons.1 hm with rfl | hm
        · intro i hi
          have hi : i ∈ (Text.applyShape r l.horizontal l.items).1 := hi
          rw [e] at hi
          exact k2 i hi
        · exact h2 m hm

theorem sx_block (rs : List Shape) (b : TBlock) (h : ∀ l ∈ b.lines, LineKept l) :
    (blockFormat rs b).2.lines.map (fun l => Props.content l.items) = b.lines.map (fun l => Props.content l.items) := by
  induction rs generalizing b with
  | nil => rfl
  | cons r rs ih =>
    unfold blockFormat
    split
    · exact ih b h
    · dsimp only
      obtain ⟨k1, k2⟩ := sx_lines r b.lines h
      rw [ih ⟨b.bbox, (linesFormat r b.lines).1⟩ k2]
      exact k1

/-- Styling keeps the entries of every block, whatever the shapes. -/
theorem sx_blocks (rs : List Shape) (bs : List TBlock) :
    List.Forall₂ (fun t b => (∀ l ∈ b.lines, LineKept l) → t.lines.map (fun l => Props.content l.items) = b.lines.map fun l => Props.content l.items) (blocksFormat rs bs).2 bs := by
  induction bs generalizing rs with
  | nil => exact .nil
  | cons b bs ih => exact .cons (sx_block rs b) (ih _)

theorem sx_line_kept (l : Lay.Ln Tok) (h : LineOK l) : LineKept (Deco.line l) := by
  intro i hi
  obtain ⟨s, hs, rfl⟩ := List.mem_map.1 hi
  refine sx_kept _ _ ?_
  have hok := (h.2 s hs).2.1
  cases hs2 : s.2 with
  | image b t =>
    rw [hs2] at hok
    cases t <;> exact hok.1
  | text b cs =>
    rw [hs2] at hok
    exact hok.1

end Conserve

section Layouts

/-- The styled lines of a block have the entries of its lines. -/
def Same (ls : List (Lay.Ln Tok)) (s : Styl.TBlock) : Prop :=
  (∀ l ∈ ls, LineOK l) → s.lines.map (fun l => Props.content l.items) = ls.map fun l => Props.content (Deco.line l).items

mutual
/-- Every text of a block, at every nesting, has its entries. -/
def blkSame : Deco.Blk → Prop
  | .text _ ls s => Same ls s
  | .table _ _ cs => cellsSame cs
def cellsSame : List (Full.Cell × List Deco.Blk) → Prop
  | [] => True
  | (_, bs) :: cs => blksSame bs ∧ cellsSame cs
def blksSame : List Deco.Blk → Prop
  | [] => True
  | b :: bs => blkSame b ∧ blksSame bs
end

theorem sx_cells (sub : ℕ → Full.Types → Full.Cell → List (Full.Blk Tok) → Except Err (List Deco.Blk × Full.Types))
    (h : ∀ i ty cell bs r, sub i ty cell bs = .ok r → blksSame r.1) (i : ℕ) (ty : Full.Types) (cs : List (Full.Cell × List (Full.Blk Tok))) (r)
    (hr : Deco.parseCells sub i ty cs = .ok r) : cellsSame r.1 := by
  induction cs generalizing i ty r with
  | nil =>
    unfold Deco.parseCells at hr
    obtain rfl := Except.ok.inj hr
    trivial
  | cons c cs ih =>
    unfold Deco.parseCells at hr
    cases h1 : sub i ty c.1 c.2 with
    | error e => rw [h1] at hr; cases hr
    | ok x =>
      rw [h1] at hr
      dsimp only at hr
      cases h2 : Deco.parseCells sub (i + 1) x.2 cs with
      | error e => rw [h2] at hr; cases hr
      | ok q =>
        rw [h2] at hr
        obtain rfl := Except.ok.inj hr
        simp only [cellsSame]
        exact ⟨h _ _ _ _ _ h1, ih _ _ _ h2⟩

theorem sx_tables (sub : ℕ → ℕ → Full.Types → Full.Cell → List (Full.Blk Tok) → Except Err (List Deco.Blk × Full.Types))
    (h : ∀ i j ty cell bs r, sub i j ty cell bs = .ok r → blksSame r.1) (i : ℕ) (ty : Full.Types) (ts : List Styl.TBlock) (bs : List (Full.Blk Tok))
    (hts : List.Forall₂ (fun t b => (∀ l ∈ b.lines, LineKept l) → t.lines.map (fun l => Props.content l.items) = b.lines.map fun l => Props.content l.items) ts (Deco.texts bs)) (r)
    (hr : Deco.parseTables sub i ty ts bs = .ok r) : blksSame r.1 := by
  induction bs generalizing i ty ts r with
  | nil =>
    unfold Deco.parseTables at hr
    obtain rfl := Except.ok.inj hr
    trivial
  | cons b bs ih =>
    cases b with
    | text b ls =>
      unfold Deco.texts at hts
      obtain ⟨t, ts, h1, h2, rfl⟩ := List.forall₂_cons_right_iff.1 hts
      unfold Deco.parseTables at hr
      rw [List.tail_cons, List.headD_cons] at hr
      cases h3 : Deco.parseTables sub (i + 1) ty ts bs with
      | error e => rw [h3] at hr; cases hr
      | ok q =>
        rw [h3] at hr
        obtain rfl := Except.ok.inj hr
        simp only [blksSame, blkSame]
        refine ⟨?_, ih _ _ _ h2 _ h3⟩
        intro hl
        rw [h1 (by
          intro l hlm
          obtain ⟨l, hl', rfl⟩ := List.mem_map.1 hlm
          exact sx_line_kept l (hl l hl')), List.map_map]
        rfl
    | table b g cs =>
      unfold Deco.texts at hts
      unfold Deco.parseTables at hr
      cases h2 : Deco.parseCells (sub i) 0 ty cs with
      | error e => rw [h2] at hr; cases hr
      | ok q =>
        rw [h2] at hr
        dsimp only at hr
        cases h3 : Deco.parseTables sub (i + 1) q.2 ts bs with
        | error e => rw [h3] at hr; cases hr
        | ok x =>
          rw [h3] at hr
          obtain rfl := Except.ok.inj hr
          simp only [blksSame, blkSame]
          exact ⟨sx_cells _ (h i) _ _ _ _ h2, ih _ _ _ hts _ h3⟩

theorem sx_parse (c : Full.Cfg) (uri : Rect → String) (nid : Lay.Ids) (depth : ℕ) (path : List ℕ) (box : Rect) (ss : List ℕ) (st : Full.State Tok) (r)
    (hr : Deco.parse c uri nid depth path box ss st = .ok r) : blksSame r.1 := by
  induction depth generalizing path box ss st r with
  | zero => cases hr
  | succ depth ih =>
    unfold Deco.parse at hr
    cases h1 : Full.stages c nid path box ss st with
    | error e => rw [h1] at hr; cases hr
    | ok st' =>
      rw [h1] at hr
      dsimp only at hr
      cases h2 : Full.splitBack c.base.lay st'.blocks with
      | error e => rw [h2] at hr; cases hr
      | ok bs =>
        rw [h2] at hr
        exact sx_tables _ (fun i j ty cell sub r h => ih _ _ _ _ _ h) _ _ _ _ (sx_blocks _ _) _ hr

end Layouts

section Render

theorem sx_makeLines {α β : Type} (f : α → β) (left b0 : ℚ) (stops : List ℚ) (cur : ℚ) (ls : List (Para.Ln α)) :
    (Para.makeLines left b0 stops cur ls).map (mapOut f) = Para.makeLines left b0 stops cur (ls.map fun l => ⟨l.ext, f l.content, l.brk, l.sameRow⟩) := by
  induction ls generalizing cur with
  | nil => rfl
  | cons l ls ih =>
    simp only [Para.makeLines, List.map_cons, List.map_append, List.map_replicate, mapOut, ih]
    cases l.brk <;> rfl

/-- The paragraph of styled text shows what the paragraph of the text shows, whatever shapes are applied there. -/
theorem sx_paragraph (ws : Char → Bool) (f : Fmt) (t : TBlk) (s : Styl.TBlock) (h : ∀ l ∈ t.2, LineOK l) (hs : Same t.2 s) :
    styledPar ws (Deco.paragraph f t s) = plainPar (paragraph ws f t) := by
  unfold styledPar plainPar Deco.paragraph paragraph
  rw [sx_makeLines, sx_makeLines, List.map_map, List.map_map]
  congr 1
  have hlen : s.lines.length = t.2.length := by simpa using congrArg List.length (hs h)
  refine List.ext_getElem (by simp [hlen]) ?_
  intro i h1 h2
  simp only [List.length_map, List.length_zipIdx] at h1 h2
  simp only [List.getElem_map, List.getElem_zipIdx, Function.comp, Nat.zero_add, Para.Ln.mk.injEq, true_and, and_true]
  rw [pp_words, pp_words, C28_line_conserves_text]
  · have := congrArg (fun l => l[i]?) (hs h)
    simp only [List.getElem?_map, List.getElem?_eq_getElem h1, List.getElem?_eq_getElem h2, Option.map_some, Option.some.injEq] at this
    rw [this]
    rfl
  · intro x hx
    obtain ⟨y, hy, rfl⟩ := List.mem_map.1 hx
    have hok := ((h _ (List.getElem_mem h2)).2 y hy).2.1
    cases hs2 : y.2 with
    | image b t =>
      rw [hs2] at hok
      cases t <;> exact hok.1
    | text b cs =>
      rw [hs2] at hok
      exact hok.1

variable {α β γ : Type}

theorem sx_placeRow (f : α → γ) (g : β → γ) (r : List Bool) (xs : List α) (ys : List β) (h : xs.map f = ys.map g) :
    (placeRow r xs).map (Option.map f) = (placeRow r ys).map (Option.map g) := by
  induction r generalizing xs ys with
  | nil => simp [placeRow]
  | cons b r ih =>
    cases b with
    | false => simp only [placeRow, List.map_cons, Option.map_none]; rw [ih _ _ h]
    | true =>
      cases xs with
      | nil =>
        obtain rfl : ys = [] := by simpa using h.symm
        simp only [placeRow, List.map_cons, Option.map_none]
        rw [ih [] [] rfl]
      | cons x xs =>
        cases ys with
        | nil => cases h
        | cons y ys =>
          obtain ⟨h1, h2⟩ := List.cons.inj h
          simp only [placeRow, List.map_cons, Option.map_some, h1]
          rw [ih _ _ h2]

theorem sx_place (f : α → γ) (g : β → γ) (rs : List (List Bool)) (xs : List α) (ys : List β) (h : xs.map f = ys.map g) :
    (place rs xs).map (List.map (Option.map f)) = (place rs ys).map (List.map (Option.map g)) := by
  induction rs generalizing xs ys with
  | nil => rfl
  | cons r rs ih =>
    simp only [place, List.map_cons]
    rw [sx_placeRow f g r xs ys h, ih _ _ (by rw [List.map_drop, List.map_drop, h])]

theorem sx_rows (f : α → β) (rows : List (List (Option (List (Docx.Block α))))) :
    mapRows f (ofBlockRows rows) = rows.map fun r => r.map fun c => c.map fun bs => mapTrees f (ofBlocks bs) := by
  induction rows with
  | nil => simp [ofBlockRows, mapRows]
  | cons r rs ih =>
    simp only [ofBlockRows, mapRows, List.map_cons, ih]
    congr 1
    induction r with
    | nil => simp [ofBlockRow, mapRow]
    | cons c cs ih =>
      simp only [ofBlockRow, mapRow, List.map_cons, ih]
      congr 1
      cases c <;> simp [ofBlockCell, mapCell]

theorem sx_texts_mem (bs : List (Full.Blk Tok)) (P : Rect × List (Lay.Ln Tok) → Prop) : (∀ t ∈ Lay.texts (Full.erase bs), P t) ↔ ∀ b ∈ bs, ∀ t ∈ b.erase.texts, P t := by
  induction bs with
  | nil => simp [Full.erase, Lay.texts]
  | cons b bs ih => simp only [Full.erase, Lay.texts, List.mem_append, or_imp, forall_and, ih, List.mem_cons, forall_eq]

mutual
theorem sx_block_tree (ws : Char → Bool) (f : Fmt) : (b : Deco.Blk) → (∀ t ∈ b.plain.erase.texts, TextOK t) → blkSame b →
    mapTrees (styledPar ws) (ofBlocks [Deco.block f b]) = mapTrees plainPar (ofBlocks [Whole.block ws f b.plain])
  | .text b ls s, h1, h2 => by
    simp only [Deco.block, Deco.Blk.plain, Whole.block, ofBlocks, mapTrees]
    rw [sx_paragraph ws f (b, ls) s ?_ (by simpa only [blkSame] using h2)]
    intro l hl
    have := h1 (b, ls) (by simp [Deco.Blk.plain, Full.Blk.erase, Lay.Blk.texts])
    exact (this.2 l hl).1
  | .table b g cs, h1, h2 => by
    simp only [Deco.block, Deco.Blk.plain, Whole.block, ofBlocks, mapTrees]
    rw [sx_rows, sx_rows]
    have key := sx_cells_tree ws f cs (by simpa [Deco.Blk.plain, Full.Blk.erase, Lay.Blk.texts] using h1) (by simpa only [blkSame] using h2)
    exact congrArg (fun x => [Tree.table x]) (sx_place _ _ g _ _ key)
theorem sx_cells_tree (ws : Char → Bool) (f : Fmt) : (cs : List (Full.Cell × List Deco.Blk)) → (∀ t ∈ Lay.cellsTexts (Full.eraseCells (Deco.plainCells cs)), TextOK t) → cellsSame cs →
    (Deco.cells f cs).map (fun bs => mapTrees (styledPar ws) (ofBlocks bs)) = (Whole.cells ws f (Deco.plainCells cs)).map fun bs => mapTrees plainPar (ofBlocks bs)
  | [], _, _ => by simp [Deco.cells, Deco.plainCells, Whole.cells]
  | (c, bs) :: cs, h1, h2 => by
    simp only [Deco.plainCells, Full.eraseCells, Lay.cellsTexts, List.mem_append, or_imp, forall_and] at h1
    simp only [cellsSame] at h2
    simp only [Deco.cells, Deco.plainCells, Whole.cells, List.map_cons]
    rw [sx_blocks_tree ws f bs h1.1 h2.1, sx_cells_tree ws f cs h1.2 h2.2]
theorem sx_blocks_tree (ws : Char → Bool) (f : Fmt) : (bs : List Deco.Blk) → (∀ t ∈ Lay.texts (Full.erase (Deco.plain bs)), TextOK t) → blksSame bs →
    mapTrees (styledPar ws) (ofBlocks (Deco.blocks f bs)) = mapTrees plainPar (ofBlocks (Whole.blocks ws f (Deco.plain bs)))
  | [], _, _ => by simp [Deco.blocks, Deco.plain, Whole.blocks, ofBlocks, mapTrees]
  | b :: bs, h1, h2 => by
    simp only [Deco.plain, Full.erase, Lay.texts, List.mem_append, or_imp, forall_and] at h1
    simp only [blksSame] at h2
    have k1 := sx_block_tree ws f b h1.1 h2.1
    have k2 := sx_blocks_tree ws f bs h1.2 h2.2
    simp only [Deco.blocks, Deco.plain, Whole.blocks]
    have hc : ∀ {α β : Type} (g : α → β) (x : Docx.Block α) (xs : List (Docx.Block α)), mapTrees g (ofBlocks (x :: xs)) = mapTrees g (ofBlocks [x]) ++ mapTrees g (ofBlocks xs) := by
      intro α β g x xs
      cases x <;> simp [ofBlocks, mapTrees]
    rw [hc (styledPar ws), hc plainPar, k1, k2]
end

end Render

section Main118
variable {π : Type}

/-- Both fail alike or both succeed with related results. -/
def Alike {A B : Type} (R : A → B → Prop) : Except Err A → Except Err B → Prop
  | .ok a, .ok b => R a b
  | .error e, .error e' => e = e'
  | _, _ => False

theorem sx_mapM {P Q A B : Type} (R : A → B → Prop) (f : P → Except Err A) (g : Q → Except Err B) (w : P → Q) (ps : List P) (h : ∀ p ∈ ps, Alike R (f p) (g (w p))) :
    Alike (List.Forall₂ R) (ps.mapM f) ((ps.map w).mapM g) := by
  induction ps with
  | nil => exact .nil
  | cons p ps ih =>
    have h1 := h p (by simp)
    have h2 := ih fun q hq => h q (by simp [hq])
    rw [List.map_cons, List.mapM_cons, List.mapM_cons]
    cases hf : f p with
    | error e =>
      rw [hf] at h1
      cases hg : g (w p) with
      | ok b => rw [hg] at h1; exact h1.elim
      | error e' => rw [hg] at h1; exact h1
    | ok a =>
      rw [hf] at h1
      cases hg : g (w p) with
      | error e => rw [hg] at h1; exact h1.elim
      | ok b =>
        rw [hg] at h1
        cases hfs : ps.mapM f with
        | error e =>
          rw [hfs] at h2
          cases hgs : (ps.map w).mapM g with
          | ok b => rw [hgs] at h2; exact h2.elim
          | error e' => rw [hgs] at h2; exact h2
        | ok as =>
          rw [hfs] at h2
          cases hgs : (ps.map w).mapM g with
          | error e => rw [hgs] at h2; exact h2.elim
          | ok bs => rw [hgs] at h2; exact .cons h1 h2

/-- The two pages show the same. -/
def SamePage (ws : Char → Bool) (d : Docx.PageData Deco.Par Sp π) (d' : Docx.PageData Par Sp π) : Prop :=
  d.props = d'.props ∧ mapTrees (styledPar ws) (ofBlocks d.blocks) = mapTrees plainPar (ofBlocks d'.blocks) ∧ d.floats = d'.floats

theorem sx_page (c : Whole.Cfg) (hws : c.ws ' ' = true) (hi : ∀ l, (c.full.base.lay.iter l).Perm l) (depth : ℕ) (p : Deco.Page π) (hraw : ∀ b ∈ p.raw, RawOK b) :
    Alike (SamePage c.ws) (Deco.parsePage c depth p) (Whole.parsePage c depth p.whole) := by
  obtain ⟨js, fs, bs, -, g2, g3, -, -, -, -⟩ := pp_cleanUp c.pipe hws hi p.box p.raw hraw
  unfold Deco.parsePage Whole.parsePage
  rw [show cleanUp c.pipe p.whole.box p.whole.raw = .ok (js, fs) from g2, g2]
  dsimp only
  have href := sy_refines c.full p.uri p.ids depth [] p.work [0, 1, 2]
    ⟨Full.sortBlocks (js.map fun b => .text b.bbox b.lines), Full.mkSub (Full.sortBlocks (js.map fun b => .text b.bbox b.lines)) p.shapes, ⟨[], []⟩⟩
  have hfull : Full.parsePage c.full p.whole.styled p.whole.ids depth p.whole.work p.whole.shapes (js.map fun b => .text b.bbox b.lines) = _ := href.symm
  rw [hfull]
  unfold Deco.layout
  cases hd : Deco.parse c.full p.uri p.ids depth [] p.work [0, 1, 2]
      ⟨Full.sortBlocks (js.map fun b => .text b.bbox b.lines), Full.mkSub (Full.sortBlocks (js.map fun b => .text b.bbox b.lines)) p.shapes, ⟨[], []⟩⟩ with
  | error e => exact rfl
  | ok r =>
    rw [hd] at hfull
    refine ⟨rfl, ?_, rfl⟩
    refine sx_blocks_tree c.ws p.fmt r.1 ?_ (sx_parse _ _ _ _ _ _ _ _ _ hd)
    have key := C83_shapes_boxes_nested c.full hi p.whole.styled p.whole.ids depth p.whole.work p.whole.shapes _ _ _ ?_ hfull
    · have e : ∀ bs : List (Full.Blk Tok), Full.erase bs = bs.map Full.Blk.erase := by
        intro bs
        induction bs with
        | nil => simp [Full.erase]
        | cons b bs ih => simp [Full.erase, ih]
      rw [e]
      exact key
    · intro t ht
      have : ∃ b ∈ js, t = (b.bbox, b.lines) := by
        clear hfull hd g3 g2 href
        induction js with
        | nil => simp [Lay.texts] at ht
        | cons b js ih =>
          simp only [List.map_cons, Lay.texts, Full.Blk.erase, Lay.Blk.texts, List.cons_append, List.nil_append, List.mem_cons] at ht
          rcases ht with rfl | ht
          · exact ⟨b, by simp, rfl⟩
          · obtain ⟨b, hb, h⟩ := ih ht
            exact ⟨b, by simp [hb], h⟩
      obtain ⟨b, hb, rfl⟩ := this
      exact (g3 b hb).1

/-- **C118**: whatever is drawn on the pages, the document with styled text fails or succeeds like the one without styles, and shows the same: section by section the same paragraphs and tables,
in every paragraph the same characters, pictures, tabs and line breaks in the same order; and the same anchored pictures. -/
theorem C118_same_text (c : Whole.Cfg) (hws : c.ws ' ' = true) (hi : ∀ l, (c.full.base.lay.iter l).Perm l) (depth : ℕ) (p0 : π) (pages : List (Deco.Page π)) (hne : pages ≠ [])
    (hraw : ∀ p ∈ pages, ∀ b ∈ p.raw, RawOK b) :
    (∀ e, Deco.convert c depth p0 pages = .error e ↔ Whole.convert c depth p0 (pages.map Deco.Page.whole) = .error e) ∧
    ∀ d, Deco.convert c depth p0 pages = .ok d → ∃ d', Whole.convert c depth p0 (pages.map Deco.Page.whole) = .ok d' ∧ floatsOf d.body = floatsOf d'.body ∧
      (sectionsOf d).map (fun s => (s.1, mapTrees (styledPar c.ws) (ofItems s.2))) = (sectionsOf d').map fun s => (s.1, mapTrees plainPar (ofItems s.2)) := by
  have key := sx_mapM (SamePage c.ws) (Deco.parsePage c depth) (Whole.parsePage c depth) Deco.Page.whole pages fun p hp => sx_page c hws hi depth p (hraw p hp)
  unfold Deco.convert Whole.convert
  cases h1 : pages.mapM (Deco.parsePage c depth) with
  | error e =>
    rw [h1] at key
    cases h2 : (pages.map Deco.Page.whole).mapM (Whole.parsePage c depth) with
    | ok b => rw [h2] at key; exact key.elim
    | error e' =>
      rw [h2] at key
      obtain rfl : e = e' := key
      refine ⟨fun e' => by simp, ?_⟩
      intro d hd
      cases hd
  | ok ds =>
    rw [h1] at key
    cases h2 : (pages.map Deco.Page.whole).mapM (Whole.parsePage c depth) with
    | error e => rw [h2] at key; exact key.elim
    | ok ds' =>
      rw [h2] at key
      refine ⟨fun e' => by simp, ?_⟩
      intro d hd
      obtain rfl := Except.ok.inj hd
      refine ⟨_, rfl, ?_⟩
      replace key : List.Forall₂ (SamePage c.ws) ds ds' := key
      have hdne : ds ≠ [] := by
        rintro rfl
        have := (pp_mapM_forall _ _ h1).length_eq
        exact hne (List.length_eq_zero_iff.1 this)
      have hdne' : ds' ≠ [] := by
        rintro rfl
        exact hdne (List.forall₂_nil_right_iff.1 key)
      refine ⟨?_, ?_⟩
      · rw [pp_floats, pp_floats]
        clear h1 h2 hd hdne hdne'
        induction key with
        | nil => rfl
        | cons h _ ih => rw [List.flatMap_cons, List.flatMap_cons, ih, h.2.2]
      · have e1 := congrArg (List.map fun s => (s.1, mapTrees (styledPar c.ws) s.2)) (C31_one_section_per_page p0 ds hdne)
        have e2 := congrArg (List.map fun s => (s.1, mapTrees plainPar s.2)) (C31_one_section_per_page p0 ds' hdne')
        rw [List.map_map, List.map_map] at e1 e2
        refine e1.trans (Eq.trans ?_ e2.symm)
        clear h1 h2 hd hdne hdne' e1 e2
        induction key with
        | nil => rfl
        | cons h _ ih => rw [List.map_cons, List.map_cons, ih]; congr 1; exact Prod.ext h.1 h.2.1

end Main118

section Transfer
variable {π α β γ : Type}

/-- One text or table. -/
def mapTree (f : α → β) : Spec.Tree α → Spec.Tree β
  | .text a => .text (f a)
  | .table rows => .table (mapRows f rows)

theorem sx_trees (f : α → β) (ts : List (Spec.Tree α)) : mapTrees f ts = ts.map (mapTree f) := by
  induction ts with
  | nil => simp [mapTrees]
  | cons t ts ih => cases t <;> simp [mapTrees, mapTree, ih]

theorem sx_maprows (f : α → β) (rows : List (List (Option (List (Spec.Tree α))))) : mapRows f rows = rows.map fun r => r.map fun c => c.map (mapTrees f) := by
  induction rows with
  | nil => simp [mapRows]
  | cons r rs ih =>
    simp only [mapRows, List.map_cons, ih]
    congr 1
    induction r with
    | nil => simp [mapRow]
    | cons c cs ih =>
      simp only [mapRow, List.map_cons, ih]
      congr 1
      cases c <;> simp [mapCell]

mutual
theorem sx_comp (f : α → β) (g : β → γ) : (ts : List (Spec.Tree α)) → mapTrees g (mapTrees f ts) = mapTrees (fun a => g (f a)) ts
  | [] => by simp [mapTrees]
  | .text a :: ts => by simp only [mapTrees]; rw [sx_comp f g ts]
  | .table rows :: ts => by simp only [mapTrees]; rw [sx_comp f g ts, sx_comp_rows f g rows]
theorem sx_comp_rows (f : α → β) (g : β → γ) : (rs : List (List (Option (List (Spec.Tree α))))) → mapRows g (mapRows f rs) = mapRows (fun a => g (f a)) rs
  | [] => by simp [mapRows]
  | r :: rs => by simp only [mapRows]; rw [sx_comp_row f g r, sx_comp_rows f g rs]
theorem sx_comp_row (f : α → β) (g : β → γ) : (r : List (Option (List (Spec.Tree α)))) → mapRow g (mapRow f r) = mapRow (fun a => g (f a)) r
  | [] => by simp [mapRow]
  | c :: cs => by simp only [mapRow]; rw [sx_comp_cell f g c, sx_comp_row f g cs]
theorem sx_comp_cell (f : α → β) (g : β → γ) : (c : Option (List (Spec.Tree α))) → mapCell g (mapCell f c) = mapCell (fun a => g (f a)) c
  | none => by simp [mapCell]
  | some ts => by simp only [mapCell]; rw [sx_comp f g ts]
end

theorem sx_written (ws : Char → Bool) (ts : List (Spec.Tree Deco.Par)) : mapTrees plainPar (written ws ts) = mapTrees (styledPar ws) ts := by
  unfold written
  rw [sx_comp]
  congr 1
  funext p
  unfold plainPar styledPar
  rw [List.map_map]
  congr 1
  funext o
  cases o <;> rfl

mutual
theorem sx_leaves (f : α → β) : (ts : List (Spec.Tree α)) → leaves (mapTrees f ts) = (leaves ts).map f
  | [] => by simp [mapTrees, leaves]
  | .text a :: ts => by simp only [mapTrees, leaves, List.map_cons]; rw [sx_leaves f ts]
  | .table rows :: ts => by simp only [mapTrees, leaves, List.map_append]; rw [sx_leaves f ts, sx_leaves_rows f rows]
theorem sx_leaves_rows (f : α → β) : (rs : List (List (Option (List (Spec.Tree α))))) → leavesRows (mapRows f rs) = (leavesRows rs).map f
  | [] => by simp [mapRows, leavesRows]
  | r :: rs => by simp only [mapRows, leavesRows, List.map_append]; rw [sx_leaves_row f r, sx_leaves_rows f rs]
theorem sx_leaves_row (f : α → β) : (r : List (Option (List (Spec.Tree α)))) → leavesRow (mapRow f r) = (leavesRow r).map f
  | [] => by simp [mapRow, leavesRow]
  | c :: cs => by simp only [mapRow, leavesRow, List.map_append]; rw [sx_leaves_cell f c, sx_leaves_row f cs]
theorem sx_leaves_cell (f : α → β) : (c : Option (List (Spec.Tree α))) → leavesCell (mapCell f c) = (leavesCell c).map f
  | none => by simp [mapCell, leavesCell]
  | some ts => by simp only [mapCell, leavesCell]; rw [sx_leaves f ts]
end

theorem sx_shows {ws : Char → Bool} {ts ts' : List (Spec.Tree Par)} {ls : List (Lay.Ln Tok)} (h : mapTrees plainPar ts = mapTrees plainPar ts') (hs : ShowsLines ws ts' ls) : ShowsLines ws ts ls := by
  obtain ⟨h1, L, h2, h3, h4⟩ := hs
  refine ⟨?_, L, h2, h3, ?_⟩
  · intro t ht
    cases t with
    | text p => exact ⟨p, rfl⟩
    | table rows =>
      exfalso
      have : mapTree plainPar (.table rows) ∈ ts'.map (mapTree plainPar) := by
        rw [← sx_trees, ← h, sx_trees]
        exact List.mem_map_of_mem ht
      obtain ⟨t', ht', e⟩ := List.mem_map.1 this
      obtain ⟨p, rfl⟩ := h1 t' ht'
      cases e
  · rw [← h4]
    unfold shownIn
    congr 1
    have e : ∀ p : Par, parToks p = (plainPar p).flatMap fun | .content a => a | _ => [] := by
      intro p
      unfold parToks plainPar
      rw [List.flatMap_map]
      refine List.flatMap_congr fun o _ => ?_
      cases o <;> rfl
    have key : ∀ ts : List (Spec.Tree Par), (leaves ts).flatMap parToks = (leaves (mapTrees plainPar ts)).flatMap fun q => q.flatMap fun | .content a => a | _ => [] := by
      intro ts
      rw [sx_leaves, List.flatMap_map]
      exact List.flatMap_congr fun p _ => e p
    rw [key, key, h]

theorem sx_table {ws : Char → Bool} {X Y : ℕ → ℚ} {r k : ℕ} {ts ts' : List (Spec.Tree Par)} {ls : List (Lay.Ln Tok)} (h : mapTrees plainPar ts = mapTrees plainPar ts')
    (hs : TableShown ws X Y r k ls ts') : TableShown ws X Y r k ls ts := by
  obtain ⟨above, rows, below, rfl, h1, h2, h3, h4⟩ := hs
  rw [sx_trees, sx_trees, List.map_append, List.map_cons] at h
  obtain ⟨a, b', rfl, ha, hb⟩ := List.map_eq_append_iff.1 h
  obtain ⟨t, b, rfl, ht, hb1⟩ := List.map_eq_cons_iff.1 hb
  rw [← sx_trees, ← sx_trees] at ha hb1
  cases t with
  | text p => cases ht
  | table rows' =>
    have hr : mapRows plainPar rows' = mapRows plainPar rows := by simpa [mapTree] using ht
    rw [sx_maprows, sx_maprows] at hr
    refine ⟨a, rows', b, rfl, sx_shows ha h1, sx_shows hb1 h2, ?_, ?_⟩
    · rw [← h3]
      simpa using congrArg List.length hr
    · intro i hi
      obtain ⟨row, e1, e2, e3⟩ := h4 i hi
      have e := congrArg (fun l => l[i]?) hr
      simp only [List.getElem?_map, e1, Option.map_some] at e
      obtain ⟨row', e4, e5⟩ := Option.map_eq_some_iff.1 e
      refine ⟨row', e4, ?_, ?_⟩
      · rw [← e2]
        simpa using congrArg List.length e5
      · intro j hj
        obtain ⟨c, c1, c2⟩ := e3 j hj
        have f := congrArg (fun l => l[j]?) e5
        simp only [List.getElem?_map, c1, Option.map_some] at f
        obtain ⟨c', f1, f2⟩ := Option.map_eq_some_iff.1 f
        cases c' with
        | none => cases f2
        | some c' => exact ⟨c', f1, sx_shows (Option.some.inj f2) c2⟩

/-- What `Whole.convert` shows for a page, `Deco.convert` shows. -/
theorem sx_section (c : Whole.Cfg) (hws : c.ws ' ' = true) (hi : ∀ l, (c.full.base.lay.iter l).Perm l) (depth : ℕ) (p0 : π) (pages : List (Deco.Page π))
    (hraw : ∀ p ∈ pages, ∀ b ∈ p.raw, RawOK b) (d : Docx.Doc Deco.Par Sp π) (h : Deco.convert c depth p0 pages = .ok d) (i : ℕ) (p : Deco.Page π)
    (s : π × List (Docx.Item Deco.Par Sp π)) (hp : pages[i]? = some p) (hs : (sectionsOf d)[i]? = some s) :
    ∃ d' s', Whole.convert c depth p0 (pages.map Deco.Page.whole) = .ok d' ∧ (sectionsOf d')[i]? = some s' ∧ mapTrees plainPar (written c.ws (ofItems s.2)) = mapTrees plainPar (ofItems s'.2) := by
  have hne : pages ≠ [] := by rintro rfl; cases hp
  obtain ⟨d', h1, -, h2⟩ := (C118_same_text c hws hi depth p0 pages hne hraw).2 d h
  have e := congrArg (fun l => l[i]?) h2
  simp only [List.getElem?_map, hs, Option.map_some] at e
  obtain ⟨s', e1, e2⟩ := Option.map_eq_some_iff.1 e.symm
  exact ⟨d', s', h1, e1, by rw [sx_written]; exact (Prod.mk.inj e2).2.symm⟩

/-- **C108** (partial, as above) with the text styled: whatever styles are drawn, above, in each cell and below the table exactly the text of the page that is there. -/
theorem C108_styled_partial (c : Whole.Cfg) (hc : Sane c) {X Y : ℕ → ℚ} {r k : ℕ} {W gap : ℚ} (hg : Grid X Y r k W gap) (hw : WideFor c.full W gap) (depth : ℕ) (p0 : π)
    (pages : List (Deco.Page π)) (hraw : ∀ p ∈ pages, ∀ b ∈ p.raw, RawOK b) (d : Docx.Doc Deco.Par Sp π) (h : Deco.convert c (depth + 2) p0 pages = .ok d) (i : ℕ) (p : Deco.Page π)
    (s : π × List (Docx.Item Deco.Par Sp π)) (hp : pages[i]? = some p) (hs : (sectionsOf d)[i]? = some s) (hgp : GridPage c X Y r k W p.whole) :
    TableShown c.ws X Y r k ((pageBlocks c.ws p.whole).flatMap Lns.Blk.lines) (written c.ws (ofItems s.2)) := by
  obtain ⟨d', s', h1, h2, h3⟩ := sx_section c hc.blank hc.order _ p0 pages hraw d h i p s hp hs
  exact sx_table h3 (C108_table_partial c hc hg hw depth p0 _ d' h1 i p.whole s' (by rw [List.getElem?_map, hp]; rfl) h2 hgp)

/-- Non-vacuity: a page of decorated text and a page with a table meet the hypotheses, and are converted. -/
example : (∀ p ∈ [syPage, ⟨whPage.box, whPage.work, whPage.props, whPage.raw, whPage.shapes, fun _ => "", whPage.ids, whPage.fmt⟩], ∀ b ∈ p.raw, RawOK b) ∧
    (Deco.convert whCfg 3 0 [syPage, ⟨whPage.box, whPage.work, whPage.props, whPage.raw, whPage.shapes, fun _ => "", whPage.ids, whPage.fmt⟩]).toOption.isSome = true := by
  refine ⟨?_, by decide +kernel⟩
  intro p hp
  simp only [List.mem_cons, List.not_mem_nil, or_false] at hp
  rcases hp with rfl | rfl
  · exact sy_ex_text.raw
  · exact wh_ex_page.raw

end Transfer
end Props
