import Verif.Full
import Verif.Props.LayoutC84
import Mathlib.Data.List.Sort
/-! # The layout with shapes is an instance of the layout with any tables -/

namespace Props
open Py Geom Spec

section Full
open Full

variable {α : Type}

theorem fl_erase (bs : List (Full.Blk α)) : erase bs = bs.map Blk.erase := by
  induction bs with
  | nil => rfl
  | cons b bs ih => rw [erase, ih]; rfl

theorem fl_eraseCells (cs : List (Cell × List (Full.Blk α))) : eraseCells cs = cs.map fun c => (c.1.info.box, erase c.2) := by
  induction cs with
  | nil => rfl
  | cons c cs ih => obtain ⟨c, bs⟩ := c; rw [eraseCells, ih]; rfl

theorem fl_bbox (b : Full.Blk α) : b.erase.bbox = b.bbox := by cases b <;> rfl
theorem fl_lines (b : Full.Blk α) : b.erase.lines = b.lines := by cases b <;> rfl
theorem fl_isText (b : Full.Blk α) : b.erase.isText = b.isText := by cases b <;> rfl
theorem fl_el (b : Full.Blk α) : b.erase.el = b.el := by cases b <;> rfl

theorem fl_sort_map {β γ κ : Type} [LinearOrder κ] (f : β → γ) (k : γ → κ) (l : List β) : (sortBy (fun b => k (f b)) l).map f = sortBy k (l.map f) := by
  unfold sortBy
  exact List.map_insertionSort _ _ f l fun a _ b _ => Iff.rfl

theorem fl_sortBlocks (bs : List (Full.Blk α)) : (sortBlocks bs).map Blk.erase = Lay.sortBlocks (bs.map Blk.erase) := by
  unfold sortBlocks Lay.sortBlocks
  have h : (bs.map Blk.erase).map Lay.Blk.el = bs.map Blk.el := by
    rw [List.map_map]
    exact List.map_congr_left fun b _ => fl_el b
  rw [h]
  split_ifs
  · rw [← fl_sort_map]
    simp only [fl_bbox]
  · rw [← fl_sort_map]
    simp only [fl_bbox]

theorem fl_real (bs : List (Full.Blk α)) : (real bs).map Blk.erase = Lay.real (bs.map Blk.erase) := by
  unfold real Lay.real
  rw [List.filter_map]
  congr 1
  refine List.filter_congr fun b _ => ?_
  rw [Function.comp_apply, fl_bbox]

theorem fl_mkText (id : ℕ) (ls : List (Lay.Ln α)) : (mkText id ls).erase = Lay.mkText id ls := rfl

theorem fl_assignCell (id : ℕ) (cell : Rect) (b : Full.Blk α) : (assignCell id cell b).map Blk.erase = Lay.assignCell id cell b.erase := by
  unfold assignCell Lay.assignCell
  rw [fl_bbox]
  split_ifs
  · rw [fl_real]; rfl
  · rfl
  · cases b with
    | text r ls => dsimp only [Blk.erase]; rw [fl_real]; rfl
    | table r _ cs => rfl

theorem fl_assignBlock (boxes : List Rect) (b : Full.Blk α) :
    Lay.assignBlock boxes b.erase = (assignBlock boxes b).map fun p => (p.1.map (List.map Blk.erase), p.2.map Blk.erase) := by
  cases b with
  | table r _ cs =>
    unfold Lay.assignBlock assignBlock
    rw [Blk.erase]
    dsimp only
    cases Assign.assignWhole r boxes with
    | none => simp [Except.map, Blk.erase]
    | some i =>
      dsimp only [Except.map]
      congr 2
      refine List.ext_getElem? fun j => ?_
      rw [List.getElem?_map, List.getElem?_mapIdx, List.getElem?_mapIdx, Option.map_map]
      congr 1
      funext x
      rw [Function.comp_apply]
      split_ifs <;> simp [Blk.erase]
  | text r ls =>
    unfold Lay.assignBlock assignBlock
    rw [Blk.erase]
    dsimp only
    cases Assign.assignText r ls boxes ls with
    | error e => rfl
    | ok p =>
      dsimp only [Except.map]
      congr 2
      rw [List.map_zipWith]
      congr 1
      funext t l
      split_ifs <;> rfl

theorem fl_cellLayout (nid : ℕ → ℕ) (cell : Rect) (bs : List (Full.Blk α)) :
    (cellLayout nid cell bs).map Blk.erase = Lay.cellLayout nid cell (bs.map Blk.erase) := by
  unfold cellLayout Lay.cellLayout
  rw [List.map_flatMap, List.zipIdx_map, List.flatMap_map]
  exact List.flatMap_congr fun b _ => fl_assignCell _ _ _

theorem fl_arrange (s : Bool) (bs : List (Full.Blk α)) : (arrange s bs).map Blk.erase = Lay.arrange s (bs.map Blk.erase) := by
  unfold arrange Lay.arrange
  split_ifs
  · exact fl_sortBlocks _
  · rfl

theorem fl_fillTable (nid : ℕ → ℕ → ℕ) (t : Found) (shapes : List Sh) (bs : List (Full.Blk α)) :
    (fillTable nid t shapes bs).erase = Lay.fillTable nid ⟨t.box, t.cells.map CellInfo.box, !shapes.isEmpty⟩ (bs.map Blk.erase) := by
  unfold fillTable Lay.fillTable
  rw [Blk.erase, fl_eraseCells, List.map_map, List.zipIdx_map, List.map_map]
  congr 1
  refine List.map_congr_left fun c _ => ?_
  rw [Function.comp_apply, Function.comp_apply, fl_erase, fl_arrange, fl_cellLayout]
  rfl

/-- The tables as the layout without shapes sees them. -/
def flTabs (ty : Types) (shapes : List Sh) (ts : List Found) : List Lay.Tab :=
  ts.zipIdx.map fun t => ⟨t.1.box, t.1.cells.map CellInfo.box, !(shapes.filter fun s => decide (tableOf ty (ts.map Found.box) s = some t.2)).isEmpty⟩

theorem fl_mapM {ε β γ δ : Type} (f : β → Except ε γ) (g : γ → δ) (l : List β) :
    l.mapM (fun b => (f b).map g) = (l.mapM f).map (List.map g) := by
  induction l with
  | nil => rfl
  | cons a l ih =>
    rw [List.mapM_cons, List.mapM_cons, ih]
    cases f a with
    | error e => rfl
    | ok b =>
      cases l.mapM f with
      | error e => rfl
      | ok r => rfl

theorem fl_mapM_map {ε β γ δ : Type} (f : γ → Except ε δ) (g : β → γ) (l : List β) : (l.map g).mapM f = l.mapM fun b => f (g b) := by
  induction l with
  | nil => rfl
  | cons a l ih => rw [List.map_cons, List.mapM_cons, List.mapM_cons, ih]

theorem fl_zipIdx_map {β γ : Type} (f : β × ℕ → γ) (l : List β) (n : ℕ) :
    (l.zipIdx n).map f = (l.zipIdx n).map fun p => f (p.1, p.2) := rfl

theorem fl_zipIdx_mapped {β γ δ : Type} (f : β × ℕ → γ) (g : γ × ℕ → δ) (l : List β) (n : ℕ) :
    (((l.zipIdx n).map f).zipIdx n).map g = (l.zipIdx n).map fun p => g (f p, p.2) := by
  induction l generalizing n with
  | nil => rfl
  | cons a l ih =>
    rw [List.zipIdx_cons, List.map_cons, List.zipIdx_cons, List.map_cons, List.map_cons, ih]

theorem fl_assignTables (nid : ℕ → ℕ → ℕ → ℕ) (ty : Types) (ts : List Found) (sub : Sub) (bs : List (Full.Blk α)) :
    Lay.assignTables nid (flTabs ty sub.shapes ts) (bs.map Blk.erase) = (assignTables nid ty ts sub bs).map fun r => r.1.map Blk.erase := by
  unfold Lay.assignTables assignTables
  have hbox : (flTabs ty sub.shapes ts).map Lay.Tab.box = ts.map Found.box := by
    unfold flTabs
    rw [List.map_map]
    have : (Lay.Tab.box ∘ fun t : Found × ℕ => (⟨t.1.box, t.1.cells.map CellInfo.box, !(sub.shapes.filter fun s => decide (tableOf ty (ts.map Found.box) s = some t.2)).isEmpty⟩ : Lay.Tab)) =
        Found.box ∘ Prod.fst := by funext x; rfl
    rw [this, ← List.map_map, List.zipIdx_map_fst]
  have hemp : (flTabs ty sub.shapes ts).isEmpty = ts.isEmpty := by
    unfold flTabs
    cases ts <;> rfl
  rw [hemp, hbox]
  split_ifs with h0
  · rfl
  rw [fl_mapM_map]
  have : (fun b : Full.Blk α => Lay.assignBlock (ts.map Found.box) b.erase) =
      fun b => (assignBlock (ts.map Found.box) b).map fun p => (p.1.map (List.map Blk.erase), p.2.map Blk.erase) := by
    funext b; exact fl_assignBlock _ b
  rw [this, fl_mapM]
  cases bs.mapM (assignBlock (ts.map Found.box)) with
  | error e => rfl
  | ok rs =>
    dsimp only [Except.map]
    rw [fl_sortBlocks, fl_real]
    congr 3
    rw [List.map_append, List.map_flatMap, List.flatMap_map]
    congr 1
    unfold flTabs
    rw [fl_zipIdx_mapped, List.map_map]
    refine List.map_congr_left fun t _ => ?_
    rw [Function.comp_apply, fl_fillTable]
    congr 1
    rw [List.map_flatMap, List.flatMap_map]
    refine List.flatMap_congr fun r _ => ?_
    rw [List.getD_eq_getElem?_getD, List.getD_eq_getElem?_getD, List.getElem?_map]
    cases r.1[t.2]? <;> rfl

theorem fl_splitBack (c : Lay.Cfg) (bs : List (Full.Blk α)) : Lay.splitBack c (bs.map Blk.erase) = (splitBack c bs).map (List.map Blk.erase) := by
  unfold Lay.splitBack splitBack
  have h : ∀ b : Full.Blk α, Lay.flow c b.erase = flow c b := by
    intro b
    unfold Lay.flow flow
    rw [fl_isText, fl_lines]
  have h1 : ((bs.map Blk.erase).filter (Lay.flow c)).flatMap Lay.Blk.lines = (bs.filter (flow c)).flatMap Blk.lines := by
    rw [List.filter_map, List.flatMap_map]
    have : Lay.flow c ∘ (Blk.erase : Full.Blk α → _) = flow c := by funext b; exact h b
    rw [this]
    exact List.flatMap_congr fun b _ => fl_lines b
  rw [h1]
  cases Lns.splitBack c.iter ((bs.filter (flow c)).flatMap Blk.lines) with
  | error e => rfl
  | ok gs =>
    dsimp only [Except.map]
    rw [fl_sortBlocks, fl_real, List.map_append, List.filter_map, List.map_map]
    have : (fun b => !Lay.flow c b) ∘ (Blk.erase : Full.Blk α → _) = fun b => !flow c b := by funext b; rw [Function.comp_apply, h b]
    rw [this]
    rfl

theorem fl_parse_err (c w : ℚ) (strokes : List Table.St) (e : Err) (h : Table.parse c w strokes = .error e) : e = .index := by
  unfold Table.parse at h
  split at h
  · cases h
  · unfold Table.tableBlock at h
    split_ifs at h <;> cases h
    rfl

theorem fl_structure_err (c w : ℚ) (strokes : List Table.St) (fills : List (Rect × ℕ)) (e : Err) (h : structure_ c w strokes fills = .error e) : e = .index := by
  unfold structure_ at h
  split at h
  · cases h
  · split_ifs at h <;> cases h
    rfl

theorem fl_latticeLoop_err (c : Full.Cfg) (fills : List (Rect × ℕ)) (ty : Types) (gs : List (List Table.St)) (e : Err) (h : latticeLoop c fills ty gs = .error e) :
    e = .index := by
  induction gs generalizing ty with
  | nil => cases h
  | cons g gs ih =>
    rw [latticeLoop] at h
    split at h
    · rename_i e' he
      cases h
      exact fl_structure_err _ _ _ _ _ he
    · split_ifs at h
      · split at h
        · rename_i e' he
          cases h
          exact ih _ he
        · cases h
      · exact ih _ h

theorem fl_streamLoop_err (c : Full.Cfg) (box : Rect) (sub : Sub) (boxes : List Rect) (ty : Types) (gs : List (List El)) (e : Err)
    (h : streamLoop c box sub boxes ty gs = .error e) : e = .index := by
  induction gs generalizing ty with
  | nil => cases h
  | cons g gs ih =>
    rw [streamLoop] at h
    split at h
    · rename_i e' he
      cases h
      unfold streamTable at he
      split at he
      · cases he
      · dsimp only at he
        split at he
        · rename_i e' he'
          cases he
          exact fl_structure_err _ _ _ _ _ he'
        · cases he
    · split at h
      · rename_i e' he
        cases h
        exact ih _ he
      · cases h

/-- Finding tables raises nothing but an `IndexError`. -/
theorem fl_stage_err (c : Full.Cfg) (s : ℕ) (ty : Types) (box : Rect) (sub : Sub) (bs : List (Full.Blk α)) (e : Err) (h : stage c s ty box sub bs = .error e) :
    e = .index := by
  unfold stage at h
  split at h
  · cases hp : pageStage box sub bs with
    | ok t => rw [hp] at h; cases h
    | error e' =>
      rw [hp] at h
      cases h
      unfold pageStage at hp
      split at hp
      · rename_i e' he
        cases hp
        unfold Columns.pageTable at he
        split_ifs at he
        exact fl_parse_err _ _ _ _ he
      · cases hp
  · unfold latticeStage at h
    split_ifs at h
    exact fl_latticeLoop_err _ _ _ _ _ h
  · exact fl_streamLoop_err _ _ _ _ _ _ _ h

/-- No failure but an `IndexError`. -/
def FlErr (D : Lay.Detect α) : Prop := ∀ path b s bs e, D path b s bs = .error e → e = .index

theorem fl_stages (c : Full.Cfg) (nid : Lay.Ids) (path : List ℕ) (box box' : Rect) (ss : List ℕ) (hn : ss.Nodup) (st : State α) :
    ∃ f : ℕ → Except Err (List Lay.Tab), (∀ s e, f s = .error e → e = .index) ∧ ∀ D : Lay.Detect α, (∀ s b bs, D path b s bs = f s) →
      Lay.stages D nid path box' ss (st.blocks.map Blk.erase) = (stages c nid path box ss st).map fun r => r.blocks.map Blk.erase := by
  induction ss generalizing st with
  | nil => exact ⟨fun _ => .ok [], fun _ _ h => (by cases h), fun _ _ => rfl⟩
  | cons s ss ih =>
    rw [List.nodup_cons] at hn
    cases hs : stage c s st.types box st.sub st.blocks with
    | error e =>
      refine ⟨fun _ => .error e, fun _ _ h => (by cases h; exact fl_stage_err c s _ _ _ _ _ hs), fun D hD => ?_⟩
      rw [Lay.stages, hD, stages, hs]
      rfl
    | ok t =>
      cases ha : assignTables (nid path s) t.2 t.1 st.sub st.blocks with
      | error e =>
        refine ⟨fun _ => .ok (flTabs t.2 st.sub.shapes t.1), fun _ _ h => (by cases h), fun D hD => ?_⟩
        rw [Lay.stages, hD, stages, hs]
        dsimp only
        rw [fl_assignTables, ha]
        rfl
      | ok r =>
        obtain ⟨f, he, hf⟩ := ih hn.2 ⟨r.1, r.2, t.2⟩
        refine ⟨fun k => if k = s then .ok (flTabs t.2 st.sub.shapes t.1) else f k, fun k e hk => (by dsimp only at hk; split_ifs at hk; exact he k e hk), fun D hD => ?_⟩
        rw [Lay.stages, hD]
        dsimp only
        rw [if_pos rfl, stages, hs]
        dsimp only
        rw [fl_assignTables, ha]
        dsimp only [Except.map]
        have hD' : ∀ (D D' : Lay.Detect α), (∀ k ∈ ss, ∀ b bs, D path b k bs = D' path b k bs) → ∀ bs,
            Lay.stages D nid path box' ss bs = Lay.stages D' nid path box' ss bs := by
          clear ih hf hn hD
          induction ss with
          | nil => intro D D' _ bs; rfl
          | cons k ss ih =>
            intro D D' h bs
            rw [Lay.stages, Lay.stages, h k (List.mem_cons_self ..)]
            cases D' path box' k bs with
            | error e => rfl
            | ok ts =>
              dsimp only
              cases Lay.assignTables (nid path k) ts bs with
              | error e => rfl
              | ok q => exact ih D D' (fun k' hk' => h k' (List.mem_cons_of_mem _ hk')) q
        rw [hD' D (fun _ _ k _ => f k) ?_]
        · exact hf _ fun _ _ _ => rfl
        · intro k hk b bs
          rw [hD]
          dsimp only
          rw [if_neg]
          rintro rfl
          exact hn.1 hk

/-- `D` and `D'` find the same at and below a position. -/
def FlAgree (D D' : Lay.Detect α) (path : List ℕ) : Prop := ∀ p, path <+: p → D p = D' p

theorem fl_prefix_ne {path p : List ℕ} {i j i' j' : ℕ} (h : path ++ [i, j] <+: p) (h' : path ++ [i', j'] <+: p) : i = i' ∧ j = j' := by
  obtain ⟨t, rfl⟩ := h
  obtain ⟨t', h'⟩ := h'
  rw [List.append_assoc, List.append_assoc] at h'
  have := List.append_cancel_left h'
  simp only [List.cons_append, List.nil_append, List.cons.injEq] at this
  exact ⟨this.1.symm, this.2.1.symm⟩

/-- Cells from the `j`-th on. -/
theorem fl_parseCells (path : List ℕ) (i : ℕ) (L : Lay.Detect α → ℕ → Rect → List (Lay.Blk α) → Except Err (List (Lay.Blk α)))
    (F : ℕ → Types → Cell → List (Full.Blk α) → Except Err (List (Full.Blk α) × Types))
    (h : ∀ j ty cell bs, ∃ D', FlErr D' ∧ ∀ D, FlAgree D D' (path ++ [i, j]) → L D j cell.info.box (bs.map Blk.erase) = (F j ty cell bs).map fun r => r.1.map Blk.erase)
    (j : ℕ) (ty : Types) (cs : List (Cell × List (Full.Blk α))) :
    ∃ D', FlErr D' ∧ ∀ D, (∀ j', j ≤ j' → FlAgree D D' (path ++ [i, j'])) → Lay.parseCells (L D) j (eraseCells cs) = (parseCells F j ty cs).map fun r => eraseCells r.1 := by
  induction cs generalizing j ty with
  | nil => exact ⟨fun _ _ _ _ => .ok [], fun _ _ _ _ _ h => (by cases h), fun _ _ => rfl⟩
  | cons c cs ih =>
    obtain ⟨c, bs⟩ := c
    obtain ⟨D1, e1, h1⟩ := h j ty c bs
    cases hF : F j ty c bs with
    | error e =>
      refine ⟨D1, e1, fun D hD => ?_⟩
      rw [eraseCells, Lay.parseCells, parseCells, hF, fl_erase, h1 D (hD j le_rfl), hF]
      rfl
    | ok r =>
      obtain ⟨D2, e2, h2⟩ := ih (j + 1) r.2
      classical
      refine ⟨fun p => if path ++ [i, j] <+: p then D1 p else D2 p, fun p b s bs e he => (by dsimp only at he; split_ifs at he; exacts [e1 _ _ _ _ _ he, e2 _ _ _ _ _ he]), fun D hD => ?_⟩
      rw [eraseCells, Lay.parseCells, parseCells, hF, fl_erase, h1 D, hF]
      · dsimp only [Except.map]
        rw [h2 D]
        · cases parseCells F (j + 1) r.2 cs with
          | error e => rfl
          | ok q => dsimp only [Except.map]; rw [eraseCells, fl_erase]
        · intro j' hj' p hp
          rw [hD j' (by omega) p hp]
          dsimp only
          rw [if_neg]
          intro hp'
          have := (fl_prefix_ne hp hp').2
          omega
      · intro p hp
        rw [hD j le_rfl p hp]
        dsimp only
        rw [if_pos hp]

/-- Tables from the `i`-th block on. -/
theorem fl_parseTables (path : List ℕ) (L : Lay.Detect α → ℕ → ℕ → Rect → List (Lay.Blk α) → Except Err (List (Lay.Blk α)))
    (F : ℕ → ℕ → Types → Cell → List (Full.Blk α) → Except Err (List (Full.Blk α) × Types))
    (h : ∀ i j ty cell bs, ∃ D', FlErr D' ∧ ∀ D, FlAgree D D' (path ++ [i, j]) → L D i j cell.info.box (bs.map Blk.erase) = (F i j ty cell bs).map fun r => r.1.map Blk.erase)
    (i : ℕ) (ty : Types) (bs : List (Full.Blk α)) :
    ∃ D', FlErr D' ∧ ∀ D, (∀ i' j', i ≤ i' → FlAgree D D' (path ++ [i', j'])) → Lay.parseTables (L D) i (bs.map Blk.erase) = (parseTables F i ty bs).map fun r => r.1.map Blk.erase := by
  induction bs generalizing i ty with
  | nil => exact ⟨fun _ _ _ _ => .ok [], fun _ _ _ _ _ h => (by cases h), fun _ _ => rfl⟩
  | cons b bs ih =>
    cases b with
    | text r ls =>
      obtain ⟨D', e', hD'⟩ := ih (i + 1) ty
      refine ⟨D', e', fun D hD => ?_⟩
      rw [List.map_cons, Blk.erase, Lay.parseTables, parseTables, hD' D fun i' j' hi' => hD i' j' (by omega)]
      cases parseTables F (i + 1) ty bs <;> rfl
    | table r _ cs =>
      obtain ⟨D1, e1, h1⟩ := fl_parseCells path i (fun D => L D i) (F i) (h i) 0 ty cs
      cases hF : parseCells (F i) 0 ty cs with
      | error e =>
        refine ⟨D1, e1, fun D hD => ?_⟩
        rw [List.map_cons, Blk.erase, Lay.parseTables, parseTables, h1 D fun j' _ => hD i j' le_rfl, hF]
        rfl
      | ok q =>
        obtain ⟨D2, e2, h2⟩ := ih (i + 1) q.2
        classical
        refine ⟨fun p => if ∃ j, path ++ [i, j] <+: p then D1 p else D2 p, fun p b s bs e he => (by dsimp only at he; split_ifs at he; exacts [e1 _ _ _ _ _ he, e2 _ _ _ _ _ he]), fun D hD => ?_⟩
        rw [List.map_cons, Blk.erase, Lay.parseTables, parseTables, h1 D, hF]
        · dsimp only [Except.map]
          rw [h2 D]
          · cases parseTables F (i + 1) q.2 bs <;> rfl
          · intro i' j' hi' p hp
            rw [hD i' j' (by omega) p hp]
            dsimp only
            rw [if_neg]
            rintro ⟨j, hp'⟩
            have := (fl_prefix_ne hp hp').1
            omega
        · intro j' _ p hp
          rw [hD i j' le_rfl p hp]
          dsimp only
          rw [if_pos ⟨j', hp⟩]

theorem fl_refines_at (c : Full.Cfg) (fmt : Format α) (nid : Lay.Ids) (depth : ℕ) (path : List ℕ) (box box' : Rect) (ss : List ℕ) (hn : ss.Nodup) (st : State α) :
    ∃ D', FlErr D' ∧ ∀ D, FlAgree D D' path → Lay.parse c.base.lay D nid depth path box' ss (st.blocks.map Blk.erase) =
      (parse c fmt nid depth path box ss st).map fun r => r.1.map Blk.erase := by
  induction depth generalizing path box box' ss st with
  | zero => exact ⟨fun _ _ _ _ => .ok [], fun _ _ _ _ _ h => (by cases h), fun _ _ => rfl⟩
  | succ depth ih =>
    obtain ⟨f, ef, hf⟩ := fl_stages c nid path box box' ss hn st
    cases hs : stages c nid path box ss st with
    | error e =>
      refine ⟨fun _ _ s _ => f s, fun _ _ s _ e h => ef s e h, fun D hD => ?_⟩
      rw [Lay.parse, Lay.level, hf D fun s b bs => by rw [hD path (List.prefix_refl _)], hs, parse, hs]
      rfl
    | ok st' =>
      cases hb : splitBack c.base.lay st'.blocks with
      | error e =>
        refine ⟨fun _ _ s _ => f s, fun _ _ s _ e h => ef s e h, fun D hD => ?_⟩
        rw [Lay.parse, Lay.level, hf D fun s b bs => by rw [hD path (List.prefix_refl _)], hs, parse, hs]
        dsimp only [Except.map]
        rw [fl_splitBack, hb]
        rfl
      | ok bs =>
        obtain ⟨D1, e1, h1⟩ := fl_parseTables path (fun D i j r sub => Lay.parse c.base.lay D nid depth (path ++ [i, j]) r [1, 2] sub)
          (fun i j ty cell sub => parse c fmt nid depth (path ++ [i, j]) cell.info.working [1, 2] ⟨sub, cell.sub, ty⟩)
          (fun i j ty cell sub => ih (path ++ [i, j]) cell.info.working cell.info.box [1, 2] (by decide) ⟨sub, cell.sub, ty⟩)
          0 ⟨st'.types.done, st'.types.styled ++ fmt path st st' bs⟩ bs
        classical
        refine ⟨fun p => if p = path then fun _ s _ => f s else D1 p, fun p b s bs e he => (by dsimp only at he; split_ifs at he; exacts [ef _ _ he, e1 _ _ _ _ _ he]), fun D hD => ?_⟩
        rw [Lay.parse, Lay.level, hf D, hs, parse, hs]
        · dsimp only [Except.map]
          rw [fl_splitBack, hb]
          dsimp only [Except.map]
          refine h1 D ?_
          intro i' j' _ p hp
          rw [hD p ((List.prefix_append _ _).trans hp)]
          dsimp only
          rw [if_neg]
          rintro rfl
          have := hp.length_le
          simp at this
        · intro s b bs
          rw [hD path (List.prefix_refl _)]
          dsimp only
          rw [if_pos rfl]

/-- Every run with shapes is a run of `Lay.parsePage`, for some choice of the tables found. -/
theorem fl_refines (c : Full.Cfg) (fmt : Format α) (nid : Lay.Ids) (depth : ℕ) (page : Rect) (shapes : List Sh) (bs : List (Full.Blk α)) :
    ∃ D, FlErr D ∧ Lay.parsePage c.base.lay D nid depth page (Lay.sortBlocks (bs.map Blk.erase)) =
      (parsePage c fmt nid depth page shapes bs).map fun r => r.1.map Blk.erase := by
  obtain ⟨D, hE, hD⟩ := fl_refines_at c fmt nid depth [] page page [0, 1, 2] (by decide) ⟨sortBlocks bs, mkSub (sortBlocks bs) shapes, ⟨[], []⟩⟩
  refine ⟨D, hE, ?_⟩
  unfold Lay.parsePage parsePage
  rw [← hD D fun _ _ => rfl, fl_sortBlocks]

end Full

end Props
