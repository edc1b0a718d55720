import Verif.Props.Frames
import Verif.Spec.NestedFrames
/-! # C132: tables in tables keep their horizontal place -/

namespace Props
open Geom Py Pipe Spec

section Nested132

theorem nf_infos (c : Pose.Cfg) (cs : List (Full.Cell × List Deco.Blk)) (cs' : List (Full.Cell × List Pose.Blk)) (h : Pose.cells c cs = .ok cs') :
    cs'.map (fun x => Pose.frameCell x.1.info) = cs.map fun x => cellAsFound x.1.info := by
  have hcells := tr_cells c cs cs' h
  clear h
  induction hcells with
  | nil => rfl
  | cons h _ ih => rw [List.map_cons, List.map_cons, ih, h.1]; rfl

mutual
theorem nf_block (c : Pose.Cfg) (box : Rect) : (b : Deco.Blk) → (x : Pose.Blk) → WrittenIn c box b x → Pose.tab x = tabFound box.x0 b
  | .text b ls s, x, h => by
    cases x with
    | text q => simp only [Pose.tab, tabFound]
    | table _ _ _ _ _ => exact absurd h (by simp [WrittenIn])
  | .table b g cs, x, h => by
    cases x with
    | text q => exact absurd h (by simp [WrittenIn])
    | table b' ind before g' cs' =>
      obtain ⟨-, rfl, rfl, hcs⟩ := h
      simp only [Pose.tab, tabFound]
      rw [nf_infos c cs cs' hcs, nf_cells c cs cs' (tr_cells c cs cs' hcs)]
theorem nf_blocks (c : Pose.Cfg) (box : Rect) : (bs : List Deco.Blk) → (xs : List Pose.Blk) → List.Forall₂ (WrittenIn c box) bs xs → Pose.tabs xs = tabsFound box.x0 bs
  | [], xs, h => by
    obtain rfl := List.forall₂_nil_left_iff.1 h
    simp only [Pose.tabs, tabsFound]
  | b :: bs, xs, h => by
    obtain ⟨x, xs', h1, h2, rfl⟩ := List.forall₂_cons_left_iff.1 h
    simp only [Pose.tabs, tabsFound]
    rw [nf_block c box b x h1, nf_blocks c box bs xs' h2]
theorem nf_cells (c : Pose.Cfg) : (cs : List (Full.Cell × List Deco.Blk)) → (xs : List (Full.Cell × List Pose.Blk)) →
    List.Forall₂ (fun a b => b.1 = a.1 ∧ Pose.layout c a.1.info.working a.2 = .ok b.2) cs xs → Pose.tabCells xs = tabsInCells cs
  | [], xs, h => by
    obtain rfl := List.forall₂_nil_left_iff.1 h
    simp only [Pose.tabCells, tabsInCells]
  | (k, bs) :: cs, xs, h => by
    obtain ⟨⟨k', ys⟩, xs', h1, h2, rfl⟩ := List.forall₂_cons_left_iff.1 h
    simp only [Pose.tabCells, tabsInCells]
    have := nf_blocks c k.info.working bs ys (tr_layout c _ _ ys h1.2)
    rw [nf_cells c cs xs' h2, this]
    rfl
end

/-- **C132**. The tables written for a page, those in cells at any depth included, are the ones found; each starts where the table found does, counting from the left margin of the section, or from the inner
side of the left border of the cell it is in, and has its cells with their widths, borders and backgrounds. -/
theorem C132_nested_tables (c : Pose.Cfg) (depth : ℕ) (s0 : Pose.Sect) (pages : List Pose.Page) (d : Docx.Doc Pose.Par Sp Pose.Sect) (h : Pose.convert c depth s0 pages = .ok d) (n : ℕ) (p : Pose.Page)
    (s : Pose.Sect × List (Docx.Item Pose.Par Sp Pose.Sect)) (hp : pages[n]? = some p) (hs : (sectionsOf d)[n]? = some s) :
    ∃ (js : List Raw) (dl : List Deco.Blk × Full.Types) (T : List (List Pose.Tab)), (cleanUp c.whole.pipe p.box p.raw).map Prod.fst = .ok js ∧
      Deco.layout c.whole.full p.uri p.ids depth (p.workOf c js) p.shapes (js.map fun b => .text b.bbox b.lines) = .ok dl ∧ Pose.convertTabs c depth pages = .ok T ∧
      T[n]? = some (tabsFound s.1.margin.left dl.1) := by
  obtain ⟨dd, h1, h2, -, -⟩ := tq_section c depth s0 pages d h n p s hp hs
  obtain ⟨F, hF, -⟩ := fm_frames c depth s0 pages d h
  unfold Pose.convertFrames at hF
  cases hm : pages.mapM (Pose.pageLayout c depth) with
  | error e => rw [hm] at hF; cases hF
  | ok xss =>
    have hall := pp_mapM_forall pages xss hm
    obtain ⟨hn, hpn⟩ := List.getElem?_eq_some_iff.1 hp
    have hn' : n < xss.length := hall.length_eq ▸ hn
    have hl := (List.forall₂_iff_get.1 hall).2 n hn hn'
    simp only [List.get_eq_getElem, hpn] at hl
    unfold Pose.pageLayout at hl
    unfold Pose.parsePage at h1
    cases hc : cleanUp c.whole.pipe p.box p.raw with
    | error e => rw [hc] at hl; cases hl
    | ok r =>
      rw [hc] at hl h1
      dsimp only at hl h1
      cases hd : Deco.layout c.whole.full p.uri p.ids depth (p.workOf c r.1) p.shapes (r.1.map fun b => .text b.bbox b.lines) with
      | error e => rw [hd] at hl; cases hl
      | ok dl =>
        rw [hd] at hl h1
        dsimp only at hl h1
        rw [hl] at h1
        obtain rfl := (Except.ok.inj h1).symm
        refine ⟨r.1, dl, xss.map Pose.tabs, rfl, hd, ?_, ?_⟩
        · unfold Pose.convertTabs
          rw [hm]
        · have ex0 : s.1.margin.left = (p.workOf c r.1).x0 := by
            rw [h2]
            show (p.margin c r.1).left = 0 + (p.margin c r.1).left
            rw [zero_add]
          rw [List.getElem?_map, List.getElem?_eq_getElem hn', Option.map_some, ex0, nf_blocks c _ _ _ (tr_layout c _ _ _ hl)]

/-- A title, and a grid of 150pt wide cells, the first of them with another grid in it, of 40pt wide cells. -/
def nfPage : Pose.Page :=
  ⟨⟨0, 0, 400, 600⟩, [plText 1 ⟨20, 20, 300, 30⟩ [(⟨20, 20, 300, 30⟩, [(⟨20, 20, 300, 30⟩, 'a')])],
    plText 2 ⟨85, 135, 110, 145⟩ [(⟨85, 135, 110, 145⟩, [(⟨85, 135, 110, 145⟩, 'b')])], plText 3 ⟨210, 135, 250, 145⟩ [(⟨210, 135, 250, 145⟩, [(⟨210, 135, 250, 145⟩, 'c')])]],
    (Spec.gridStrokes (fun j => 50 + 150 * j) (fun i => 100 + 150 * i) 2 2 1 ++ Spec.gridStrokes (fun j => 80 + 40 * j) (fun i => 130 + 40 * i) 2 2 1).map Full.Sh.stroke, fun _ => "u", fun _ _ _ _ _ => 0⟩

mutual
/-- The tables from outside to inside: indent, widths of the cells of the first row. -/
def nfTab : Pose.Tab → List (ℚ × Option (List (Option ℚ)))
  | .mk f inner => (f.indent, f.cells.head?.map fun r => r.map fun c => c.map fun x => x.width) :: nfCells inner
def nfTabs : List Pose.Tab → List (ℚ × Option (List (Option ℚ)))
  | [] => []
  | t :: ts => nfTab t ++ nfTabs ts
def nfCells : List (List Pose.Tab) → List (ℚ × Option (List (Option ℚ)))
  | [] => []
  | ts :: cs => nfTabs ts ++ nfCells cs
end

/-- Non-vacuity: a page is converted with a table in a table. The left margin is 20; the outer table starts 30 to the right of it (at 50), the inner table 29.5 to the right of the inner side of the border of
its cell (at 50.5 + 29.5 = 80). -/
example : (Pose.convert poCfg 6 ⟨0, 0, ⟨0, 0, 0, 0⟩⟩ [nfPage]).toOption.map (fun d => (sectionsOf d).map fun s => s.1.margin.left) = some [20] ∧
    (Pose.convertTabs poCfg 6 [nfPage]).toOption.map (fun T => T.map nfTabs) = some [[(30, some [some 150, some 150]), (59 / 2, some [some 40, some 40])]] := by
  refine ⟨by decide +kernel, by decide +kernel⟩

end Nested132
end Props
