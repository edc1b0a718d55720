import Verif.Num
/-! # Model of the configuration dictionaries (page/Page.py L58-86, converter.py L162-177) -/

namespace Settings

/-- Values occurring in the settings; `obj` stands for any other Python object. -/
inductive Val where
  | bool (b : Bool)
  | num (q : ℚ)
  | str (s : String)
  | obj (n : ℕ)
  deriving DecidableEq

/-- A Python dict in insertion order. -/
abbrev Dict := List (String × Val)

/-- `d.get(k)`. -/
def Dict.get (d : Dict) (k : String) : Option Val :=
  match d with
  | [] => none
  | (k', v) :: d => if k' = k then some v else Dict.get d k

/-- `d[k] = v`: an existing key keeps its place. -/
def Dict.set (d : Dict) (k : String) (v : Val) : Dict :=
  match d with
  | [] => [(k, v)]
  | (k', v') :: d => if k' = k then (k, v) :: d else (k', v') :: Dict.set d k v

/-- `d.update(u)`. -/
def Dict.update (d u : Dict) : Dict := u.foldl (fun d p => d.set p.1 p.2) d

/-- The literal in `Page.init_settings` (page/Page.py L61-82). -/
def default : Dict := [
  ("debug", .bool false),
  ("connected_border_tolerance", .num (1 / 2)),
  ("max_border_width", .num 6),
  ("min_border_clearance", .num 2),
  ("float_image_ignorable_gap", .num 5),
  ("float_layout_tolerance", .num (1 / 10)),
  ("page_margin_factor_top", .num (1 / 2)),
  ("page_margin_factor_bottom", .num (1 / 2)),
  ("shape_merging_threshold", .num (1 / 2)),
  ("shape_min_dimension", .num 2),
  ("line_overlap_threshold", .num (9 / 10)),
  ("line_free_space_ratio_threshold", .num (1 / 10)),
  ("line_merging_threshold", .num 2),
  ("line_separate_threshold", .num 5),
  ("lines_left_aligned_threshold", .num 1),
  ("lines_right_aligned_threshold", .num 1),
  ("lines_center_aligned_threshold", .num 2),
  ("clip_image_res_ratio", .num 3),
  ("curve_path_ratio", .num (1 / 5)),
  ("extract_stream_table", .bool false)]

/-- `Page.init_settings` (page/Page.py L59-86): a fresh literal, updated if the argument is non-empty. -/
def initSettings (user : Option Dict) : Dict :=
  match user with
  | some (p :: ps) => default.update (p :: ps)
  | _ => default

/-- `Converter.debug_page` (converter.py L162-174): `kwargs.update` works on the caller's dict if that is non-empty
(`kwargs if kwargs else {}` makes a new one otherwise). Returns (the dict used for the conversion, the caller's dict
afterwards). -/
def debugKwargs (caller : Dict) (doc : ℕ) (debugPdf : String) : Dict × Dict :=
  let extra : Dict := [("debug", .bool true), ("debug_doc", .obj doc), ("debug_filename", .str debugPdf)]
  match caller with
  | [] => (Dict.update [] extra, [])
  | c :: cs => (Dict.update (c :: cs) extra, Dict.update (c :: cs) extra)

/-- Truth value of a setting (`if self.settings[...]`). -/
def Val.truthy : Val → Bool
  | .bool b => b
  | .num q => q ≠ 0
  | .str s => s ≠ ""
  | .obj _ => true

/-- The settings the pages of a converter hold (page/Page.py L48): defaults at first. -/
def initPages (n : ℕ) : List Dict := List.replicate n (initSettings none)

/-- Effect of one `parse` call (converter.py L77-82, page/Page.py L146) with the given pages and `kwargs` on the settings of the pages; they
are replaced before anything that may raise. Positions outside the document raise and are skipped. -/
def parseCall (ps : List Dict) (call : List ℕ × Option Dict) : List Dict :=
  call.1.foldl (fun ps k => ps.modify k fun _ => initSettings call.2) ps

/-- `Page.extract_tables` (page/Page.py L159-176): the lattice tables, or all tables. A table comes with its kind (`true`: lattice). -/
def pageTables {T : Type} (settings : Dict) (tables : List (Bool × T)) : List T :=
  if ((settings.get "extract_stream_table").map Val.truthy).getD false then tables.map Prod.snd
  else (tables.filter fun t => t.1).map Prod.snd

/-! ## Lemmas -/

theorem get_set (d : Dict) (k k' : String) (v : Val) :
    (d.set k v).get k' = if k = k' then some v else d.get k' := by
  induction d with
  | nil => simp [Dict.set, Dict.get]
  | cons p d ih =>
    obtain ⟨j, w⟩ := p
    unfold Dict.set
    split
    · rename_i h; subst h; unfold Dict.get; split <;> simp_all
    · rename_i h
      rw [Dict.get, ih, Dict.get]
      by_cases h1 : j = k'
      · by_cases h2 : k = k'
        · exact absurd (h1.trans h2.symm) h
        · simp [h1, h2]
      · simp [h1]

theorem get_eq_none_of (d : Dict) (k : String) (h : k ∉ d.map Prod.fst) : d.get k = none := by
  induction d with
  | nil => rfl
  | cons p d ih =>
    obtain ⟨j, w⟩ := p
    simp only [List.map_cons, List.mem_cons, not_or] at h
    rw [Dict.get, if_neg (fun e => h.1 e.symm), ih h.2]

theorem get_update (d u : Dict) (hu : (u.map Prod.fst).Nodup) (k : String) :
    (d.update u).get k = (u.get k).or (d.get k) := by
  unfold Dict.update
  induction u generalizing d with
  | nil => simp [Dict.get]
  | cons p u ih =>
    obtain ⟨j, w⟩ := p
    rw [List.map_cons, List.nodup_cons] at hu
    rw [List.foldl_cons, ih _ hu.2, get_set]
    by_cases h : j = k
    · subst h
      rw [get_eq_none_of u j hu.1]
      simp [Dict.get]
    · simp [h, Dict.get]

end Settings
