import Verif.Settings
/-! # Property theorems: configuration (C17) -/

namespace Props
open Settings

/-- The defaults documented for `Converter.convert` (docstring, converter.py L195-214; the first three entries there
concern the converter, not the page, and are not repeated). -/
def documented : List (String × ℚ) := [
  ("connected_border_tolerance", 5 / 10), ("max_border_width", 6), ("min_border_clearance", 2),
  ("float_image_ignorable_gap", 5), ("float_layout_tolerance", 1 / 10), ("page_margin_factor_top", 5 / 10),
  ("page_margin_factor_bottom", 5 / 10), ("shape_merging_threshold", 5 / 10), ("shape_min_dimension", 2),
  ("line_overlap_threshold", 9 / 10), ("line_merging_threshold", 2), ("line_separate_threshold", 5),
  ("lines_left_aligned_threshold", 1), ("lines_right_aligned_threshold", 1), ("lines_center_aligned_threshold", 2),
  ("clip_image_res_ratio", 3), ("curve_path_ratio", 2 / 10)]

/-- C17: a key given by the user has the user's value; any other key has the value it has without user settings. -/
theorem C17_user_overrides_default (user : Dict) (hdict : (user.map Prod.fst).Nodup) (k : String) :
    (∀ v, user.get k = some v → (initSettings (some user)).get k = some v) ∧
    (user.get k = none → (initSettings (some user)).get k = (initSettings none).get k) := by
  cases user with
  | nil => exact ⟨by simp [Dict.get], fun _ => rfl⟩
  | cons p ps =>
    have h : (initSettings (some (p :: ps))).get k = _ := get_update Settings.default (p :: ps) hdict k
    constructor
    · intro v hv; rw [h, hv]; rfl
    · intro hv; rw [h, hv]; rfl

/-- C17: without user settings every documented parameter has its documented default, debugging is off and stream
tables are not extracted. -/
theorem C17_documented_defaults :
    (∀ kv ∈ documented, (initSettings none).get kv.1 = some (.num kv.2)) ∧
    (initSettings none).get "debug" = some (.bool false) ∧
    (initSettings none).get "extract_stream_table" = some (.bool false) := by
  refine ⟨?_, by decide, by decide⟩
  decide +kernel

theorem parseCall_get (ps : List Dict) (call : List ℕ × Option Dict) (k : ℕ) :
    (parseCall ps call)[k]? = if k ∈ call.1 then ps[k]?.map (fun _ => initSettings call.2) else ps[k]? := by
  obtain ⟨l, kw⟩ := call
  unfold parseCall
  simp only []
  induction l generalizing ps with
  | nil => simp
  | cons i l ih =>
    rw [List.foldl_cons, ih, List.getElem?_modify]
    by_cases h : i = k
    · subst h
      simp only [List.mem_cons, true_or, if_true]
      split <;> simp [Function.comp_def]
    · have h' : ¬ k = i := fun e => h e.symm
      simp only [List.mem_cons, h, h', false_or, if_false]
      split <;> simp

/-- C17, no leak: after any history of `parse` calls, the settings a page works with are those of the last call that included the page, and
of no other call; a page never included has the default settings. -/
theorem C17_no_leak (n : ℕ) (history : List (List ℕ × Option Dict)) (k : ℕ) (hk : k < n) :
    (∀ (before after : List (List ℕ × Option Dict)) (call : List ℕ × Option Dict), history = before ++ call :: after → k ∈ call.1 →
      (∀ c ∈ after, k ∉ c.1) → (history.foldl parseCall (initPages n))[k]? = some (initSettings call.2)) ∧
    ((∀ c ∈ history, k ∉ c.1) → (history.foldl parseCall (initPages n))[k]? = some (initSettings none)) := by
  have hrest : ∀ (h : List (List ℕ × Option Dict)) (ps : List Dict), (∀ c ∈ h, k ∉ c.1) → (h.foldl parseCall ps)[k]? = ps[k]? := by
    intro h
    induction h with
    | nil => intro ps _; rfl
    | cons c h ih =>
      intro ps hc
      rw [List.foldl_cons, ih _ fun c' hc' => hc c' (by simp [hc']), parseCall_get, if_neg (hc c (by simp))]
  have hlen : ∀ (h : List (List ℕ × Option Dict)) (ps : List Dict), k < ps.length → ∃ d, (h.foldl parseCall ps)[k]? = some d := by
    intro h
    induction h with
    | nil => intro ps hp; exact ⟨ps[k], List.getElem?_eq_getElem hp⟩
    | cons c h ih =>
      intro ps hp
      refine ih _ ?_
      by_contra hcon
      have := parseCall_get ps c k
      rw [List.getElem?_eq_none (by omega), List.getElem?_eq_getElem hp] at this
      split at this <;> simp at this
  constructor
  · rintro before after call rfl hc ha
    rw [List.foldl_append, List.foldl_cons, hrest _ _ ha, parseCall_get, if_pos hc]
    obtain ⟨d, hd⟩ := hlen before (initPages n) (by simpa [initPages] using hk)
    rw [hd]; rfl
  · intro h
    rw [hrest _ _ h]
    simp [initPages, hk]

/-- Non-vacuity: page 1 parsed twice, page 0 once, page 2 never. -/
example : (([([0, 1], some [("max_border_width", .num 3)]), ([1], some [("debug", .bool true)])] : List (List ℕ × Option Dict)).foldl
    parseCall (initPages 3)).map (fun d => (d.get "max_border_width", d.get "debug")) =
    [(some (.num 3), some (.bool false)), (some (.num 6), some (.bool true)), (some (.num 6), some (.bool false))] := by decide +kernel

/-- C17: tables recognised by alignment only are returned by `extract_tables` iff the user asks for them; lattice tables always are, in
order. -/
theorem C17_stream_tables_on_request {T : Type} (user : Option Dict) (hdict : ∀ u, user = some u → (u.map Prod.fst).Nodup)
    (tables : List (Bool × T)) :
    (((∀ u, user = some u → u.get "extract_stream_table" = none) →
      pageTables (initSettings user) tables = (tables.filter fun t => t.1).map Prod.snd) ∧
    (∀ u, user = some u → u.get "extract_stream_table" = some (.bool true) → pageTables (initSettings user) tables = tables.map Prod.snd)) := by
  constructor
  · intro h
    have e : (initSettings user).get "extract_stream_table" = some (.bool false) := by
      cases user with
      | none => exact C17_documented_defaults.2.2
      | some u => rw [(C17_user_overrides_default u (hdict u rfl) _).2 (h u rfl)]; exact C17_documented_defaults.2.2
    unfold pageTables
    rw [e]; rfl
  · rintro u rfl h
    unfold pageTables
    rw [(C17_user_overrides_default u (hdict u rfl) _).1 _ h]; rfl

/-- C17: any value of the option counts as Python counts it: `False`, 0 and the empty string mean no, everything else yes. -/
theorem C17_stream_tables_values {T : Type} (u : Dict) (hdict : (u.map Prod.fst).Nodup) (v : Val) (h : u.get "extract_stream_table" = some v) (tables : List (Bool × T)) :
    pageTables (initSettings (some u)) tables =
      if v = .bool false ∨ v = .num 0 ∨ v = .str "" then (tables.filter fun t => t.1).map Prod.snd else tables.map Prod.snd := by
  unfold pageTables
  rw [(C17_user_overrides_default u hdict _).1 _ h]
  cases v with
  | bool b => cases b <;> simp [Val.truthy]
  | num q => by_cases hq : q = 0 <;> simp [Val.truthy, hq]
  | str s => by_cases hs : s = "" <;> simp [Val.truthy, hs]
  | obj n => simp [Val.truthy]

/-- Non-vacuity: zero means no. -/
example : pageTables (initSettings (some [("extract_stream_table", .num 0)])) [(true, 1), (false, 2)] = [1] ∧
    pageTables (initSettings (some [("extract_stream_table", .num 2)])) [(true, 1), (false, 2)] = [1, 2] := by decide +kernel

/-- C17: a plain conversion leaves the caller's dictionary as it is (nothing in `convert` writes to it), but
`debug_page` writes into a non-empty one: a later plain conversion with the same dictionary runs in debug mode. So
"nothing leaks between calls" is false for `debug_page` with a non-empty dictionary … -/
theorem C17_refuted_debug_leak (caller : Dict) (hne : caller ≠ []) (doc : ℕ) (f : String) :
    (debugKwargs caller doc f).2.get "debug" = some (.bool true) ∧
    (debugKwargs caller doc f).2.get "debug_doc" = some (.obj doc) := by
  cases caller with
  | nil => exact absurd rfl hne
  | cons c cs =>
    have h : ∀ k, (debugKwargs (c :: cs) doc f).2.get k = _ := fun k => get_update (c :: cs)
      [("debug", .bool true), ("debug_doc", .obj doc), ("debug_filename", .str f)] (by simp) k
    constructor
    · rw [h]; rfl
    · rw [h]; rfl

/-- … and true for an omitted or empty one; in either case the user's other keys are used unchanged. -/
theorem C17_debug_partial (caller : Dict) (hdict : (caller.map Prod.fst).Nodup) (doc : ℕ) (f : String) :
    (debugKwargs [] doc f).2 = [] ∧
    ∀ k, k ∉ ["debug", "debug_doc", "debug_filename"] → (debugKwargs caller doc f).1.get k = caller.get k := by
  refine ⟨rfl, fun k hk => ?_⟩
  have hk' : ¬ "debug" = k ∧ ¬ "debug_doc" = k ∧ ¬ "debug_filename" = k := by
    simp only [List.mem_cons, List.not_mem_nil, or_false, not_or] at hk
    exact ⟨fun e => hk.1 e.symm, fun e => hk.2.1 e.symm, fun e => hk.2.2 e.symm⟩
  have hextra : Dict.get [("debug", .bool true), ("debug_doc", .obj doc), ("debug_filename", .str f)] k = none := by
    simp [Dict.get, hk'.1, hk'.2.1, hk'.2.2]
  have h : ∀ c : Dict, (Dict.update c [("debug", .bool true), ("debug_doc", .obj doc), ("debug_filename", .str f)]).get k
      = c.get k := by
    intro c
    rw [get_update c _ (by simp) k, hextra]; rfl
  cases caller with
  | nil => exact h []
  | cons c cs => exact h (c :: cs)

example : (([("debug", .bool true), ("max_border_width", .num 3)] : Dict).map Prod.fst).Nodup ∧
    (initSettings (some [("max_border_width", .num 3)])).get "max_border_width" = some (.num 3) := by
  constructor <;> decide +kernel

end Props
