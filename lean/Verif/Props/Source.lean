import Verif.Source
import Verif.Props.Element
import Verif.Spec.Source
import Mathlib.Logic.Function.Iterate
/-! # C98, C99, C100: reading the source page -/

namespace Props
open Source Py Geom Spec

/-! ## C98 -/

theorem sr_trunc_le {x : ℚ} (h : 0 ≤ x) : (trunc x : ℚ) ≤ x := by
  unfold trunc; rw [if_pos h]; exact Int.floor_le x

theorem sr_trunc_mono {x y : ℚ} (h : x ≤ y) : trunc x ≤ trunc y := by
  unfold trunc
  split_ifs with h1 h2 h2
  · exact Int.floor_le_floor h
  · linarith
  · exact (Int.ceil_le.2 (by simp; linarith) : ⌈x⌉ ≤ 0).trans (Int.floor_nonneg.2 h2)
  · exact Int.ceil_le_ceil h

theorem sr_lt_trunc (x : ℚ) : x < trunc x + 1 := by
  unfold trunc
  split_ifs with h
  · exact Int.lt_floor_add_one x
  · exact (Int.le_ceil x).trans_lt (by linarith)

theorem sr_trunc_gt (x : ℚ) : (trunc x : ℚ) - 1 < x := by
  unfold trunc
  split_ifs with h
  · linarith [Int.floor_le x]
  · linarith [Int.ceil_lt_add_one x]

theorem sr_exclude (g : Gray) (areas : List Rect) : (exclude g areas).rows = g.rows ∧ (exclude g areas).cols = g.cols ∧
    ∀ i j, (exclude g areas).at_ i j = if areas.any (fun b => inArea g b i j) then 255 else g.at_ i j := by
  unfold exclude
  induction areas generalizing g with
  | nil => simp
  | cons b l ih =>
    rw [List.foldl_cons]
    obtain ⟨h1, h2, h3⟩ := ih (blank g b)
    refine ⟨h1, h2, fun i j => ?_⟩
    rw [h3, List.any_cons]
    have : ∀ b', inArea (blank g b) b' i j = inArea g b' i j := fun _ => rfl
    simp only [this]
    unfold blank
    by_cases h4 : inArea g b i j <;> by_cases h5 : (l.any fun b => inArea g b i j) = true <;> simp [h4, h5]

/-- **C98** (partial: areas that begin at least 2pt from the top and the left edge of the page): before looking for vector graphics every pixel of the page which
touches an excluded area is white, whatever was drawn there. -/
theorem C98_blanked_partial (g : Gray) (areas : List Rect) (b : Rect) (hb : b ∈ areas) (hx : 2 ≤ b.x0) (hy : 2 ≤ b.y0) (i j : ℕ) (hi : i < g.rows) (hj : j < g.cols)
    (h1 : b.y0 ≤ i + 1) (h2 : (i : ℚ) ≤ b.y1) (h3 : b.x0 ≤ j + 1) (h4 : (j : ℚ) ≤ b.x1) : (exclude g areas).at_ i j = 255 := by
  obtain ⟨_, _, h⟩ := sr_exclude g areas
  rw [h, if_pos]
  rw [List.any_eq_true]
  refine ⟨b, hb, ?_⟩
  have key : ∀ (n : ℕ) (lo hi : ℚ) (k : ℕ), k < n → 2 ≤ lo → lo ≤ k + 1 → (k : ℚ) ≤ hi → inSlice n (trunc lo - 2) (trunc hi + 2) k = true := by
    intro n lo hi k hk h2l hl hu
    have e1 : (2 : ℤ) ≤ trunc lo := by
      unfold trunc; rw [if_pos (by linarith)]; exact Int.le_floor.2 (by exact_mod_cast h2l)
    have e2 : (trunc lo : ℚ) ≤ k + 1 := (sr_trunc_le (by linarith)).trans hl
    have e2' : trunc lo ≤ k + 1 := by exact_mod_cast e2
    have e3 : (k : ℚ) < trunc hi + 1 := lt_of_le_of_lt hu (sr_lt_trunc hi)
    have e3' : (k : ℤ) < trunc hi + 1 := by exact_mod_cast e3
    unfold inSlice bound
    rw [decide_eq_true_iff]
    have hk' : (k : ℤ) < n := by exact_mod_cast hk
    have hk0 : (0 : ℤ) ≤ k := Int.natCast_nonneg k
    rw [if_neg (by omega), if_neg (by omega)]
    omega
  unfold inArea
  rw [Bool.and_eq_true]
  exact ⟨key _ _ _ _ hi hy h1 h2, key _ _ _ _ hj hx h3 h4⟩

/-- **C98** (partial, as above): a pixel of the page more than 3pt away from every excluded area keeps its value, so vector graphics outside pictures and tables are
found. -/
theorem C98_kept_partial (g : Gray) (areas : List Rect) (h0 : ∀ b ∈ areas, 2 ≤ b.x0 ∧ b.x0 ≤ b.x1 ∧ 2 ≤ b.y0 ∧ b.y0 ≤ b.y1) (i j : ℕ) (hi : i < g.rows) (hj : j < g.cols)
    (hfar : ∀ b ∈ areas, (i : ℚ) + 3 ≤ b.y0 ∨ b.y1 + 2 ≤ i ∨ (j : ℚ) + 3 ≤ b.x0 ∨ b.x1 + 2 ≤ j) : (exclude g areas).at_ i j = g.at_ i j := by
  obtain ⟨_, _, h⟩ := sr_exclude g areas
  rw [h, if_neg]
  rw [Bool.not_eq_true, List.any_eq_false]
  intro b hb
  obtain ⟨hx, hx', hy, hy'⟩ := h0 b hb
  have key : ∀ (n : ℕ) (lo hi : ℚ) (k : ℕ), k < n → 2 ≤ lo → lo ≤ hi → ((k : ℚ) + 3 ≤ lo ∨ hi + 2 ≤ k) → inSlice n (trunc lo - 2) (trunc hi + 2) k = false := by
    intro n lo hi k hk h2l hlh hl
    have e1 : (2 : ℤ) ≤ trunc lo := by
      unfold trunc; rw [if_pos (by linarith)]; exact Int.le_floor.2 (by exact_mod_cast h2l)
    have e2 := sr_trunc_mono hlh
    have hk' : (k : ℤ) < n := by exact_mod_cast hk
    unfold inSlice bound
    rw [decide_eq_false_iff_not, if_neg (by omega), if_neg (by omega)]
    rcases hl with hl | hl
    · have : (k : ℤ) + 3 ≤ trunc lo := by
        unfold trunc; rw [if_pos (by linarith)]; exact Int.le_floor.2 (by push_cast; exact hl)
      omega
    · have h5 : (trunc hi : ℚ) + 2 ≤ k := by linarith [sr_trunc_le (x := hi) (by linarith)]
      have h6 : trunc hi + 2 ≤ (k : ℤ) := by exact_mod_cast h5
      omega
  unfold inArea
  rcases hfar b hb with hf | hf | hf | hf
  · rw [key _ _ _ _ hi hy hy' (.inl hf)]; simp
  · rw [key _ _ _ _ hi hy hy' (.inr hf)]; simp
  · rw [key _ _ _ _ hj hx hx' (.inl hf)]; simp
  · rw [key _ _ _ _ hj hx hx' (.inr hf)]; simp

/-- Hypotheses of both: a picture in the middle of a page. -/
example : (∀ b ∈ [(⟨100, 100, 200, 150⟩ : Rect)], 2 ≤ b.x0 ∧ b.x0 ≤ b.x1 ∧ 2 ≤ b.y0 ∧ b.y0 ≤ b.y1) ∧
    ((150 : ℚ) + 3 ≤ 100 ∨ (150 : ℚ) + 2 ≤ 160 ∨ False) := by
  constructor
  · decide +kernel
  · norm_num

/-- **C98** (refuted): an area that begins less than 2pt below the top edge of the page (`0 ≤ y0 < 2`) is not excluded, whatever it is: above the last two rows of pixels
nothing is made white. The start of the slice is negative, which numpy counts from the end. The same holds at the left edge. -/
theorem C98_refuted_edge (g : Gray) (b : Rect) (h0 : 0 ≤ b.y0 ∧ b.y0 < 2 ∨ 0 ≤ b.x0 ∧ b.x0 < 2) (i j : ℕ) (hi : i + 2 < g.rows) (hj : j + 2 < g.cols) :
    (exclude g [b]).at_ i j = g.at_ i j := by
  obtain ⟨_, _, h⟩ := sr_exclude g [b]
  rw [h, if_neg]
  have key : ∀ (n : ℕ) (lo hi : ℚ) (k : ℕ), k + 2 < n → 0 ≤ lo → lo < 2 → inSlice n (trunc lo - 2) (trunc hi + 2) k = false := by
    intro n lo hi k hk h1 h2
    have e1 : trunc lo < 2 := by
      unfold trunc; rw [if_pos h1]; exact Int.floor_lt.2 (by exact_mod_cast h2)
    have e2 : 0 ≤ trunc lo := by
      unfold trunc; rw [if_pos h1]; exact Int.floor_nonneg.2 h1
    have hk' : (k : ℤ) + 2 < n := by exact_mod_cast hk
    unfold inSlice bound
    rw [decide_eq_false_iff_not, if_pos (by omega : trunc lo - 2 < 0)]
    omega
  rw [Bool.not_eq_true, List.any_cons, List.any_nil, Bool.or_false]
  unfold inArea
  rcases h0 with h0 | h0
  · rw [key _ _ _ _ hi h0.1 h0.2, Bool.false_and]
  · rw [key _ _ _ _ hj h0.1 h0.2, Bool.and_false]

/-- A page filled by one picture is of this kind. -/
example : (0 : ℚ) ≤ (⟨0, 0, 595, 842⟩ : Rect).y0 ∧ (⟨0, 0, 595, 842⟩ : Rect).y0 < 2 := by norm_num

/-! ## C99 -/

theorem sr_scan_cons (st : Scan) (c : Char) (l : List Char) : scan st (c :: l) = (scan (scanStep st c).1 l).map ((scanStep st c).2 ++ ·) := by
  cases st <;> rfl

/-- An ordinary character: not one of `(`, `)`, backslash. -/
def Plain (c : Char) : Prop := c ≠ '(' ∧ c ≠ ')' ∧ c ≠ '\\'

theorem sr_step_in {c : Char} (hc : Plain c) (d : ℕ) (e : Bool) (acc : List Char) : scanStep (some (d, e, acc)) c = (some (d, false, c :: acc), []) := by
  cases e
  · simp [scanStep, hc.1, hc.2.1, hc.2.2]
  · rfl

theorem sr_step_out {c : Char} (hc : Plain c) : scanStep none c = (none, []) := by simp [scanStep, hc.1]

theorem sr_prefix (l : List Char) : ∀ (d : ℕ) (e : Bool) (acc : List Char) (ts : List (List Char)), scan (some (d, e, acc)) l = some ts →
    ∃ t ts', ts = t :: ts' ∧ acc.reverse <+: t := by
  induction l with
  | nil => intro d e acc ts h; simp [scan] at h
  | cons c l ih =>
    intro d e acc ts h
    rw [sr_scan_cons] at h
    have hstep : scanStep (some (d, e, acc)) c = (none, [acc.reverse]) ∨ ∃ d' e', scanStep (some (d, e, acc)) c = (some (d', e', c :: acc), []) := by
      cases e
      · unfold scanStep
        dsimp only
        split_ifs
        · exact .inr ⟨_, _, rfl⟩
        · exact .inr ⟨_, _, rfl⟩
        · cases d
          · exact .inl rfl
          · exact .inr ⟨_, _, rfl⟩
        · exact .inr ⟨_, _, rfl⟩
      · exact .inr ⟨_, _, rfl⟩
    rcases hstep with h1 | ⟨d', e', h1⟩
    · rw [h1] at h
      dsimp only at h
      rw [Option.map_eq_some_iff] at h
      obtain ⟨ts', _, rfl⟩ := h
      exact ⟨_, ts', rfl, List.prefix_rfl⟩
    · rw [h1] at h
      dsimp only at h
      rw [Option.map_eq_some_iff] at h
      obtain ⟨ts', h2, rfl⟩ := h
      obtain ⟨t, ts'', rfl, hp⟩ := ih _ _ _ _ h2
      refine ⟨t, ts'', rfl, (List.prefix_append acc.reverse [c]).trans ?_⟩
      simpa using hp

theorem sr_skip {new : List Char} (hn : ∀ c ∈ new, Plain c) (l : List Char) : scan none (new ++ l) = scan none l := by
  induction new with
  | nil => rfl
  | cons c new ih =>
    rw [List.cons_append, sr_scan_cons, sr_step_out (hn c List.mem_cons_self), ih fun x hx => hn x (List.mem_cons_of_mem _ hx)]
    simp

theorem sr_replace {a b : Char} {new : List Char} (ha : Plain a) (hb : Plain b) (hn : ∀ c ∈ new, Plain c) (l : List Char) :
    ∀ (st : Scan) (ts : List (List Char)), scan st l = some ts → (∀ t ∈ ts, ¬ [a, b] <:+: t) → scan st (replace2 a b new l) = some ts := by
  induction l using replace2.induct a b with
  | case1 => intro st ts h _; exact h
  | case2 x => intro st ts h _; exact h
  | case3 x y l hxy ih =>
    intro st ts h hc
    obtain ⟨rfl, rfl⟩ := hxy
    rw [replace2, if_pos ⟨rfl, rfl⟩]
    cases st with
    | none =>
      rw [sr_scan_cons, sr_step_out ha] at h
      dsimp only at h
      rw [sr_scan_cons, sr_step_out hb] at h
      rw [sr_skip hn]
      refine ih none ts ?_ hc
      simpa using h
    | some v =>
      obtain ⟨d, e, acc⟩ := v
      rw [sr_scan_cons, sr_step_in ha] at h
      dsimp only at h
      rw [sr_scan_cons, sr_step_in hb] at h
      have h' : scan (some (d, false, y :: x :: acc)) l = some ts := by simpa using h
      obtain ⟨t, ts', rfl, hp⟩ := sr_prefix l _ _ _ _ h'
      refine absurd ?_ (hc t List.mem_cons_self)
      obtain ⟨q, hq⟩ := hp
      exact ⟨acc.reverse, q, by simpa using hq⟩
  | case4 x y l hxy ih =>
    intro st ts h hc
    rw [replace2, if_neg hxy, sr_scan_cons]
    rw [sr_scan_cons, Option.map_eq_some_iff] at h
    obtain ⟨ts', h1, rfl⟩ := h
    rw [ih _ _ h1 fun t ht => hc t (List.mem_append_right _ ht)]
    rfl

theorem sr_hide {s : List Char} {ts : List (List Char)} (h : texts s = some ts) (hc : ∀ t ∈ ts, CleanText t) : texts (hide s) = some ts := by
  have hp : ∀ c ∈ "BT 3 Tr".toList ++ "Tm 3 Tr".toList ++ "Td 3 Tr".toList, Plain c := by unfold Plain; decide +kernel
  have h1 := sr_replace (a := 'B') (b := 'T') (new := "BT 3 Tr".toList) (by unfold Plain; decide) (by unfold Plain; decide)
    (fun c hm => hp c (List.mem_append_left _ (List.mem_append_left _ hm))) s none ts h fun t ht => (hc t ht).1
  have h2 := sr_replace (a := 'T') (b := 'm') (new := "Tm 3 Tr".toList) (by unfold Plain; decide) (by unfold Plain; decide)
    (fun c hm => hp c (List.mem_append_left _ (List.mem_append_right _ hm))) _ none ts h1 fun t ht => (hc t ht).2.1
  exact sr_replace (a := 'T') (b := 'd') (new := "Td 3 Tr".toList) (by unfold Plain; decide) (by unfold Plain; decide)
    (fun c hm => hp c (List.mem_append_right _ hm)) _ none ts h2 fun t ht => (hc t ht).2.2

theorem sr_foldl (xs : List ℕ) : ∀ (d : Doc), (xs.foldl (fun d x => ({ d with stream := Function.update d.stream x (hide (d.stream x)) } : Doc)) d).page = d.page ∧
    (∀ y, y ∉ xs → (xs.foldl (fun d x => ({ d with stream := Function.update d.stream x (hide (d.stream x)) } : Doc)) d).stream y = d.stream y) ∧
    ∀ (y : ℕ) (ts : List (List Char)), texts (d.stream y) = some ts → (∀ t ∈ ts, CleanText t) →
      texts ((xs.foldl (fun d x => ({ d with stream := Function.update d.stream x (hide (d.stream x)) } : Doc)) d).stream y) = some ts := by
  induction xs with
  | nil => intro d; exact ⟨rfl, fun _ _ => rfl, fun _ _ h _ => h⟩
  | cons x xs ih =>
    intro d
    rw [List.foldl_cons]
    obtain ⟨h1, h2, h3⟩ := ih ⟨Function.update d.stream x (hide (d.stream x)), d.page⟩
    refine ⟨h1, fun y hy => ?_, fun y ts ht hc => h3 y ts ?_ hc⟩
    · rw [List.mem_cons, not_or] at hy
      rw [h2 y hy.2]
      exact Function.update_of_ne hy.1 _ _
    · by_cases hxy : y = x
      · subst hxy
        show texts (Function.update d.stream y (hide (d.stream y)) y) = some ts
        rw [Function.update_self]
        exact sr_hide ht hc
      · show texts (Function.update d.stream x (hide (d.stream x)) y) = some ts
        rw [Function.update_of_ne hxy]
        exact ht

theorem sr_iter (p n : ℕ) : ∀ (d : Doc), ((fun d => hidePage d p)^[n] d).page = d.page ∧
    (∀ y, y ∉ d.page p → ((fun d => hidePage d p)^[n] d).stream y = d.stream y) ∧
    ∀ (y : ℕ) (ts : List (List Char)), texts (d.stream y) = some ts → (∀ t ∈ ts, CleanText t) → texts (((fun d => hidePage d p)^[n] d).stream y) = some ts := by
  induction n with
  | zero => intro d; exact ⟨rfl, fun _ _ => rfl, fun _ _ h _ => h⟩
  | succ n ih =>
    intro d
    rw [Function.iterate_succ_apply]
    obtain ⟨h1, h2, h3⟩ := ih (hidePage d p)
    obtain ⟨g1, g2, g3⟩ := sr_foldl (d.page p) d
    have e1 : (hidePage d p).page = d.page := g1
    refine ⟨h1.trans e1, fun y hy => ?_, fun y ts ht hc => h3 y ts (g3 y ts ht hc) hc⟩
    rw [h2 y (by rw [e1]; exact hy)]
    exact g2 y hy

/-- **C99** (partial: documents in whose texts the pairs of letters `BT`, `Tm`, `Td` do not occur): however often and in whatever order pages are read, with any number
of pictures and graphics clipped on the way, each reading finds the texts that are in the file. -/
theorem C99_any_history_partial (d : Doc) (rs : List (ℕ × ℕ)) (h : ∀ r ∈ rs, ∀ x ∈ d.page r.1, ∃ ts, texts (d.stream x) = some ts ∧ ∀ t ∈ ts, CleanText t) :
    (readPages d rs).map (fun ss => ss.map texts) = rs.map fun r => (d.page r.1).map fun x => texts (d.stream x) := by
  suffices H : ∀ (d' : Doc), d'.page = d.page → (∀ (y : ℕ) (ts : List (List Char)), texts (d.stream y) = some ts → (∀ t ∈ ts, CleanText t) → texts (d'.stream y) = some ts) →
      (readPages d' rs).map (fun ss => ss.map texts) = rs.map fun r => (d.page r.1).map fun x => texts (d.stream x) from H d rfl fun _ _ h _ => h
  induction rs with
  | nil => intro d' _ _; rfl
  | cons r rs ih =>
    intro d' hp ht
    rw [readPages, List.map_cons, List.map_cons]
    congr 1
    · show ((d'.page r.1).map d'.stream).map texts = _
      rw [hp, List.map_map]
      refine List.map_congr_left fun x hx => ?_
      obtain ⟨ts, h1, h2⟩ := h r List.mem_cons_self x hx
      show texts (d'.stream x) = texts (d.stream x)
      rw [ht x ts h1 h2, h1]
    · obtain ⟨g1, _, g3⟩ := sr_iter r.1 r.2 d'
      exact ih (fun r' hr' => h r' (List.mem_cons_of_mem _ hr')) _ (g1.trans hp) fun y ts h1 h2 => g3 y ts (ht y ts h1 h2) h2

/-- **C99** (partial: each page is read once, and pages do not share content streams): each reading finds exactly what is in the file. -/
theorem C99_read_once_partial (d : Doc) (rs : List (ℕ × ℕ)) (h : rs.Pairwise fun r r' => ∀ x ∈ d.page r.1, x ∉ d.page r'.1) :
    readPages d rs = rs.map fun r => (d.page r.1).map d.stream := by
  suffices H : ∀ (d' : Doc), d'.page = d.page → (∀ r ∈ rs, ∀ x ∈ d.page r.1, d'.stream x = d.stream x) → readPages d' rs = rs.map fun r => (d.page r.1).map d.stream from
    H d rfl fun _ _ _ _ => rfl
  induction rs with
  | nil => intro d' _ _; rfl
  | cons r rs ih =>
    intro d' hp ht
    rw [List.pairwise_cons] at h
    rw [readPages, List.map_cons]
    congr 1
    · show (d'.page r.1).map d'.stream = _
      rw [hp]
      exact List.map_congr_left fun x hx => ht r List.mem_cons_self x hx
    · obtain ⟨g1, g2, _⟩ := sr_iter r.1 r.2 d'
      refine ih h.2 _ (g1.trans hp) fun r' hr' x hx => ?_
      show ((fun d => hidePage d r.1)^[r.2] d').stream x = _
      rw [g2 x (fun hm => h.1 r' hr' x (by rw [← hp]; exact hm) hx)]
      exact ht r' (List.mem_cons_of_mem _ hr') x hx

/-- A page, and the stream of another page. -/
def srStream : List Char := "BT /F1 12 Tf 100 700 Td (Where to OBTAIN help) Tj ET".toList

/-- Two pages with a common stream (number 5). -/
def srDoc : Doc := ⟨fun x => if x = 5 then srStream else "q Q".toList, fun p => if p = 0 then [5] else [5, 6]⟩

/-- **C99** (refuted): a page with a vector graphic is read twice with one `Converter` (`extract_tables`, then `convert`): the second time its text is
`Where to OBT 3 TrAIN help`. -/
theorem C99_refuted_twice : (readPages srDoc [(0, 1), (0, 1)]).map (fun ss => ss.map texts) =
    [[some ["Where to OBTAIN help".toList]], [some ["Where to OBT 3 TrAIN help".toList]]] := by decide +kernel

/-- **C99** (refuted): within one conversion, two pages share a content stream and the first one has a vector graphic: the text of the second page is changed. -/
theorem C99_refuted_shared : (readPages srDoc [(0, 1), (1, 0)]).map (fun ss => ss.map texts) =
    [[some ["Where to OBTAIN help".toList]], [some ["Where to OBT 3 TrAIN help".toList], some []]] := by decide +kernel

/-- Hypotheses of the partial theorems: texts with ordinary words, and pages with streams of their own. -/
example : ∃ ts, texts "BT 100 700 Td (Total: 12) Tj ET".toList = some ts ∧ ∀ t ∈ ts, CleanText t := by
  refine ⟨["Total: 12".toList], by decide +kernel, ?_⟩
  unfold CleanText; decide +kernel

example : [(0, 1), (1, 2)].Pairwise fun r r' : ℕ × ℕ => ∀ x ∈ (⟨fun _ => srStream, fun p => [p]⟩ : Doc).page r.1, x ∉ (⟨fun _ => srStream, fun p => [p]⟩ : Doc).page r'.1 := by
  decide +kernel

/-! ## C100 -/

/-- **C100**: a span with an unnamed font and at least one character keeps its horizontal range and the ones of its characters; the font is not enlarged, and the text
set with the new size is not longer than the span; the span is as high as the new font size (up to rounding), and all characters have the vertical range of the
span. `unit`: length of the text at size 1. -/
theorem C100_fits (unit : ℚ) (writer : ℚ → Rect) (s : Source.Span) (hs : 0 < s.size) (hu : 0 ≤ unit) (hw : s.bbox.x0 ≤ s.bbox.x1) (ht : Tenths s.bbox)
    (hc : ∀ c ∈ s.chars, Tenths c) (hne : s.chars ≠ []) :
    ∃ r, setFont unit writer s = .ok r ∧ r.size ≤ s.size ∧ 0 ≤ r.size ∧ unit * r.size ≤ s.bbox.x1 - s.bbox.x0 ∧
      (unit * s.size ≤ s.bbox.x1 - s.bbox.x0 → r.size = s.size) ∧
      r.bbox.x0 = s.bbox.x0 ∧ r.bbox.x1 = s.bbox.x1 ∧ |r.bbox.y1 - r.bbox.y0 - r.size| ≤ 1 / 10 ∧
      List.Forall₂ (fun c c' : Rect => c'.x0 = c.x0 ∧ c'.x1 = c.x1 ∧ c'.y0 = r.bbox.y0 ∧ c'.y1 = r.bbox.y1) s.chars r.chars := by
  obtain ⟨c0, cs, hcs⟩ : ∃ c0 cs, s.chars = c0 :: cs := by
    cases h : s.chars with
    | nil => exact absurd h hne
    | cons a l => exact ⟨a, l, rfl⟩
  have hx : ∀ (r : Rect) (y0 y1 : ℚ), Tenths r → (⟨r.x0, y0, r.x1, y1⟩ : Rect).round.x0 = r.x0 ∧ (⟨r.x0, y0, r.x1, y1⟩ : Rect).round.x1 = r.x1 := by
    intro r y0 y1 hr
    rw [tenths_iff] at hr
    have h1 : r.round.x0 = r.x0 := congrArg Rect.x0 hr
    have h2 : r.round.x1 = r.x1 := congrArg Rect.x1 hr
    exact ⟨h1, h2⟩
  have hn : newSize unit s ≤ s.size ∧ 0 ≤ newSize unit s ∧ unit * newSize unit s ≤ s.bbox.x1 - s.bbox.x0 ∧ (unit * s.size ≤ s.bbox.x1 - s.bbox.x0 → newSize unit s = s.size) := by
    unfold newSize
    split_ifs with h
    · have hpos : 0 < unit * s.size := by linarith
      have hq : (s.bbox.x1 - s.bbox.x0) / (unit * s.size) ≤ 1 := (div_le_one hpos).2 h.le
      have hq0 : 0 ≤ (s.bbox.x1 - s.bbox.x0) / (unit * s.size) := div_nonneg (by linarith) hpos.le
      refine ⟨?_, mul_nonneg hs.le hq0, ?_, fun h2 => absurd h (not_lt.2 h2)⟩
      · calc s.size * _ ≤ s.size * 1 := mul_le_mul_of_nonneg_left hq hs.le
          _ = s.size := mul_one _
      · rw [← mul_assoc, mul_div_assoc', mul_div_cancel_left₀ _ hpos.ne']
    · exact ⟨le_refl _, hs.le, not_lt.1 h, fun _ => rfl⟩
  generalize hN : newSize unit s = n at hn
  refine ⟨_, by unfold setFont; rw [hcs], ?_⟩
  dsimp only
  rw [hN, ← hcs]
  refine ⟨hn.1, hn.2.1, hn.2.2.1, hn.2.2.2, (hx _ _ _ ht).1, (hx _ _ _ ht).2, ?_, ?_⟩
  · show |round1 _ - round1 _ - n| ≤ 1 / 10
    dsimp only
    have h1 := abs_round1_sub ((writer n).y1 - ((writer n).y1 - (writer n).y0 - n) / 2)
    have h2 := abs_round1_sub ((writer n).y0 + ((writer n).y1 - (writer n).y0 - n) / 2)
    rw [abs_le] at *
    constructor <;> linarith [h1.1, h1.2, h2.1, h2.2]
  · rw [List.forall₂_map_right_iff]
    refine List.forall₂_same.2 fun c hm => ⟨(hx _ _ _ (hc c hm)).1, (hx _ _ _ (hc c hm)).2, rfl, rfl⟩

/-- **C100** (refuted for vertical text): the length of the text is compared with the horizontal extent of the span, also for text that runs upwards: a span of 100pt set
in 10pt type, 12pt wide, is shrunk to 1.2pt. -/
theorem C100_refuted_vertical : (setFont 10 (fun n => ⟨50, 300 - n, 150, 300⟩) ⟨⟨50, 200, 62, 300⟩, 10, [⟨50, 200, 62, 300⟩]⟩).toOption.map Source.Span.size = some (6 / 5) := by
  decide +kernel

/-- Hypotheses: a span that is too short for its text is narrowed. -/
example : (setFont 12 (fun n => ⟨50, 300 - n, 150, 300⟩) ⟨⟨50, 288, 110, 300⟩, 10, [⟨50, 288, 80, 300⟩, ⟨80, 288, 110, 300⟩]⟩).toOption =
    some ⟨⟨50, 295, 110, 300⟩, 5, [⟨50, 295, 80, 300⟩, ⟨80, 295, 110, 300⟩]⟩ ∧ Tenths (⟨50, 288, 110, 300⟩ : Rect) :=
  ⟨by decide +kernel, by rw [tenths_iff]; decide +kernel⟩

end Props
