import Verif.Spec.Docx
/-! # C31–C33: structure of the produced document -/

namespace Props
open Docx Spec
variable {α ι π : Type}

/-- Attach images to one paragraph. -/
def attach (fl : List ι) : Item α ι π → Item α ι π
  | .para c s fs => .para c s (fs ++ fl)
  | .sect p fs => .sect p (fs ++ fl)
  | i => i

theorem addFloats_none (fl : List ι) (body : List (Item α ι π)) (h : body.any Item.isPara = false) :
    addFloats fl body = body ++ [.para none none fl] := by
  unfold addFloats; rw [h]; simp

theorem addFloats_some (fl : List ι) (pre post : List (Item α ι π)) (x : Item α ι π) (hx : x.isPara = true)
    (hp : post.any Item.isPara = false) : addFloats fl (pre ++ x :: post) = pre ++ attach fl x :: post := by
  unfold addFloats
  have h1 : (pre ++ x :: post).any Item.isPara = true := by simp [hx]
  rw [if_pos h1]
  have e : (pre ++ x :: post).reverse = post.reverse ++ (x :: pre.reverse) := by simp
  have hq : ∀ a ∈ post.reverse, (!a.isPara) = true := by
    intro a ha
    rw [List.any_eq_false] at hp
    have := hp a (List.mem_reverse.1 ha)
    simpa using this
  have ht : (post.reverse ++ (x :: pre.reverse)).takeWhile (fun i => !i.isPara) = post.reverse := by
    rw [List.takeWhile_append_of_pos hq]; simp [hx]
  have hd : (post.reverse ++ (x :: pre.reverse)).dropWhile (fun i => !i.isPara) = x :: pre.reverse := by
    rw [List.dropWhile_append_of_pos hq]; simp [hx]
  dsimp only
  rw [e, ht, hd]
  cases x with
  | para c s fs => simp [attach]
  | sect p fs => simp [attach]
  | table rows => simp [Item.isPara] at hx

theorem last_para (body : List (Item α ι π)) (h : body.any Item.isPara = true) :
    ∃ pre x post, body = pre ++ x :: post ∧ x.isPara = true ∧ post.any Item.isPara = false := by
  induction body with
  | nil => simp at h
  | cons i is ih =>
    by_cases h2 : is.any Item.isPara = true
    · obtain ⟨pre, x, post, rfl, hx, hp⟩ := ih h2
      exact ⟨i :: pre, x, post, rfl, hx, hp⟩
    · rw [Bool.not_eq_true] at h2
      rw [List.any_cons, h2, Bool.or_false] at h
      exact ⟨[], i, is, rfl, h, h2⟩

theorem ofItems_append (a b : List (Item α ι π)) : ofItems (a ++ b) = ofItems a ++ ofItems b := by
  induction a with
  | nil => simp [ofItems]
  | cons i is ih =>
    cases i with
    | para c s f => cases c <;> simp [ofItems, ih]
    | sect p f => simp [ofItems, ih]
    | table rows => simp [ofItems, ih]

theorem floatsOf_append (a b : List (Item α ι π)) : floatsOf (a ++ b) = floatsOf a ++ floatsOf b := by
  induction a with
  | nil => simp [floatsOf]
  | cons i is ih => cases i <;> simp [floatsOf, ih]

theorem floatsOf_nopara (a : List (Item α ι π)) (h : a.any Item.isPara = false) : floatsOf a = [] := by
  induction a with
  | nil => rfl
  | cons i is ih =>
    rw [List.any_cons, Bool.or_eq_false_iff] at h
    cases i with
    | table rows => simp [floatsOf, ih h.2]
    | _ => simp [Item.isPara] at h

theorem ofItems_addFloats (fl : List ι) (body : List (Item α ι π)) : ofItems (addFloats fl body) = ofItems body := by
  by_cases h : body.any Item.isPara = true
  · obtain ⟨pre, x, post, rfl, hx, hp⟩ := last_para body h
    rw [addFloats_some fl pre post x hx hp, ofItems_append, ofItems_append]
    congr 1
    cases x with
    | para c s f => cases c <;> simp [attach, ofItems]
    | sect p f => simp [attach, ofItems]
    | table rows => rfl
  · rw [Bool.not_eq_true] at h
    rw [addFloats_none fl body h, ofItems_append]; simp [ofItems]

theorem floatsOf_addFloats (fl : List ι) (body : List (Item α ι π)) :
    floatsOf (addFloats fl body) = floatsOf body ++ fl := by
  by_cases h : body.any Item.isPara = true
  · obtain ⟨pre, x, post, rfl, hx, hp⟩ := last_para body h
    rw [addFloats_some fl pre post x hx hp, floatsOf_append, floatsOf_append]
    cases x with
    | para c s f => simp [attach, floatsOf, floatsOf_nopara post hp]
    | sect p f => simp [attach, floatsOf, floatsOf_nopara post hp]
    | table rows => simp [Item.isPara] at hx
  · rw [Bool.not_eq_true] at h
    rw [addFloats_none fl body h, floatsOf_append]; simp [floatsOf]

theorem ofItems_replicate (n : ℕ) (q : ℚ) :
    ofItems (List.replicate n (.para none (some q) [] : Item α ι π)) = [] := by
  induction n with
  | zero => simp [ofItems]
  | succ n ih => simp [List.replicate_succ, ofItems, ih]

theorem ofItems_spacer (b : ℚ) (pre : Bool) : ofItems (spacer b pre : List (Item α ι π)) = [] := by
  unfold spacer; split <;> simp [ofItems]

mutual
theorem render_tree (inCell : Bool) : ∀ (bs : List (Block α)) (pre : Bool),
    ofItems (renderBlocks inCell bs pre : List (Item α ι π)) = ofBlocks bs
  | [], pre => by simp [renderBlocks, ofItems, ofBlocks]
  | .text a :: bs, pre => by
    simp only [renderBlocks, ofItems, ofBlocks, render_tree inCell bs false]
  | .table before rows :: bs, pre => by
    have h1 := render_rows_tree rows
    have h2 := render_tree inCell bs true
    simp only [renderBlocks, ofItems_append, ofItems_spacer, ofItems, ofBlocks, h1, h2, List.nil_append]
    cases inCell <;> simp [ofItems, emptyPara]
  | .floatImg :: bs, pre => by
    simp only [renderBlocks, ofBlocks, render_tree inCell bs pre]
theorem render_rows_tree : ∀ rows : List (List (Option (List (Block α)))),
    ofItemRows (renderRows rows : List (List (Option (List (Item α ι π))))) = ofBlockRows rows
  | [] => by simp [renderRows, ofItemRows, ofBlockRows]
  | r :: rs => by
    simp only [renderRows, ofItemRows, ofBlockRows, render_row_tree r, render_rows_tree rs]
theorem render_row_tree : ∀ row : List (Option (List (Block α))),
    ofItemRow (renderRow row : List (Option (List (Item α ι π)))) = ofBlockRow row
  | [] => by simp [renderRow, ofItemRow, ofBlockRow]
  | c :: cs => by
    simp only [renderRow, ofItemRow, ofBlockRow, render_cell_tree c, render_row_tree cs]
theorem render_cell_tree : ∀ c : Option (List (Block α)),
    ofItemCell (renderCell c : Option (List (Item α ι π))) = ofBlockCell c
  | none => by simp [renderCell, ofItemCell, ofBlockCell]
  | some [] => by simp [renderCell, ofItemCell, ofBlockCell, ofItems, ofBlocks, emptyPara]
  | some (b :: bs) => by
    simp only [renderCell, ofItemCell, ofBlockCell, ofItems_addFloats, ofItems_append, ofItems_replicate,
      render_tree true (b :: bs) false, List.append_nil]
end

/-- **C33**: the texts and tables written to a page or cell are the ones of the blocks, each once, in order, at every level
of nesting; everything else is a blank paragraph. -/
theorem C33_content_once_in_order (blocks : List (Block α)) (floats : List ι) (body : List (Item α ι π)) :
    ofItems (makeBlocks blocks floats body) = ofItems body ++ ofBlocks blocks := by
  unfold makeBlocks
  rw [ofItems_addFloats, ofItems_append, ofItems_append, ofItems_replicate, render_tree, List.append_nil]

/-- **C33** (floating images): every floating image is anchored exactly once. -/
theorem C33_floats_once (blocks : List (Block α)) (floats : List ι) (body : List (Item α ι π)) :
    floatsOf (makeBlocks blocks floats body) = floatsOf body ++ floats := by
  have hr : ∀ (c : Bool) (bs : List (Block α)) (pre : Bool), floatsOf (renderBlocks c bs pre : List (Item α ι π)) = [] := by
    intro c bs
    induction bs with
    | nil => intro pre; simp [renderBlocks, floatsOf]
    | cons b bs ih =>
      intro pre
      cases b with
      | text a => simp [renderBlocks, floatsOf, ih]
      | table before rows =>
        simp only [renderBlocks, floatsOf_append, floatsOf, ih]
        unfold spacer
        split <;> cases c <;> simp [floatsOf, emptyPara]
      | floatImg => simp [renderBlocks, ih]
  have hrep : ∀ (n : ℕ) (q : ℚ), floatsOf (List.replicate n (.para none (some q) [] : Item α ι π)) = [] := by
    intro n q
    induction n with
    | zero => simp [floatsOf]
    | succ n ih => simp [List.replicate_succ, floatsOf, ih]
  unfold makeBlocks
  rw [floatsOf_addFloats, floatsOf_append, floatsOf_append, hr, hrep]
  simp

/-! ## C32 -/

/-- Where a table may not follow: the render loop separates tables. -/
theorem render_chain (inCell : Bool) (bs : List (Block α)) : ∀ (pre : Bool),
    (renderBlocks inCell bs pre : List (Item α ι π)).IsChain (fun a b => a.isPara = true ∨ b.isPara = true) ∧
    (pre = true → ∀ x ∈ (renderBlocks inCell bs pre : List (Item α ι π)).head?, x.isPara = true) := by
  induction bs with
  | nil => intro pre; simp [renderBlocks]
  | cons b bs ih =>
    intro pre
    cases b with
    | text a =>
      simp only [renderBlocks]
      refine ⟨?_, by simp [Item.isPara]⟩
      cases h : (renderBlocks inCell bs false : List (Item α ι π)) with
      | nil => simp
      | cons y ys =>
        rw [List.isChain_cons_cons]
        exact ⟨Or.inl rfl, h ▸ (ih false).1⟩
    | floatImg => simpa [renderBlocks] using ih pre
    | table before rows =>
      have htail : (Item.table (renderRows rows) :: ((if inCell then [emptyPara] else []) ++
          renderBlocks inCell bs true) : List (Item α ι π)).IsChain (fun a b => a.isPara = true ∨ b.isPara = true) := by
        cases inCell with
        | true =>
          simp only [if_true, List.singleton_append]
          rw [List.isChain_cons_cons]
          refine ⟨Or.inr rfl, ?_⟩
          cases h : (renderBlocks true bs true : List (Item α ι π)) with
          | nil => simp
          | cons y ys =>
            rw [List.isChain_cons_cons]
            exact ⟨Or.inl rfl, h ▸ (ih true).1⟩
        | false =>
          simp only [Bool.false_eq_true, if_false, List.nil_append]
          cases h : (renderBlocks false bs true : List (Item α ι π)) with
          | nil => simp
          | cons y ys =>
            rw [List.isChain_cons_cons]
            exact ⟨Or.inr ((ih true).2 rfl y (by simp [h])), h ▸ (ih true).1⟩
      simp only [renderBlocks]
      unfold spacer
      split
      · rw [List.singleton_append]
        refine ⟨?_, by simp [Item.isPara]⟩
        rw [List.isChain_cons_cons]
        exact ⟨Or.inl rfl, htail⟩
      · rename_i hn
        refine ⟨htail, ?_⟩
        intro hp
        exact absurd (Or.inr hp) hn

/-- With the fillers the body does not end with a table. -/
theorem render_last (inCell : Bool) (bs : List (Block α)) (pre : Bool) :
    (trailing bs.reverse = 0 → ∀ x ∈ (renderBlocks inCell bs pre : List (Item α ι π)).getLast?, x.isPara = true) ∧
    (trailing bs.reverse = 0 → ofBlocks bs ≠ [] → (renderBlocks inCell bs pre : List (Item α ι π)).any Item.isPara = true) := by
  have happ : ∀ (as cs : List (Block α)), ∀ pre, ∃ pre', (renderBlocks inCell (as ++ cs) pre : List (Item α ι π)) =
      renderBlocks inCell as pre ++ renderBlocks inCell cs pre' := by
    intro as cs
    induction as with
    | nil => intro pre; exact ⟨pre, by simp [renderBlocks]⟩
    | cons a as ih =>
      intro pre
      cases a with
      | text a => obtain ⟨q, h⟩ := ih false; exact ⟨q, by simp [renderBlocks, h]⟩
      | floatImg => obtain ⟨q, h⟩ := ih pre; exact ⟨q, by simp [renderBlocks, h]⟩
      | table b rows => obtain ⟨q, h⟩ := ih true; exact ⟨q, by simp [renderBlocks, h]⟩
  have hof : ∀ as cs : List (Block α), ofBlocks (as ++ cs) = ofBlocks as ++ ofBlocks cs := by
    intro as cs
    induction as with
    | nil => simp [ofBlocks]
    | cons a as ih => cases a <;> simp [ofBlocks, ih]
  induction bs using List.reverseRecOn with
  | nil => simp [renderBlocks, ofBlocks]
  | append_singleton bs b ih =>
    obtain ⟨q, h⟩ := happ bs [b] pre
    rw [h]
    cases b with
    | text a =>
      simp [renderBlocks, Item.isPara]
    | floatImg =>
      simp only [renderBlocks, List.append_nil, List.reverse_append, List.reverse_cons, List.reverse_nil, List.nil_append,
        List.singleton_append, trailing, hof, ofBlocks]
      exact ih
    | table b rows =>
      simp [trailing]

theorem good_addFloats (fl : List ι) (body : List (Item α ι π)) (h : GoodBody body) : GoodBody (addFloats fl body) := by
  obtain ⟨_, hc, hl, hn, hg⟩ := h
  by_cases hany : body.any Item.isPara = true
  · obtain ⟨pre, x, post, rfl, hx, hp⟩ := last_para body hany
    have hpost : post = [] := by
      cases hpo : post.getLast? with
      | none => simpa using hpo
      | some y =>
        exfalso
        have hy : y ∈ post := List.mem_of_getLast? hpo
        have h1 := hl y (by
          rw [List.getLast?_append, List.getLast?_cons, hpo]; simp)
        rw [List.any_eq_false] at hp
        exact hp y hy h1
    subst hpost
    rw [addFloats_some fl pre [] x hx hp]
    have hx' : (attach fl x).isPara = true := by cases x <;> simp_all [attach, Item.isPara]
    have hmem : ∀ rows, Item.table rows ∈ pre ++ [attach fl x] → Item.table rows ∈ pre ++ [x] := by
      intro rows hr
      rcases List.mem_append.1 hr with hr | hr
      · exact List.mem_append_left _ hr
      · simp only [List.mem_singleton] at hr
        rw [← hr] at hx'
        simp [Item.isPara] at hx'
    refine ⟨_, ?_, ?_, fun rows hr => hn rows (hmem rows hr), fun rows hr => hg rows (hmem rows hr)⟩
    · rw [List.isChain_append] at hc ⊢
      refine ⟨hc.1, by simp, ?_⟩
      intro a _ b hb
      simp only [List.head?_cons, Option.mem_def, Option.some.injEq] at hb
      subst hb; exact Or.inr hx'
    · intro y hy
      rw [List.getLast?_append] at hy
      simp only [List.getLast?_singleton, Option.some_or, Option.mem_def, Option.some.injEq] at hy
      subst hy; exact hx'
  · rw [Bool.not_eq_true] at hany
    have hb : body = [] := by
      cases hpo : body.getLast? with
      | none => simpa using hpo
      | some y =>
        exfalso
        have hy : y ∈ body := List.mem_of_getLast? hpo
        rw [List.any_eq_false] at hany
        exact hany y hy (hl y (by simp [hpo]))
    subst hb
    rw [addFloats_none fl _ hany]
    refine ⟨_, by simp, by simp [Item.isPara], by simp, by simp⟩

theorem mem_render_table (inCell : Bool) (bs : List (Block α)) : ∀ (pre : Bool) rows',
    Item.table rows' ∈ (renderBlocks inCell bs pre : List (Item α ι π)) →
    ∃ b rows, Block.table b rows ∈ bs ∧ rows' = renderRows rows := by
  induction bs with
  | nil => intro pre rows' h; simp [renderBlocks] at h
  | cons b bs ih =>
    intro pre rows' h
    cases b with
    | text a =>
      simp only [renderBlocks, List.mem_cons, reduceCtorEq, false_or] at h
      obtain ⟨b, r, hb, e⟩ := ih _ _ h
      exact ⟨b, r, List.mem_cons_of_mem _ hb, e⟩
    | floatImg =>
      simp only [renderBlocks] at h
      obtain ⟨b, r, hb, e⟩ := ih _ _ h
      exact ⟨b, r, List.mem_cons_of_mem _ hb, e⟩
    | table before rows =>
      simp only [renderBlocks, List.mem_append, List.mem_cons] at h
      rcases h with h | h | h | h
      · unfold spacer at h; split at h <;> simp at h
      · simp only [Item.table.injEq] at h
        exact ⟨before, rows, by simp, h⟩
      · cases inCell <;> simp [emptyPara] at h
      · obtain ⟨b, r, hb, e⟩ := ih _ _ h
        exact ⟨b, r, List.mem_cons_of_mem _ hb, e⟩

/-- The body made of the rendered blocks and the fillers is good if all cells are. -/
theorem good_of_cells (inCell : Bool) (bs : List (Block α)) (pre : Bool) (q : ℚ)
    (hcells : ∀ b rows, Block.table b rows ∈ bs → ∀ row ∈ (renderRows rows : List (List (Option (List (Item α ι π))))),
      ∀ body, some body ∈ row → body ≠ [] ∧ GoodBody body) :
    GoodBody (renderBlocks inCell bs pre ++ List.replicate (trailing bs.reverse) (.para none (some q) []) :
      List (Item α ι π)) := by
  have hmem : ∀ rows, Item.table rows ∈ (renderBlocks inCell bs pre ++
      List.replicate (trailing bs.reverse) (.para none (some q) []) : List (Item α ι π)) →
      Item.table rows ∈ (renderBlocks inCell bs pre : List (Item α ι π)) := by
    intro rows h
    rcases List.mem_append.1 h with h | h
    · exact h
    · rw [List.mem_replicate] at h; simp at h
  refine ⟨_, ?_, ?_, ?_, ?_⟩
  · rw [List.isChain_append]
    refine ⟨(render_chain inCell bs pre).1, ?_, ?_⟩
    · generalize trailing bs.reverse = n
      induction n with
      | zero => simp
      | succ n ih =>
        rw [List.replicate_succ]
        cases n with
        | zero => simp
        | succ n =>
          rw [List.replicate_succ] at ih ⊢
          rw [List.isChain_cons_cons]
          exact ⟨Or.inl rfl, ih⟩
    · intro a _ b hb
      have := List.mem_of_mem_head? hb
      rw [List.mem_replicate] at this
      rw [this.2]; exact Or.inr rfl
  · intro x hx
    by_cases h0 : trailing bs.reverse = 0
    · rw [h0] at hx
      simp only [List.replicate_zero, List.append_nil] at hx
      exact (render_last inCell bs pre).1 h0 x hx
    · obtain ⟨n, hn⟩ := Nat.exists_eq_succ_of_ne_zero h0
      rw [hn, List.replicate_succ', ← List.append_assoc, List.getLast?_append] at hx
      simp only [List.getLast?_singleton, Option.some_or, Option.mem_def, Option.some.injEq] at hx
      subst hx; rfl
  · intro rows h row hrow body hb
    obtain ⟨b, r, hbr, rfl⟩ := mem_render_table inCell bs pre rows (hmem rows h)
    exact (hcells b r hbr row hrow body hb).1
  · intro rows h row hrow body hb
    obtain ⟨b, r, hbr, rfl⟩ := mem_render_table inCell bs pre rows (hmem rows h)
    exact (hcells b r hbr row hrow body hb).2

mutual
theorem cells_good : ∀ (bs : List (Block α)) b rows, Block.table b rows ∈ bs →
    ∀ row ∈ (renderRows rows : List (List (Option (List (Item α ι π))))), ∀ body, some body ∈ row → body ≠ [] ∧ GoodBody body
  | [], b, rows, h => by simp at h
  | .text a :: bs, b, rows, h => cells_good bs b rows (by simpa using h)
  | .floatImg :: bs, b, rows, h => cells_good bs b rows (by simpa using h)
  | .table b' rows' :: bs, b, rows, h => by
    by_cases e : Block.table b rows ∈ bs
    · exact cells_good bs b rows e
    · have : rows = rows' := by
        rcases List.mem_cons.1 h with h | h
        · simp only [Block.table.injEq] at h; exact h.2
        · exact absurd h e
      subst this
      exact rows_good _
theorem rows_good : ∀ rows : List (List (Option (List (Block α)))),
    ∀ row ∈ (renderRows rows : List (List (Option (List (Item α ι π))))), ∀ body, some body ∈ row → body ≠ [] ∧ GoodBody body
  | [] => by simp [renderRows]
  | r :: rs => by
    intro row hrow body hb
    simp only [renderRows, List.mem_cons] at hrow
    rcases hrow with rfl | hrow
    · exact row_good r body hb
    · exact rows_good rs row hrow body hb
theorem row_good : ∀ row : List (Option (List (Block α))),
    ∀ body, some body ∈ (renderRow row : List (Option (List (Item α ι π)))) → body ≠ [] ∧ GoodBody body
  | [] => by simp [renderRow]
  | c :: cs => by
    intro body hb
    simp only [renderRow, List.mem_cons] at hb
    rcases hb with hb | hb
    · exact cell_good c body hb.symm
    · exact row_good cs body hb
theorem cell_good : ∀ c : Option (List (Block α)),
    ∀ body, (renderCell c : Option (List (Item α ι π))) = some body → body ≠ [] ∧ GoodBody body
  | none => by simp [renderCell]
  | some [] => by
    intro body hb
    simp only [renderCell, Option.some.injEq] at hb
    subst hb
    refine ⟨by simp, ⟨_, by simp, by simp [emptyPara, Item.isPara], by simp [emptyPara], by simp [emptyPara]⟩⟩
  | some (b :: bs) => by
    intro body hb
    simp only [renderCell, Option.some.injEq] at hb
    subst hb
    refine ⟨?_, good_addFloats _ _ (good_of_cells true (b :: bs) false _ (cells_good (b :: bs)))⟩
    intro h
    generalize (renderBlocks true (b :: bs) false ++ List.replicate (trailing (b :: bs).reverse)
      (.para none (some minLineSpacing) []) : List (Item α ι π)) = B at h
    by_cases hany : B.any Item.isPara = true
    · obtain ⟨pre, x, post, rfl, hx, hp⟩ := last_para B hany
      rw [addFloats_some _ pre post x hx hp] at h
      simp at h
    · rw [Bool.not_eq_true] at hany
      rw [addFloats_none _ _ hany] at h
      simp at h
end

/-- **C32** (one page): the body of a page never has adjacent tables or a table at its end, and the same holds for all
cells at every depth; cells are never empty. -/
theorem C32_page_good (blocks : List (Block α)) (floats : List ι) :
    GoodBody (makeBlocks blocks floats [] : List (Item α ι π)) := by
  unfold makeBlocks
  exact good_addFloats _ _ (by simpa using good_of_cells false blocks false _ (cells_good blocks))

theorem good_append (a b : List (Item α ι π)) (ha : GoodBody a) (hb : GoodBody b) : GoodBody (a ++ b) := by
  obtain ⟨_, c1, l1, n1, g1⟩ := ha
  obtain ⟨_, c2, l2, n2, g2⟩ := hb
  refine ⟨_, ?_, ?_, ?_, ?_⟩
  · rw [List.isChain_append]
    exact ⟨c1, c2, fun x hx y _ => Or.inl (l1 x hx)⟩
  · intro x hx
    rw [List.getLast?_append] at hx
    cases h : b.getLast? with
    | none => rw [h] at hx; exact l1 x (by simpa using hx)
    | some y =>
      rw [h] at hx
      simp only [Option.some_or, Option.mem_def, Option.some.injEq] at hx
      subst hx; exact l2 _ (by simp [h])
  · intro rows hr
    rcases List.mem_append.1 hr with h | h
    · exact n1 rows h
    · exact n2 rows h
  · intro rows hr
    rcases List.mem_append.1 hr with h | h
    · exact g1 rows h
    · exact g2 rows h

theorem good_page (d : Doc α ι π) (p : PageData α ι π) (h : GoodBody d.body) : GoodBody (makePage d p).body := by
  have hsect : GoodBody ([.sect d.last []] : List (Item α ι π)) :=
    ⟨_, by simp, by simp [Item.isPara], by simp, by simp⟩
  have hr := good_of_cells (ι := ι) (π := π) false p.blocks false minLineSpacing (cells_good p.blocks)
  unfold makePage makeBlocks
  split
  · rw [List.append_assoc]
    exact good_addFloats _ _ (good_append _ _ (good_append _ _ h hsect) hr)
  · rw [List.append_assoc]
    exact good_addFloats _ _ (good_append _ _ h hr)

/-- **C32** (whole document), for every list of pages. -/
theorem C32_document_good (p0 : π) (pages : List (PageData α ι π)) : GoodBody (makeDoc p0 pages).body := by
  unfold makeDoc
  suffices ∀ d : Doc α ι π, GoodBody d.body → GoodBody (pages.foldl makePage d).body from
    this _ ⟨_, by simp, by simp, by simp, by simp⟩
  induction pages with
  | nil => exact fun d h => h
  | cons p ps ih => exact fun d h => ih _ (good_page d p h)

/-- Non-vacuity: two adjacent tables, the second nested in a cell of the first. -/
example : (makeBlocks [.table 0 [[some [.table 0 [[none]], .table 1 []], none]], .table 1 []] [] [] : List (Item ℕ ℕ ℕ)) =
    [.table [[some [.table [[none]], emptyPara, .para none (some 1) [], .table [], emptyPara,
        .para none (some (7 / 10)) [], .para none (some (7 / 10)) []], none]],
      .para none (some 1) [], .table [], .para none (some (7 / 10)) [], .para none (some (7 / 10)) []] := by
  have e1 : Py.trunc 10 = 10 := by decide +kernel
  have e0 : ¬ (7 / 10 : ℚ) ≤ 0 := by decide +kernel
  simp [makeBlocks, renderBlocks, renderRows, renderRow, renderCell, spacer, addFloats, trailing, Item.isPara, emptyPara, e0,
    e1, List.replicate, minLineSpacing]

/-! ## C31 -/

/-- Add an item to the body of the last section. -/
def addLast (x : Item α ι π) : List (π × List (Item α ι π)) → List (π × List (Item α ι π))
  | [] => []
  | [(p, b)] => [(p, b ++ [x])]
  | s :: t :: ss => s :: addLast x (t :: ss)

theorem sections_ne (l : π) (a acc : List (Item α ι π)) : sections l a acc ≠ [] := by
  induction a generalizing acc with
  | nil => simp [sections]
  | cons i is ih => cases i <;> simp [sections, ih]

theorem addLast_cons (x : Item α ι π) (s : π × List (Item α ι π)) (l : List (π × List (Item α ι π))) (h : l ≠ []) :
    addLast x (s :: l) = s :: addLast x l := by
  cases l with
  | nil => exact absurd rfl h
  | cons => rfl

theorem sections_append (l q : π) (fs : List ι) (a r acc : List (Item α ι π)) :
    sections l (a ++ .sect q fs :: r) acc = addLast (.sect q fs) (sections q a acc) ++ sections l r [] := by
  induction a generalizing acc with
  | nil => simp [sections, addLast]
  | cons i is ih =>
    cases i with
    | sect p f =>
      simp only [List.cons_append, sections, ih]
      rw [addLast_cons _ _ _ (sections_ne _ _ _)]
      rfl
    | para => simp only [List.cons_append, sections, ih]
    | table => simp only [List.cons_append, sections, ih]

/-- No section break. -/
def NoSect (r : List (Item α ι π)) : Prop := ∀ p fs, Item.sect p fs ∉ r

theorem sections_nosect (l : π) (r acc : List (Item α ι π)) (h : NoSect r) : sections l r acc = [(l, acc ++ r)] := by
  induction r generalizing acc with
  | nil => simp [sections]
  | cons i is ih =>
    have h' : NoSect is := fun p fs hm => h p fs (List.mem_cons_of_mem _ hm)
    cases i with
    | sect p f => exact absurd (by simp) (h p f)
    | para => simp [sections, ih _ h']
    | table => simp [sections, ih _ h']

theorem addLast_map {β : Type} (f : π × List (Item α ι π) → β) (x : Item α ι π) (hf : ∀ p b, f (p, b ++ [x]) = f (p, b))
    (l : List (π × List (Item α ι π))) : (addLast x l).map f = l.map f := by
  induction l with
  | nil => rfl
  | cons s l ih =>
    cases l with
    | nil => simp [addLast, hf]
    | cons t ts => simp only [addLast, List.map_cons, ih] at *

/-- What a page adds to the body. -/
def pageItems (bs : List (Block α)) : List (Item α ι π) :=
  renderBlocks false bs false ++ List.replicate (trailing bs.reverse) (.para none (some minLineSpacing) [])

theorem pageItems_nosect (bs : List (Block α)) : NoSect (pageItems bs : List (Item α ι π)) := by
  intro p fs h
  rcases List.mem_append.1 h with h | h
  · have : ∀ (bs : List (Block α)) pre, Item.sect p fs ∉ (renderBlocks false bs pre : List (Item α ι π)) := by
      intro bs
      induction bs with
      | nil => intro pre; simp [renderBlocks]
      | cons b bs ih =>
        intro pre
        cases b with
        | text a => simp [renderBlocks, ih]
        | floatImg => simp [renderBlocks, ih]
        | table b rows =>
          simp only [renderBlocks, spacer]
          split <;> simp [ih]
    exact this bs false h
  · rw [List.mem_replicate] at h; simp at h

theorem pageItems_para (bs : List (Block α)) :
    (ofBlocks bs ≠ [] → (pageItems bs : List (Item α ι π)).any Item.isPara = true) ∧
    (ofBlocks bs = [] → (pageItems bs : List (Item α ι π)) = []) := by
  constructor
  · intro h
    unfold pageItems
    rw [List.any_append]
    by_cases h0 : trailing bs.reverse = 0
    · rw [(render_last false bs false).2 h0 h]; simp
    · obtain ⟨n, hn⟩ := Nat.exists_eq_succ_of_ne_zero h0
      rw [hn, List.replicate_succ]; simp [Item.isPara]
  · intro h
    have h1 : ∀ pre, (renderBlocks false bs pre : List (Item α ι π)) = [] := by
      induction bs with
      | nil => intro pre; simp [renderBlocks]
      | cons b bs ih =>
        intro pre
        cases b with
        | text a => simp [ofBlocks] at h
        | table b rows => simp [ofBlocks] at h
        | floatImg => simp only [ofBlocks] at h; simp [renderBlocks, ih h]
    have h2 : ∀ cs : List (Block α), (∀ c ∈ cs, c = .floatImg) → trailing cs = 0 := by
      intro cs hc
      induction cs with
      | nil => rfl
      | cons c cs ih =>
        rw [hc c (by simp)]
        exact ih fun x hx => hc x (by simp [hx])
    have h3 : ∀ c ∈ bs, c = .floatImg := by
      clear h1 h2
      induction bs with
      | nil => simp
      | cons b bs ih =>
        cases b with
        | text a => simp [ofBlocks] at h
        | table b rows => simp [ofBlocks] at h
        | floatImg => simp only [ofBlocks] at h; simpa using ih h
    unfold pageItems
    rw [h1, h2 _ (by simpa using h3)]
    simp

theorem attach_nosect (fl : List ι) (r : List (Item α ι π)) (h : NoSect r) : NoSect (addFloats fl r) := by
  by_cases hany : r.any Item.isPara = true
  · obtain ⟨pre, x, post, rfl, hx, hp⟩ := last_para r hany
    rw [addFloats_some _ pre post x hx hp]
    intro p fs hm
    simp only [List.mem_append, List.mem_cons] at hm
    rcases hm with hm | hm | hm
    · exact h p fs (by simp [hm])
    · cases x with
      | sect p' f' => exact h p' f' (by simp)
      | para => simp [attach] at hm
      | table => simp [attach] at hm
    · exact h p fs (by simp [hm])
  · rw [Bool.not_eq_true] at hany
    rw [addFloats_none _ _ hany]
    intro p fs hm
    simp only [List.mem_append, List.mem_singleton, reduceCtorEq, or_false] at hm
    exact h p fs hm

theorem addFloats_append (fl : List ι) (a r : List (Item α ι π)) (h : r.any Item.isPara = true) :
    addFloats fl (a ++ r) = a ++ addFloats fl r := by
  obtain ⟨pre, x, post, rfl, hx, hp⟩ := last_para r h
  rw [addFloats_some _ pre post x hx hp, ← List.append_assoc, addFloats_some _ _ post x hx hp]
  simp

theorem addFloats_any (fl : List ι) (r : List (Item α ι π)) : (addFloats fl r).any Item.isPara = true := by
  by_cases h : r.any Item.isPara = true
  · obtain ⟨pre, x, post, rfl, hx, hp⟩ := last_para r h
    rw [addFloats_some _ pre post x hx hp]
    have : (attach fl x).isPara = true := by cases x <;> simp_all [attach, Item.isPara]
    simp [this]
  · rw [Bool.not_eq_true] at h
    rw [addFloats_none _ _ h]; simp [Item.isPara]

/-- The three ways a page extends a document. -/
theorem makePage_cases (d : Doc α ι π) (p : PageData α ι π) :
    (d.body = [] ∧ makePage d p = ⟨addFloats p.floats (pageItems p.blocks), p.props⟩) ∨
    (d.body ≠ [] ∧ d.body.any Item.isPara = false) ∨
    (d.body.any Item.isPara = true ∧ ofBlocks p.blocks ≠ [] ∧
      makePage d p = ⟨d.body ++ .sect d.last [] :: addFloats p.floats (pageItems p.blocks), p.props⟩) ∨
    (d.body.any Item.isPara = true ∧ ofBlocks p.blocks = [] ∧
      makePage d p = ⟨d.body ++ [.sect d.last p.floats], p.props⟩) := by
  by_cases h : d.body.any Item.isPara = true
  · right; right
    have e : makePage d p = ⟨addFloats p.floats ((d.body ++ [.sect d.last []]) ++ pageItems p.blocks), p.props⟩ := by
      unfold makePage makeBlocks pageItems
      rw [if_pos h]; simp only [List.append_assoc]
    by_cases ht : ofBlocks p.blocks = []
    · right
      refine ⟨h, ht, ?_⟩
      rw [e, (pageItems_para p.blocks).2 ht, List.append_nil]
      have := addFloats_some p.floats d.body [] (.sect d.last [] : Item α ι π) rfl rfl
      rw [this]
      simp [attach]
    · left
      refine ⟨h, ht, ?_⟩
      rw [e, addFloats_append _ _ _ ((pageItems_para p.blocks).1 ht)]
      simp
  · rw [Bool.not_eq_true] at h
    by_cases hb : d.body = []
    · left
      refine ⟨hb, ?_⟩
      unfold makePage makeBlocks pageItems
      rw [hb]; simp
    · exact Or.inr (Or.inl ⟨hb, h⟩)

theorem sections_all (p0 : π) (pages : List (PageData α ι π)) (hne : pages ≠ []) :
    (makeDoc p0 pages).body.any Item.isPara = true ∧ (makeDoc p0 pages).body ≠ [] ∧
    (sectionsOf (makeDoc p0 pages)).map (fun s => (s.1, ofItems s.2)) = pages.map (fun p => (p.props, ofBlocks p.blocks)) := by
  induction pages using List.reverseRecOn with
  | nil => exact absurd rfl hne
  | append_singleton ps p ih =>
    have e : makeDoc p0 (ps ++ [p]) = makePage (makeDoc p0 ps) p := by unfold makeDoc; simp
    rw [e]
    have htree : ∀ fl : List ι, ofItems (addFloats fl (pageItems p.blocks) : List (Item α ι π)) = ofBlocks p.blocks := by
      intro fl
      unfold pageItems
      rw [ofItems_addFloats, ofItems_append, ofItems_replicate, render_tree, List.append_nil]
    by_cases hps : ps = []
    · subst hps
      have hd : (makeDoc p0 ([] : List (PageData α ι π))).body = [] := rfl
      rcases makePage_cases (makeDoc p0 []) p with ⟨_, h⟩ | ⟨h, _⟩ | ⟨h, _⟩ | ⟨h, _⟩
      · rw [h]
        have h1 := addFloats_any p.floats (pageItems p.blocks : List (Item α ι π))
        refine ⟨h1, ?_, ?_⟩
        · intro h0; dsimp only at h0; rw [h0] at h1; simp at h1
        · unfold sectionsOf
          dsimp only
          rw [sections_nosect _ _ _ (attach_nosect _ _ (pageItems_nosect _))]
          simp [htree]
      · exact absurd hd h
      · rw [hd] at h; simp at h
      · rw [hd] at h; simp at h
    · obtain ⟨h1, h2, h3⟩ := ih hps
      have hlast : (sections (makeDoc p0 ps).last (makeDoc p0 ps).body []).map (fun s => (s.1, ofItems s.2)) =
        ps.map (fun p => (p.props, ofBlocks p.blocks)) := h3
      rcases makePage_cases (makeDoc p0 ps) p with ⟨h, _⟩ | ⟨_, h⟩ | ⟨_, ht, h⟩ | ⟨_, ht, h⟩
      · exact absurd h h2
      · rw [h] at h1; simp at h1
      · rw [h]
        refine ⟨by simp [h1], by simp, ?_⟩
        unfold sectionsOf
        dsimp only
        rw [sections_append, sections_nosect _ _ _ (attach_nosect _ _ (pageItems_nosect _)), List.map_append,
          addLast_map _ _ (by intro p b; simp [ofItems_append, ofItems]), hlast]
        simp [htree]
      · rw [h]
        refine ⟨by simp [h1], by simp, ?_⟩
        unfold sectionsOf
        dsimp only
        rw [sections_append, List.map_append, addLast_map _ _ (by intro p b; simp [ofItems_append, ofItems]), hlast]
        simp [sections, ofItems, ht]

/-- **C31**: `n ≥ 1` pages give exactly `n` sections; the i-th has the size and margins of page i and exactly its contents,
in order – also for empty pages. -/
theorem C31_one_section_per_page (p0 : π) (pages : List (PageData α ι π)) (hne : pages ≠ []) :
    (sectionsOf (makeDoc p0 pages)).map (fun s => (s.1, ofItems s.2)) = pages.map (fun p => (p.props, ofBlocks p.blocks)) :=
  (sections_all p0 pages hne).2.2

/-- **C33** (partial), whole document: the floating images of each page are anchored in its own section, if every page after
the first that has floating images also has text or a table. -/
theorem C33_floats_on_their_page_partial (p0 : π) (pages : List (PageData α ι π)) (hne : pages ≠ [])
    (hf : ∀ p ∈ pages.tail, p.floats ≠ [] → ofBlocks p.blocks ≠ []) :
    (sectionsOf (makeDoc p0 pages)).map (fun s => floatsOf s.2) = pages.map (·.floats) := by
  have hfl : ∀ (bs : List (Block α)) (fl : List ι), floatsOf (addFloats fl (pageItems bs) : List (Item α ι π)) = fl := by
    intro bs fl
    have := C33_floats_once bs fl ([] : List (Item α ι π))
    unfold makeBlocks at this
    simpa [floatsOf, pageItems] using this
  induction pages using List.reverseRecOn with
  | nil => exact absurd rfl hne
  | append_singleton ps p ih =>
    have e : makeDoc p0 (ps ++ [p]) = makePage (makeDoc p0 ps) p := by unfold makeDoc; simp
    rw [e]
    by_cases hps : ps = []
    · subst hps
      have hd : (makeDoc p0 ([] : List (PageData α ι π))).body = [] := rfl
      rcases makePage_cases (makeDoc p0 []) p with ⟨_, h⟩ | ⟨h, _⟩ | ⟨h, _⟩ | ⟨h, _⟩
      · rw [h]
        unfold sectionsOf
        dsimp only
        rw [sections_nosect _ _ _ (attach_nosect _ _ (pageItems_nosect _))]
        simp [hfl]
      · exact absurd hd h
      · rw [hd] at h; simp at h
      · rw [hd] at h; simp at h
    · obtain ⟨h1, h2, _⟩ := sections_all p0 ps hps
      have hf' : ∀ q ∈ ps.tail, q.floats ≠ [] → ofBlocks q.blocks ≠ [] := by
        intro q hq
        refine hf q ?_
        rw [List.tail_append_of_ne_nil hps]
        exact List.mem_append_left _ hq
      have hp' : p.floats ≠ [] → ofBlocks p.blocks ≠ [] := by
        refine hf p ?_
        rw [List.tail_append_of_ne_nil hps]; simp
      have hlast : (sections (makeDoc p0 ps).last (makeDoc p0 ps).body []).map (fun s => floatsOf s.2) =
        ps.map (·.floats) := ih hps hf'
      rcases makePage_cases (makeDoc p0 ps) p with ⟨h, _⟩ | ⟨_, h⟩ | ⟨_, ht, h⟩ | ⟨_, ht, h⟩
      · exact absurd h h2
      · rw [h] at h1; simp at h1
      · rw [h]
        unfold sectionsOf
        dsimp only
        rw [sections_append, sections_nosect _ _ _ (attach_nosect _ _ (pageItems_nosect _)), List.map_append,
          addLast_map _ _ (by intro p b; simp [floatsOf_append, floatsOf]), hlast]
        simp [hfl]
      · have hfl0 : p.floats = [] := by
          by_contra hc; exact hp' hc ht
        rw [h]
        unfold sectionsOf
        dsimp only
        rw [hfl0, sections_append, List.map_append, addLast_map _ _ (by intro p b; simp [floatsOf_append, floatsOf]), hlast]
        simp [sections, floatsOf, hfl0]

/-- **C33 is false** for a page that consists of floating images only (two overlapping pictures): they are anchored in the
last paragraph, which is the section break of the *previous* page. -/
theorem C33_refuted_floats_on_previous_page :
    ∃ pages : List (PageData ℕ ℕ ℕ), pages.map (·.floats) = [[], [1, 2]] ∧
      (sectionsOf (makeDoc 0 pages)).map (fun s => floatsOf s.2) = [[1, 2], []] := by
  refine ⟨[⟨1, [.text 7], []⟩, ⟨2, [], [1, 2]⟩], rfl, ?_⟩
  simp [makeDoc, makePage, makeBlocks, renderBlocks, addFloats, trailing, Item.isPara, sectionsOf, sections, floatsOf]

/-- Non-vacuity of C31 and the partial theorem: a text page with a picture, an empty page, a page that ends with a table. -/
example : (sectionsOf (makeDoc 0 [⟨1, [.text 7], [5]⟩, ⟨2, [], []⟩, ⟨3, [.table 0 [[some [.text 8]]]], [6]⟩] : Doc ℕ ℕ ℕ)).map
    (fun s => (s.1, floatsOf s.2)) = [(1, [5]), (2, []), (3, [6])] := by
  have e0 : ¬ minLineSpacing ≤ 0 := by decide +kernel
  simp [makeDoc, makePage, makeBlocks, renderBlocks, renderRows, renderRow, renderCell, spacer, e0, addFloats, trailing,
    Item.isPara, sectionsOf, sections, floatsOf]

end Props
