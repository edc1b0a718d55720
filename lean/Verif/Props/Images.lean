import Verif.Spec.Images
import Verif.Props.Graph
import Verif.Props.Element
/-! # C47, C74, C75: images and links of a page -/
namespace Props
open Images Geom Py Spec

theorem place_eq (a b : Rect) : place a = place b ↔ SamePlace a b := by
  unfold place SamePlace; simp only [Prod.mk.injEq]

section
variable {β ρ : Type}

/-- Positions of the blocks drawn from the picture `k`. -/
def isOf (hash : β → ℤ) (bs : List (Block β ρ)) (k : ℤ) (j : ℕ) : Prop :=
  ∃ b, bs[j]? = some b ∧ b.type = 1 ∧ hash b.image = k

def keysOf (hash : β → ℤ) (bs : List (Block β ρ)) : List ℤ :=
  (bs.filter fun b => b.type = 1).map fun b => hash b.image

theorem addTo_mem (k : ℤ) (i : ℕ) (gs : Groups) (g : ℤ × List ℕ) (h : g ∈ addTo k i gs) :
    (g ∈ gs ∧ g.1 ≠ k) ∨ (g.1 = k ∧ ((∃ g' ∈ gs, g'.1 = k ∧ g.2 = g'.2 ++ [i]) ∨ (g.2 = [i] ∧ ∀ g' ∈ gs, g'.1 ≠ k))) ∨
      (g ∈ gs ∧ ∃ g' ∈ gs, g'.1 = k) := by
  induction gs with
  | nil =>
    simp only [addTo, List.mem_singleton] at h
    subst h
    right; left; exact ⟨rfl, Or.inr ⟨rfl, by simp⟩⟩
  | cons a gs ih =>
    unfold addTo at h
    by_cases ha : a.1 = k
    · rw [if_pos ha] at h
      rcases List.mem_cons.1 h with rfl | h
      · right; left; exact ⟨ha, Or.inl ⟨a, by simp, ha, rfl⟩⟩
      · right; right; exact ⟨by simp [h], a, by simp, ha⟩
    · rw [if_neg ha] at h
      rcases List.mem_cons.1 h with rfl | h
      · left; exact ⟨by simp, ha⟩
      · rcases ih h with ⟨h1, h2⟩ | ⟨h1, ⟨g', hg', h2, h3⟩ | ⟨h2, h3⟩⟩ | ⟨h1, g', hg', h2⟩
        · left; exact ⟨by simp [h1], h2⟩
        · right; left; exact ⟨h1, Or.inl ⟨g', by simp [hg'], h2, h3⟩⟩
        · right; left
          refine ⟨h1, Or.inr ⟨h2, ?_⟩⟩
          intro g' hg'
          rcases List.mem_cons.1 hg' with rfl | hg'
          · exact ha
          · exact h3 g' hg'
        · right; right; exact ⟨by simp [h1], g', by simp [hg'], h2⟩

theorem addTo_keys (k : ℤ) (i : ℕ) (gs : Groups) :
    (addTo k i gs).map Prod.fst = if k ∈ gs.map Prod.fst then gs.map Prod.fst else gs.map Prod.fst ++ [k] := by
  induction gs with
  | nil => rfl
  | cons a gs ih =>
    unfold addTo
    by_cases ha : a.1 = k
    · rw [if_pos ha, if_pos (by simp [ha])]; rfl
    · rw [if_neg ha, List.map_cons, ih]
      have : k ∈ (a :: gs).map Prod.fst ↔ k ∈ gs.map Prod.fst := by
        simp only [List.map_cons, List.mem_cons]
        exact ⟨fun h => h.resolve_left fun e => ha e.symm, Or.inr⟩
      by_cases hk : k ∈ gs.map Prod.fst
      · rw [if_pos hk, if_pos (this.2 hk)]; rfl
      · rw [if_neg hk, if_neg (fun h => hk (this.1 h))]; rfl

/-- What the groups say about the blocks seen so far. -/
structure GInv (hash : β → ℤ) (P : List (Block β ρ)) (gs : Groups) : Prop where
  nodup : (gs.map Prod.fst).Nodup
  pos : ∀ g ∈ gs, ∀ j, j ∈ g.2 ↔ isOf hash P g.1 j
  keys : ∀ k, k ∈ gs.map Prod.fst ↔ k ∈ keysOf hash P
  first : ∀ p : ℤ → Bool, (gs.map Prod.fst).find? p = (keysOf hash P).find? p

theorem isOf_snoc (hash : β → ℤ) (P : List (Block β ρ)) (b : Block β ρ) (k : ℤ) (j : ℕ) :
    isOf hash (P ++ [b]) k j ↔ isOf hash P k j ∨ (j = P.length ∧ b.type = 1 ∧ hash b.image = k) := by
  unfold isOf
  by_cases hj : j < P.length
  · rw [List.getElem?_append_left hj]
    constructor
    · exact Or.inl
    · rintro (h | ⟨h, _⟩)
      · exact h
      · omega
  · rw [List.getElem?_append_right (by omega), List.getElem?_eq_none (l := P) (by omega)]
    rcases Nat.eq_or_lt_of_le (Nat.le_of_not_lt hj) with h | h
    · subst h; simp
    · have : ¬ j = P.length := by omega
      rw [List.getElem?_eq_none (by simp; omega)]
      simp [this]

theorem gInv_snoc (hash : β → ℤ) (P : List (Block β ρ)) (gs : Groups) (b : Block β ρ) (h : GInv hash P gs) :
    GInv hash (P ++ [b]) (if b.type ≠ 1 then gs else addTo (hash b.image) P.length gs) := by
  by_cases hb : b.type = 1
  · rw [if_neg (by simpa using hb)]
    have hk : keysOf hash (P ++ [b]) = keysOf hash P ++ [hash b.image] := by
      unfold keysOf; simp [List.filter_append, hb]
    refine ⟨?_, ?_, ?_, ?_⟩
    · rw [addTo_keys]
      split
      · exact h.nodup
      · rename_i hn
        rw [List.nodup_append]
        refine ⟨h.nodup, by simp, ?_⟩
        intro a ha c hc hac
        rw [List.mem_singleton] at hc
        subst hc; subst hac; exact hn ha
    · intro g hg j
      rw [isOf_snoc]
      rcases addTo_mem _ _ _ _ hg with ⟨h1, h2⟩ | ⟨h1, ⟨g', hg', h2, h3⟩ | ⟨h2, h3⟩⟩ | ⟨h1, g', hg', h2⟩
      · rw [h.pos g h1 j]
        constructor
        · exact Or.inl
        · rintro (h | ⟨_, _, h⟩)
          · exact h
          · exact absurd h.symm h2
      · rw [h3, List.mem_append, h.pos g' hg', h2, h1, List.mem_singleton]
        simp [hb]
      · rw [h2, h1, List.mem_singleton]
        constructor
        · intro hj; exact Or.inr ⟨hj, hb, rfl⟩
        · rintro (⟨c, hc, hc1, hc2⟩ | ⟨hj, _⟩)
          · exfalso
            have : hash b.image ∈ keysOf hash P := by
              unfold keysOf
              rw [List.mem_map]
              exact ⟨c, by rw [List.mem_filter]; exact ⟨List.mem_of_getElem? hc, by simpa using hc1⟩, hc2⟩
            rw [← h.keys] at this
            obtain ⟨g', hg', he⟩ := List.mem_map.1 this
            exact h3 g' hg' he
          · exact hj
      · by_cases hgk : g.1 = hash b.image
        · -- both `g` and `g'` are the same group, so `g` cannot be unchanged: use the keys of the new list
          have hnd : ((addTo (hash b.image) P.length gs).map Prod.fst).Nodup := by
            rw [addTo_keys]
            split
            · exact h.nodup
            · rename_i hn
              exact absurd (List.mem_map.2 ⟨g', hg', h2⟩) hn
          -- the updated group is in the new list
          have : (g.1, g.2 ++ [P.length]) ∈ addTo (hash b.image) P.length gs := by
            clear hg hnd
            have hnd := h.nodup
            clear h
            induction gs with
            | nil => simp at h1
            | cons a gs ih =>
              unfold addTo
              by_cases ha : a.1 = hash b.image
              · rw [if_pos ha]
                rcases List.mem_cons.1 h1 with rfl | h1
                · simp
                · exfalso
                  rw [List.map_cons, List.nodup_cons] at hnd
                  exact hnd.1 (List.mem_map.2 ⟨g, h1, by rw [hgk, ha]⟩)
              · rw [if_neg ha]
                rcases List.mem_cons.1 h1 with rfl | h1
                · exact absurd hgk ha
                · rcases List.mem_cons.1 hg' with rfl | hg'
                  · exact absurd h2 ha
                  · rw [List.map_cons, List.nodup_cons] at hnd
                    exact List.mem_cons_of_mem _ (ih h1 hg' hnd.2)
          have he := List.inj_on_of_nodup_map hnd hg this rfl
          have := congrArg (fun p => p.2.length) he
          simp at this
        · rw [h.pos g h1 j]
          constructor
          · exact Or.inl
          · rintro (h | ⟨_, _, h⟩)
            · exact h
            · exact absurd h.symm hgk
    · intro k
      rw [addTo_keys, hk, List.mem_append, ← h.keys k]
      split
      · rename_i hm
        constructor
        · exact Or.inl
        · rintro (h | h)
          · exact h
          · rw [List.mem_singleton] at h; subst h; exact hm
      · simp
    · intro p
      rw [addTo_keys, hk, List.find?_append, ← h.first p]
      split
      · rename_i hm
        cases hf : (gs.map Prod.fst).find? p with
        | some x => rfl
        | none =>
          have := List.find?_eq_none.1 hf _ hm
          simp [List.find?_cons, this]
      · rw [List.find?_append]
  · rw [if_pos hb]
    have hk : keysOf hash (P ++ [b]) = keysOf hash P := by
      unfold keysOf; simp [List.filter_append, hb]
    refine ⟨h.nodup, ?_, by rw [hk]; exact h.keys, by rw [hk]; exact h.first⟩
    intro g hg j
    rw [isOf_snoc, h.pos g hg]
    simp [hb]

theorem gInv_from (hash : β → ℤ) (bs P : List (Block β ρ)) (gs : Groups) (h : GInv hash P gs) :
    GInv hash (P ++ bs) (groupsFrom hash P.length bs gs) := by
  induction bs generalizing P gs with
  | nil => simpa [groupsFrom] using h
  | cons b bs ih =>
    have := ih (P ++ [b]) _ (gInv_snoc hash P gs b h)
    simpa [groupsFrom] using this

theorem gInv (hash : β → ℤ) (bs : List (Block β ρ)) : GInv hash bs (groupsFrom hash 0 bs []) :=
  gInv_from hash bs [] [] ⟨by simp, by simp, by simp [keysOf], by simp [keysOf]⟩

theorem recover_getElem? (img : Block β ρ) (idxs : List ℕ) (l : List (Block β ρ)) (j : ℕ) :
    (recover img idxs l)[j]? = (l[j]?).map fun b => if j ∈ idxs then { b with type := 1, image := img.image } else b := by
  unfold recover
  induction idxs generalizing l with
  | nil => simp
  | cons i is ih =>
    rw [List.foldl_cons, ih, List.getElem?_modify]
    by_cases hij : i = j
    · subst hij
      simp only [if_true, Option.map_eq_map, Option.map_map, List.mem_cons, true_or]
      congr 1
      funext b
      by_cases h : i ∈ is <;> simp [h]
    · have : j ∈ i :: is ↔ j ∈ is := by simp [Ne.symm hij]
      simp only [hij, if_false, this]
      simp

@[simp] theorem recover_length (img : Block β ρ) (idxs : List ℕ) (l : List (Block β ρ)) :
    (recover img idxs l).length = l.length := by
  unfold recover
  induction idxs generalizing l with
  | nil => rfl
  | cons i is ih => rw [List.foldl_cons, ih]; simp

/-- One recovered image, given that the boxes of the page blocks are unchanged. -/
theorem place_step (hash : β → ℤ) (bs cur A : List (Block β ρ)) (img : Block β ρ)
    (hl : cur.map Block.bbox = bs.map Block.bbox) :
    placeImage (groupsFrom hash 0 bs []) (cur ++ A) img =
      match target hash bs img with
      | none => cur ++ A ++ [img]
      | some k => (cur.zip bs).map (fun p => if p.2.type = 1 ∧ hash p.2.image = k then { p.1 with type := 1, image := img.image } else p.1) ++ A := by
  have hg := gInv hash bs
  generalize hgs : groupsFrom hash 0 bs [] = gs at hg
  have hlen : cur.length = bs.length := by simpa using congrArg List.length hl
  have hsame : ∀ g ∈ gs, same (cur ++ A) img g.2 = decide (DrawnAt hash bs img g.1) := by
    intro g hgm
    apply Bool.eq_iff_iff.2
    rw [decide_eq_true_iff]
    unfold same
    rw [List.any_eq_true]
    have hbox : ∀ j (hj : j < bs.length), ∃ c, (cur ++ A)[j]? = some c ∧ c.bbox = bs[j].bbox := by
      intro j hj
      refine ⟨cur[j], by rw [List.getElem?_append_left (by omega), List.getElem?_eq_getElem], ?_⟩
      have := congrArg (fun l => l[j]?) hl
      simpa [List.getElem?_map, List.getElem?_eq_getElem, hlen, hj] using this
    constructor
    · rintro ⟨j, hj, h⟩
      obtain ⟨b, hb, hb1, hb2⟩ := (hg.pos g hgm j).1 hj
      obtain ⟨hjl, rfl⟩ := List.getElem?_eq_some_iff.1 hb
      obtain ⟨c, hc, hcb⟩ := hbox j hjl
      rw [hc] at h
      have h := of_decide_eq_true h
      rw [place_eq, hcb] at h
      exact ⟨_, List.getElem_mem hjl, hb1, hb2, h⟩
    · rintro ⟨b, hb, hb1, hb2, h⟩
      obtain ⟨j, hjl, rfl⟩ := List.mem_iff_getElem.1 hb
      refine ⟨j, (hg.pos g hgm j).2 ⟨_, List.getElem?_eq_getElem hjl, hb1, hb2⟩, ?_⟩
      obtain ⟨c, hc, hcb⟩ := hbox j hjl
      rw [hc]
      apply decide_eq_true
      rw [place_eq, hcb]
      exact h
  have hfind : gs.find? (fun g => same (cur ++ A) img g.2) = gs.find? (fun g => decide (DrawnAt hash bs img g.1)) := by
    clear hg hgs
    induction gs with
    | nil => rfl
    | cons a gs ih =>
      rw [List.find?_cons, List.find?_cons, hsame a (by simp), ih (fun g hgm => hsame g (by simp [hgm]))]
  have ht : (gs.find? (fun g => decide (DrawnAt hash bs img g.1))).map Prod.fst = target hash bs img := by
    have := hg.first (fun k => decide (DrawnAt hash bs img k))
    rw [List.find?_map] at this
    exact this
  unfold placeImage
  rw [hfind]
  cases hf : gs.find? (fun g => decide (DrawnAt hash bs img g.1)) with
  | none => rw [hf] at ht; rw [← ht]; rfl
  | some g =>
    rw [hf] at ht
    rw [← ht]
    simp only [Option.map_some]
    have hgm := List.mem_of_find?_eq_some hf
    apply List.ext_getElem?
    intro j
    rw [recover_getElem?]
    have hp := hg.pos g hgm j
    by_cases hj : j < bs.length
    · rw [List.getElem?_append_left (by omega), List.getElem?_append_left (by simp; omega), List.getElem?_map,
        List.getElem?_eq_getElem (by omega), List.getElem?_eq_getElem (l := cur.zip bs) (by simp; omega)]
      simp only [Option.map_some, List.getElem_zip]
      congr 1
      have : (j ∈ g.2) ↔ (bs[j].type = 1 ∧ hash bs[j].image = g.1) := by
        rw [hp]
        unfold isOf
        rw [List.getElem?_eq_getElem hj]
        simp
      by_cases hjg : j ∈ g.2
      · rw [if_pos hjg, if_pos (this.1 hjg)]
      · rw [if_neg hjg, if_neg (fun h => hjg (this.2 h))]
    · have hjg : j ∉ g.2 := by
        rw [hp]
        rintro ⟨b, hb, _⟩
        rw [List.getElem?_eq_none (by omega)] at hb
        cases hb
      rw [List.getElem?_append_right (by omega), List.getElem?_append_right (by simp; omega)]
      simp [hjg, hlen]

/-- **C47**, exactly: the page blocks stay at their positions, each with the outcome `Spec.fate`, followed by the recovered images that
stand for no picture of the page. -/
theorem C47_result (hash : β → ℤ) (images bs : List (Block β ρ)) :
    preprocess hash images bs = bs.map (fate hash images bs) ++ extra hash images bs := by
  unfold preprocess
  have key : ∀ (done todo : List (Block β ρ)),
      todo.foldl (placeImage (groupsFrom hash 0 bs [])) (bs.map (fate hash done bs) ++ extra hash done bs) =
        bs.map (fate hash (done ++ todo) bs) ++ extra hash (done ++ todo) bs := by
    intro done todo
    induction todo generalizing done with
    | nil => simp
    | cons img todo ih =>
      rw [List.foldl_cons]
      have hstep := place_step hash bs (bs.map (fate hash done bs)) (extra hash done bs) img (by
        rw [List.map_map]
        apply List.map_congr_left
        intro b _
        simp only [Function.comp, fate]
        split
        · split <;> rfl
        · rfl)
      have : placeImage (groupsFrom hash 0 bs []) (bs.map (fate hash done bs) ++ extra hash done bs) img =
          bs.map (fate hash (done ++ [img]) bs) ++ extra hash (done ++ [img]) bs := by
        rw [hstep]
        cases ht : target hash bs img with
        | none =>
          have h1 : extra hash (done ++ [img]) bs = extra hash done bs ++ [img] := by
            unfold extra; simp [List.filter_append, ht]
          have h2 : ∀ b, fate hash (done ++ [img]) bs b = fate hash done bs b := by
            intro b; unfold fate; simp [List.filter_append, ht]
          simp only [h1, List.append_assoc]
          congr 1
          exact List.map_congr_left fun b _ => (h2 b).symm
        | some k =>
          have h1 : extra hash (done ++ [img]) bs = extra hash done bs := by
            unfold extra; simp [List.filter_append, ht]
          simp only [h1]
          congr 1
          apply List.ext_getElem?
          intro j
          rw [List.getElem?_map, List.getElem?_map, List.zip_map_left, List.getElem?_map]
          have hz : (bs.zip bs)[j]? = (bs[j]?).map fun b => (b, b) := by
            cases hj : bs[j]? <;> simp [List.zip, List.getElem?_zipWith, hj]
          rw [hz, Option.map_map, Option.map_map]
          congr 1
          funext b
          simp only [Function.comp, Prod.map, id]
          unfold fate
          by_cases hb : b.type = 1
          · by_cases hk : hash b.image = k
            · subst hk
              simp only [hb, true_and, if_true, List.filter_append, ht]
              split <;> simp [hb, ht]
            · simp [hb, hk, List.filter_append, ht, Ne.symm hk]
          · simp [hb]
      rw [this, ih]
      simp
  have h0 : markDeleted bs = bs.map (fate hash [] bs) ++ extra hash [] bs := by
    unfold markDeleted extra
    rw [List.filter_nil, List.append_nil]
    apply List.map_congr_left
    intro b _
    unfold fate
    by_cases hb : b.type = 1 <;> simp [hb]
  rw [h0, key [] images, List.nil_append]

/-- **C47**: text blocks are not touched, whatever images there are. -/
theorem C47_text_untouched (hash : β → ℤ) (images bs : List (Block β ρ)) (i : ℕ) (b : Block β ρ) (hi : bs[i]? = some b)
    (hb : b.type ≠ 1) : (preprocess hash images bs)[i]? = some b := by
  rw [C47_result, List.getElem?_append_left (by simpa using (List.getElem?_eq_some_iff.1 hi).1), List.getElem?_map, hi]
  simp [fate, hb]

/-- **C47** (partial): every recovered image is among the resulting image blocks, at its place, provided that no other recovered image
stands for the same picture of the page. -/
theorem C47_image_kept_partial (hash : β → ℤ) (images bs : List (Block β ρ)) (img : Block β ρ) (hi : img ∈ images) (h1 : img.type = 1)
    (hu : ∀ k, target hash bs img = some k → ∀ img' ∈ images, target hash bs img' = some k → img' = img) :
    ∃ b ∈ preprocess hash images bs, b.type = 1 ∧ b.image = img.image ∧ SamePlace b.bbox img.bbox := by
  rw [C47_result]
  cases ht : target hash bs img with
  | none =>
    exact ⟨img, List.mem_append_right _ (by unfold extra; rw [List.mem_filter]; exact ⟨hi, by simpa using ht⟩), h1, rfl, rfl, rfl, rfl, rfl⟩
  | some k =>
    have hd : DrawnAt hash bs img k := by
      unfold target at ht
      have := List.find?_some ht
      exact of_decide_eq_true this
    obtain ⟨b, hb, hb1, hb2, hp⟩ := hd
    have hl : ∃ img', (images.filter fun i => target hash bs i = some (hash b.image)).getLast? = some img' := by
      have : (images.filter fun i => target hash bs i = some (hash b.image)) ≠ [] :=
        List.ne_nil_of_mem (a := img) (by rw [List.mem_filter]; exact ⟨hi, by rw [hb2]; simpa using ht⟩)
      exact ⟨_, List.getLast?_eq_getLast_of_ne_nil this⟩
    obtain ⟨img', hl⟩ := hl
    have hm := List.mem_filter.1 (List.mem_of_getLast? hl)
    have he : img' = img := hu k ht img' hm.1 (by rw [← hb2]; exact of_decide_eq_true hm.2)
    subst he
    refine ⟨{ b with image := img'.image }, List.mem_append_left _ (List.mem_map.2 ⟨b, hb, ?_⟩), hb1, rfl, hp⟩
    unfold fate
    rw [if_pos hb1, hl]

/-- **C47**: every resulting image block shows a recovered image, and a picture block of the page stays where it is. -/
theorem C47_only_recovered (hash : β → ℤ) (images bs : List (Block β ρ)) (b : Block β ρ) (hb : b ∈ preprocess hash images bs)
    (h1 : b.type = 1) : ∃ img ∈ images, b.image = img.image ∧ (b = img ∨ ∃ c ∈ bs, c.type = 1 ∧ c.bbox = b.bbox ∧ c.rest = b.rest) := by
  rw [C47_result] at hb
  rcases List.mem_append.1 hb with hb | hb
  · obtain ⟨c, hc, rfl⟩ := List.mem_map.1 hb
    by_cases hc1 : c.type = 1
    · unfold fate at h1 ⊢
      rw [if_pos hc1] at h1 ⊢
      cases hl : (images.filter fun i => target hash bs i = some (hash c.image)).getLast? with
      | none => rw [hl] at h1; simp at h1
      | some img =>
        exact ⟨img, (List.mem_filter.1 (List.mem_of_getLast? hl)).1, rfl, Or.inr ⟨c, hc, hc1, rfl, rfl⟩⟩
    · unfold fate at h1; rw [if_neg hc1] at h1; exact absurd h1 hc1
  · exact ⟨b, (List.mem_filter.1 hb).1, rfl, Or.inl rfl⟩

/-- A text block, a picture drawn twice, another picture, one only half on the page; three recovered images. -/
def pagePics : List (Block ℕ ℕ) :=
  [⟨0, ⟨10, 10, 50, 20⟩, 0, 1⟩, ⟨1, ⟨10, 30, 50, 50⟩, 7, 2⟩, ⟨1, ⟨10, 60, 50, 80⟩, 7, 3⟩, ⟨1, ⟨60, 30, 90, 50⟩, 8, 4⟩]

def recovered : List (Block ℕ ℕ) := [⟨1, ⟨10, 301 / 10, 50, 50⟩, 107, 5⟩, ⟨1, ⟨-10, 90, 20, 99⟩, 109, 6⟩]

/-- Non-vacuity: the first recovered image replaces both instances of its picture, the second is added, the unknown picture goes. -/
example : preprocess (fun n : ℕ => (n : ℤ)) recovered pagePics =
    [⟨0, ⟨10, 10, 50, 20⟩, 0, 1⟩, ⟨1, ⟨10, 30, 50, 50⟩, 107, 2⟩, ⟨1, ⟨10, 60, 50, 80⟩, 107, 3⟩, ⟨-1, ⟨60, 30, 90, 50⟩, 8, 4⟩,
      ⟨1, ⟨-10, 90, 20, 99⟩, 109, 6⟩] ∧
    ∀ img ∈ recovered, img.type = 1 ∧ ∀ img' ∈ recovered, target (fun n : ℕ => (n : ℤ)) pagePics img' ≠ none →
      target (fun n : ℕ => (n : ℤ)) pagePics img' = target (fun n : ℕ => (n : ℤ)) pagePics img → img' = img := by
  decide +kernel

/-- **C47** refuted: of two pictures drawn at the same place (a picture and its overlay) only one is kept – the second recovered image
overwrites the first, and the second picture block is deleted. -/
theorem C47_refuted_stacked : ∃ (images bs : List (Block ℕ ℕ)) (img : Block ℕ ℕ), img ∈ images ∧ img.type = 1 ∧
    (∀ i ∈ images, ∃ b ∈ bs, b.type = 1 ∧ b.image = i.image ∧ b.bbox = i.bbox) ∧
    ∀ b ∈ preprocess (fun n : ℕ => (n : ℤ)) images bs, b.type = 1 → b.image ≠ img.image :=
  ⟨[⟨1, ⟨0, 0, 10, 10⟩, 1, 0⟩, ⟨1, ⟨0, 0, 10, 10⟩, 2, 0⟩], [⟨1, ⟨0, 0, 10, 10⟩, 1, 0⟩, ⟨1, ⟨0, 0, 10, 10⟩, 2, 0⟩],
    ⟨1, ⟨0, 0, 10, 10⟩, 1, 0⟩, by decide +kernel⟩

/-- **C47**: the recovered images are the listed ones whose box could be found and meets the page, in order; those without colour space
show what the page shows there. -/
theorem C47_recovered (page : Rect) (clip : Rect → β) (items : List (Item β ρ)) :
    extractImages page clip items = (items.filter fun it => it.bbox.any (·.intersects page)).map fun it =>
      ⟨1, it.bbox.getD Rect.zero, if it.colorspace then it.content else clip (it.bbox.getD Rect.zero), it.rest⟩ := by
  unfold extractImages
  induction items with
  | nil => rfl
  | cons it items ih =>
    rw [List.filterMap_cons, List.filter_cons, ih]
    cases hb : it.bbox with
    | none => simp
    | some b =>
      by_cases hp : b.intersects page = true
      · simp [hp, hb]
      · simp [hp]

example : extractImages (β := ℕ) (ρ := ℕ) ⟨0, 0, 100, 100⟩ (fun _ => 5)
    [⟨none, 1, true, 0⟩, ⟨some ⟨10, 10, 20, 20⟩, 2, true, 0⟩, ⟨some ⟨200, 10, 220, 20⟩, 3, true, 0⟩, ⟨some ⟨30, 10, 40, 20⟩, 4, false, 0⟩] =
    [⟨1, ⟨10, 10, 20, 20⟩, 2, 0⟩, ⟨1, ⟨30, 10, 40, 20⟩, 5, 0⟩] := by decide +kernel

/-- **C74**: the clipped vector graphics show every contour: the contours are divided into the pictures, each contour lies within the
area of its own picture, that area is the smallest one for its contours, and contours that meet are in the same picture. -/
theorem C74_contours_clipped (iter : List ℕ → List ℕ) (hi : ∀ l, (iter l).Perm l) (clip : Rect → β) (cs : List Rect)
    (hc : ∀ c ∈ cs, Proper c ∧ Tenths c) :
    ∃ (gs : List (List Rect)) (pics : List (Rect × β)), vectorGraphics iter clip cs = .ok pics ∧ gs.flatten.Perm cs ∧
      List.Forall₂ (fun g p => g ≠ [] ∧ p.2 = clip p.1 ∧ (∀ c ∈ g, Covers p.1 c) ∧
        ∀ r : Rect, (∀ c ∈ g, Covers r c) → Covers r p.1) gs pics ∧
      gs.Pairwise (fun g h => ∀ a ∈ g, ∀ b ∈ h, a.inter b = Rect.zero) := by
  obtain ⟨gs, hg, hp, hpw, hne⟩ := C21_groups iter hi (fun a b : Rect => (a.inter b).truthy) (by
    intro a b
    have : a.inter b = b.inter a := by
      unfold Rect.inter
      simp only [or_comm (a := a.isEmpty), max_comm a.x0, max_comm a.y0, min_comm a.x1, min_comm a.y1]
    simp only [this]) cs
  refine ⟨gs, gs.map fun g => (Coll.bbox g, clip (Coll.bbox g)), ?_, hp, ?_, ?_⟩
  · unfold vectorGraphics; rw [hg]
  · rw [List.forall₂_map_right_iff]
    rw [List.forall₂_same]
    intro g hgm
    have hgc : ∀ c ∈ g, Proper c ∧ Tenths c := fun c hcg => hc c (hp.subset (List.mem_flatten.2 ⟨g, hgm, hcg⟩))
    have := C24_collection_bbox_partial g (hne g hgm).1 hgc
    exact ⟨(hne g hgm).1, rfl, this.1, this.2⟩
  · refine hpw.imp ?_
    intro g h hgh a ha b hb
    have := hgh a ha b hb
    unfold Rect.truthy at this
    simpa using this

/-- Non-vacuity: three contours, two of which meet. -/
example : (∀ l : List ℕ, l.reverse.Perm l) ∧ ∀ c ∈ ([⟨0, 0, 10, 10⟩, ⟨5, 5, 20, 20⟩, ⟨50, 50, 60, 60⟩] : List Rect), Proper c ∧ Tenths c :=
  ⟨fun l => List.reverse_perm l, by
    intro c hc
    simp only [List.mem_cons, List.not_mem_nil, or_false] at hc
    rcases hc with rfl | rfl | rfl
    · exact ⟨by decide +kernel, 0, 0, 100, 100, by norm_num⟩
    · exact ⟨by decide +kernel, 50, 50, 200, 200, by norm_num⟩
    · exact ⟨by decide +kernel, 500, 500, 600, 600, by norm_num⟩⟩

/-- **C75**: exactly the links to internet addresses become hyperlinks, in order, each with its own area and address. -/
theorem C75_hyperlinks (links : List Link) :
    hyperlinks links = (links.filter fun l => l.kind = 2).map fun l => (l.from_, l.uri) := by
  unfold hyperlinks
  induction links with
  | nil => rfl
  | cons l ls ih =>
    rw [List.filterMap_cons, List.filter_cons, ih]
    by_cases h : l.kind = 2 <;> simp [h]

example : hyperlinks [⟨1, ⟨0, 0, 1, 1⟩, "x".toList⟩, ⟨2, ⟨0, 0, 5, 5⟩, "http://a".toList⟩] = [(⟨0, 0, 5, 5⟩, "http://a".toList)] := by
  decide +kernel

end
end Props
