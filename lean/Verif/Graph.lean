import Verif.Py
import Mathlib.Logic.Relation
import Mathlib.Data.List.Nodup
import Mathlib.Data.List.Perm.Basic
/-!
# Model of the graph functions of `common/share.py` (L337-383) and `BaseCollection.group` (common/Collection.py L40-78)

An adjacency *set* is a list; the theorems hold for every order of its elements, i.e. for every iteration order of the
Python sets.
-/

namespace Graph
open Py

/-- Adjacency list of all nodes. -/
abbrev G := List (List ℕ)

/-- `graph[a]` (used for reasoning; the model below checks the index). -/
def adj (g : G) (a : ℕ) : List ℕ := g[a]?.getD []

/-- `set.add`. -/
def setAdd (s : List ℕ) (x : ℕ) : List ℕ := if x ∈ s then s else s ++ [x]

/-- `_report_pair` (share.py L337-340), also common/Collection.py L72-73. -/
def reportPair (g : G) (e : ℕ × ℕ) : G :=
  (g.modify e.1 (setAdd · e.2)).modify e.2 (setAdd · e.1)

/-- Adjacency lists of `n` nodes after reporting the pairs in order. -/
def build (n : ℕ) (pairs : List (ℕ × ℕ)) : G := pairs.foldl reportPair (List.replicate n [])

/-- Number of neighbours of the nodes not searched yet (termination measure). -/
def unsearched (g : G) (searched : List ℕ) : ℕ := ((List.range g.length).map fun x => if x ∈ searched then 0 else (adj g x).length).sum

theorem unsearched_step (g : G) (searched : List ℕ) (c : ℕ) (hc : c < g.length) (hn : c ∉ searched) :
    unsearched g (searched ++ [c]) + (adj g c).length = unsearched g searched := by
  unfold unsearched
  have key : ∀ l : List ℕ, l.Nodup →
      (l.map fun x => if x ∈ searched ++ [c] then 0 else (adj g x).length).sum + (if c ∈ l then (adj g c).length else 0) =
      (l.map fun x => if x ∈ searched then 0 else (adj g x).length).sum := by
    intro l
    induction l with
    | nil => intro _; simp
    | cons x l ih =>
      intro h
      rw [List.nodup_cons] at h
      have := ih h.2
      rw [List.map_cons, List.map_cons, List.sum_cons, List.sum_cons]
      by_cases hx : x = c
      · subst hx
        rw [if_neg h.1] at this
        rw [if_pos (by simp), if_pos (by simp), if_neg hn]
        omega
      · have e1 : (x ∈ searched ++ [c]) ↔ x ∈ searched := by simp [hx]
        have e2 : (c ∈ x :: l) ↔ c ∈ l := by simp [Ne.symm hx]
        simp only [e1, e2]
        omega
  have := key (List.range g.length) List.nodup_range
  rw [if_pos (List.mem_range.2 hc)] at this
  exact this

/-- The loop of `_graph_bfs_from_node` (share.py L377-383): `queue` is `search_queue`, `searched` the nodes yielded so
far, in order. `graph[cur_node]` may raise `IndexError`. -/
def bfs (g : G) (queue searched : List ℕ) : Except Err (List ℕ) :=
  match queue with
  | [] => .ok searched
  | c :: q =>
    if _hs : c ∈ searched then bfs g q searched
    else
      if h : c < g.length then bfs g (q ++ g[c]) (searched ++ [c])
      else .error .index
termination_by queue.length + unsearched g searched
decreasing_by
  · simp
  · have := unsearched_step g searched c h _hs
    have e : (adj g c).length = g[c].length := by simp [adj, h]
    simp only [List.length_append, List.length_cons]
    omega

/-- `_graph_bfs_from_node` (share.py L366-383), as the list of yielded nodes. -/
def bfsFrom (g : G) (start : ℕ) : Except Err (List ℕ) := bfs g [start] []

/-- Loop of `graph_bfs` (share.py L356-361) over the remaining start nodes. -/
def bfsLoop (g : G) : List ℕ → List (List ℕ) → List ℕ → Except Err (List (List ℕ))
  | [], groups, _ => .ok groups
  | i :: is, groups, counted =>
    if i ∈ counted then bfsLoop g is groups counted
    else match bfsFrom g i with
      | .error e => .error e
      | .ok idxs => bfsLoop g is (groups ++ [idxs]) (counted ++ idxs)

/-- `graph_bfs` (share.py L343-363). -/
def graphBfs (g : G) : Except Err (List (List ℕ)) := bfsLoop g (List.range g.length) [] []

/-- Pairs `i < j` of positions related by `fun` (common/Collection.py L66-73). -/
def relatedPairs {α : Type} (f : α → α → Bool) (xs : List α) : List (ℕ × ℕ) :=
  (List.range xs.length).flatMap fun i =>
    (List.range xs.length).filterMap fun j =>
      if i < j then
        match xs[i]?, xs[j]? with
        | some a, some b => if f a b then some (i, j) else none
        | _, _ => none
      else none

/-- `BaseCollection.group` (common/Collection.py L40-78). `iter` is the iteration order of the Python set of indexes
(L77). -/
def group {α : Type} (iter : List ℕ → List ℕ) (f : α → α → Bool) (xs : List α) : Except Err (List (List α)) :=
  match graphBfs (build xs.length (relatedPairs f xs)) with
  | .error e => .error e
  | .ok gs => .ok (gs.map fun grp => (iter grp).filterMap fun i => xs[i]?)

/-! ## Lemmas -/

@[simp] theorem reportPair_length (g : G) (e : ℕ × ℕ) : (reportPair g e).length = g.length := by
  simp [reportPair]

@[simp] theorem foldl_reportPair_length (pairs : List (ℕ × ℕ)) (g : G) : (pairs.foldl reportPair g).length = g.length := by
  induction pairs generalizing g with
  | nil => rfl
  | cons p ps ih => simp [ih]

@[simp] theorem build_length (n : ℕ) (pairs : List (ℕ × ℕ)) : (build n pairs).length = n := by simp [build]

theorem mem_setAdd (s : List ℕ) (x y : ℕ) : y ∈ setAdd s x ↔ y ∈ s ∨ y = x := by
  unfold setAdd
  split
  · rename_i h
    constructor
    · exact Or.inl
    · rintro (h' | rfl)
      · exact h'
      · exact h
  · simp

theorem mem_adj_reportPair (g : G) (e : ℕ × ℕ) (a b : ℕ) :
    b ∈ adj (reportPair g e) a ↔
      b ∈ adj g a ∨ (a < g.length ∧ ((a = e.1 ∧ b = e.2) ∨ (a = e.2 ∧ b = e.1))) := by
  obtain ⟨i, j⟩ := e
  unfold adj reportPair
  rw [List.getElem?_modify, List.getElem?_modify]
  by_cases ha : a < g.length
  · rw [List.getElem?_eq_getElem ha]
    simp only [ha, true_and, Option.map_eq_map, Option.map_some, Option.getD_some]
    by_cases h1 : i = a
    · by_cases h2 : j = a
      · subst h1; subst h2; simp [mem_setAdd]
      · subst h1
        have h2' : ¬ i = j := fun h => h2 h.symm
        simp [h2, h2', mem_setAdd]
    · have h1' : ¬ a = i := fun h => h1 h.symm
      by_cases h2 : j = a
      · subst h2; simp [h1, h1', mem_setAdd]
      · have h2' : ¬ a = j := fun h => h2 h.symm
        simp [h1, h2, h1', h2']
  · rw [List.getElem?_eq_none (by omega)]
    simp [ha]

theorem mem_adj_foldl (pairs : List (ℕ × ℕ)) (g : G) (a b : ℕ) :
    b ∈ adj (pairs.foldl reportPair g) a ↔ b ∈ adj g a ∨ (a < g.length ∧ ((a, b) ∈ pairs ∨ (b, a) ∈ pairs)) := by
  induction pairs generalizing g with
  | nil => simp
  | cons p ps ih =>
    obtain ⟨i, j⟩ := p
    rw [List.foldl_cons, ih, mem_adj_reportPair, reportPair_length]
    simp only [List.mem_cons, Prod.mk.injEq]
    tauto

theorem mem_adj_build (n : ℕ) (pairs : List (ℕ × ℕ)) (a b : ℕ) :
    b ∈ adj (build n pairs) a ↔ a < n ∧ ((a, b) ∈ pairs ∨ (b, a) ∈ pairs) := by
  unfold build
  rw [mem_adj_foldl]
  have : b ∉ adj (List.replicate n []) a := by
    unfold adj
    rw [List.getElem?_replicate]
    split <;> simp
  simp [this]

/-- Edges stay inside the graph. -/
def InBounds (g : G) : Prop := ∀ a b, b ∈ adj g a → b < g.length

/-- Undirected graph. -/
def Symm (g : G) : Prop := ∀ a b, b ∈ adj g a → a ∈ adj g b

/-- `b` can be reached from `a` along edges. -/
def Reach (g : G) : ℕ → ℕ → Prop := Relation.ReflTransGen fun a b => b ∈ adj g a

theorem Reach.symm {g : G} (h : Symm g) {a b : ℕ} (r : Reach g a b) : Reach g b a := by
  unfold Reach at *
  induction r with
  | refl => exact Relation.ReflTransGen.refl
  | tail _ hbc ih => exact Relation.ReflTransGen.head (h _ _ hbc) ih

theorem bfs_spec (g : G) (hb : InBounds g) (queue searched : List ℕ) (hq : ∀ x ∈ queue, x < g.length)
    (hnd : searched.Nodup)
    (hcl : ∀ s ∈ searched, ∀ t ∈ adj g s, t ∈ searched ∨ t ∈ queue) :
    ∃ R, bfs g queue searched = .ok R ∧ R.Nodup ∧ searched <+: R ∧ (∀ x ∈ queue, x ∈ R) ∧
      (∀ r ∈ R, ∀ t ∈ adj g r, t ∈ R) ∧ (∀ r ∈ R, r ∈ searched ∨ ∃ q ∈ queue, Reach g q r) := by
  fun_induction bfs g queue searched with
  | case1 searched =>
    exact ⟨searched, rfl, hnd, List.prefix_rfl, by simp, fun r hr t ht => by simpa using hcl r hr t ht,
      fun r hr => Or.inl hr⟩
  | case2 searched c q hs ih =>
    obtain ⟨R, h1, h2, h3, h4, h5, h6⟩ := ih (fun x hx => hq x (by simp [hx])) hnd (by
      intro s hs' t ht
      rcases hcl s hs' t ht with h | h
      · exact Or.inl h
      · rcases List.mem_cons.1 h with rfl | h
        · exact Or.inl hs
        · exact Or.inr h)
    refine ⟨R, h1, h2, h3, ?_, h5, ?_⟩
    · intro x hx
      rcases List.mem_cons.1 hx with rfl | hx
      · exact h3.subset hs
      · exact h4 x hx
    · intro r hr
      rcases h6 r hr with h | ⟨y, hy, hr⟩
      · exact Or.inl h
      · exact Or.inr ⟨y, by simp [hy], hr⟩
  | case3 searched c q hs h ih =>
    have hadj : adj g c = g[c] := by unfold adj; rw [List.getElem?_eq_getElem h]; rfl
    obtain ⟨R, h1, h2, h3, h4, h5, h6⟩ := ih
      (by
        intro x hx
        rcases List.mem_append.1 hx with hx | hx
        · exact hq x (by simp [hx])
        · exact hb c x (by rw [hadj]; exact hx))
      (by
        rw [List.nodup_append]
        refine ⟨hnd, by simp, ?_⟩
        intro a ha b hb' hab
        rw [List.mem_singleton] at hb'
        subst hb'; subst hab
        exact hs ha)
      (by
        intro s hs' t ht
        rcases List.mem_append.1 hs' with hs' | hs'
        · rcases hcl s hs' t ht with h | h
          · exact Or.inl (by simp [h])
          · rcases List.mem_cons.1 h with rfl | h
            · exact Or.inl (by simp)
            · exact Or.inr (by simp [h])
        · rw [List.mem_singleton] at hs'
          subst hs'
          rw [hadj] at ht
          exact Or.inr (by simp [ht]))
    refine ⟨R, h1, h2, (List.prefix_append _ _).trans h3, ?_, h5, ?_⟩
    · intro x hx
      rcases List.mem_cons.1 hx with rfl | hx
      · exact h3.subset (by simp)
      · exact h4 x (by simp [hx])
    · intro r hr
      rcases h6 r hr with h' | ⟨y, hy, hr⟩
      · rcases List.mem_append.1 h' with h' | h'
        · exact Or.inl h'
        · rw [List.mem_singleton] at h'
          subst h'
          exact Or.inr ⟨r, by simp, Relation.ReflTransGen.refl⟩
      · rcases List.mem_append.1 hy with hy | hy
        · exact Or.inr ⟨y, by simp [hy], hr⟩
        · exact Or.inr ⟨c, by simp, Relation.ReflTransGen.head (by rw [hadj]; exact hy) hr⟩
  | case4 searched c q hs h =>
    exact absurd (hq c (by simp)) h

theorem bfsFrom_spec (g : G) (hb : InBounds g) (start : ℕ) (hs : start < g.length) :
    ∃ R, bfsFrom g start = .ok R ∧ R.Nodup ∧ ∀ x, x ∈ R ↔ Reach g start x := by
  obtain ⟨R, h1, h2, _, h4, h5, h6⟩ := bfs_spec g hb [start] [] (by simpa using hs) (by simp) (by simp)
  refine ⟨R, h1, h2, fun x => ⟨fun hx => ?_, fun hr => ?_⟩⟩
  · rcases h6 x hx with h | ⟨q, hq, hr⟩
    · simp at h
    · rw [List.mem_singleton] at hq
      subst hq; exact hr
  · unfold Reach at hr
    induction hr with
    | refl => exact h4 start (by simp)
    | tail _ hbc ih => exact h5 _ ih _ hbc

theorem reach_lt (g : G) (hb : InBounds g) {a b : ℕ} (ha : a < g.length) (r : Reach g a b) : b < g.length := by
  unfold Reach at r
  induction r with
  | refl => exact ha
  | tail _ h _ => exact hb _ _ h

theorem bfsLoop_spec (g : G) (hb : InBounds g) (hs : Symm g) (is : List ℕ) (his : ∀ i ∈ is, i < g.length)
    (groups : List (List ℕ)) (counted : List ℕ) (hc : counted = groups.flatten) (hnd : counted.Nodup)
    (hlt : ∀ x ∈ counted, x < g.length)
    (hg : ∀ G ∈ groups, G ≠ [] ∧ ∀ a ∈ G, ∀ b, b ∈ G ↔ Reach g a b) :
    ∃ gs, bfsLoop g is groups counted = .ok gs ∧ gs.flatten.Nodup ∧ (∀ x ∈ gs.flatten, x < g.length) ∧
      (∀ G ∈ gs, G ≠ [] ∧ ∀ a ∈ G, ∀ b, b ∈ G ↔ Reach g a b) ∧ (∀ x ∈ counted, x ∈ gs.flatten) ∧
      ∀ i ∈ is, i ∈ gs.flatten := by
  induction is generalizing groups counted with
  | nil => exact ⟨groups, rfl, hc ▸ hnd, hc ▸ hlt, hg, by rw [hc]; simp, by simp⟩
  | cons i is ih =>
    unfold bfsLoop
    have his' : ∀ i ∈ is, i < g.length := fun j hj => his j (by simp [hj])
    split
    · rename_i hi
      obtain ⟨gs, h1, h2, h3, h4, h5, h6⟩ := ih his' groups counted hc hnd hlt hg
      refine ⟨gs, h1, h2, h3, h4, h5, ?_⟩
      intro j hj
      rcases List.mem_cons.1 hj with rfl | hj
      · exact h5 _ hi
      · exact h6 j hj
    · rename_i hi
      obtain ⟨R, hR, hRn, hRm⟩ := bfsFrom_spec g hb i (his i (by simp))
      rw [hR]
      dsimp only
      have hdisj : ∀ x ∈ R, x ∉ counted := by
        intro x hx hxc
        have hr := (hRm x).1 hx
        rw [hc, List.mem_flatten] at hxc
        obtain ⟨G, hG, hxG⟩ := hxc
        have := ((hg G hG).2 x hxG i).2 (hr.symm hs)
        apply hi
        rw [hc, List.mem_flatten]
        exact ⟨G, hG, this⟩
      obtain ⟨gs, h1, h2, h3, h4, h5, h6⟩ := ih his' (groups ++ [R]) (counted ++ R)
        (by rw [hc]; simp)
        (by
          rw [List.nodup_append]
          refine ⟨hnd, hRn, ?_⟩
          intro a ha b hb' hab
          subst hab
          exact hdisj a hb' ha)
        (by
          intro x hx
          rcases List.mem_append.1 hx with hx | hx
          · exact hlt x hx
          · exact reach_lt g hb (his i (by simp)) ((hRm x).1 hx))
        (by
          intro G hG
          rcases List.mem_append.1 hG with hG | hG
          · exact hg G hG
          · rw [List.mem_singleton] at hG
            subst hG
            refine ⟨List.ne_nil_of_mem ((hRm i).2 Relation.ReflTransGen.refl), ?_⟩
            intro a ha b
            have hra := (hRm a).1 ha
            rw [hRm]
            constructor
            · intro hrb; exact Relation.ReflTransGen.trans (hra.symm hs) hrb
            · intro hab; exact Relation.ReflTransGen.trans hra hab)
      refine ⟨gs, h1, h2, h3, h4, fun x hx => h5 x (by simp [hx]), ?_⟩
      intro j hj
      rcases List.mem_cons.1 hj with rfl | hj
      · exact h5 _ (List.mem_append_right _ ((hRm j).2 Relation.ReflTransGen.refl))
      · exact h6 j hj

theorem graphBfs_spec (g : G) (hb : InBounds g) (hs : Symm g) :
    ∃ gs, graphBfs g = .ok gs ∧ gs.flatten.Perm (List.range g.length) ∧
      ∀ G ∈ gs, G ≠ [] ∧ ∀ a ∈ G, ∀ b, b ∈ G ↔ Reach g a b := by
  obtain ⟨gs, h1, h2, h3, h4, _, h6⟩ := bfsLoop_spec g hb hs (List.range g.length) (fun i hi => List.mem_range.1 hi)
    [] [] rfl (by simp) (by simp) (by simp)
  refine ⟨gs, h1, ?_, h4⟩
  rw [List.perm_ext_iff_of_nodup h2 List.nodup_range]
  intro a
  exact ⟨fun ha => List.mem_range.2 (h3 a ha), h6 a⟩

theorem build_symm (n : ℕ) (pairs : List (ℕ × ℕ)) (h : ∀ p ∈ pairs, p.1 < n ∧ p.2 < n) :
    Symm (build n pairs) := by
  intro a b hab
  rw [mem_adj_build] at *
  refine ⟨?_, hab.2.symm⟩
  rcases hab.2 with h' | h'
  · exact (h _ h').2
  · exact (h _ h').1

theorem build_inBounds (n : ℕ) (pairs : List (ℕ × ℕ)) (h : ∀ p ∈ pairs, p.1 < n ∧ p.2 < n) :
    InBounds (build n pairs) := by
  intro a b hab
  rw [mem_adj_build] at hab
  rw [build_length]
  rcases hab.2 with h' | h'
  · exact (h _ h').2
  · exact (h _ h').1

theorem mem_relatedPairs {α : Type} (f : α → α → Bool) (xs : List α) (i j : ℕ) :
    (i, j) ∈ relatedPairs f xs ↔ i < j ∧ ∃ a b, xs[i]? = some a ∧ xs[j]? = some b ∧ f a b = true := by
  unfold relatedPairs
  simp only [List.mem_flatMap, List.mem_range, List.mem_filterMap]
  constructor
  · rintro ⟨i', hi, j', hj, h⟩
    split at h
    · rename_i hlt
      split at h
      · rename_i a b ha hb
        split at h
        · rename_i hf
          simp only [Option.some.injEq, Prod.mk.injEq] at h
          obtain ⟨rfl, rfl⟩ := h
          exact ⟨hlt, a, b, ha, hb, hf⟩
        · simp at h
      · simp at h
    · simp at h
  · rintro ⟨hlt, a, b, ha, hb, hf⟩
    refine ⟨i, (List.getElem?_eq_some_iff.1 ha).1, j, (List.getElem?_eq_some_iff.1 hb).1, ?_⟩
    simp [hlt, ha, hb, hf]

theorem relatedPairs_lt {α : Type} (f : α → α → Bool) (xs : List α) :
    ∀ p ∈ relatedPairs f xs, p.1 < xs.length ∧ p.2 < xs.length := by
  rintro ⟨i, j⟩ h
  rw [mem_relatedPairs] at h
  obtain ⟨_, a, b, ha, hb, _⟩ := h
  exact ⟨(List.getElem?_eq_some_iff.1 ha).1, (List.getElem?_eq_some_iff.1 hb).1⟩

end Graph
