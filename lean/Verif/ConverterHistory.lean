import Verif.ConverterLemmas
import Verif.Spec.Converter
/-! # Histories of calls on a converter: event log and status -/

namespace Conv
open Py Spec

/-- An API call on a converter. -/
inductive Op (S D : Type) where
  | parse (s : S) (idxs : List Int)
  | restore (pages : List (RawPage D))

/-- The effect of a call on the pages. -/
def Op.run {S L D : Type} (eng : Engine S L) (load : D → L → L) (ps : Pages L) : Op S D → Pages L
  | .parse s idxs => Conv.parse eng s idxs ps
  | .restore rs => (Conv.restore load rs ps).1

/-- The classification of one page-parsing attempt. -/
def evOf {L : Type} : Outcome L → Ev
  | .ok _ => .done
  | .parseFail _ => .undone
  | .loadFail _ _ => .noEffect

/-- Event log of the attempts made while parsing `idxs`, starting from `ps`. -/
def parseLog {S L : Type} (eng : Engine S L) (s : S) : List Int → Pages L → List (Nat × Ev)
  | [], _ => []
  | i :: is, ps =>
    (match normIdx ps.length i with
     | some k => (match ps[k]? with
        | some p => [(k, evOf (eng k s p.layout))]
        | none => [])
     | none => []) ++ parseLog eng s is (parseOne eng s ps i)

/-- Event log of restoring stored pages. -/
def restoreLog {L D : Type} : List (RawPage D) → Pages L → List (Nat × Ev)
  | [], _ => []
  | r :: rs, ps => match normIdx ps.length (r.id.getD (-1)) with
    | some k => (k, .done) :: restoreLog rs ps
    | none => []

/-- Event log of a history of calls. -/
def opLog {S L D : Type} (eng : Engine S L) (load : D → L → L) : List (Op S D) → Pages L → List (Nat × Ev)
  | [], _ => []
  | op :: ops, ps =>
    (match op with
     | .parse s idxs => parseLog eng s (effective ps.length idxs) ps
     | .restore rs => restoreLog rs ps) ++ opLog eng load ops (op.run eng load ps)

/-- Effect of an event on the status of a page. -/
def stepStatus (k : Nat) (b : Bool) (x : Nat × Ev) : Bool :=
  if x.1 = k then (match x.2 with
      | .done => true | .undone => false | .noEffect => b) else b

/-- Status of a page after a sequence of events. -/
def status (k : Nat) (l : List (Nat × Ev)) (b : Bool) : Bool := l.foldl (stepStatus k) b

theorem status_append (k : Nat) (l₁ l₂ : List (Nat × Ev)) (b : Bool) :
    status k (l₁ ++ l₂) b = status k l₂ (status k l₁ b) := by
  simp [status]

theorem status_true_iff (k : Nat) (log : List (Nat × Ev)) (b : Bool) :
    status k log b = true ↔ Converted log k ∨ (b = true ∧ (k, Ev.undone) ∉ log) := by
  induction log generalizing b with
  | nil => simp [status, Converted]
  | cons e es ih =>
    obtain ⟨j, e⟩ := e
    rw [show status k ((j, e) :: es) b = status k es (stepStatus k b (j, e)) from rfl, ih]
    have hc : Converted ((j, e) :: es) k ↔ Converted es k ∨ (j = k ∧ e = Ev.done ∧ (k, Ev.undone) ∉ es) := by
      constructor
      · rintro ⟨bf, af, h1, h2⟩
        cases bf with
        | nil =>
          simp only [List.nil_append, List.cons.injEq, Prod.mk.injEq] at h1
          obtain ⟨⟨rfl, rfl⟩, rfl⟩ := h1
          exact Or.inr ⟨rfl, rfl, h2⟩
        | cons x bf =>
          simp only [List.cons_append, List.cons.injEq] at h1
          exact Or.inl ⟨bf, af, h1.2, h2⟩
      · rintro (⟨bf, af, h1, h2⟩ | ⟨rfl, rfl, h⟩)
        · exact ⟨(j, e) :: bf, af, by simp [h1], h2⟩
        · exact ⟨[], es, rfl, h⟩
    rw [hc]
    by_cases hjk : j = k
    · subst hjk
      cases e <;> simp [stepStatus] <;> grind
    · have h3 : ¬ k = j := fun h => hjk h.symm
      simp [hjk, h3, stepStatus]

theorem finalized_parseLog {S L : Type} (eng : Engine S L) (s : S) (is : List Int) (ps : Pages L) (k : Nat)
    (p : PageSt L) (hp : ps[k]? = some p) :
    ∃ q, (is.foldl (parseOne eng s) ps)[k]? = some q ∧ q.finalized = status k (parseLog eng s is ps) p.finalized := by
  induction is generalizing ps p with
  | nil => exact ⟨p, hp, rfl⟩
  | cons i is ih =>
    rw [List.foldl_cons, parseLog, status_append]
    have hg := parseOne_get eng s ps i k
    by_cases h : normIdx ps.length i = some k
    · rw [if_pos h, hp, Option.map_some] at hg
      obtain ⟨q, h1, h2⟩ := ih _ _ hg
      refine ⟨q, h1, ?_⟩
      rw [h2, h]
      simp only [hp]
      congr 1
      unfold PageSt.parse evOf
      split <;> rename_i heq <;> simp [status, stepStatus, heq]
    · rw [if_neg h, hp] at hg
      obtain ⟨q, h1, h2⟩ := ih _ _ hg
      refine ⟨q, h1, ?_⟩
      rw [h2]
      congr 1
      split
      · rename_i j hj
        have hjk : j ≠ k := fun e => h (by rw [hj, e])
        split <;> simp [status, stepStatus, hjk]
      · rfl

theorem finalized_restoreLog {L D : Type} (load : D → L → L) (rs : List (RawPage D)) (ps : Pages L) (k : Nat)
    (p : PageSt L) (hp : ps[k]? = some p) :
    ∃ q, (Conv.restore load rs ps).1[k]? = some q ∧ q.finalized = status k (restoreLog rs ps) p.finalized := by
  have hlen : ∀ (rs : List (RawPage D)) (ps ps' : Pages L), ps.length = ps'.length →
      restoreLog rs ps = restoreLog rs ps' := by
    intro rs
    induction rs with
    | nil => intros; rfl
    | cons r rs ih => intro ps ps' h; simp only [restoreLog, h]; rw [ih _ _ h]
  induction rs generalizing ps p with
  | nil => exact ⟨p, hp, rfl⟩
  | cons r rs ih =>
    unfold Conv.restore restoreLog
    split
    · rename_i j hj
      simp only [hj]
      have hg : (ps.modify j (PageSt.restore load r.id r.data))[k]? =
          some (if j = k then PageSt.restore load r.id r.data p else p) := by
        rw [List.getElem?_modify, hp]; rfl
      obtain ⟨q, h1, h2⟩ := ih _ _ hg
      refine ⟨q, h1, ?_⟩
      rw [h2, hlen rs _ ps (by simp)]
      by_cases hjk : j = k <;> simp [hjk, PageSt.restore, status, stepStatus]
    · rename_i hj
      simp only [hj]
      exact ⟨p, hp, rfl⟩


end Conv
