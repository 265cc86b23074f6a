import Verif.Data.Sched
import Verif.Data.Queue

/-!
# Confluence of scheduled refinement (proof machinery)

The curve is rewritten with relative distances. Completing a job replaces one node by several ones
and leaves all others alone; the normal form obtained by completing all pending gaps is therefore
an invariant of scheduled executions.
-/

set_option linter.unusedSectionVars false

namespace GsSA.APALM

open GsSA

variable {K S : Type*} [Field K] [LinearOrder K] [IsStrictOrderedRing K]
variable {d d' : Data K S} {ps ps' : List (Pt K S)}

/-- A point with its distance from the preceding one. -/
structure RNode (K S : Type*) where
  δ : K
  sol : S
  level : ℕ
  prev : S
  pend : Option ℕ

/-- Relative form of a curve. -/
def relFrom : K → List (Pt K S) → List (RNode K S)
  | _, [] => []
  | t, p :: l => ⟨p.t - t, p.sol, p.level, p.prev, p.pend⟩ :: relFrom p.t l

/-- Absolute flat form. -/
def flatOf : K → List (RNode K S) → List (FlatPoint K S)
  | _, [] => []
  | t, n :: l => ⟨t + n.δ, n.sol, n.level⟩ :: flatOf (t + n.δ) l

theorem flatOf_relFrom (t : K) (ps : List (Pt K S)) : flatOf t (relFrom t ps) = ps.map Pt.flat := by
  induction ps generalizing t with
  | nil => rfl
  | cons p l ih => simp [relFrom, flatOf, ih, Pt.flat]

theorem relFrom_append (t : K) (l : List (Pt K S)) (a : Pt K S) (r : List (Pt K S)) :
    relFrom t (l ++ a :: r) = relFrom t (l ++ [a]) ++ relFrom a.t r := by
  induction l generalizing t with
  | nil => rfl
  | cons p l ih => simp [relFrom, ih]

theorem relFrom_shift (t c : K) (l : List (Pt K S)) :
    relFrom (t + c) (l.map (shiftPt c)) = relFrom t l := by
  induction l generalizing t with
  | nil => rfl
  | cons p l ih => simp [relFrom, ih, shiftPt]

/-- New nodes of a correction. -/
def newNodes (level : ℕ) (pend : Option ℕ) : S → List (K × S) → List (RNode K S)
  | _, [] => []
  | sp, (δ, s) :: r => ⟨δ, s, level, sp, pend⟩ :: newNodes level pend s r

theorem relFrom_newPts (xf : K → K) (level : ℕ) (pend : Option ℕ) (t : K) (sp : S)
    (l : List (K × S)) :
    relFrom t (newPts xf level pend t sp l) = newNodes level pend sp l := by
  induction l generalizing t sp with
  | nil => rfl
  | cons a l ih =>
    obtain ⟨δ, s⟩ := a
    simp [newPts, relFrom, newNodes, ih]

theorem relFrom_newPts_append (xf : K → K) (level : ℕ) (pend : Option ℕ) (t : K) (sp : S)
    (l : List (K × S)) (r : List (Pt K S)) :
    relFrom t (newPts xf level pend t sp l ++ r) =
      newNodes level pend sp l ++ relFrom (t + (l.map Prod.fst).sum) r := by
  induction l generalizing t sp with
  | nil => simp [newPts, newNodes]
  | cons a l ih =>
    obtain ⟨δ, s⟩ := a
    simp [newPts, relFrom, newNodes, ih, add_assoc]

/-- Submission data of a correction with at least one distance. -/
def Corr.toData (c : Corr K S) : SubmitData K S :=
  ⟨c.ds.dropLast, c.ds.getLastD 0, c.sols, c.upper, c.lower⟩

/-- What a completion puts in place of the node `n`, `s` being the solution of its predecessor. -/
def replaceNodes (m : ℕ) (tol : K) (s : S) (n : RNode K S) (ℓ : ℕ) (c : SubmitData K S) :
    List (RNode K S) :=
  newNodes ℓ (c.pendLow m tol n.δ ℓ) s (c.ds.zip c.sols) ++
    [⟨c.δ, n.sol, n.level, n.prev, c.pendUpp m tol n.δ ℓ⟩]

/-- Replace all pending nodes. -/
def walk (g : S → S → RNode K S → ℕ → List (RNode K S)) :
    Option (S × S) → List (RNode K S) → List (RNode K S)
  | _, [] => []
  | pred, n :: l =>
    (match n.pend, pred with
      | some ℓ, some (s, p) => g s p n ℓ
      | _, _ => [n]) ++ walk g (some (n.sol, n.prev)) l

/-- Completion of one gap and recursively of the gaps it creates. -/
def expandGap (corr : Corrector K S) (m : ℕ) (tol : K) :
    ℕ → S → S → RNode K S → ℕ → List (RNode K S)
  | 0, _, _, n, _ => [n]
  | f + 1, s, p, n, ℓ =>
    walk (expandGap corr m tol f) (some (s, p))
      (replaceNodes m tol s n ℓ (corr n.δ s p n.sol).toData)

/-- Predecessor after a list of nodes. -/
def lastPred (pred : Option (S × S)) (l : List (RNode K S)) : Option (S × S) :=
  (l.getLast?.map (fun n => (n.sol, n.prev))).or pred

theorem lastPred_cons (pred : Option (S × S)) (n : RNode K S) (l : List (RNode K S)) :
    lastPred pred (n :: l) = lastPred (some (n.sol, n.prev)) l := by
  cases l with
  | nil => simp [lastPred]
  | cons a l =>
    simp only [lastPred, List.getLast?_cons_cons]
    cases h : (a :: l).getLast? with
    | none => simp at h
    | some x => simp

theorem walk_append (g : S → S → RNode K S → ℕ → List (RNode K S)) (pred : Option (S × S))
    (l r : List (RNode K S)) :
    walk g pred (l ++ r) = walk g pred l ++ walk g (lastPred pred l) r := by
  induction l generalizing pred with
  | nil => simp [walk, lastPred]
  | cons n l ih => simp only [List.cons_append, walk, ih, lastPred_cons, List.append_assoc]

theorem walk_congr {g g' : S → S → RNode K S → ℕ → List (RNode K S)} (l : List (RNode K S))
    (h : ∀ n ∈ l, ∀ ℓ, n.pend = some ℓ → ∀ s p, g s p n ℓ = g' s p n ℓ) (pred : Option (S × S)) :
    walk g pred l = walk g' pred l := by
  induction l generalizing pred with
  | nil => rfl
  | cons n l ih =>
    simp only [walk]
    rw [ih (fun n' hn' => h n' (by simp [hn']))]
    congr 1
    cases hp : n.pend with
    | none => rfl
    | some ℓ =>
      cases pred with
      | none => rfl
      | some sp => exact h n (by simp) ℓ hp sp.1 sp.2

theorem walk_none (g : S → S → RNode K S → ℕ → List (RNode K S)) (pred : Option (S × S))
    (l : List (RNode K S)) (h : ∀ n ∈ l, n.pend = none) : walk g pred l = l := by
  induction l generalizing pred with
  | nil => rfl
  | cons n l ih =>
    simp [walk, h n (by simp), ih _ (fun n' hn' => h n' (by simp [hn']))]

theorem newNodes_mem (level : ℕ) (pend : Option ℕ) (s : S) (l : List (K × S)) :
    ∀ n ∈ newNodes level pend s l, n.pend = pend := by
  induction l generalizing s with
  | nil => simp [newNodes]
  | cons a l ih =>
    obtain ⟨δ, s'⟩ := a
    intro n hn
    simp only [newNodes, List.mem_cons] at hn
    rcases hn with rfl | hn
    · rfl
    · exact ih _ n hn

theorem replaceNodes_pend {m : ℕ} {tol : K} {s : S} {n : RNode K S} {ℓ : ℕ} {c : SubmitData K S} :
    ∀ n' ∈ replaceNodes m tol s n ℓ c, ∀ ℓ', n'.pend = some ℓ' → ℓ' = ℓ + 1 ∧ ℓ < m := by
  intro n' hn' ℓ' hp
  rcases List.mem_append.1 hn' with hn' | hn'
  · rw [newNodes_mem _ _ _ _ n' hn', SubmitData.pendLow] at hp
    split at hp
    · rename_i hc
      exact ⟨by simpa using hp.symm, hc.1⟩
    · simp at hp
  · simp only [List.mem_singleton] at hn'
    subst hn'
    simp only [SubmitData.pendUpp] at hp
    split at hp
    · rename_i hc
      exact ⟨by simpa using hp.symm, hc.1⟩
    · simp at hp

theorem expandGap_stable (corr : Corrector K S) (m : ℕ) (tol : K) (f : ℕ) :
    ∀ (s p : S) (n : RNode K S) (ℓ : ℕ), 1 + (m - ℓ) ≤ f →
      expandGap corr m tol (f + 1) s p n ℓ = expandGap corr m tol f s p n ℓ := by
  induction f with
  | zero => intro s p n ℓ h; omega
  | succ f ih =>
    intro s p n ℓ h
    rw [expandGap, expandGap]
    apply walk_congr
    intro n' hn' ℓ' hp s' p'
    obtain ⟨h1, h2⟩ := replaceNodes_pend n' hn' ℓ' hp
    exact ih s' p' n' ℓ' (by omega)

/-- The normal form of a gap. -/
def gapNF (corr : Corrector K S) (m : ℕ) (tol : K) : S → S → RNode K S → ℕ → List (RNode K S) :=
  expandGap corr m tol (m + 1)

theorem gapNF_unfold (corr : Corrector K S) (m : ℕ) (tol : K) (s p : S) (n : RNode K S) (ℓ : ℕ) :
    gapNF corr m tol s p n ℓ = walk (gapNF corr m tol) (some (s, p))
      (replaceNodes m tol s n ℓ (corr n.δ s p n.sol).toData) := by
  rw [gapNF, expandGap]
  apply walk_congr
  intro n' hn' ℓ' hp s' p'
  obtain ⟨h1, h2⟩ := replaceNodes_pend n' hn' ℓ' hp
  exact (expandGap_stable corr m tol m s' p' n' ℓ' (by omega)).symm

/-- The normal form of a curve: all pending gaps completed. -/
def curveNF (corr : Corrector K S) (m : ℕ) (tol : K) (ps : List (Pt K S)) : List (RNode K S) :=
  walk (gapNF corr m tol) none (relFrom 0 ps)

theorem lastPred_relFrom (pred : Option (S × S)) (t : K) (l : List (Pt K S)) (a : Pt K S) :
    lastPred pred (relFrom t (l ++ [a])) = some (a.sol, a.prev) := by
  induction l generalizing t pred with
  | nil => simp [relFrom, lastPred]
  | cons p l ih => simp only [List.cons_append, relFrom, lastPred_cons, ih]

theorem lastPred_replaceNodes (pred : Option (S × S)) (m : ℕ) (tol : K) (s : S) (n : RNode K S)
    (ℓ : ℕ) (c : SubmitData K S) :
    lastPred pred (replaceNodes m tol s n ℓ c) = some (n.sol, n.prev) := by
  simp [lastPred, replaceNodes]

/-- The relative form of the curve after a submission. -/
theorem relFrom_curve {s : SubmitData K S} {m : ℕ} {tol : K} {pre : List (Pt K S)} {a b : Pt K S}
    {post : List (Pt K S)} {ℓ : ℕ} (hok : SubmitOK s a b) :
    relFrom 0 (s.curve m tol pre a b post ℓ) =
      relFrom 0 (pre ++ [a]) ++ replaceNodes m tol a.sol ⟨b.t - a.t, b.sol, b.level, b.prev, b.pend⟩
        ℓ s ++ relFrom b.t post := by
  rw [SubmitData.curve, relFrom_append, List.append_assoc]
  congr 1
  rw [SubmitData.newPts, relFrom_newPts_append, hok.zip_fst, replaceNodes, List.append_assoc]
  congr 1
  simp only [relFrom, SubmitData.endPt, List.cons_append, List.nil_append]
  congr 1
  · congr 1; ring
  · exact relFrom_shift _ _ _

/-- Completing a job with its own correction does not change the normal form. -/
theorem curveNF_complete {corr : Corrector K S} {m : ℕ} {tol : K} {pre : List (Pt K S)}
    {a b : Pt K S} {post : List (Pt K S)} {ℓ : ℕ} (hp : b.pend = some ℓ)
    (hok : SubmitOK (corr (b.t - a.t) a.sol a.prev b.sol).toData a b) :
    curveNF corr m tol ((corr (b.t - a.t) a.sol a.prev b.sol).toData.curve m tol pre a b post ℓ) =
      curveNF corr m tol (pre ++ a :: b :: post) := by
  unfold curveNF
  rw [relFrom_curve hok, relFrom_append 0 pre a (b :: post), walk_append, walk_append, walk_append,
    lastPred_relFrom]
  simp only [relFrom, walk, hp]
  rw [gapNF_unfold, List.append_assoc]
  congr 2
  have : lastPred none (relFrom 0 (pre ++ [a]) ++ replaceNodes m tol a.sol
      ⟨b.t - a.t, b.sol, b.level, b.prev, some ℓ⟩ ℓ
      (corr (b.t - a.t) a.sol a.prev b.sol).toData) = some (b.sol, b.prev) := by
    have h1 : lastPred none (relFrom 0 (pre ++ [a]) ++ replaceNodes m tol a.sol
        ⟨b.t - a.t, b.sol, b.level, b.prev, some ℓ⟩ ℓ
        (corr (b.t - a.t) a.sol a.prev b.sol).toData) =
      lastPred none (replaceNodes m tol a.sol
        ⟨b.t - a.t, b.sol, b.level, b.prev, some ℓ⟩ ℓ
        (corr (b.t - a.t) a.sol a.prev b.sol).toData) := by
      simp [lastPred, replaceNodes]
    rw [h1, lastPred_replaceNodes]
  rw [this]

/-- Appending a computed point to a normal form. -/
def appendNF (corr : Corrector K S) (m : ℕ) (tol : K) (l : List (RNode K S)) (x : K × S) :
    List (RNode K S) :=
  match l.getLast? with
  | none => l ++ [⟨x.1, x.2, 0, x.2, none⟩]
  | some n => l ++ gapNF corr m tol n.sol n.prev ⟨x.1, x.2, 0, n.sol, some 1⟩ 1

theorem gapNF_last (corr : Corrector K S) (m : ℕ) (tol : K) (f : ℕ) :
    ∀ (s p : S) (n : RNode K S) (ℓ : ℕ), ∃ l n', expandGap corr m tol f s p n ℓ = l ++ [n'] ∧
      n'.sol = n.sol ∧ n'.prev = n.prev := by
  induction f with
  | zero => intro s p n ℓ; exact ⟨[], n, rfl, rfl, rfl⟩
  | succ f ih =>
    intro s p n ℓ
    rw [expandGap, replaceNodes, walk_append]
    generalize (lastPred (some (s, p)) _ : Option (S × S)) = pred
    simp only [walk, List.append_nil]
    split
    · rename_i ℓ' s' p' h1
      obtain ⟨l, n', h2, h3, h4⟩ := ih s' p' ⟨(corr n.δ s p n.sol).toData.δ, n.sol, n.level, n.prev,
        (corr n.δ s p n.sol).toData.pendUpp m tol n.δ ℓ⟩ ℓ'
      rw [h2]
      exact ⟨_, n', (List.append_assoc _ _ _).symm, h3, h4⟩
    · exact ⟨_, _, rfl, rfl, rfl⟩

theorem walk_last (corr : Corrector K S) (m : ℕ) (tol : K) (l : List (RNode K S)) (n : RNode K S)
    (pred : Option (S × S)) : ∃ l' n', walk (gapNF corr m tol) pred (l ++ [n]) = l' ++ [n'] ∧
      n'.sol = n.sol ∧ n'.prev = n.prev := by
  rw [walk_append]
  generalize (lastPred pred l : Option (S × S)) = pred'
  simp only [walk, List.append_nil]
  split
  · rename_i ℓ' s' p' h1
    obtain ⟨l, n', h2, h3, h4⟩ := gapNF_last corr m tol (m + 1) s' p' n ℓ'
    rw [gapNF, h2]
    exact ⟨_, n', (List.append_assoc _ _ _).symm, h3, h4⟩
  · exact ⟨_, _, rfl, rfl, rfl⟩

theorem relFrom_ne_nil (t : K) (l : List (Pt K S)) (p : Pt K S) :
    ∃ l' n, relFrom t (l ++ [p]) = l' ++ [n] ∧ n.sol = p.sol ∧ n.prev = p.prev := by
  induction l generalizing t with
  | nil => exact ⟨[], _, rfl, rfl, rfl⟩
  | cons q l ih =>
    obtain ⟨l', n, h1, h2⟩ := ih q.t
    exact ⟨⟨q.t - t, q.sol, q.level, q.prev, q.pend⟩ :: l', n, by simp [relFrom, h1], h2⟩

theorem curveNF_append {corr : Corrector K S} {m : ℕ} {tol : K} (l : List (Pt K S)) (p : Pt K S)
    (δ : K) (sol : S) :
    curveNF corr m tol (l ++ [p] ++ [appendPt (l ++ [p]) p (p.t + δ) sol]) =
      appendNF corr m tol (curveNF corr m tol (l ++ [p])) (δ, sol) := by
  unfold curveNF appendNF
  have : l ++ [p] ++ [appendPt (l ++ [p]) p (p.t + δ) sol] =
    l ++ p :: [appendPt (l ++ [p]) p (p.t + δ) sol] := by simp
  rw [this, relFrom_append, walk_append, lastPred_relFrom]
  obtain ⟨l', n, h1, h2, h3⟩ := relFrom_ne_nil 0 l p
  obtain ⟨l'', n', h4, h5, h6⟩ := walk_last corr m tol l' n none
  rw [h1, h4]
  simp only [List.getLast?_append, List.getLast?_singleton, Option.some_or]
  simp [relFrom, walk, appendPt, h5, h6, h2, h3]

/-! ## The invariant of scheduled executions -/

/-- A handed-out job agrees with the current state of the branch. -/
def OutOK (d : Data K S) (x : Popped K S × S) : Prop :=
  ∃ j, Active d x.1.id j ∧ (0 < j.level → x.1.dt = jobWidth d x.1.id ∧
    OMap.get? d.sols j.lo = some x.1.start ∧ OMap.get? d.prevs j.lo = some x.1.prev ∧
    OMap.get? d.sols j.hi = some x.2)

/-- Invariant. -/
structure SInv (s : Sched K S) (ps : List (Pt K S)) : Prop where
  rep : Rep s.data ps
  out : ∀ x ∈ s.out, OutOK s.data x
  ids : (s.out.map (fun x => x.1.id)).Nodup

theorem AbsStep.keeps {op : Op K S} (hs : AbsStep d op ps ps') {p : Pt K S} (hp : p ∈ ps) :
    ∃ p' ∈ ps', p'.xi = p.xi ∧ p'.sol = p.sol ∧ p'.prev = p.prev := by
  cases hs with
  | addStart => simp at hp
  | init times sols h2 hs hlen => simp at hp
  | appendFirst => simp at hp
  | appendData => exact ⟨p, List.mem_append_left _ hp, rfl, rfl, rfl⟩
  | appendPoint => exact ⟨p, hp, rfl, rfl, rfl⟩
  | pop => exact ⟨p, hp, rfl, rfl, rfl⟩
  | finish => exact ⟨p, hp, rfl, rfl, rfl⟩
  | setLength => exact ⟨p, hp, rfl, rfl, rfl⟩
  | readFlat => exact ⟨p, hp, rfl, rfl, rfl⟩
  | readTimes => exact ⟨p, hp, rfl, rfl, rfl⟩
  | readReference => exact ⟨p, hp, rfl, rfl, rfl⟩
  | drop id' pre a b post ℓ hpe hact =>
    simp only [List.mem_append, List.mem_cons] at hp
    rcases hp with hr | hr | hr | hr
    · exact ⟨p, by simp [hr], rfl, rfl, rfl⟩
    · exact ⟨p, by simp [hr], rfl, rfl, rfl⟩
    · exact ⟨{ b with pend := none }, by simp, by rw [hr], by rw [hr], by rw [hr]⟩
    · exact ⟨p, by simp [hr], rfl, rfl, rfl⟩
  | complete id' ds sols u l hne pre a b post ℓ hpe hact hok =>
    simp only [List.mem_append, List.mem_cons] at hp
    unfold SubmitData.curve
    rcases hp with hr | hr | hr | hr
    · exact ⟨p, by simp [hr], rfl, rfl, rfl⟩
    · exact ⟨p, by simp [hr], rfl, rfl, rfl⟩
    · exact ⟨(submitDataOf ds sols u l hne).endPt d.maxLevel d.tol a b ℓ, by simp,
        by rw [hr]; rfl, by rw [hr]; rfl, by rw [hr]; rfl⟩
    · refine ⟨shiftPt ((submitDataOf ds sols u l hne).ds.sum + (submitDataOf ds sols u l hne).δ -
        (b.t - a.t)) p, ?_, rfl, rfl, rfl⟩
      · simp only [List.mem_append, List.mem_cons, List.mem_map]
        exact Or.inr (Or.inr (Or.inr (Or.inr ⟨p, hr, rfl⟩)))

/-- Active jobs survive every call that does not finish them. -/
theorem Frame.keeps {op : Op K S} (hf : Frame d op d') (_h : Rep d ps) {id : ℕ} {j : Job K}
    (hj : Active d id j) (hne : ∀ id' ds sols u l, op = .complete id' ds sols u l → id' ≠ id)
    (hne' : ∀ id', op = .finish id' → id' ≠ id) : Active d' id j := by
  rw [Active, hf.jobs]
  cases op with
  | pop =>
    simp only [nextJobs]
    split
    · rw [OMap.get?_append, hj]; rfl
    · exact hj
  | complete id' ds sols u l =>
    simp only [nextJobs]
    rw [OMap.get?_erase_ne (hne _ _ _ _ _ rfl).symm]
    exact hj
  | finish id' =>
    simp only [nextJobs]
    rw [OMap.get?_erase_ne (hne' _ rfl).symm]
    exact hj
  | addStart => exact hj
  | init => exact hj
  | appendPoint => exact hj
  | appendData => exact hj
  | setLength => exact hj
  | readFlat => exact hj
  | readTimes => exact hj
  | readReference => exact hj

theorem OutOK.step {op : Op K S} {x : Popped K S × S} (hx : OutOK d x) (h : Rep d ps)
    (h' : Rep d' ps') (ha : AbsStep d op ps ps') (hf : Frame d op d')
    (hne : ∀ id' ds sols u l, op = .complete id' ds sols u l → id' ≠ x.1.id)
    (hne' : ∀ id', op = .finish id' → id' ≠ x.1.id) : OutOK d' x := by
  obtain ⟨j, hj, hl⟩ := hx
  have hj' := hf.keeps h hj hne hne'
  refine ⟨j, hj', fun h0 => ?_⟩
  obtain ⟨h1, h2, h3, h4⟩ := hl h0
  refine ⟨by rw [h1, ha.width h h' hf hj hj'], ?_⟩
  obtain ⟨p, hp, hpx⟩ := h.job_lo (mem_allJobs_of_get hj)
  obtain ⟨q, hq, hqx⟩ := h.job_hi (mem_allJobs_of_get hj)
  obtain ⟨p', hp', e1, e2, e3⟩ := ha.keeps hp
  obtain ⟨q', hq', e4, e5, e6⟩ := ha.keeps hq
  rw [← hpx, ← e1, h'.get_sols hp', h'.get_prevs hp', ← hqx, ← e4, h'.get_sols hq']
  rw [← hpx, h.get_sols hp] at h2
  rw [← hpx, h.get_prevs hp] at h3
  rw [← hqx, h.get_sols hq] at h4
  rw [e2, e3, e5]
  exact ⟨h2, h3, h4⟩

theorem SInv.start {d : Data K S} (h : Rep d ps) : SInv ⟨d, []⟩ ps :=
  ⟨h, by simp, by simp⟩

theorem SInv.step {corr : Corrector K S} (hcorr : CorrOK corr) {s s' : Sched K S}
    {lab : List (K × S)} (hs : SStep corr s lab s') (h : SInv s ps) :
    ∃ ps', SInv s' ps' ∧
      curveNF corr s'.data.maxLevel s'.data.tol ps' =
        lab.foldl (appendNF corr s.data.maxLevel s.data.tol)
          (curveNF corr s.data.maxLevel s.data.tol ps) ∧
      s'.data.maxLevel = s.data.maxLevel ∧ s'.data.tol = s.data.tol := by
  cases hs with
  | @pop d d₁ d₂ r ref out hpop href =>
    have hr : Rep d ps := h.rep
    have hne : d.queue ≠ [] := by
      intro hn
      unfold APALM.pop at hpop
      rw [hn] at hpop
      split at hpop <;> simp at hpop
    obtain ⟨j, q, hq⟩ := List.exists_cons_of_ne_nil hne
    have hjm : j ∈ allJobs d := by simp [allJobs, hq]
    obtain ⟨p, hp, hpx⟩ := hr.job_lo hjm
    obtain ⟨p', hp', hpx'⟩ := hr.job_hi hjm
    obtain ⟨d', ps', hx, hr', ha, hf⟩ := hr.step .pop hne
    rw [hr.pop_eq hq hp hpx hp' hpx'] at hpop
    injection hpop with hpop
    injection hpop with e1 e2
    have hd' : d' = d₁ := by
      simp only [exec] at hx
      rw [hr.pop_eq hq hp hpx hp' hpx'] at hx
      simp only [Except.map, Except.ok.injEq] at hx
      rw [← hx, e2]
    subst hd'
    cases ha with
    | pop =>
    have hact : Active d' r.id j := by
      rw [← e1, ← e2, Active, APALM.popState]
      simp only
      rw [OMap.get?_append, OMap.get?_eq_none.2 (fun x hx => ne_of_lt (hr.ids x hx))]
      simp [OMap.get?]
    rw [hr'.getReferenceByID_eq hact hp' hpx'] at href
    simp only [Prod.mk.injEq, Option.some.injEq] at href
    obtain ⟨href, hdd⟩ := href
    subst hdd
    refine ⟨ps, ⟨hr', ?_, ?_⟩, ?_, ?_, ?_⟩
    · intro x hx
      rcases List.mem_append.1 hx with hx | hx
      · exact (h.out x hx).step hr hr' (.pop ps) hf (by simp) (by simp)
      · simp only [List.mem_singleton] at hx
        subst hx
        refine ⟨j, hact, fun h0 => ?_⟩
        rw [hr'.jobWidth_eq hact hp hp' hpx hpx', ← hpx, ← hpx', hr'.get_sols hp, hr'.get_prevs hp,
          hr'.get_sols hp', ← e1]
        simp only [href, and_true]
        rw [if_neg (by omega)]
    · rw [List.map_append, List.nodup_append]
      refine ⟨h.ids, by simp, ?_⟩
      intro a ha b hb
      simp only [List.map_cons, List.map_nil, List.mem_singleton] at hb
      obtain ⟨x, hx, rfl⟩ := List.mem_map.1 ha
      obtain ⟨j', hj', -⟩ := h.out x hx
      rw [hb, ← e1]
      exact ne_of_lt (hr.active_lt hj')
    · simp [← e2, APALM.popState]
    · simp [← e2, APALM.popState]
    · simp [← e2, APALM.popState]
  | @complete d d' r ref out₁ out₂ hlev hsub =>
    have hr : Rep d ps := h.rep
    obtain ⟨j, hj, hout⟩ := h.out (r, ref) (by simp)
    simp only [jobLevel, hr.jobIndex hj] at hlev
    obtain ⟨h1, h2, h3, h4⟩ := hout hlev
    obtain ⟨p, hp, hpx⟩ := hr.job_lo (mem_allJobs_of_get hj)
    obtain ⟨q, hq, hqx⟩ := hr.job_hi (mem_allJobs_of_get hj)
    obtain ⟨pre, a, b, post, he, hje, hbp⟩ := hr.job_gap (mem_allJobs_of_get hj) hlev
    have hpa : p = a := eq_of_xi hr.sortedXi hp (by simp [he]) (by rw [hpx, hje])
    have hqb : q = b := eq_of_xi hr.sortedXi hq (by simp [he]) (by rw [hqx, hje])
    subst hpa hqb
    rw [hr.jobWidth_eq hj hp hq hpx hqx] at h1
    rw [← hpx, hr.get_sols hp] at h2
    rw [← hpx, hr.get_prevs hp] at h3
    rw [← hqx, hr.get_sols hq] at h4
    simp only [Option.some.injEq] at h1 h2 h3 h4
    have hpq : p.t < q.t := by
      have := hr.sortedT
      rw [he] at this
      simp only [List.pairwise_append, List.pairwise_cons, List.mem_cons, forall_eq_or_imp] at this
      exact this.2.1.1.1
    obtain ⟨c1, c2, c3⟩ := hcorr (q.t - p.t) p.sol p.prev q.sol (sub_pos.2 hpq)
    rw [h1, ← h2, ← h3, ← h4] at hsub
    set c := corr (q.t - p.t) p.sol p.prev q.sol with hc
    have hct : Contract d (.complete r.id c.ds c.sols c.upper c.lower) := by
      refine ⟨j, hj, hlev, c1, c2, ?_⟩
      rw [hr.jobTimes_eq hj hp hq hpx hqx]
      exact c3
    obtain ⟨d'', ps', hx, hr', ha, hf⟩ := hr.step _ hct
    have hd'' : d'' = finishJob d' r.id := by
      simp only [exec, hsub, Except.map, Except.ok.injEq] at hx
      exact hx.symm
    subst hd''
    have hids := h.ids
    simp only [List.map_append, List.map_cons] at hids
    have hmax : (finishJob d' r.id).maxLevel = d.maxLevel ∧ (finishJob d' r.id).tol = d.tol := by
      subst he
      have hj' : OMap.get? d.jobs r.id = some ⟨p.xi, q.xi, j.level⟩ := by rw [← hje]; exact hj
      have hok : SubmitOK c.toData p q :=
        { len := by simp [Corr.toData, c1]
          pos := fun x hx => c2 x (List.mem_of_mem_dropLast hx)
          posLast := by
            have hne : c.ds ≠ [] := by intro hn; rw [hn] at c1; simp at c1
            simp only [Corr.toData, List.getLastD_eq_getLast?,
              List.getLast?_eq_getLast_of_ne_nil hne]
            exact c2 _ (List.getLast_mem hne)
          ensure := c3 }
      have hds : c.toData.ds ++ [c.toData.δ] = c.ds := by
        have hne : c.ds ≠ [] := by intro hn; rw [hn] at c1; simp at c1
        simp only [Corr.toData, List.getLastD_eq_getLast?,
          List.getLast?_eq_getLast_of_ne_nil hne]
        exact List.dropLast_append_getLast hne
      have := hr.submit_eq hj' hok
      rw [hds] at this
      rw [show submit d r.id c.ds c.sols c.upper c.lower = _ from this] at hsub
      injection hsub with hsub
      rw [← hsub]
      exact ⟨rfl, rfl⟩
    refine ⟨ps', ⟨hr', ?_, ?_⟩, ?_, hmax.1, hmax.2⟩
    · intro x hx'
      have hne : x.1.id ≠ r.id := by
        intro hh
        rw [List.nodup_append, List.nodup_cons] at hids
        rcases List.mem_append.1 hx' with hx' | hx'
        · exact hids.2.2 x.1.id (List.mem_map.2 ⟨x, hx', rfl⟩) r.id (by simp) hh
        · exact hids.2.1.1 (List.mem_map.2 ⟨x, hx', hh⟩)
      refine (h.out x ?_).step hr hr' ha hf ?_ ?_
      · rcases List.mem_append.1 hx' with hx' | hx' <;> simp [hx']
      · intro id' ds sols u l hop
        simp only [Op.complete.injEq] at hop
        rw [← hop.1]
        exact hne.symm
      · intro id' hop
        simp at hop
    · simp only [List.map_append]
      exact hids.sublist (List.Sublist.append_left (List.sublist_cons_self _ _) _)
    · simp only [List.foldl_nil]
      rw [hmax.1, hmax.2]
      cases ha with
      | complete _ _ _ _ _ hne pre' a' b' post' ℓ hp' hact hok =>
        rw [Active, hj] at hact
        injection hact with hact
        have hpa : p = a' := eq_of_xi hr.sortedXi hp (by simp) (by rw [hpx, hact])
        have hqb : q = b' := eq_of_xi hr.sortedXi hq (by simp) (by rw [hqx, hact])
        subst hpa hqb
        have hd : submitDataOf c.ds c.sols c.upper c.lower hne = c.toData := by
          simp only [submitDataOf, Corr.toData, List.getLastD_eq_getLast?,
            List.getLast?_eq_getLast_of_ne_nil hne, Option.getD_some]
        rw [hd] at hok ⊢
        rw [hc]
        exact curveNF_complete hp' hok
  | @finish d r ref out₁ out₂ hlev =>
    have hr : Rep d ps := h.rep
    obtain ⟨j, hj, hout⟩ := h.out (r, ref) (by simp)
    simp only [jobLevel, hr.jobIndex hj] at hlev
    obtain ⟨d'', ps', hx, hr', ha, hf⟩ := hr.step (.finish r.id) trivial
    simp only [exec, Except.ok.injEq] at hx
    subst hx
    have hids := h.ids
    simp only [List.map_append, List.map_cons] at hids
    have hps : ps' = ps := by
      cases ha with
      | finish => rfl
      | drop _ pre a b post ℓ hp hact =>
        exfalso
        rw [Active, hj] at hact
        injection hact with hact
        have := hr.pendPos b (by simp) ℓ hp
        rw [hact] at hlev
        simp only at hlev
        omega
    subst hps
    refine ⟨ps', ⟨hr', ?_, ?_⟩, rfl, rfl, rfl⟩
    · intro x hx'
      have hne : x.1.id ≠ r.id := by
        intro hh
        rw [List.nodup_append, List.nodup_cons] at hids
        rcases List.mem_append.1 hx' with hx' | hx'
        · exact hids.2.2 x.1.id (List.mem_map.2 ⟨x, hx', rfl⟩) r.id (by simp) hh
        · exact hids.2.1.1 (List.mem_map.2 ⟨x, hx', hh⟩)
      refine (h.out x ?_).step hr hr' ha hf ?_ ?_
      · rcases List.mem_append.1 hx' with hx' | hx' <;> simp [hx']
      · intro id' ds sols u l hop
        simp at hop
      · intro id' hop
        simp only [Op.finish.injEq] at hop
        rw [← hop]
        exact hne.symm
    · simp only [List.map_append]
      exact hids.sublist (List.Sublist.append_left (List.sublist_cons_self _ _) _)
  | @append d d' δ sol b out hδ happ =>
    have hr : Rep d ps := h.rep
    by_cases hne : ps = []
    · subst hne
      obtain ⟨d'', ps', hx, hr', ha, hf⟩ := hr.step (.appendData (d.t.getLastD 0 + δ) sol b) (by
        intro x hx
        rw [hr.t] at hx
        simp at hx)
      simp only [exec, happ, Except.ok.injEq] at hx
      subst hx
      have hmax : d'.maxLevel = d.maxLevel ∧ d'.tol = d.tol := by
        rw [appendData_first_eq hr.isFresh] at happ
        injection happ with happ
        rw [← happ]
        exact ⟨rfl, rfl⟩
      refine ⟨ps', ⟨hr', fun x hx => (h.out x hx).step hr hr' ha hf (by simp) (by simp), h.ids⟩, ?_,
        hmax.1, hmax.2⟩
      rw [hmax.1, hmax.2]
      generalize hps : ([] : List (Pt K S)) = ps at ha
      cases ha with
      | appendFirst => simp [curveNF, relFrom, walk, appendNF, hr.t]
      | appendData _ _ _ l' p' ht' => simp at hps
    · obtain ⟨l, p, rfl⟩ := exists_last hne
      have hlast : d.t.getLastD 0 = p.t := by rw [hr.t]; simp
      have ht : p.t < p.t + δ := by linarith
      rw [hlast] at happ
      have hc : Contract d (.appendData (p.t + δ) sol b) := by
        intro x hx
        rw [hr.t] at hx
        simp only [List.map_append, List.map_cons, List.map_nil, List.mem_append,
          List.mem_singleton] at hx
        rcases hx with hx | hx
        · obtain ⟨q, hq, rfl⟩ := List.mem_map.1 hx
          exact lt_trans (hr.last_lt q hq).2 ht
        · rw [hx]; exact ht
      obtain ⟨d'', ps', hx, hr', ha, hf⟩ := hr.step (.appendData (p.t + δ) sol b) hc
      simp only [exec, happ, Except.ok.injEq] at hx
      subst hx
      have hmax : d'.maxLevel = d.maxLevel ∧ d'.tol = d.tol := by
        rw [hr.appendData_eq ht sol b] at happ
        injection happ with happ
        rw [← happ]
        exact ⟨rfl, rfl⟩
      refine ⟨ps', ⟨hr', fun x hx => (h.out x hx).step hr hr' ha hf (by simp) (by simp), h.ids⟩, ?_,
        hmax.1, hmax.2⟩
      rw [hmax.1, hmax.2]
      generalize hps : l ++ [p] = ps at ha
      cases ha with
      | appendFirst => simp at hps
      | appendData _ _ _ l' p' ht' =>
        obtain ⟨e1, e2⟩ := List.append_inj' hps rfl
        simp only [List.cons.injEq, and_true] at e2
        subst e1 e2
        simp only [List.foldl_cons, List.foldl_nil]
        exact curveNF_append l p δ sol
  | @appendPoint d d' b out happ =>
    have hr : Rep d ps := h.rep
    have hc : Contract d (.appendPoint b) := by
      intro hn
      unfold APALM.appendPoint at happ
      rw [hn] at happ
      simp at happ
    obtain ⟨d'', ps', hx, hr', ha, hf⟩ := hr.step _ hc
    simp only [exec, happ, Except.ok.injEq] at hx
    subst hx
    have hmax : d'.maxLevel = d.maxLevel ∧ d'.tol = d.tol := by
      unfold APALM.appendPoint at happ
      split at happ
      · simp at happ
      · injection happ with happ
        rw [← happ]
        exact ⟨rfl, rfl⟩
    refine ⟨ps', ⟨hr', fun x hx => (h.out x hx).step hr hr' ha hf (by simp) (by simp), h.ids⟩, ?_,
      hmax.1, hmax.2⟩
    rw [hmax.1, hmax.2]
    cases ha with
    | appendPoint => rfl
  | @times d r ref out hmem =>
    have hr : Rep d ps := h.rep
    obtain ⟨j, hj, hout⟩ := h.out (r, ref) hmem
    obtain ⟨d'', ps', hx, hr', ha, hf⟩ := hr.step (.readTimes r.id) ⟨j, hj⟩
    simp only [exec, Except.ok.injEq] at hx
    subst hx
    have hmax : (jobTimes d r.id).2.maxLevel = d.maxLevel ∧ (jobTimes d r.id).2.tol = d.tol :=
      ⟨rfl, rfl⟩
    refine ⟨ps', ⟨hr', fun x hx => (h.out x hx).step hr hr' ha hf (by simp) (by simp), h.ids⟩, ?_,
      hmax.1, hmax.2⟩
    rw [hmax.1, hmax.2]
    cases ha with
    | readTimes => rfl
  | @setLength d dt out =>
    have hr : Rep d ps := h.rep
    obtain ⟨d'', ps', hx, hr', ha, hf⟩ := hr.step (.setLength dt) trivial
    simp only [exec, Except.ok.injEq] at hx
    subst hx
    refine ⟨ps', ⟨hr', fun x hx => (h.out x hx).step hr hr' ha hf (by simp) (by simp), h.ids⟩, ?_,
      rfl, rfl⟩
    cases ha with
    | setLength => rfl

theorem SInv.run {corr : Corrector K S} (hcorr : CorrOK corr) {s s' : Sched K S}
    {lab : List (K × S)} (hs : SRun corr s lab s') (h : SInv s ps) :
    ∃ ps', SInv s' ps' ∧
      curveNF corr s'.data.maxLevel s'.data.tol ps' =
        lab.foldl (appendNF corr s.data.maxLevel s.data.tol)
          (curveNF corr s.data.maxLevel s.data.tol ps) ∧
      s'.data.maxLevel = s.data.maxLevel ∧ s'.data.tol = s.data.tol := by
  induction hs generalizing ps with
  | nil s => exact ⟨ps, h, rfl, rfl, rfl⟩
  | cons hstep _ ih =>
    obtain ⟨ps₁, h₁, e₁, m₁, t₁⟩ := h.step hcorr hstep
    obtain ⟨ps₂, h₂, e₂, m₂, t₂⟩ := ih h₁
    refine ⟨ps₂, h₂, ?_, m₂.trans m₁, t₂.trans t₁⟩
    rw [e₂, List.foldl_append, e₁, m₁, t₁]

theorem Rep.drained_pend (h : Rep d ps) (hd : Drained d) : ∀ p ∈ ps, p.pend = none := by
  have hg : gaps ps = [] := by
    have := h.jobs
    rw [List.filter_eq_nil_iff.2] at this
    · exact List.perm_nil.1 this.symm
    · intro j hj
      have := hd j hj
      simp [this]
  have key : ∀ l : List (Pt K S), gaps l = [] → ∀ p ∈ l.tail, p.pend = none := by
    intro l
    induction l with
    | nil => simp
    | cons a l ih =>
      cases l with
      | nil => simp
      | cons b l =>
        intro hg
        simp only [gaps, List.append_eq_nil_iff] at hg
        intro p hp
        simp only [List.tail_cons, List.mem_cons] at hp
        rcases hp with hp | hp
        · subst hp
          have := hg.1
          unfold gapJob at this
          split at this
          · simp at this
          · assumption
        · exact ih hg.2 p (by simpa using hp)
  intro p hp
  cases ps with
  | nil => simp at hp
  | cons a l =>
    rcases List.mem_cons.1 hp with hp | hp
    · subst hp
      exact (h.head0 p (by simp)).2
    · exact key _ hg p (by simpa using hp)

theorem relFrom_pend (t : K) (l : List (Pt K S)) (h : ∀ p ∈ l, p.pend = none) :
    ∀ n ∈ relFrom t l, n.pend = none := by
  induction l generalizing t with
  | nil => simp [relFrom]
  | cons p l ih =>
    intro n hn
    simp only [relFrom, List.mem_cons] at hn
    rcases hn with rfl | hn
    · exact h p (by simp)
    · exact ih _ (fun q hq => h q (by simp [hq])) n hn

theorem Rep.flat_drained (h : Rep d ps) (hd : Drained d) (corr : Corrector K S) (m : ℕ) (tol : K) :
    flat d = flatOf 0 (curveNF corr m tol ps) := by
  rw [h.flat_eq, curveNF, walk_none _ _ _ (relFrom_pend 0 ps (h.drained_pend hd)), flatOf_relFrom]

end GsSA.APALM
