import Verif.Driver.StepsProps
import Verif.Driver.SolveProps
import Verif.MPI.Guarded

/-!
# Jobs done by solvers with a state (C114)

The results on `solve` and `parallelSolve` (C27, C73) are about results which are functions of what is sent to the
worker. Here the workers have a solver with a state, which is kept from job to job, and the results are computed by
`_initiation` and `_correction`. If the solvers have the same settings the results do not depend on the rest of the
state, hence neither do the curves.
-/

set_option linter.unusedSectionVars false

namespace GsSA.APALM

open GsSA MPI

variable {A K S : Type*} [Field K] [LinearOrder K] [IsStrictOrderedRing K]

/-! ### The jobs -/

/-- Does a step end with a status for which the functions are written? -/
def Status.clean (st : Status) : Bool := st == .success || Status.halves st

/-- All steps of the loop of `_initiation` end with such a status. -/
def initClean (M : Solver A K S) (start : S) : ℕ → IState A K → Bool
  | 0, _ => false
  | fuel + 1, s =>
    let (st, a) := M.step s.alm
    if Status.halves st then
      initClean M start fuel { alm := M.setSolution (M.setLength a (s.dL / 2)) start, dL := s.dL / 2 }
    else st == .success

/-- All steps of the loop of `_correction` end with such a status, and the loop ends. -/
def corrClean (M : Solver A K S) (dL0 : K) : ℕ → CState A K S → Bool
  | 0, _ => false
  | fuel + 1, s =>
    if s.k = s.n then true else Status.clean (M.step s.alm).1 && corrClean M dL0 fuel (corrBody M dL0 s)

/-- `gsAPALM.hpp` 612-640, 736-770 and 866-925: a worker does an initiation or a correction, depending on the level,
and keeps its solver for the next job. A job which does not end within `fuel` steps or fails does not give a result;
the executions below are free of such jobs. -/
def doJob (M : Solver A K S) (N fuel : ℕ) (a : A) (i : Item K S) : (ℕ × ℕ × Payload K S) × A :=
  if i.level = 0 then
    match initiation M fuel a i.job.dt i.job.start i.job.prev with
    | some r => ((i.branch, i.job.id, .init ⟨r.distance, r.sols, r.bifurcation⟩), r.alm)
    | none => ((i.branch, i.job.id, .init ⟨0, [], false⟩), a)
  else
    match corrLoop M (i.job.dt / N) fuel (corrStart M N a i.job.dt i.job.start i.job.prev) with
    | none => ((i.branch, i.job.id, .corr ⟨[], [], 0, 0⟩), a)
    | some s =>
      match corrFinish M i.job.start i.ref s with
      | .error _ => ((i.branch, i.job.id, .corr ⟨[], [], 0, 0⟩), s.alm)
      | .ok c => ((i.branch, i.job.id, .corr c), s.alm)

/-- The same for `parallelSolve`, which has corrections only: `gsAPALM.hpp` 371-397, 446-469. -/
def doCorr (M : Solver A K S) (N fuel : ℕ) (a : A) (i : Item K S) : (ℕ × ℕ × Corr K S) × A :=
  match corrLoop M (i.job.dt / N) fuel (corrStart M N a i.job.dt i.job.start i.job.prev) with
  | none => ((i.branch, i.job.id, ⟨[], [], 0, 0⟩), a)
  | some s =>
    match corrFinish M i.job.start i.ref s with
    | .error _ => ((i.branch, i.job.id, ⟨[], [], 0, 0⟩), s.alm)
    | .ok c => ((i.branch, i.job.id, c), s.alm)

/-- The contract of `submit` for a correction of an interval of length `dt` (`CorrOK`). -/
def fits (dt : K) (c : Corr K S) : Bool :=
  decide (c.ds.length = c.sols.length + 1) && c.ds.all (fun x => decide (0 < x)) &&
    decide ((dt - c.ds.dropLast.sum) / dt < 1 / 10 ^ 12)

/-- A correction which ends, without steps that fail in other ways than `NotConverged` and `AssemblyError`, and
whose result is accepted; done with the solver `a`. -/
def goodCorr (M : Solver A K S) (N fuel : ℕ) (a : A) (i : Item K S) : Bool :=
  corrClean M (i.job.dt / N) fuel (corrStart M N a i.job.dt i.job.start i.job.prev) &&
    match correction M N fuel a i.job.dt i.job.start i.job.prev i.ref with
    | some (.ok c) => fits i.job.dt c
    | _ => false

/-- The same for an initiation: the distance is positive. -/
def goodInit (M : Solver A K S) (fuel : ℕ) (a : A) (i : Item K S) : Bool :=
  initClean M i.job.start fuel
      ⟨M.setPrevious (M.setSolution (M.setLength a i.job.dt) i.job.start) i.job.prev, i.job.dt⟩ &&
    match initiation M fuel a i.job.dt i.job.start i.job.prev with
    | some r => decide (0 < r.distance)
    | none => false

/-- The same for a job of `solve`. -/
def goodJob (M : Solver A K S) (N fuel : ℕ) (a : A) (i : Item K S) : Bool :=
  if i.level = 0 then goodInit M fuel a i else goodCorr M N fuel a i

/-! ### Agreement -/

/-- `E` relates solvers with the same settings, `R` solvers which behave alike in steps, `Q` solvers which measure
alike. -/
structure Agrees (M : Solver A K S) (E R Q : A → A → Prop) : Prop where
  restart : ∀ {a b}, E a b → ∀ l x y, R (M.setPrevious (M.setSolution (M.setLength a l) x) y)
    (M.setPrevious (M.setSolution (M.setLength b l) x) y)
  retry : ∀ {a b}, R a b → ∀ l x, R (M.setSolution (M.setLength a l) x) (M.setSolution (M.setLength b l) x)
  length : ∀ {a b}, R a b → ∀ l, R (M.setLength a l) (M.setLength b l)
  status : ∀ {a b}, R a b → (M.step a).1 = (M.step b).1
  step : ∀ {a b}, R a b → R (M.step a).2 (M.step b).2
  success : ∀ {a b}, R a b → (M.step a).1 = .success → Q (M.step a).2 (M.step b).2
  measure : ∀ {a b}, Q a b → ∀ l, Q (M.setLength a l) (M.setLength b l)
  sol : ∀ {a b}, R a b → M.sol a = M.sol b
  dist : ∀ {a b}, Q a b → ∀ x y, M.dist a x y = M.dist b x y
  singular : ∀ a x, M.singular a x = (false, a)
  keepsLength : ∀ {a b}, E a b → ∀ l, E a (M.setLength b l)
  keepsSolution : ∀ {a b}, E a b → ∀ x, E a (M.setSolution b x)
  keepsPrevious : ∀ {a b}, E a b → ∀ x, E a (M.setPrevious b x)
  keepsStep : ∀ {a b}, E a b → E a (M.step b).2

variable {M : Solver A K S} {E R Q : A → A → Prop}

/-- Loop states of `_correction` that agree. -/
structure SameLoop (R Q : A → A → Prop) (s t : CState A K S) : Prop where
  alm : R s.alm t.alm
  measure : s.k = s.n → s.sols ≠ [] → Q s.alm t.alm
  k : s.k = t.k
  n : s.n = t.n
  dL : s.dL = t.dL
  rem : s.rem = t.rem
  bisected : s.bisected = t.bisected
  old : s.old = t.old
  sols : s.sols = t.sols
  ds : s.ds = t.ds

theorem Agrees.body (h : Agrees M E R Q) {dL0 : K} {s t : CState A K S} (hst : SameLoop R Q s t) (hk : s.k ≠ s.n)
    (hc : Status.clean (M.step s.alm).1 = true) : SameLoop R Q (corrBody M dL0 s) (corrBody M dL0 t) := by
  have h1 := h.status hst.alm
  have h2 := h.step hst.alm
  unfold corrBody
  simp only [← h1]
  by_cases hh : Status.halves (M.step s.alm).1 = true
  · rw [if_pos hh, if_pos hh]
    refine ⟨?_, fun hn => absurd hn hk, hst.k, hst.n, by simp [hst.dL], by simp [hst.rem, hst.dL], rfl, hst.old,
      hst.sols, hst.ds⟩
    rw [← hst.dL, ← hst.old]
    exact h.retry h2 _ _
  · rw [if_neg hh, if_neg hh]
    have hs : (M.step s.alm).1 = .success := by
      simp only [Status.clean, Bool.or_eq_true, beq_iff_eq] at hc
      rcases hc with hc | hc
      · exact hc
      · exact absurd hc hh
    have h3 := h.success hst.alm hs
    have h4 := h.sol h2
    simp only [← hst.bisected, ← hst.rem]
    refine ⟨h.length h2 _, fun _ _ => h.measure h3 _, by simp [hst.k], by simp [hst.n], rfl, rfl, rfl, h4, ?_, ?_⟩
    · simp [hst.sols, h4]
    · simp [hst.ds, ← hst.old, ← h4, h.dist h3]

theorem Agrees.loop (h : Agrees M E R Q) {dL0 : K} (fuel : ℕ) {s t : CState A K S} (hst : SameLoop R Q s t)
    (hc : corrClean M dL0 fuel s = true) :
    ∃ s' t', corrLoop M dL0 fuel s = some s' ∧ corrLoop M dL0 fuel t = some t' ∧ SameLoop R Q s' t' ∧
      s'.k = s'.n := by
  induction fuel generalizing s t with
  | zero => simp [corrClean] at hc
  | succ f ih =>
    simp only [corrClean] at hc
    simp only [corrLoop, ← hst.k, ← hst.n]
    by_cases hk : s.k = s.n
    · rw [if_pos hk, if_pos hk]
      exact ⟨s, t, rfl, rfl, hst, hk⟩
    · rw [if_neg hk, Bool.and_eq_true] at hc
      rw [if_neg hk, if_neg hk]
      exact ih (h.body hst hk hc.1) hc.2

theorem Agrees.start (h : Agrees M E R Q) {a b : A} (hab : E a b) (N : ℕ) (dt : K) (x y : S) :
    SameLoop R Q (corrStart M N a dt x y) (corrStart M N b dt x y) :=
  ⟨h.restart hab _ _ _, fun _ hs => absurd rfl hs, rfl, rfl, rfl, rfl, rfl, rfl, rfl, rfl⟩

theorem Agrees.finish (h : Agrees M E R Q) {s t : CState A K S} (hst : SameLoop R Q s t) (hk : s.k = s.n)
    (x ref : S) : corrFinish M x ref s = corrFinish M x ref t := by
  unfold corrFinish
  rw [← hst.sols]
  rcases hl : s.sols.getLast? with _ | last
  · rfl
  · have hq := hst.measure hk (by
      intro h0
      simp [h0] at hl)
    simp only [h.dist hq, h.sol hst.alm, hst.ds]

/-- A correction does not depend on the past of the solver. -/
theorem Agrees.correction (h : Agrees M E R Q) {a b : A} (hab : E a b) {N fuel : ℕ} {dt : K} {x y : S}
    (hc : corrClean M (dt / N) fuel (corrStart M N a dt x y) = true) (ref : S) :
    APALM.correction M N fuel b dt x y ref = APALM.correction M N fuel a dt x y ref := by
  obtain ⟨s, t, h1, h2, h3, h4⟩ := h.loop fuel (h.start hab N dt x y) hc
  simp only [APALM.correction, h1, h2, Option.map_some, h.finish h3 h4]

theorem Agrees.initLoop (h : Agrees M E R Q) {x : S} (fuel : ℕ) {s t : IState A K} (ha : R s.alm t.alm)
    (hd : s.dL = t.dL) (hc : initClean M x fuel s = true) :
    ∃ s' t', APALM.initLoop M x fuel s = some s' ∧ APALM.initLoop M x fuel t = some t' ∧ R s'.alm t'.alm ∧
      Q s'.alm t'.alm := by
  induction fuel generalizing s t with
  | zero => simp [initClean] at hc
  | succ f ih =>
    have h1 := h.status ha
    have h2 := h.step ha
    simp only [initClean] at hc
    simp only [APALM.initLoop, ← h1, ← hd]
    by_cases hh : Status.halves (M.step s.alm).1 = true
    · rw [if_pos hh] at hc
      rw [if_pos hh, if_pos hh]
      exact ih (h.retry h2 _ _) rfl hc
    · rw [if_neg hh, beq_iff_eq] at hc
      rw [if_neg hh, if_neg hh, if_pos hc, if_pos hc]
      exact ⟨_, _, rfl, rfl, h2, h.success ha hc⟩

/-- What an initiation returns. -/
def Initiated.res (r : Initiated A K S) : InitRes K S := ⟨r.distance, r.sols, r.bifurcation⟩

/-- An initiation does not depend on the past of the solver; without a bifurcation there is one solution. -/
theorem Agrees.initiation (h : Agrees M E R Q) {a b : A} (hab : E a b) {fuel : ℕ} {dt : K} {x y : S}
    (hc : initClean M x fuel ⟨M.setPrevious (M.setSolution (M.setLength a dt) x) y, dt⟩ = true) :
    ∃ r r', APALM.initiation M fuel a dt x y = some r ∧ APALM.initiation M fuel b dt x y = some r' ∧
      r'.res = r.res ∧ r.bifurcation = false ∧ ∃ z, r.sols = [z] := by
  obtain ⟨s, t, h1, h2, h3, h4⟩ := h.initLoop (x := x)
    (s := ⟨M.setPrevious (M.setSolution (M.setLength a dt) x) y, dt⟩)
    (t := ⟨M.setPrevious (M.setSolution (M.setLength b dt) x) y, dt⟩) fuel (h.restart hab dt x y) rfl hc
  refine ⟨_, _, by rw [APALM.initiation, h1]; rfl, by rw [APALM.initiation, h2]; rfl, ?_⟩
  simp only [h.singular, Bool.false_eq_true, if_false, Initiated.res, h.dist h4, h.sol h3]
  exact ⟨trivial, trivial, _, rfl⟩

/-! ### The settings are kept -/

theorem Agrees.keepsBody (h : Agrees M E R Q) {a : A} {dL0 : K} {s : CState A K S} (hs : E a s.alm) :
    E a (corrBody M dL0 s).alm := by
  unfold corrBody
  by_cases hh : Status.halves (M.step s.alm).1 = true
  · simp only [hh, if_true]
    exact h.keepsSolution (h.keepsLength (h.keepsStep hs) _) _
  · simp only [hh, Bool.false_eq_true, if_false]
    exact h.keepsLength (h.keepsStep hs) _

theorem Agrees.keepsLoop (h : Agrees M E R Q) {a : A} {dL0 : K} (fuel : ℕ) {s s' : CState A K S} (hs : E a s.alm)
    (hr : corrLoop M dL0 fuel s = some s') : E a s'.alm := by
  induction fuel generalizing s with
  | zero => simp [corrLoop] at hr
  | succ f ih =>
    simp only [corrLoop] at hr
    split at hr
    · cases hr
      exact hs
    · exact ih (h.keepsBody hs) hr

theorem Agrees.keepsStart (h : Agrees M E R Q) {a b : A} (hs : E a b) (l : K) (x y : S) :
    E a (M.setPrevious (M.setSolution (M.setLength b l) x) y) :=
  h.keepsPrevious (h.keepsSolution (h.keepsLength hs _) _) _

theorem Agrees.keepsInit (h : Agrees M E R Q) {a : A} {x : S} (fuel : ℕ) {s s' : IState A K} (hs : E a s.alm)
    (hr : APALM.initLoop M x fuel s = some s') : E a s'.alm := by
  induction fuel generalizing s with
  | zero => simp [APALM.initLoop] at hr
  | succ f ih =>
    simp only [APALM.initLoop] at hr
    split at hr
    · exact ih (h.keepsSolution (h.keepsLength (h.keepsStep hs) _) _) hr
    · split at hr
      · cases hr
        exact h.keepsStep hs
      · exact ih (h.keepsStep hs) hr

theorem Agrees.keepsCorr (h : Agrees M E R Q) {a b : A} (hs : E a b) (N fuel : ℕ) (i : Item K S) :
    E a (doCorr M N fuel b i).2 := by
  unfold doCorr
  split
  · exact hs
  · rename_i s hl
    have := h.keepsLoop fuel (h.keepsStart hs _ _ _) hl
    split <;> exact this

theorem Agrees.keepsJob (h : Agrees M E R Q) {a b : A} (hs : E a b) (N fuel : ℕ) (i : Item K S) :
    E a (doJob M N fuel b i).2 := by
  unfold doJob
  split
  · split
    · rename_i r hr
      rw [APALM.initiation, Option.map_eq_some_iff] at hr
      obtain ⟨s, hs', hr⟩ := hr
      have := h.keepsInit fuel (h.keepsStart hs _ _ _) hs'
      rw [← hr]
      simp only [h.singular, Bool.false_eq_true, if_false]
      exact this
    · exact hs
  · split
    · exact hs
    · rename_i s hl
      have := h.keepsLoop fuel (h.keepsStart hs _ _ _) hl
      split <;> exact this

/-! ### Results as functions of the job -/

/-- A correction that would be accepted. -/
def dummyCorr (dt : K) (x : S) : Corr K S := ⟨[dt, 1], [x], 0, 0⟩

/-- The correction with a given solver, where it is good. -/
def corrOf (M : Solver A K S) (N fuel : ℕ) (a : A) : Corrector K S := fun dt x y ref =>
  match correction M N fuel a dt x y ref with
  | some (.ok c) => if fits dt c then c else dummyCorr dt x
  | _ => dummyCorr dt x

/-- The initiation with a given solver, where it is good. -/
def initOf (M : Solver A K S) (fuel : ℕ) (a : A) : Initiator K S := fun dt x y =>
  match initiation M fuel a dt x y with
  | some r =>
    match r.sols with
    | [z] => if 0 < r.distance then ⟨r.distance, [z], false⟩ else ⟨1, [x], false⟩
    | _ => ⟨1, [x], false⟩
  | none => ⟨1, [x], false⟩

theorem fits_iff (dt : K) (c : Corr K S) : fits dt c = true ↔ c.ds.length = c.sols.length + 1 ∧
    (∀ x ∈ c.ds, 0 < x) ∧ (dt - c.ds.dropLast.sum) / dt < 1 / 10 ^ 12 := by
  simp [fits, and_assoc]

theorem fits_dummy {dt : K} (hd : 0 < dt) (x : S) : fits dt (dummyCorr dt x) = true := by
  rw [fits_iff]
  refine ⟨rfl, ?_, ?_⟩
  · simp [dummyCorr, hd]
  · simp [dummyCorr]

theorem corrOf_ok (M : Solver A K S) (N fuel : ℕ) (a : A) : CorrOK (corrOf M N fuel a) := by
  intro dt x y ref hd
  rw [← fits_iff]
  unfold corrOf
  split
  · split
    · assumption
    · exact fits_dummy hd x
  · exact fits_dummy hd x

theorem initOf_ok (M : Solver A K S) (fuel : ℕ) (a : A) : InitOK (initOf M fuel a) := by
  intro dt x y
  unfold initOf
  split
  · split
    · split <;> simp_all
    · simp
  · simp

theorem initOf_simple (M : Solver A K S) (fuel : ℕ) (a : A) (dt : K) (x y : S) :
    (initOf M fuel a dt x y).bifurcation = false := by
  unfold initOf
  split
  · split
    · split <;> rfl
    · rfl
  · rfl

theorem corrOf_good {N fuel : ℕ} {a : A} {i : Item K S} (hg : goodCorr M N fuel a i = true) :
    ∃ c, correction M N fuel a i.job.dt i.job.start i.job.prev i.ref = some (.ok c) ∧
      corrOf M N fuel a i.job.dt i.job.start i.job.prev i.ref = c := by
  simp only [goodCorr, Bool.and_eq_true] at hg
  obtain ⟨-, hg⟩ := hg
  split at hg
  · rename_i c hc
    exact ⟨c, hc, by simp [corrOf, hc, hg]⟩
  · cases hg

theorem doCorr_correction {N fuel : ℕ} {a : A} {i : Item K S} {c : Corr K S}
    (hc : correction M N fuel a i.job.dt i.job.start i.job.prev i.ref = some (.ok c)) :
    (doCorr M N fuel a i).1 = (i.branch, i.job.id, c) := by
  rw [correction, Option.map_eq_some_iff] at hc
  obtain ⟨s, h1, h2⟩ := hc
  simp only [doCorr, h1, h2]

theorem Agrees.doCorr (h : Agrees M E R Q) {a b : A} (hab : E a b) {N fuel : ℕ} {i : Item K S}
    (hg : goodCorr M N fuel a i = true) : (APALM.doCorr M N fuel b i).1 = corrWork (corrOf M N fuel a) i := by
  obtain ⟨c, h1, h2⟩ := corrOf_good hg
  simp only [goodCorr, Bool.and_eq_true] at hg
  rw [doCorr_correction ((h.correction hab hg.1 i.ref).trans h1), corrWork, h2]

theorem Agrees.doJob (h : Agrees M E R Q) {a b : A} (hab : E a b) {N fuel : ℕ} {i : Item K S}
    (hg : goodJob M N fuel a i = true) :
    (APALM.doJob M N fuel b i).1 = solveWork (initOf M fuel a) (corrOf M N fuel a) i := by
  simp only [goodJob] at hg
  split at hg
  · rename_i hl
    simp only [goodInit, Bool.and_eq_true] at hg
    obtain ⟨hc, hg⟩ := hg
    obtain ⟨r, r', h1, h2, h3, h4, z, h5⟩ := h.initiation hab hc
    simp only [h1, decide_eq_true_eq] at hg
    have h3' : (⟨r'.distance, r'.sols, r'.bifurcation⟩ : InitRes K S) = ⟨r.distance, r.sols, r.bifurcation⟩ := h3
    simp only [APALM.doJob, hl, if_true, h2, solveWork, h3']
    simp only [initOf, h1, h5, hg, if_true, h4]
  · rename_i hl
    obtain ⟨c, h1, h2⟩ := corrOf_good hg
    simp only [goodCorr, Bool.and_eq_true] at hg
    have h3 := (h.correction hab hg.1 i.ref).trans h1
    rw [APALM.correction, Option.map_eq_some_iff] at h3
    obtain ⟨s, h4, h5⟩ := h3
    simp only [APALM.doJob, hl, if_false, h4, h5, solveWork, h2]

open Classical in
/-- Work which gives these results for all states of the solver. -/
noncomputable def tame {T : Type*} (E : A → A → Prop) (a : A) (G : Item K S → Bool)
    (work : A → Item K S → T × A) (f : Item K S → T) : A → Item K S → T × A :=
  fun b i => if E a b ∧ G i = true then work b i else (f i, b)

theorem tame_eq {T : Type*} {a b : A} {G : Item K S → Bool} {work : A → Item K S → T × A} {f : Item K S → T}
    {i : Item K S} (hb : E a b) (hi : G i = true) : tame E a G work f b i = work b i := by
  simp [tame, hb, hi]

theorem tame_fst {T : Type*} {a : A} {G : Item K S → Bool} {work : A → Item K S → T × A} {f : Item K S → T}
    (h : ∀ b i, E a b → G i = true → (work b i).1 = f i) (b : A) (i : Item K S) :
    (tame E a G work f b i).1 = f i := by
  unfold tame
  split
  · rename_i hc
    exact h b i hc.1 hc.2
  · rfl

/-- The jobs done by `single`. -/
def singleJobs {D J T : Type*} (sv : Server D J T) (work : A → J → T × A) : ℕ → A → D → List J
  | 0, _, _ => []
  | n + 1, a, d =>
    if sv.empty d then []
    else
      match sv.pop d with
      | .error _ => []
      | .ok (j, d₁) =>
        j :: match sv.submit d₁ (work a j).1 with
        | .error _ => []
        | .ok d₂ => singleJobs sv work n (work a j).2 d₂

theorem single_congr {D J T : Type*} {sv : Server D J T} {work work' : A → J → T × A} {I : A → Prop} {G : J → Prop}
    (hI : ∀ a j, I a → G j → I (work a j).2) (he : ∀ a j, I a → G j → work' a j = work a j) (n : ℕ) (a : A) (d : D)
    (ha : I a) (hj : ∀ j ∈ singleJobs sv work n a d, G j) : single sv work' n a d = single sv work n a d := by
  induction n generalizing a d with
  | zero => rfl
  | succ n ih =>
    simp only [single, singleJobs] at hj ⊢
    split
    · rfl
    · rename_i h0
      rw [if_neg h0] at hj
      split
      · rfl
      · rename_i j d₁ hp
        simp only [hp, List.mem_cons, forall_eq_or_imp] at hj
        rw [he a j ha hj.1]
        split
        · rfl
        · rename_i d₂ hs
          simp only [hs] at hj
          exact ih _ _ (hI a j ha hj.1) hj.2

/-- The jobs done by `solveSingle`. -/
def solveSingleJobs (p : SolveParams K S) (getLen : A → K) (work : A → Item K S → (ℕ × ℕ × Payload K S) × A)
    (maxIt : ℕ) : ℕ → ℕ → A → SolveState K S → List (Item K S)
  | 0, _, _, _ => []
  | fuel + 1, it, a, s =>
    if s.data.empty = true ∨ maxIt ≤ it then []
    else
      match solvePop s with
      | .error _ => []
      | .ok (j, s₁) =>
        j :: match solveSubmit p (getLen (work a j).2) s₁ (work a j).1 with
        | .error _ => []
        | .ok s₂ => solveSingleJobs p getLen work maxIt fuel (if j.level = 0 then it else it + 1) (work a j).2 s₂

theorem solveSingle_congr {p : SolveParams K S} {getLen : A → K}
    {work work' : A → Item K S → (ℕ × ℕ × Payload K S) × A} {I : A → Prop} {G : Item K S → Prop}
    (hI : ∀ a j, I a → G j → I (work a j).2) (he : ∀ a j, I a → G j → work' a j = work a j) {maxIt : ℕ}
    (fuel it : ℕ) (a : A) (s : SolveState K S) (ha : I a)
    (hj : ∀ j ∈ solveSingleJobs p getLen work maxIt fuel it a s, G j) :
    solveSingle p getLen work' maxIt fuel it a s = solveSingle p getLen work maxIt fuel it a s := by
  induction fuel generalizing it a s with
  | zero => rfl
  | succ n ih =>
    simp only [solveSingle, solveSingleJobs] at hj ⊢
    split
    · rfl
    · rename_i h0
      rw [if_neg h0] at hj
      split
      · rfl
      · rename_i j d₁ hp
        simp only [hp, List.mem_cons, forall_eq_or_imp] at hj
        rw [he a j ha hj.1]
        split
        · rfl
        · rename_i d₂ hs
          simp only [hs] at hj
          exact ih _ _ _ (hI a j ha hj.1) hj.2

/-! ### The curves -/

/-- `parallelSolve` with solvers that have a state: two executions with any number of processes, any order of
events and any past of the solvers give the same curves. -/
theorem Agrees.parallel (h : Agrees M E R Q) {a₀ : A} {N fuel : ℕ} {c₀ : Container K S}
    (hc : ∀ d ∈ c₀, ReadyBranch d) {P₁ P₂ max₁ max₂ : ℕ} {pool₁ pool₂ : List ℕ} (hp₁ : ∀ w ∈ pool₁, w ∈ ranks P₁)
    (hp₂ : ∀ w ∈ pool₂, w ∈ ranks P₂) {a₁ a₂ : ℕ → A} (h₁ : ∀ w, E a₀ (a₁ w)) (h₂ : ∀ w, E a₀ (a₂ w)) {n₁ n₂ : ℕ}
    {s₁ s₂ : State (Container K S) A (Item K S) (ℕ × ℕ × Corr K S)}
    (r₁ : RunIn (corrServer K S) (APALM.doCorr M N fuel) P₁ max₁ (fun i => goodCorr M N fuel a₀ i = true)
      (MPI.start c₀ pool₁ a₁) n₁ s₁)
    (r₂ : RunIn (corrServer K S) (APALM.doCorr M N fuel) P₂ max₂ (fun i => goodCorr M N fuel a₀ i = true)
      (MPI.start c₀ pool₂ a₂) n₂ s₂)
    (f₁ : s₁.phase = .finished) (f₂ : s₂.phase = .finished)
    (e₁ : s₁.data.empty = true) (e₂ : s₂.data.empty = true) : s₁.data.map flat = s₂.data.map flat := by
  have hI : ∀ b i, E a₀ b → goodCorr M N fuel a₀ i = true → E a₀ (APALM.doCorr M N fuel b i).2 :=
    fun b i hb _ => h.keepsCorr hb N fuel i
  have he : ∀ b i, E a₀ b → goodCorr M N fuel a₀ i = true →
      tame E a₀ (goodCorr M N fuel a₀) (APALM.doCorr M N fuel) (corrWork (corrOf M N fuel a₀)) b i =
        APALM.doCorr M N fuel b i := fun b i hb hi => tame_eq hb hi
  exact C27_process_independence (corrOf_ok M N fuel a₀) hc
    (work := tame E a₀ (goodCorr M N fuel a₀) (APALM.doCorr M N fuel) (corrWork (corrOf M N fuel a₀)))
    (tame_fst fun b i hb hi => h.doCorr hb hi) hp₁ hp₂ (r₁.replace hI he h₁).1 (r₂.replace hI he h₂).1 f₁ f₂ e₁ e₂

/-- … and the same as `parallelSolve` without MPI. -/
theorem Agrees.parallelSingle (h : Agrees M E R Q) {a₀ : A} {N fuel : ℕ} {c₀ : Container K S}
    (hc : ∀ d ∈ c₀, ReadyBranch d) {P max₁ max₂ : ℕ} {pool : List ℕ} (hp : ∀ w ∈ pool, w ∈ ranks P)
    {a₁ : ℕ → A} {a₂ a' : A} (h₁ : ∀ w, E a₀ (a₁ w)) (h₂ : E a₀ a₂) {n : ℕ}
    {s : State (Container K S) A (Item K S) (ℕ × ℕ × Corr K S)} {c : Container K S}
    (r : RunIn (corrServer K S) (APALM.doCorr M N fuel) P max₁ (fun i => goodCorr M N fuel a₀ i = true)
      (MPI.start c₀ pool a₁) n s) (f : s.phase = .finished) (e : s.data.empty = true)
    (r' : single (corrServer K S) (APALM.doCorr M N fuel) max₂ a₂ c₀ = .ok (c, a'))
    (hj : ∀ i ∈ singleJobs (corrServer K S) (APALM.doCorr M N fuel) max₂ a₂ c₀, goodCorr M N fuel a₀ i = true)
    (e' : c.empty = true) : s.data.map flat = c.map flat := by
  have hI : ∀ b i, E a₀ b → goodCorr M N fuel a₀ i = true → E a₀ (APALM.doCorr M N fuel b i).2 :=
    fun b i hb _ => h.keepsCorr hb N fuel i
  have he : ∀ b i, E a₀ b → goodCorr M N fuel a₀ i = true →
      tame E a₀ (goodCorr M N fuel a₀) (APALM.doCorr M N fuel) (corrWork (corrOf M N fuel a₀)) b i =
        APALM.doCorr M N fuel b i := fun b i hb hi => tame_eq hb hi
  exact C27_equals_single_process (corrOf_ok M N fuel a₀) hc
    (work := tame E a₀ (goodCorr M N fuel a₀) (APALM.doCorr M N fuel) (corrWork (corrOf M N fuel a₀)))
    (tame_fst fun b i hb hi => h.doCorr hb hi) hp (r.replace hI he h₁).1 f e
    ((single_congr hI he max₂ a₂ c₀ h₂ hj).trans r') e'

/-- `solve` without `SingularPoint`: two executions with any number of processes, any order of events and any past
of the solvers give the same curves. -/
theorem Agrees.solve (h : Agrees M E R Q) {a₀ : A} {N fuel : ℕ} {p : SolveParams K S} (hp : FreshParams p)
    {almLen : K} {x₀ : S} {len : K} {st : SolveState K S} (h₀ : solveStart p [] [(x₀, len)] = .ok st)
    {P₁ P₂ max₁ max₂ : ℕ} {pool₁ pool₂ : List ℕ} (hp₁ : ∀ w ∈ pool₁, w ∈ ranks P₁)
    (hp₂ : ∀ w ∈ pool₂, w ∈ ranks P₂) {a₁ a₂ : ℕ → A} (h₁ : ∀ w, E a₀ (a₁ w)) (h₂ : ∀ w, E a₀ (a₂ w)) {n₁ n₂ : ℕ}
    {s₁ s₂ : State (SolveState K S) A (Item K S) (ℕ × ℕ × Payload K S)}
    (r₁ : RunIn (solveServer p almLen) (APALM.doJob M N fuel) P₁ max₁ (fun i => goodJob M N fuel a₀ i = true)
      (MPI.start st pool₁ a₁) n₁ s₁)
    (r₂ : RunIn (solveServer p almLen) (APALM.doJob M N fuel) P₂ max₂ (fun i => goodJob M N fuel a₀ i = true)
      (MPI.start st pool₂ a₂) n₂ s₂)
    (f₁ : s₁.phase = .finished) (f₂ : s₂.phase = .finished)
    (e₁ : s₁.data.data.empty = true) (e₂ : s₂.data.data.empty = true) :
    s₁.data.data.map flat = s₂.data.data.map flat := by
  have hI : ∀ b i, E a₀ b → goodJob M N fuel a₀ i = true → E a₀ (APALM.doJob M N fuel b i).2 :=
    fun b i hb _ => h.keepsJob hb N fuel i
  have he : ∀ b i, E a₀ b → goodJob M N fuel a₀ i = true →
      tame E a₀ (goodJob M N fuel a₀) (APALM.doJob M N fuel)
        (solveWork (initOf M fuel a₀) (corrOf M N fuel a₀)) b i = APALM.doJob M N fuel b i :=
    fun b i hb hi => tame_eq hb hi
  exact C73_schedule_independence (corrOf_ok M N fuel a₀) (initOf_ok M fuel a₀) hp
    (work := tame E a₀ (goodJob M N fuel a₀) (APALM.doJob M N fuel)
      (solveWork (initOf M fuel a₀) (corrOf M N fuel a₀)))
    (tame_fst fun b i hb hi => h.doJob hb hi) h₀ hp₁ hp₂ (r₁.replace hI he h₁).1 (r₂.replace hI he h₂).1 f₁ f₂ e₁ e₂

/-- … and the same as `solve` without MPI. -/
theorem Agrees.solveSingle (h : Agrees M E R Q) {a₀ : A} {N fuel : ℕ} {p : SolveParams K S} (hp : FreshParams p)
    {almLen : K} {getLen : A → K} {x₀ : S} {len : K} {st : SolveState K S}
    (h₀ : solveStart p [] [(x₀, len)] = .ok st)
    {P max₁ max₂ fuel' : ℕ} {pool : List ℕ} (hpool : ∀ w ∈ pool, w ∈ ranks P) {a₁ : ℕ → A} {a₂ a' : A}
    (h₁ : ∀ w, E a₀ (a₁ w)) (h₂ : E a₀ a₂) {n : ℕ}
    {s : State (SolveState K S) A (Item K S) (ℕ × ℕ × Payload K S)} {s' : SolveState K S}
    (r : RunIn (solveServer p almLen) (APALM.doJob M N fuel) P max₁ (fun i => goodJob M N fuel a₀ i = true)
      (MPI.start st pool a₁) n s) (f : s.phase = .finished) (e : s.data.data.empty = true)
    (r' : APALM.solveSingle p getLen (APALM.doJob M N fuel) max₂ fuel' 0 a₂ st = some (.ok (s', a')))
    (hj : ∀ i ∈ solveSingleJobs p getLen (APALM.doJob M N fuel) max₂ fuel' 0 a₂ st, goodJob M N fuel a₀ i = true)
    (e' : s'.data.empty = true) : s.data.data.map flat = s'.data.map flat := by
  have hI : ∀ b i, E a₀ b → goodJob M N fuel a₀ i = true → E a₀ (APALM.doJob M N fuel b i).2 :=
    fun b i hb _ => h.keepsJob hb N fuel i
  have he : ∀ b i, E a₀ b → goodJob M N fuel a₀ i = true →
      tame E a₀ (goodJob M N fuel a₀) (APALM.doJob M N fuel)
        (solveWork (initOf M fuel a₀) (corrOf M N fuel a₀)) b i = APALM.doJob M N fuel b i :=
    fun b i hb hi => tame_eq hb hi
  exact C73_equals_single_process_partial (corrOf_ok M N fuel a₀) (initOf_ok M fuel a₀) hp
    (work := tame E a₀ (goodJob M N fuel a₀) (APALM.doJob M N fuel)
      (solveWork (initOf M fuel a₀) (corrOf M N fuel a₀)))
    (tame_fst fun b i hb hi => h.doJob hb hi) (getLen := getLen)
    (fun _ i _ hb => by rw [initOf_simple] at hb; cases hb) h₀ hpool (r.replace hI he h₁).1 f e
    ((solveSingle_congr hI he fuel' 0 a₂ st h₂ hj).trans r') e'

end GsSA.APALM
