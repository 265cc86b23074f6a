import Verif.Stepping.BifurcationProps

/-!
# The start of `benchmark_Wrinkling_DWR.cpp` (C126)

The loop before buckling (`benchmarks/benchmark_Wrinkling_DWR.cpp` 551-643) and the switch of the branch (645-700). The
loop after buckling is in `Verif.Stepping.Adaptive`. What is computed from the displacements (the error, the strain,
files) is not modelled except for the limits of the strain.
-/

namespace GsSA.Stepping.Wrinkling

open GsSA GsSA.ALM GsSA.Stepping

set_option linter.unusedSectionVars false

variable {K V Mat Fac : Type} [Field K] [LinearOrder K] [IsStrictOrderedRing K] [AddCommGroup V] [Module K V]

/-- The variables of the loop; `rows` is what is written. -/
structure WSt (K V Mat Fac : Type) where
  obj : St K V Mat Fac
  dLb : K
  Uold : V
  Lold : K
  k : ℕ
  unstable : Bool
  rows : List (V × K)

/-- The options: the argument of `computeStability`, `eps < epsmax && eps > epsmin`, `maxSteps`. -/
structure Prog (V : Type) where
  quasi : Bool
  within : V → Bool
  maxSteps : ℕ

/-- The condition of the loop (551). The strain is the one of the last row. -/
def goesOn (p : Prog V) (st : WSt K V Mat Fac) : Bool :=
  st.rows.getLast?.all (fun r => p.within r.1) && decide (st.k < p.maxSteps)

/-- A step that did not converge (561-568). -/
def onFail (st : WSt K V Mat Fac) (t : St K V Mat Fac) : WSt K V Mat Fac :=
  { st with obj := (setSolution st.Uold st.Lold (setLength (st.dLb / 2) t).1).1, dLb := st.dLb / 2 }

/-- A step that converged (569-642). `k` is not changed. -/
def onSuccess (e : Env K V Mat Fac) (o : Opts K) (p : Prog V) (st : WSt K V Mat Fac) (t : St K V Mat Fac) :
    WSt K V Mat Fac :=
  let c := (computeStability e o p.quasi (-100) t).1
  if stabilityChange c then { st with obj := c, unstable := true }
  else { st with obj := c, Uold := c.U, Lold := c.L, rows := st.rows ++ [(c.U, c.L)] }

/-- The step of a pass (556-559). -/
def attempt (e : Env K V Mat Fac) (o : Opts K) (M : Method K V Mat Fac) (st : WSt K V Mat Fac) : St K V Mat Fac :=
  ((alm e o M).step (setLength st.dLb st.obj).1).1

/-- The loop with at most `fuel` passes. -/
def loop (e : Env K V Mat Fac) (o : Opts K) (M : Method K V Mat Fac) (p : Prog V) :
    ℕ → WSt K V Mat Fac → Option (WSt K V Mat Fac)
  | 0, _ => none
  | n + 1, st =>
    if goesOn p st then
      if (attempt e o M st).converged = false then loop e o M p n (onFail st (attempt e o M st))
      else if (onSuccess e o p st (attempt e o M st)).unstable then some (onSuccess e o p st (attempt e o M st))
      else loop e o M p n (onSuccess e o p st (attempt e o M st))
    else some st

/-- The switch of the branch (646-700): `computeSingularPoint(Uold,false)`, where `false` is the load. -/
def buckle (e : Env K V Mat Fac) (o : Opts K) (M : Method K V Mat Fac) (dL : K) (st : WSt K V Mat Fac) :
    WSt K V Mat Fac :=
  if st.unstable then
    let u := (setLength dL (switchBranch e o (computeSingularPoint e o M st.Uold 0 false false true st.obj).1).1).1
    { st with obj := u, dLb := dL, Uold := u.U, Lold := u.L, k := st.k + 1, unstable := false
              rows := st.rows ++ [(u.U, u.L)] }
  else st

/-- Before the loop. -/
def start (obj : St K V Mat Fac) (dLb : K) : WSt K V Mat Fac := ⟨obj, dLb, 0, 0, 0, false, []⟩

variable {e : Env K V Mat Fac} {o : Opts K} {M : Method K V Mat Fac} {p : Prog V}

theorem onSuccess_cases (st : WSt K V Mat Fac) (t : St K V Mat Fac) :
    (stabilityChange (computeStability e o p.quasi (-100) t).1 = true ∧
      onSuccess e o p st t = { st with obj := (computeStability e o p.quasi (-100) t).1, unstable := true }) ∨
    (stabilityChange (computeStability e o p.quasi (-100) t).1 = false ∧
      onSuccess e o p st t = { st with obj := (computeStability e o p.quasi (-100) t).1, Uold := t.U, Lold := t.L
                                       rows := st.rows ++ [(t.U, t.L)] }) := by
  have hs := Bif.stability_same (e := e) (o := o) p.quasi (-100) t
  unfold onSuccess
  cases h : stabilityChange (computeStability e o p.quasi (-100) t).1
  · exact .inr ⟨rfl, by simp [h, hs.U, hs.L]⟩
  · exact .inl ⟨rfl, by simp [h]⟩

/-- **C126**: the rows before buckling are in equilibrium up to the tolerance, and the last of them is where the
singular point is looked for. -/
theorem C126_before (hM : IsMethod e o M) (hmax : 2 ≤ o.maxIt) {n : ℕ} {obj : St K V Mat Fac} {dLb : K}
    {r : WSt K V Mat Fac} (hr : Ready obj) (h : loop e o M p n (start obj dLb) = some r) :
    (∀ x ∈ r.rows, ∃ (k : ℕ) (y : V) (c : K), e.residual k x.1 x.2 = some y ∧
      e.geo.norm (c • e.forcing) ≠ 0 ∧ e.geo.norm y / e.geo.norm (c • e.forcing) < o.tolF) ∧
    (r.Uold, r.Lold) = r.rows.getLast?.getD (0, 0) := by
  have key : ∀ (n : ℕ) (st : WSt K V Mat Fac), Ready st.obj →
      ((∀ x ∈ st.rows, ∃ (k : ℕ) (y : V) (c : K), e.residual k x.1 x.2 = some y ∧
        e.geo.norm (c • e.forcing) ≠ 0 ∧ e.geo.norm y / e.geo.norm (c • e.forcing) < o.tolF) ∧
      (st.Uold, st.Lold) = st.rows.getLast?.getD (0, 0)) → loop e o M p n st = some r →
      ((∀ x ∈ r.rows, ∃ (k : ℕ) (y : V) (c : K), e.residual k x.1 x.2 = some y ∧
        e.geo.norm (c • e.forcing) ≠ 0 ∧ e.geo.norm y / e.geo.norm (c • e.forcing) < o.tolF) ∧
      (r.Uold, r.Lold) = r.rows.getLast?.getD (0, 0)) := by
    intro n
    induction n with
    | zero => intro st _ _ h; simp [loop] at h
    | succ n ih =>
      intro st hr hst h
      rw [loop] at h
      by_cases hg : goesOn p st = true
      · rw [if_pos hg] at h
        by_cases hc : (attempt e o M st).converged = false
        · rw [if_pos hc] at h
          exact ih (onFail st (attempt e o M st)) ((alm_laws hM).good_step _ hr) hst h
        · rw [if_neg hc] at h
          have hc' : (attempt e o M st).converged = true := by simpa using hc
          have hstep := alm_step hM (setLength st.dLb st.obj).1
          have hsuc := (converged_iff hM hmax (setLength st.dLb st.obj).1 hr.1).1 hc'
          rw [hsuc] at hstep
          obtain ⟨q, k, y, -, hres, hn, hlt, -⟩ := C32_success hM hstep hmax
          rcases onSuccess_cases (e := e) (o := o) (p := p) st (attempt e o M st) with ⟨h1, h2⟩ | ⟨h1, h2⟩
          · rw [h2, if_pos rfl, Option.some.injEq] at h
            subst h
            exact hst
          · rw [h2] at h
            split at h
            · rw [Option.some.injEq] at h
              subst h
              refine ⟨fun x hx => ?_, by simp⟩
              rcases List.mem_append.1 hx with hx | hx
              · exact hst.1 x hx
              · rw [List.mem_singleton.1 hx]
                exact ⟨k, y, _, hres, hn, hlt⟩
            · refine ih _ ((Bif.stability_same p.quasi (-100) _).ready ((alm_laws hM).good_step (setLength st.dLb st.obj).1 hr))
                ⟨fun x hx => ?_, by simp⟩ h
              rcases List.mem_append.1 hx with hx | hx
              · exact hst.1 x hx
              · rw [List.mem_singleton.1 hx]
                exact ⟨k, y, _, hres, hn, hlt⟩
      · rw [if_neg hg, Option.some.injEq] at h
        subst h
        exact hst
  exact key n _ hr ⟨by simp [start], by simp [start]⟩ h

/-- **C126**: every row before buckling is found by a successful step from the row before, however many steps failed
between them; the first one by a step from the origin. -/
theorem C126_before_links (hM : IsMethod e o M) (hmax : 2 ≤ o.maxIt) {n : ℕ} {obj : St K V Mat Fac} {dLb : K}
    {r : WSt K V Mat Fac} (hr : Ready obj) (hU : obj.U = 0) (hL : obj.L = 0)
    (h : loop e o M p n (start obj dLb) = some r) :
    List.IsChain (fun a b : V × K => ∃ t, (t.U, t.L) = a ∧ ((alm e o M).step t).2 = .success ∧
      (((alm e o M).step t).1.U, ((alm e o M).step t).1.L) = b) ((0, 0) :: r.rows) := by
  let R : V × K → V × K → Prop := fun a b => ∃ t, (t.U, t.L) = a ∧ ((alm e o M).step t).2 = .success ∧
      (((alm e o M).step t).1.U, ((alm e o M).step t).1.L) = b
  have key : ∀ (n : ℕ) (st : WSt K V Mat Fac), Ready st.obj →
      List.IsChain R ((0, 0) :: st.rows) → ((0, 0) :: st.rows).getLast? = some (st.obj.U, st.obj.L) →
      st.obj.U = st.Uold → st.obj.L = st.Lold → loop e o M p n st = some r →
      List.IsChain R ((0, 0) :: r.rows) := by
    intro n
    induction n with
    | zero => intro st _ _ _ _ _ h; simp [loop] at h
    | succ n ih =>
      intro st hr hc hl hU hL h
      rw [loop] at h
      by_cases hg : goesOn p st = true
      · rw [if_pos hg] at h
        by_cases hcv : (attempt e o M st).converged = false
        · rw [if_pos hcv] at h
          refine ih (onFail st (attempt e o M st)) ((alm_laws hM).good_step _ hr) hc ?_ rfl rfl h
          show _ = some (st.Uold, st.Lold)
          rw [← hU, ← hL]
          exact hl
        · rw [if_neg hcv] at h
          have hcv' : (attempt e o M st).converged = true := by simpa using hcv
          have hsuc := (converged_iff hM hmax (setLength st.dLb st.obj).1 hr.1).1 hcv'
          have hlink : R (st.obj.U, st.obj.L) ((attempt e o M st).U, (attempt e o M st).L) :=
            ⟨(setLength st.dLb st.obj).1, rfl, hsuc, rfl⟩
          have happ : List.IsChain R ((0, 0) :: (st.rows ++ [((attempt e o M st).U, (attempt e o M st).L)])) := by
            rw [← List.cons_append]
            exact Bif.chain_append hc hl hlink
          rcases onSuccess_cases (e := e) (o := o) (p := p) st (attempt e o M st) with ⟨h1, h2⟩ | ⟨h1, h2⟩
          · rw [h2, if_pos rfl, Option.some.injEq] at h
            subst h
            exact hc
          · rw [h2] at h
            have hs := Bif.stability_same (e := e) (o := o) p.quasi (-100) (attempt e o M st)
            split at h
            · rw [Option.some.injEq] at h
              subst h
              exact happ
            · refine ih _ (hs.ready ((alm_laws hM).good_step (setLength st.dLb st.obj).1 hr)) happ ?_ hs.U hs.L h
              simp only [hs.U, hs.L]
              rw [← List.cons_append, List.getLast?_concat]
      · rw [if_neg hg, Option.some.injEq] at h
        subst h
        exact hc
  exact key n _ hr (List.isChain_singleton _) (by simp [start, hU, hL]) hU hL h

/-- **C126**, violated: `k` is not changed in the loop: unless it is zero, `maxSteps` makes no difference to the steps
before buckling. -/
theorem C126_violated_maxSteps (n : ℕ) (st : WSt K V Mat Fac) (i j : ℕ) (hi : st.k < i) (hj : st.k < j) :
    loop e o M { p with maxSteps := i } n st = loop e o M { p with maxSteps := j } n st := by
  induction n generalizing st with
  | zero => rfl
  | succ n ih =>
    have h1 : ∀ s : WSt K V Mat Fac, onSuccess e o { p with maxSteps := i } s (attempt e o M s) =
        onSuccess e o { p with maxSteps := j } s (attempt e o M s) := fun _ => rfl
    have hk : (onSuccess e o { p with maxSteps := j } st (attempt e o M st)).k = st.k := by
      unfold onSuccess
      simp only
      split <;> rfl
    have hg : goesOn { p with maxSteps := i } st = goesOn { p with maxSteps := j } st := by
      simp [goesOn, hi, hj]
    rw [loop, loop, hg, h1, ih (onFail st (attempt e o M st)) hi hj, ih (onSuccess e o { p with maxSteps := j } st _)
      (hk ▸ hi) (hk ▸ hj)]

/-- **C126**: the branch is switched at the point that is found, and the length is the one for the new branch. -/
theorem C126_switched (hg : e.geo.Laws) (ht : 0 < o.tau) {st : WSt K V Mat Fac} (hu : st.unstable = true) (dL : K)
    {w : St K V Mat Fac} {s : Status}
    (h : computeSingularPoint e o M st.Uold 0 false false true st.obj = (w, .ok s)) (hv : 0 < e.geo.dot w.v w.v) :
    (buckle e o M dL st).rows = st.rows ++ [(w.U + (1 / (o.tau * e.geo.norm w.v)) • w.v, w.L)] ∧
    (buckle e o M dL st).Uold = w.U + (1 / (o.tau * e.geo.norm w.v)) • w.v ∧ (buckle e o M dL st).Lold = w.L ∧
    (buckle e o M dL st).obj.len = dL ∧ (buckle e o M dL st).dLb = dL ∧ (buckle e o M dL st).k = st.k + 1 := by
  obtain ⟨h1, -, h3, -⟩ := C77_distance (s := w) (t := (switchBranch e o w).1) hg hv ht rfl
  unfold buckle
  rw [if_pos hu, h]
  simp only
  have e1 : (setLength dL (switchBranch e o w).1).1.U = (switchBranch e o w).1.U := rfl
  have e2 : (setLength dL (switchBranch e o w).1).1.L = (switchBranch e o w).1.L := rfl
  rw [e1, e2, h1, h3]
  refine ⟨?_, ?_, ?_, ?_, ?_, ?_⟩ <;> first | rfl | trivial

/-- **C126**, violated: at a limit point the program goes on at the load zero, with the displacements of the last row
(moved by `1 / tau`), whatever the load was. -/
theorem C126_violated_load (hg : e.geo.Laws) (ht : 0 < o.tau) {st : WSt K V Mat Fac} (hu : st.unstable = true) (dL : K)
    {u : St K V Mat Fac} (h1 : testSingularPoint e o false st.obj = (u, .ok false)) (hv : 0 < e.geo.dot u.v u.v) :
    (buckle e o M dL st).rows = st.rows ++ [(st.Uold + (1 / (o.tau * e.geo.norm u.v)) • u.v, 0)] ∧
    (buckle e o M dL st).Lold = 0 := by
  obtain ⟨hsp, -⟩ := C116_point (M := M) (U := st.Uold) (L := (0 : K)) (sw := false) h1
  obtain ⟨k1, -, k2, -⟩ := C126_switched (M := M) hg ht hu dL hsp hv
  exact ⟨k1, k2⟩

/-- **C126**, violated: and so it is if the extended system, which starts from the load zero, does not converge. -/
theorem C126_violated_lost (hg : e.geo.Laws) (ht : 0 < o.tau) (hB : o.spTolB = 0) (hmax : o.maxIt ≠ 0)
    (hF : o.spFail ≠ 1) {st : WSt K V Mat Fac} (hu : st.unstable = true) (dL : K) {u w : St K V Mat Fac}
    (h1 : testSingularPoint e o false st.obj = (u, .ok true))
    (h2 : extendedSolve e o st.Uold 0 o.spTolE { u with U := st.Uold, L := 0 } = (w, .ok false))
    (hv : 0 < e.geo.dot u.v u.v) :
    (buckle e o M dL st).rows = st.rows ++ [(st.Uold + (1 / (o.tau * e.geo.norm u.v)) • u.v, 0)] ∧
    (buckle e o M dL st).Lold = 0 := by
  have hx := C76_extended hmax h2
  obtain ⟨k1, k2, -⟩ := hx.kept rfl hF
  have k3 : w.v = u.v := hx.vector
  have hraw : computeSingularPointRaw e o M st.Uold 0 false false true st.obj =
      ({ w with stability := w.stabilityPrev }, .ok ()) := by
    unfold computeSingularPointRaw
    simp only [if_true]
    rw [Act.bind_ok h1, Act.bind_ok (Act.modify_apply _ _), if_pos rfl]
    exact Bif.solveSingularPoint_eq hB h2
  have hsp : computeSingularPoint e o M st.Uold 0 false false true st.obj =
      ({ w with stability := w.stabilityPrev }, .ok w.status) := caught_ok hraw
  obtain ⟨j1, -, j2, -⟩ := C126_switched (M := M) hg ht hu dL hsp (by simpa [k3] using hv)
  rw [j1, j2]
  simp only [k1, k2, k3, and_self]

/-! ### Examples -/

open GsSA.Stepping.Bif (stiff)
open Demo

/-- The spring of C124: the stability changes after the second row, which has the load `2`. The program goes on at the
load `0` with the displacements of the second row. -/
example : ((loop stiff (foldOpts 3) (loadControl stiff) ⟨false, fun _ => true, 5⟩ 20
      (Wrinkling.start { Demo.start 1 false with stability := -1 } 1)).map fun st =>
        (st.rows, st.unstable, (buckle stiff (foldOpts 3) (loadControl stiff) (1 / 2) st).rows)) =
    some ([(1 / 2, 1), (1, 2)], true, [(1 / 2, 1), (1, 2), (1001 / 1000, 0)]) := by
  decide +kernel

/-- `C126_violated_lost`: the same with a bifurcation that is not found. -/
example : ((loop stiff { foldOpts 3 with spTestTol := 2, spTolE := 0 } (loadControl stiff) ⟨false, fun _ => true, 5⟩ 20
      (Wrinkling.start { Demo.start 1 false with stability := -1 } 1)).map fun st =>
        (buckle stiff { foldOpts 3 with spTestTol := 2, spTolE := 0 } (loadControl stiff) (1 / 2) st).rows) =
    some [(1 / 2, 1), (1, 2), (1001 / 1000, 0)] := by
  decide +kernel

/-- `C126_violated_maxSteps`: four rows before the limit of the strain is reached, and one step asked for. -/
example : ((loop stiff (foldOpts 3) (loadControl stiff) ⟨false, fun u => decide (u < 1), 1⟩ 20
      (Wrinkling.start { Demo.start (1 / 2) false with stability := -1 } (1 / 2))).map fun st => (st.rows, st.k)) =
    some ([(1 / 4, 1 / 2), (1 / 2, 1), (3 / 4, 3 / 2), (1, 2)], 0) := by
  decide +kernel

end GsSA.Stepping.Wrinkling
