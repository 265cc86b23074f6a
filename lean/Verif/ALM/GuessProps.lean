import Verif.ALM.CrisfieldProps
import Verif.ALM.RiksProps
import Verif.ALM.Demo

/-!
# Steps that start from a guess (C74), and secant predictors (C75)
-/

namespace GsSA.ALM

open GsSA

set_option linter.unusedSectionVars false

variable {K V Mat Fac : Type} [Field K] [LinearOrder K] [IsStrictOrderedRing K] [AddCommGroup V]
variable [Module K V]
variable {e : Env K V Mat Fac} {o : Opts K}

/-- Entry of a step of an initialised solver: the predictor runs on the state with zero
increments. -/
theorem beginStep_initialized {M : Method K V Mat Fac} {s p : St K V Mat Fac}
    (h : beginStep e M s = (p, .ok ())) : s.initialized = true := by
  by_contra hi
  rw [beginStep_not_initialized (by simpa using hi)] at h
  simp at h

/-- The state which the predictors of Riks, consistent Crisfield and load control see. -/
def begun (s : St K V Mat Fac) : St K V Mat Fac :=
  { s with converged := false, numIt := 0, DU := 0, dU := 0, DL := 0, dL := 0 }

theorem beginStep_zeroIncrements {M : Method K V Mat Fac} (hM : M.initiateStep = zeroIncrements)
    {s p : St K V Mat Fac} (h : beginStep e M s = (p, .ok ())) :
    (if usesGuess e s then M.predictorGuess else M.predictor) (begun s) = (p, .ok ()) := by
  have hi := beginStep_initialized h
  unfold beginStep at h
  rw [Act.bind_ok (Act.get_apply s), if_neg (by simp [hi]), Act.bind_ok (Act.pure_apply _ _),
    Act.bind_ok (Act.modify_apply _ _), hM, zeroIncrements, Act.bind_ok (Act.modify_apply _ _),
    Act.bind_ok (Act.get_apply _)] at h
  exact h

/-! ## Secant predictors -/

theorem secant_scale (U U' : V) (L L' : K) (s : St K V Mat Fac) :
    (secant U U' L L' >>= fun _ => scaleByLength) s =
      ({ s with
          dL := 1 / s.lenPrev * (L - L') * s.len
          dU := s.len • ((1 / s.lenPrev) • (U - U')) }, .ok ()) := rfl

/-- Riks without a guess: the predictor repeats the previous increment, scaled by the quotient of
the lengths. -/
theorem C75_riks {s p : St K V Mat Fac} (h : beginStep e (riks e) s = (p, .ok ()))
    (hu : usesGuess e s = false) (hn : nearby e s.U s.Uprev s.L s.Lprev = false) :
    p.DU = (s.len / s.lenPrev) • (s.U - s.Uprev) ∧ p.DL = s.len / s.lenPrev * (s.L - s.Lprev) := by
  have h := beginStep_zeroIncrements rfl h
  rw [hu] at h
  simp only [Bool.false_eq_true, if_false, riks] at h
  unfold rkPredictor at h
  obtain ⟨s1, ⟨⟩, h1, h⟩ := Act.bind_ok_inv h
  obtain ⟨m, f, l, rfl⟩ := assembleFactorize_ok h1
  rw [Act.bind_ok (Act.modify_apply _ _), Act.bind_ok (Act.get_apply _)] at h
  simp only [begun, hn, Bool.false_eq_true, if_false] at h
  simp only [Act.bind_apply, secant, scaleByLength, Act.modify_apply, Prod.mk.injEq, and_true] at h
  subst h
  simp only [zero_add, smul_smul]
  exact ⟨by congr 1; ring, by ring⟩

/-- The same for the consistent Crisfield method. -/
theorem C75_consistent {s p : St K V Mat Fac}
    (h : beginStep e (consistentCrisfield e o) s = (p, .ok ()))
    (hu : usesGuess e s = false) (hn : nearby e s.U s.Uprev s.L s.Lprev = false) :
    p.DU = (s.len / s.lenPrev) • (s.U - s.Uprev) ∧ p.DL = s.len / s.lenPrev * (s.L - s.Lprev) := by
  have h := beginStep_zeroIncrements rfl h
  rw [hu] at h
  simp only [Bool.false_eq_true, if_false, consistentCrisfield] at h
  unfold ccPredict at h
  obtain ⟨s1, ⟨⟩, h1, h⟩ := Act.bind_ok_inv h
  obtain ⟨m, f, l, rfl⟩ := assembleFactorize_ok h1
  rw [Act.bind_ok (Act.get_apply _)] at h
  simp only [begun, hn, Bool.false_eq_true, if_false] at h
  simp only [Act.bind_apply, secant, scaleByLength, Act.modify_apply, Prod.mk.injEq, and_true] at h
  subst h
  simp only [zero_add, smul_smul]
  exact ⟨by congr 1; ring, by ring⟩

/-! ## The direction of a guessed step -/

/-- Riks: the predictor points from the current point to the guess, and the guess is dropped. -/
theorem C74_riks {s p : St K V Mat Fac} (h : beginStep e (riks e) s = (p, .ok ()))
    (hu : usesGuess e s = true) (hn : nearby e (s.guess.getD 0) s.U s.Lguess s.L = false) :
    p.DU = (s.len / s.lenPrev) • (s.guess.getD 0 - s.U) ∧
      p.DL = s.len / s.lenPrev * (s.Lguess - s.L) ∧ p.guess = none := by
  have h := beginStep_zeroIncrements rfl h
  rw [hu] at h
  simp only [if_true, riks] at h
  unfold rkPredictorGuess at h
  obtain ⟨s1, ⟨⟩, h1, h⟩ := Act.bind_ok_inv h
  obtain ⟨m, f, l, rfl⟩ := assembleFactorize_ok h1
  obtain ⟨s2, ⟨⟩, h2, h⟩ := Act.bind_ok_inv h
  obtain ⟨Ut, rfl⟩ := computeUt_ok h2
  rw [Act.bind_ok (Act.get_apply _)] at h
  simp only [begun, hn, Bool.false_eq_true, if_false] at h
  simp only [Act.bind_apply, secant, scaleByLength, Act.modify_apply, Prod.mk.injEq, and_true] at h
  subst h
  simp only [smul_smul]
  exact ⟨by congr 1; ring, by ring, trivial⟩

/-- Consistent Crisfield: the predictor points to the guess, but the guess is kept. -/
theorem C74_consistent {s p : St K V Mat Fac}
    (h : beginStep e (consistentCrisfield e o) s = (p, .ok ()))
    (hu : usesGuess e s = true) (hn : nearby e (s.guess.getD 0) s.U s.Lguess s.L = false) :
    p.DU = (s.len / s.lenPrev) • (s.guess.getD 0 - s.U) ∧
      p.DL = s.len / s.lenPrev * (s.Lguess - s.L) ∧ p.guess = s.guess := by
  have h := beginStep_zeroIncrements rfl h
  rw [hu] at h
  simp only [if_true, consistentCrisfield] at h
  unfold ccPredict at h
  obtain ⟨s1, ⟨⟩, h1, h⟩ := Act.bind_ok_inv h
  obtain ⟨m, f, l, rfl⟩ := assembleFactorize_ok h1
  rw [Act.bind_ok (Act.get_apply _)] at h
  simp only [begun, hn, Bool.false_eq_true, if_false] at h
  simp only [Act.bind_apply, secant, scaleByLength, Act.modify_apply, Prod.mk.injEq, and_true] at h
  subst h
  simp only [zero_add, smul_smul]
  exact ⟨by congr 1; ring, by ring, trivial⟩

/-- Crisfield: the predictor points away from the guess. Its projection on the vector from the
current point to the guess is never positive, and negative unless that vector is orthogonal to the
tangent. -/
theorem C74_violated_crisfield (hg : e.geo.Laws) {s p : St K V Mat Fac}
    (h : beginStep e (crisfield e o) s = (p, .ok ())) (hu : usesGuess e s = true)
    (hlen : 0 < s.len) (ha : e.geo.dot p.Ut p.Ut + loadWeight e p.phi ≠ 0)
    (hw : e.geo.dot (s.guess.getD 0 - s.U) p.Ut + loadWeight e p.phi * (s.Lguess - s.L) ≠ 0) :
    e.geo.dot (s.guess.getD 0 - s.U) p.DU + loadWeight e p.phi * ((s.Lguess - s.L) * p.DL) < 0 := by
  obtain ⟨-, -, -, h1⟩ := beginStep_crisfield h
  obtain ⟨-, h3, h4⟩ := h1 hu
  have hpos : 0 < e.geo.dot p.Ut p.Ut + loadWeight e p.phi :=
    lt_of_le_of_ne (add_nonneg (hg.nonneg _) (loadWeight_nonneg hg _)) (Ne.symm ha)
  have hs := hg.sqrt_pos hpos
  set w := e.geo.dot (s.guess.getD 0 - s.U) p.Ut + loadWeight e p.phi * (s.Lguess - s.L) with hw'
  have h5 : p.DL = sgn (-w) * (s.len / e.geo.sqrt (e.geo.dot p.Ut p.Ut + loadWeight e p.phi)) := by
    rw [h3, muIncrement, if_neg hs.ne']
    congr 2
    rw [hg.neg_left, hw']
    ring
  have h6 : e.geo.dot (s.guess.getD 0 - s.U) p.DU + loadWeight e p.phi * ((s.Lguess - s.L) * p.DL) =
      -(sgn (-w) * -w * (s.len / e.geo.sqrt (e.geo.dot p.Ut p.Ut + loadWeight e p.phi))) := by
    rw [h4, hg.smul_right, h5, hw']
    ring
  rw [h6, sgn_mul_self, abs_neg, neg_lt_zero]
  exact mul_pos (abs_pos.2 hw) (div_pos hlen hs)

section examples

open Demo

/-- A guess at `(1, 2)` on the equilibrium path of the linear problem `2 u = l`. -/
private def guessed : St ℚ ℚ ℚ ℚ := { start 1 false with guess := some 1, Lguess := 2 }

private def o' : Opts ℚ := opts 10 5

/-- Crisfield's step ends on the other side of the origin. -/
example :
    let p := (beginStep (env 0 fine fine) (crisfield (env 0 fine fine) o') guessed).1
    p.DU < 0 ∧ p.DL < 0 := by
  decide +kernel

/-- `C74_riks`: Riks goes towards the guess. -/
example :
    let t := (step (env 0 fine fine) o' (riks (env 0 fine fine)) guessed)
    t.2 = .ok .success ∧ 0 < t.1.U ∧ 0 < t.1.L ∧ t.1.guess = none := by
  decide +kernel

/-- `C74_consistent`: consistent Crisfield too, but it keeps the guess. -/
example :
    let t := (step (env 0 fine fine) o' (consistentCrisfield (env 0 fine fine) o') guessed)
    t.2 = .ok .success ∧ 0 < t.1.U ∧ 0 < t.1.L ∧ t.1.guess = some 1 := by
  decide +kernel

/-- `C75_riks`: second step with Riks, the previous increment doubled. -/
example :
    let s : St ℚ ℚ ℚ ℚ := { start 2 false with U := 1, L := 2, lenPrev := 1 }
    let p := (beginStep (env 0 fine fine) (riks (env 0 fine fine)) s).1
    p.DU = 2 ∧ p.DL = 4 := by
  decide +kernel

/-- `C75_consistent`: the same with the consistent Crisfield method. -/
example :
    let s : St ℚ ℚ ℚ ℚ := { start 2 false with U := 1, L := 2, lenPrev := 1 }
    let p := beginStep (env 0 fine fine) (consistentCrisfield (env 0 fine fine) (opts 10 5)) s
    p.2 = .ok () ∧ usesGuess (env 0 fine fine) s = false ∧
      nearby (env 0 fine fine) s.U s.Uprev s.L s.Lprev = false ∧ p.1.DU = 2 ∧ p.1.DL = 4 := by
  decide +kernel

end examples

end GsSA.ALM
