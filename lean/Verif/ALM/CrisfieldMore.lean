import Verif.ALM.GuessProps
import Verif.ALM.ConfigProps

/-!
# More about Crisfield's method: relaxation (C36), the stored increment (C38), the guess (C74)
-/

namespace GsSA.ALM

open GsSA

set_option linter.unusedSectionVars false

variable {K V Mat Fac : Type} [Field K] [LinearOrder K] [IsStrictOrderedRing K] [AddCommGroup V]
variable [Module K V]
variable {e : Env K V Mat Fac} {o : Opts K} {M : Method K V Mat Fac}

/-! ## Relaxation -/

/-- **C36**: what the option `Relaxation` does. If the load correction has the other sign than the
one before and is not larger, then an iteration makes the fraction `Relaxation` of the correction
that it would make without relaxation (of the load correction only, if neither the quadratic nor its
modification had roots); otherwise the option has no effect. -/
theorem C36_relax {s t : St K V Mat Fac} (h : crIteration e o s = (t, .ok ())) :
    ∃ u, crIteration e { o with relax := 1 } s = (u, .ok ()) ∧
      lastRoots u.log = lastRoots t.log ∧ t.Ut = s.Ut ∧ t.phi = s.phi ∧
      (s.dL * u.dL < 0 ∧ |u.dL| ≤ |s.dL| →
        t.DL - s.DL = o.relax * (u.DL - s.DL) ∧
        (lastRoots t.log ≠ some .scaled → t.DU - s.DU = o.relax • (u.DU - s.DU))) ∧
      (¬(s.dL * u.dL < 0 ∧ |u.dL| ≤ |s.dL|) → t = u) := by
  unfold crIteration at h ⊢
  obtain ⟨s1, ⟨⟩, h1, h⟩ := Act.bind_ok_inv h
  obtain ⟨x, rfl⟩ := computeUbar_ok h1
  rw [Act.bind_ok (Act.get_apply _)] at h
  simp only at h
  obtain ⟨s2, eta, h2, h⟩ := Act.bind_ok_inv h
  obtain ⟨k, dU, dL, rfl, hreal, hmod, hsc⟩ := computeLambdas_ok h2
  rw [Act.bind_ok (Act.modify_apply _ _), Act.bind_ok (Act.modify_apply _ _), Act.modify_apply] at h
  simp only [Prod.mk.injEq, and_true] at h
  have hdU : k ≠ .scaled → dU = eta • x + dL • s.Ut := by
    intro hk
    cases k with
    | real => obtain ⟨rfl, -, h, -⟩ := hreal rfl; exact h
    | modified => obtain ⟨-, -, -, -, h, -⟩ := hmod rfl; exact h
    | scaled => exact absurd rfl hk
  refine ⟨_, by
    rw [Act.bind_ok h1, Act.bind_ok (Act.get_apply _)]
    simp only
    rw [Act.bind_ok h2, Act.bind_ok (Act.modify_apply _ _), Act.bind_ok (Act.modify_apply _ _),
      Act.modify_apply], ?_⟩
  simp only [ne_eq, not_true_eq_false, and_false, if_false]
  by_cases hc : s.dL * dL < 0 ∧ |dL| ≤ |s.dL|
  · by_cases hr : o.relax = 1
    · have hf : ¬(s.dL * dL < 0 ∧ |dL| ≤ |s.dL| ∧ o.relax ≠ 1) := fun h => h.2.2 hr
      simp only [if_neg hf] at h
      by_cases ha : o.angle = .iteration
      · simp only [ha, if_true] at h ⊢
        subst h
        refine ⟨rfl, rfl, rfl, fun _ => ?_, fun _ => rfl⟩
        simp [hr]
      · simp only [ha, if_false] at h ⊢
        subst h
        refine ⟨rfl, rfl, rfl, fun _ => ?_, fun _ => rfl⟩
        simp [hr]
    · have hf : s.dL * dL < 0 ∧ |dL| ≤ |s.dL| ∧ o.relax ≠ 1 := ⟨hc.1, hc.2, hr⟩
      simp only [if_pos hf] at h
      by_cases ha : o.angle = .iteration
      · simp only [ha, if_true] at h ⊢
        subst h
        refine ⟨rfl, rfl, rfl, fun _ => ⟨by simp only; ring, fun hk => ?_⟩, fun hn => absurd hc hn⟩
        simp only
        rw [add_sub_cancel_left, add_sub_cancel_left, hdU (by rintro rfl; exact hk rfl)]
        module
      · simp only [ha, if_false] at h ⊢
        subst h
        refine ⟨rfl, rfl, rfl, fun _ => ⟨by simp only; ring, fun hk => ?_⟩, fun hn => absurd hc hn⟩
        simp only
        rw [add_sub_cancel_left, add_sub_cancel_left, hdU (by rintro rfl; exact hk rfl)]
        module
  · have hf : ¬(s.dL * dL < 0 ∧ |dL| ≤ |s.dL| ∧ o.relax ≠ 1) := fun h => hc ⟨h.1, h.2.1⟩
    simp only [if_neg hf] at h
    by_cases ha : o.angle = .iteration
    · simp only [ha, if_true] at h ⊢
      subst h
      exact ⟨rfl, rfl, rfl, fun hn => absurd hn hc, fun _ => rfl⟩
    · simp only [ha, if_false] at h ⊢
      subst h
      exact ⟨rfl, rfl, rfl, fun hn => absurd hn hc, fun _ => rfl⟩

theorem crForm_convex (hg : e.geo.Laws) (phi r : K) (x d : V) (l m : K) :
    crForm e phi (x + r • d) (l + r * m) =
      (1 - r) * crForm e phi x l + r * crForm e phi (x + d) (l + m) -
        r * (1 - r) * crForm e phi d m := by
  simp only [crForm, hg.add_left, hg.add_right, hg.smul_left, hg.smul_right]
  rw [hg.comm d x]
  ring

/-- **C36**: a relaxed iteration leaves the sphere. If the increments before the iteration and after
the iteration without relaxation have the prescribed length, then the squared length after the
relaxed iteration is smaller by `r (1 - r)` times the squared length of the correction. -/
theorem C36_relax_length (hg : e.geo.Laws) {s t u : St K V Mat Fac}
    (h : crIteration e o s = (t, .ok ())) (hu : crIteration e { o with relax := 1 } s = (u, .ok ()))
    (hc : s.dL * u.dL < 0 ∧ |u.dL| ≤ |s.dL|) (hk : lastRoots t.log ≠ some .scaled)
    (h1 : crDistance e s s.DU s.DL = s.len) (h2 : crDistance e s u.DU u.DL = s.len) :
    crDistance e t t.DU t.DL ^ 2 = s.len ^ 2 -
      o.relax * (1 - o.relax) * crDistance e s (u.DU - s.DU) (u.DL - s.DL) ^ 2 := by
  obtain ⟨u', hu', -, -, hphi, hr, -⟩ := C36_relax h
  rw [hu] at hu'
  obtain rfl : u = u' := by simpa using hu'
  obtain ⟨hL, hU⟩ := hr hc
  have hU := hU hk
  have q1 : crForm e s.phi s.DU s.DL = s.len ^ 2 := by
    rw [← h1, crDistance_eq, hg.sqrt_sq _ (crForm_nonneg hg _ _ _)]
  have q2 : crForm e s.phi u.DU u.DL = s.len ^ 2 := by
    rw [← h2, crDistance_eq, hg.sqrt_sq _ (crForm_nonneg hg _ _ _)]
  have key := crForm_convex (e := e) hg s.phi o.relax s.DU (u.DU - s.DU) s.DL (u.DL - s.DL)
  rw [← hU, ← hL, add_sub_cancel, add_sub_cancel, add_sub_cancel, add_sub_cancel, q1, q2] at key
  rw [crDistance_eq, hg.sqrt_sq _ (crForm_nonneg hg _ _ _), hphi, key, crDistance_eq,
    hg.sqrt_sq _ (crForm_nonneg hg _ _ _)]
  ring

/-! ## The increment that decides on the direction -/

/-- **C38**: which increment a successful step leaves for the choice of the direction. With the
angle taken per step or per iteration it is the increment from the previous to the new point; with
the angle taken at the predictor it is the increment of the predictor. -/
theorem C38_stored (hmax : 2 ≤ o.maxIt) {s t : St K V Mat Fac}
    (h : step e o (crisfield e o) s = (t, .ok .success)) :
    (o.angle ≠ .predictor → t.DUold = t.U - s.U ∧ t.DLold = t.L - s.L) ∧
    (o.angle = .predictor → usesGuess e s = false →
      ∃ p, beginStep e (crisfield e o) s = (p, .ok ()) ∧ t.DUold = p.DU ∧ t.DLold = p.DL) := by
  have hM : IsMethod e o (crisfield e o) := .crisfield
  have key := step_inv hM (s := s) (t := t)
    (P := fun u => (u.U = s.U ∧ u.L = s.L) ∧ (o.angle = .predictor → usesGuess e s = false →
      ∃ p, beginStep e (crisfield e o) s = (p, .ok ()) ∧ u.DUold = p.DU ∧ u.DLold = p.DL))
    (Q := fun u => ((u.U = s.U ∧ u.L = s.L) ∧ (o.angle = .predictor → usesGuess e s = false →
      ∃ p, beginStep e (crisfield e o) s = (p, .ok ()) ∧ u.DUold = p.DU ∧ u.DLold = p.DL)) ∧
      (o.angle = .iteration → u.DUold = u.DU ∧ u.DLold = u.DL))
    ?_ ?_ (fun _ h => h.1) ?_ ?_ hmax h
  · obtain ⟨u, v, ⟨⟨⟨h1, h2⟩, h3⟩, h4⟩, h7, rfl⟩ := key
    obtain ⟨f1, f2, -⟩ := finishStep_incr hM h7
    have hold : v.DUold = (if o.angle = .step then u.DU else u.DUold) ∧
        v.DLold = (if o.angle = .step then u.DL else u.DLold) := by
      unfold finishStep at h7
      simp only [crisfield, acceptStep] at h7
      rw [Act.bind_ok (t := (if o.angle = .step then
          { u with
            converged := true, Uprev := u.U, Lprev := u.L, U := u.U + u.DU, L := u.L + u.DL
            DUold := u.DU, DLold := u.DL }
          else { u with
            converged := true, Uprev := u.U, Lprev := u.L, U := u.U + u.DU, L := u.L + u.DL }))
          (a := ()) (by rw [Act.bind_ok (Act.modify_apply _ _)]; rfl),
        Act.bind_ok (Act.get_apply _)] at h7
      by_cases ha : o.angle = .step
      · simp only [ha, if_true] at h7 ⊢
        split at h7
        · unfold computeLength at h7
          rw [Act.bind_ok (Act.get_apply _)] at h7
          split at h7
          · simp at h7
          · simp only [Act.modify_apply, Prod.mk.injEq, and_true] at h7
            rw [← h7]
            exact ⟨rfl, rfl⟩
        · simp only [Act.modify_apply, Prod.mk.injEq, and_true] at h7
          rw [← h7]
          exact ⟨rfl, rfl⟩
      · simp only [ha, if_false] at h7 ⊢
        split at h7
        · unfold computeLength at h7
          rw [Act.bind_ok (Act.get_apply _)] at h7
          split at h7
          · simp at h7
          · simp only [Act.modify_apply, Prod.mk.injEq, and_true] at h7
            rw [← h7]
            exact ⟨rfl, rfl⟩
        · simp only [Act.modify_apply, Prod.mk.injEq, and_true] at h7
          rw [← h7]
          exact ⟨rfl, rfl⟩
    simp only
    rw [hold.1, hold.2, f1, f2, h1, h2, add_sub_cancel_left, add_sub_cancel_left]
    refine ⟨fun ha => ?_, fun ha hu => ?_⟩
    · cases hang : o.angle with
      | step => simp
      | iteration => simpa using h4 hang
      | predictor => exact absurd hang ha
    · rw [if_neg (by rw [ha]; simp), if_neg (by rw [ha]; simp)]
      exact h3 ha hu
  · intro a b hab ha
    simp only [incr, Incr.mk.injEq] at hab
    obtain ⟨a1, a2, a3, a4, a5, a6, a7, a8, a9, a10, a11, a12⟩ := hab
    rw [a1, a2, a9, a10]
    exact ha
  · intro a b hab ha
    simp only [incrT, incr, Prod.mk.injEq, Incr.mk.injEq] at hab
    obtain ⟨⟨a1, a2, a3, a4, a5, a6, a7, a8, a9, a10, a11, a12⟩, a13⟩ := hab
    rw [a1, a2, a3, a4, a9, a10]
    exact ha
  · intro a b ha hb
    have hb : crIteration e o a = (b, .ok ()) := hb
    have hk : b.U = a.U ∧ b.L = a.L ∧ b.DUold = (if o.angle = .iteration then b.DU else a.DUold) ∧
        b.DLold = (if o.angle = .iteration then b.DL else a.DLold) := by
      unfold crIteration at hb
      obtain ⟨s1, ⟨⟩, h1, hb⟩ := Act.bind_ok_inv hb
      obtain ⟨x, rfl⟩ := computeUbar_ok h1
      rw [Act.bind_ok (Act.get_apply _)] at hb
      simp only at hb
      obtain ⟨s2, eta, h2, hb⟩ := Act.bind_ok_inv hb
      obtain ⟨k, dU, dL, rfl, -⟩ := computeLambdas_ok h2
      rw [Act.bind_ok (Act.modify_apply _ _), Act.bind_ok (Act.modify_apply _ _),
        Act.modify_apply] at hb
      simp only [Prod.mk.injEq, and_true] at hb
      by_cases hang : o.angle = .iteration
      · simp only [hang, if_true] at hb ⊢
        rw [← hb]
        split <;> exact ⟨rfl, rfl, rfl, rfl⟩
      · simp only [hang, if_false] at hb ⊢
        rw [← hb]
        split <;> exact ⟨rfl, rfl, rfl, rfl⟩
    obtain ⟨k1, k2, k3, k4⟩ := hk
    refine ⟨⟨⟨k1.trans ha.1.1, k2.trans ha.1.2⟩, fun hp hu => ?_⟩, fun hang => ?_⟩
    · rw [k3, k4, if_neg (by rw [hp]; simp), if_neg (by rw [hp]; simp)]
      exact ha.2 hp hu
    · rw [k3, k4, if_pos hang, if_pos hang]
      exact ⟨rfl, rfl⟩
  · intro p hp
    obtain ⟨u, -⟩ := beginStep_spec hM.lawful (beginStep_initialized hp) hp
    refine ⟨⟨u.U, u.L⟩, fun ha hu => ⟨p, hp, ?_⟩⟩
    have h := hp
    unfold beginStep at h
    rw [Act.bind_ok (Act.get_apply s), if_neg (by simp [beginStep_initialized hp]),
      Act.bind_ok (Act.pure_apply _ _), Act.bind_ok (Act.modify_apply _ _)] at h
    simp only [crisfield] at h
    rw [Act.bind_ok (Act.modify_apply _ _), Act.bind_ok (Act.get_apply _)] at h
    change (if usesGuess e s = true then _ else _ : Act _ _).run _ = _ at h
    rw [if_neg (by simp [hu])] at h
    unfold crPredictor at h
    obtain ⟨s1, ⟨⟩, h1, h⟩ := Act.bind_ok_inv h
    obtain ⟨s2, ⟨⟩, h2, h⟩ := Act.bind_ok_inv h
    rw [Act.bind_ok (Act.get_apply _)] at h
    obtain ⟨s3, ⟨⟩, h3, h⟩ := Act.bind_ok_inv h
    rw [Act.bind_ok (Act.modify_apply _ _), Act.modify_apply] at h
    simp only [ha, or_true, if_true, Prod.mk.injEq, and_true] at h
    rw [← h]
    exact ⟨rfl, rfl⟩

/-! ## The guess -/

theorem keeps_guess_tangent : Keeps (fun s : St K V Mat Fac => s.guess) (unitTangent e) :=
  .bind (framed_guess.computeUt fun _ _ => rfl) fun _ => .modify fun _ => rfl

theorem keeps_guess_iteration (hM : IsMethod e o M) :
    Keeps (fun s : St K V Mat Fac => s.guess) M.iteration := by
  have hf := framed_guess (K := K) (V := V) (Mat := Mat) (Fac := Fac)
  cases hM
  · exact .bind hf.computeUbar fun _ => .modify fun _ => rfl
  · have hd : ∀ eta x1 x2, Keeps (fun s : St K V Mat Fac => s.guess) (lambdaDOT e eta x1 x2) :=
      fun _ _ _ => .modify fun _ => rfl
    have he : ∀ x, Keeps (fun s : St K V Mat Fac => s.guess) (emit x) := fun _ => .modify fun _ => rfl
    refine .bind hf.computeUbar fun _ => .bind Keeps.get fun s => .bind ?_ fun eta =>
      .bind (.modify fun t => ?_) fun _ => .bind (.modify fun _ => rfl) fun _ => .modify fun t => ?_
    · refine .bind Keeps.get fun s => .ite ?_ (.ite ?_ ?_)
      · exact .bind (hd _ _ _) fun _ => .bind (he _) fun _ => Keeps.ret _
      · exact .bind (hd _ _ _) fun _ => .bind (he _) fun _ => Keeps.ret _
      · exact .bind (.modify fun _ => rfl) fun _ => .bind (he _) fun _ => Keeps.ret _
    · split <;> rfl
    · split <;> rfl
  · exact .bind hf.computeUbar fun _ => .bind (.modify fun _ => rfl) fun _ => .modify fun _ => rfl
  · exact .bind hf.computeUbar fun _ => .bind (.modify fun _ => rfl) fun _ => .modify fun _ => rfl

theorem keeps_guess_predictor (hM : IsMethod e o M) :
    Keeps (fun s : St K V Mat Fac => s.guess) M.predictor := by
  have hf := framed_guess (K := K) (V := V) (Mat := Mat) (Fac := Fac)
  cases hM
  · exact .bind hf.assembleFactorize fun _ => .bind (.modify fun _ => rfl) fun _ =>
      .bind (hf.computeUt fun _ _ => rfl) fun _ => .modify fun _ => rfl
  · refine .bind hf.assembleFactorize fun _ => .bind (hf.computeUt fun _ _ => rfl) fun _ =>
      .bind Keeps.get fun s => .bind (.ite (.modify fun _ => rfl) ?_) fun _ =>
        .bind (.modify fun _ => rfl) fun _ => .modify fun t => ?_
    · exact .bind (.modify fun _ => rfl) fun _ => .modify fun _ => rfl
    · split <;> rfl
  · exact .bind hf.assembleFactorize fun _ => .bind (.modify fun _ => rfl) fun _ =>
      .bind Keeps.get fun s => .bind (.ite keeps_guess_tangent (.modify fun _ => rfl)) fun _ =>
        .bind (.modify fun _ => rfl) fun _ => .modify fun _ => rfl
  · exact .bind hf.assembleFactorize fun _ => .bind Keeps.get fun s =>
      .bind (.ite keeps_guess_tangent (.modify fun _ => rfl)) fun _ =>
        .bind (.modify fun _ => rfl) fun _ => .bind (.modify fun _ => rfl) fun _ =>
          .modify fun _ => rfl

/-- Does the method drop a guess that it has used? -/
def Kind.drops : Kind → Bool
  | .crisfield => true
  | .riks => true
  | _ => false

/-- What happens to the guess at the begin of a step. -/
theorem beginStep_guess (k : Kind) {s p : St K V Mat Fac}
    (h : beginStep e (k.method e o) s = (p, .ok ())) :
    p.guess = if usesGuess e s && k.drops then none else s.guess := by
  have hi := beginStep_initialized h
  have hf := framed_guess (K := K) (V := V) (Mat := Mat) (Fac := Fac)
  unfold beginStep at h
  rw [Act.bind_ok (Act.get_apply s), if_neg (by simp [hi]), Act.bind_ok (Act.pure_apply _ _),
    Act.bind_ok (Act.modify_apply _ _)] at h
  obtain ⟨s1, ⟨⟩, h1, h⟩ := Act.bind_ok_inv h
  have hs1 : s1.guess = s.guess ∧ usesGuess e s1 = usesGuess e s := by
    cases k <;> simp only [Kind.method, loadControl, crisfield, riks, consistentCrisfield,
      zeroIncrements, Act.modify_apply, Prod.mk.injEq, and_true] at h1 <;> subst h1 <;>
      exact ⟨rfl, rfl⟩
  rw [Act.bind_ok (Act.get_apply _), hs1.2] at h
  cases hu : usesGuess e s with
  | false =>
    rw [hu] at h
    simp only [Bool.false_eq_true, if_false] at h
    rw [(keeps_guess_predictor (k.isMethod e o)).run h]
    simpa using hs1.1
  | true =>
    rw [hu] at h
    simp only [if_true] at h
    cases k with
    | loadControl =>
      have hk : Keeps (fun s : St K V Mat Fac => s.guess) (Kind.loadControl.method e o).predictorGuess :=
        .bind hf.assembleFactorize fun _ => .bind (.modify fun _ => rfl) fun _ =>
          .bind (hf.computeUt fun _ _ => rfl) fun _ => .modify fun _ => rfl
      rw [hk.run h]
      simpa [Kind.drops] using hs1.1
    | consistent =>
      have hk : Keeps (fun s : St K V Mat Fac => s.guess)
          (Kind.consistent.method e o).predictorGuess :=
        .bind hf.assembleFactorize fun _ => .bind Keeps.get fun s =>
          .bind (.ite keeps_guess_tangent (.modify fun _ => rfl)) fun _ =>
            .bind (.modify fun _ => rfl) fun _ => .bind (.modify fun _ => rfl) fun _ =>
              .modify fun _ => rfl
      rw [hk.run h]
      simpa [Kind.drops] using hs1.1
    | crisfield =>
      simp only [Kind.method, crisfield] at h
      unfold crPredictorGuess at h
      obtain ⟨_, ⟨⟩, -, h⟩ := Act.bind_ok_inv h
      obtain ⟨_, ⟨⟩, -, h⟩ := Act.bind_ok_inv h
      obtain ⟨_, ⟨⟩, -, h⟩ := Act.bind_ok_inv h
      obtain ⟨_, ⟨⟩, -, h⟩ := Act.bind_ok_inv h
      obtain ⟨_, ⟨⟩, -, h⟩ := Act.bind_ok_inv h
      simp only [Act.modify_apply, Prod.mk.injEq, and_true] at h
      subst h
      rfl
    | riks =>
      simp only [Kind.method, riks] at h
      unfold rkPredictorGuess at h
      obtain ⟨_, ⟨⟩, -, h⟩ := Act.bind_ok_inv h
      obtain ⟨_, ⟨⟩, -, h⟩ := Act.bind_ok_inv h
      obtain ⟨_, _, -, h⟩ := Act.bind_ok_inv h
      obtain ⟨_, ⟨⟩, -, h⟩ := Act.bind_ok_inv h
      obtain ⟨_, ⟨⟩, -, h⟩ := Act.bind_ok_inv h
      simp only [Act.modify_apply, Prod.mk.injEq, and_true] at h
      subst h
      rfl

/-- **C74**: the life of a guess. A successful step that has used the guess drops it in the methods
of Crisfield and Riks; load control and the consistent Crisfield method keep it, and no method drops
a guess that it has not used. -/
theorem C74_life (k : Kind) (hmax : 2 ≤ o.maxIt) {s t : St K V Mat Fac}
    (h : step e o (k.method e o) s = (t, .ok .success)) :
    t.guess = if usesGuess e s && k.drops then none else s.guess := by
  have hM := k.isMethod e o
  obtain ⟨u, v, hu, h7, rfl⟩ := step_inv hM (s := s) (t := t)
    (P := fun u => u.guess = if usesGuess e s && k.drops then none else s.guess)
    (Q := fun u => u.guess = if usesGuess e s && k.drops then none else s.guess)
    (fun a b hab ha => by
      simp only [incr, Incr.mk.injEq] at hab
      obtain ⟨a1, a2, a3, a4, a5, a6, a7, a8, a9, a10, a11, a12⟩ := hab
      rw [a11]
      exact ha)
    (fun a b hab ha => by
      simp only [incrT, incr, Prod.mk.injEq, Incr.mk.injEq] at hab
      obtain ⟨⟨a1, a2, a3, a4, a5, a6, a7, a8, a9, a10, a11, a12⟩, a13⟩ := hab
      rw [a11]
      exact ha)
    (fun _ h => h) (fun a b ha hb => ((keeps_guess_iteration hM).run hb).trans ha)
    (fun p hp => beginStep_guess k hp) hmax h
  obtain ⟨-, -, -, -, -, -, -, -, f9, -⟩ := finishStep_incr hM h7
  exact f9.trans hu

/-! ## Predictors of Riks and of the consistent Crisfield method -/

/-- **C75**: the secant predictor is used as soon as the displacements or the load factors of the
last two points differ. -/
theorem C75_far {s p : St K V Mat Fac} (hu : usesGuess e s = false)
    (hn : 1 / 10 ^ 10 ≤ e.geo.norm (s.U - s.Uprev) ∨ 1 / 10 ^ 10 ≤ (s.L - s.Lprev) ^ 2)
    (h : beginStep e (riks e) s = (p, .ok ()) ∨
      beginStep e (consistentCrisfield e o) s = (p, .ok ())) :
    p.DU = (s.len / s.lenPrev) • (s.U - s.Uprev) ∧ p.DL = s.len / s.lenPrev * (s.L - s.Lprev) := by
  have hn : nearby e s.U s.Uprev s.L s.Lprev = false := by
    simp only [nearby, Bool.and_eq_false_iff, decide_eq_false_iff_not, not_lt]
    rwa [← sq]
  rcases h with h | h
  · exact C75_riks h hu hn
  · exact C75_consistent h hu hn

/-- **C75**: the first predictor goes along the tangent, forward in the load; the displacements have
the prescribed length, whatever the scaling of the load. -/
theorem C75_first (hg : e.geo.Laws) {s p : St K V Mat Fac} (hu : usesGuess e s = false)
    (hU : s.U = s.Uprev) (hL : s.L = s.Lprev) (hlen : 0 < s.len)
    (h : beginStep e (riks e) s = (p, .ok ()) ∨
      beginStep e (consistentCrisfield e o) s = (p, .ok ())) :
    p.DU = p.DL • p.Ut ∧ p.DL * e.geo.norm p.Ut = (if e.geo.norm p.Ut = 0 then 0 else s.len) ∧
      (e.geo.norm p.Ut ≠ 0 → 0 < p.DL ∧ e.geo.norm p.DU = s.len) := by
  have hn : nearby e s.U s.Uprev s.L s.Lprev = true := by
    rw [hU, hL]
    have h0 : e.geo.norm (0 : V) = 0 := by
      rw [Geo.norm, hg.zero_left]
      exact hg.sqrt_zero
    simp only [nearby, sub_self, h0, mul_zero, Bool.and_self, decide_eq_true_eq]
    positivity
  have key : p.DU = p.DL • p.Ut ∧ p.DL = 1 / e.geo.norm p.Ut * s.len := by
    rcases h with h | h
    · have h := beginStep_zeroIncrements rfl h
      rw [hu] at h
      simp only [Bool.false_eq_true, if_false, riks] at h
      unfold rkPredictor at h
      obtain ⟨s1, ⟨⟩, h1, h⟩ := Act.bind_ok_inv h
      obtain ⟨m, f, l, rfl⟩ := assembleFactorize_ok h1
      rw [Act.bind_ok (Act.modify_apply _ _), Act.bind_ok (Act.get_apply _)] at h
      simp only [begun, hn, if_true] at h
      unfold unitTangent at h
      obtain ⟨s2, ⟨⟩, h2, h⟩ := Act.bind_ok_inv h
      obtain ⟨s3, ⟨⟩, h3, h2⟩ := Act.bind_ok_inv h2
      obtain ⟨Ut, rfl⟩ := computeUt_ok h3
      simp only [Act.modify_apply, Prod.mk.injEq, and_true] at h2
      subst h2
      simp only [Act.bind_apply, scaleByLength, Act.modify_apply, Prod.mk.injEq, and_true] at h
      subst h
      simp only [zero_add, smul_smul, Geo.norm, zero_mul, add_zero]
      exact ⟨by congr 1; ring, trivial⟩
    · have h := beginStep_zeroIncrements rfl h
      rw [hu] at h
      simp only [Bool.false_eq_true, if_false, consistentCrisfield] at h
      unfold ccPredict at h
      obtain ⟨s1, ⟨⟩, h1, h⟩ := Act.bind_ok_inv h
      obtain ⟨m, f, l, rfl⟩ := assembleFactorize_ok h1
      rw [Act.bind_ok (Act.get_apply _)] at h
      simp only [begun, hn, if_true] at h
      unfold unitTangent at h
      obtain ⟨s2, ⟨⟩, h2, h⟩ := Act.bind_ok_inv h
      obtain ⟨s3, ⟨⟩, h3, h2⟩ := Act.bind_ok_inv h2
      obtain ⟨Ut, rfl⟩ := computeUt_ok h3
      simp only [Act.modify_apply, Prod.mk.injEq, and_true] at h2
      subst h2
      simp only [Act.bind_apply, scaleByLength, Act.modify_apply, Prod.mk.injEq, and_true] at h
      subst h
      simp only [zero_add, smul_smul, Geo.norm, zero_mul, add_zero]
      exact ⟨by congr 1; ring, trivial⟩
  refine ⟨key.1, ?_, fun h0 => ?_⟩
  · rw [key.2]
    split_ifs with h0
    · rw [h0, mul_zero]
    · field_simp
  · have hpos : 0 < e.geo.norm p.Ut :=
      lt_of_le_of_ne (hg.norm_nonneg _) (Ne.symm h0)
    have hDL : 0 < p.DL := by rw [key.2]; positivity
    refine ⟨hDL, ?_⟩
    have hq : e.geo.dot p.DU p.DU = s.len ^ 2 := by
      rw [key.1, hg.smul_left, hg.smul_right]
      have h1 : e.geo.dot p.Ut p.Ut = e.geo.norm p.Ut ^ 2 := by
        rw [Geo.norm, hg.sqrt_sq _ (hg.nonneg _)]
      have h2 : p.DL * e.geo.norm p.Ut = s.len := by rw [key.2]; field_simp
      rw [h1, ← h2]
      ring
    rw [Geo.norm, hq]
    exact hg.sqrt_eq hlen.le rfl

section examples

open Demo

/-- `C36_relax`: the quadratic has the roots -36/25 and -2, the load correction before was 3/2. With
`Relaxation = 1/2` half of the correction is made. -/
example :
    let s : St ℚ ℚ ℚ ℚ := { start (5 / 3) false with
      DU := 1, DL := 1, dL := 3 / 2, Ut := 1, resVec := -2, fac := some 1, phi := 4 / 3
      DUold := 1, DLold := 1 }
    let t := crIteration (env 0 fine fine) { opts 10 5 with relax := 1 / 2 } s
    let u := crIteration (env 0 fine fine) (opts 10 5) s
    t.2 = .ok () ∧ u.2 = .ok () ∧ u.1.dL = -36 / 25 ∧ t.1.DL - 1 = 1 / 2 * (u.1.DL - 1) ∧
      t.1.DU - 1 = 1 / 2 * (u.1.DU - 1) ∧ t.1.DU ≠ 1 := by
  decide +kernel

/-- `C38_stored`: two steps of the nonlinear problem; the angle per step, per iteration and at the
predictor. -/
example :
    let f (a : AngMethod) := step (env 1 fine fine) { opts 10 5 with angle := a }
      (crisfield (env 1 fine fine) { opts 10 5 with angle := a }) (start (1 / 2) false)
    (f .step).2 = .ok .success ∧ (f .step).1.DUold = (f .step).1.U ∧ (f .step).1.DLold = (f .step).1.L ∧
    (f .iteration).2 = .ok .success ∧ (f .iteration).1.DUold = (f .iteration).1.U ∧
    (f .predictor).2 = .ok .success ∧ (f .predictor).1.DUold ≠ (f .predictor).1.U := by
  decide +kernel

/-- `C74_life`: the four methods with a guess that is used, and with one that is not. -/
example :
    let g : St ℚ ℚ ℚ ℚ := { start 1 false with guess := some 1, Lguess := 2 }
    let n : St ℚ ℚ ℚ ℚ := { start 1 false with guess := some 0, Lguess := 2 }
    let f (k : Kind) (s : St ℚ ℚ ℚ ℚ) := step (env 0 fine fine) (opts 10 5)
      (k.method (env 0 fine fine) (opts 10 5)) s
    [Kind.loadControl, .riks, .consistent, .crisfield].map (fun k => ((f k g).2, (f k g).1.guess)) =
      [(.ok .success, some 1), (.ok .success, none), (.ok .success, some 1),
        (.ok .success, none)] ∧
    [Kind.loadControl, .riks, .consistent, .crisfield].map (fun k => ((f k n).2, (f k n).1.guess)) =
      [(.ok .success, some 0), (.ok .success, some 0), (.ok .success, some 0),
        (.ok .success, some 0)] := by
  decide +kernel

/-- `C75_far`: only the load has changed since the previous point. -/
example :
    let s : St ℚ ℚ ℚ ℚ := { start 2 false with U := 1, L := 2, Uprev := 1, lenPrev := 1 }
    (beginStep (env 0 fine fine) (riks (env 0 fine fine)) s).1.DL = 4 ∧
      (beginStep (env 0 fine fine) (riks (env 0 fine fine)) s).1.DU = 0 ∧
      (1 : ℚ) / 10 ^ 10 ≤ (s.L - s.Lprev) ^ 2 := by
  decide +kernel

/-- `C75_first`: the stiffness is 2, so half of the load gives the displacement. -/
example :
    let p := (beginStep (env 0 fine fine) (riks (env 0 fine fine)) (start 1 false))
    p.2 = .ok () ∧ p.1.Ut = 1 / 2 ∧ p.1.DU = 1 ∧ p.1.DL = 2 := by
  decide +kernel

end examples

end GsSA.ALM
