import Verif.ALM.CrisfieldPath
import Verif.ALM.LoadSmooth

/-!
# Crisfield's method along a path of equilibria, over many steps (C135)
-/

namespace GsSA.ALM

open GsSA Set

set_option linter.unusedSectionVars false

/-! ## The predictor of a first step -/

section

variable {K V Mat Fac : Type} [Field K] [LinearOrder K] [IsStrictOrderedRing K] [AddCommGroup V]
variable [Module K V]
variable {e : Env K V Mat Fac} {o : Opts K}

/-- The predictor of a first step. -/
theorem begin_crisfield_first {J : V → V →ₗ[K] V} {s : St K V Mat Fac} (hi : s.initialized = true)
    (hgu : s.guess = none) (hs : Solvable e J s.U) (hphi : o.phiUser = false)
    (h0 : e.geo.dot s.DUold s.DUold = 0 ∧ s.DLold * s.DLold = 0) :
    ∃ p y, beginStep e (crisfield e o) s = (p, .ok ()) ∧ J s.U y = e.forcing ∧
      p.phi = e.geo.sqrt (e.geo.dot y y / e.geo.dot e.forcing e.forcing) ∧
      p.DL = s.len / e.geo.sqrt (2 * e.geo.dot y y) ∧ p.DU = p.DL • y ∧
      (o.angle = .step → p.DUold = s.DUold ∧ p.DLold = s.DLold) ∧
      (o.angle ≠ .step → p.DUold = p.DU ∧ p.DLold = p.DL) ∧
      p.guess = none ∧ p.U = s.U ∧ p.L = s.L ∧ p.numIt = 0 ∧ p.len = s.len ∧ p.adaptive = s.adaptive ∧
      p.initialized = s.initialized := by
  obtain ⟨s1, hs1⟩ : ∃ s1 : St K V Mat Fac, s1 = { s with
    converged := false, numIt := 0, DU := 0, Ubar := 0, Ut := 0, DL := 0, dL := 0 } := ⟨_, rfl⟩
  obtain ⟨m, f, l, h1, h2⟩ := Solvable.assemble (s := s1) (by rw [hs1]; simpa using hs)
  obtain ⟨y, l', h3, h4⟩ := solve_ut (e := e) (s := { s1 with jac := m, fac := some f, log := l }) rfl h2
  rw [begin_eq (s1 := s1) hi (by rw [hs1]; rfl) (by rw [hs1]; exact hgu)]
  have hU : s1.U + s1.DU = s.U := by rw [hs1]; simp
  rw [hU] at h4
  change ∃ p y, crPredictor e o s1 = _ ∧ _
  unfold crPredictor
  rw [Act.bind_ok h1, Act.bind_ok h3, Act.bind_ok (Act.get_apply _)]
  obtain ⟨a1, a2, a3, a4, a5, a6, a7, a8, a9, a10, a11, a12⟩ : s1.DUold = s.DUold ∧ s1.DLold = s.DLold ∧
      s1.len = s.len ∧ s1.DU = 0 ∧ s1.DL = 0 ∧ s1.guess = s.guess ∧ s1.U = s.U ∧ s1.L = s.L ∧ s1.numIt = 0 ∧
      s1.adaptive = s.adaptive ∧ s1.initialized = s.initialized ∧ s1.Ubar = 0 := by subst hs1; simp
  have h0' : e.geo.dot s1.DUold s1.DUold = 0 ∧ s1.DLold * s1.DLold = 0 := by rw [a1, a2]; exact h0
  simp only [h0', and_self, if_true]
  have hl : firstPredictor e o { s1 with jac := m, fac := some f, Ut := y, log := l' } = ({ s1 with
      jac := m, fac := some f, Ut := y, log := l',
      dL := s1.len / e.geo.sqrt (2 * e.geo.dot y y),
      dU := s1.Ubar + (s1.len / e.geo.sqrt (2 * e.geo.dot y y)) • y,
      phi := if o.phiUser then s1.phi else e.geo.sqrt (e.geo.dot y y / e.geo.dot e.forcing e.forcing) }, .ok ()) := rfl
  rw [Act.bind_ok hl, Act.bind_ok (Act.modify_apply _ _), Act.modify_apply]
  simp only [hphi, Bool.false_eq_true, if_false, a3, a4, a5, a12, zero_add]
  refine ⟨_, y, rfl, h4, ?_⟩
  cases hang : o.angle
  all_goals
    simp only [reduceCtorEq, or_true, true_or, or_self, if_true, if_false, a1, a2, a6, a7, a8, a9, a10, a11, hgu,
      ne_eq, not_true_eq_false, not_false_eq_true, and_self, false_implies, true_implies]

theorem loadWeight_sqrt (hg : e.geo.Laws) {x : K} (hx : 0 ≤ x) (hF : 0 < e.geo.dot e.forcing e.forcing) :
    loadWeight e (e.geo.sqrt (x / e.geo.dot e.forcing e.forcing)) = x := by
  rw [loadWeight, hg.sqrt_sq _ (div_nonneg hx hF.le), div_mul_cancel₀ _ hF.ne']

end

variable {V Mat Fac : Type} [NormedAddCommGroup V] [NormedSpace ℝ V]
variable {e : Env ℝ V Mat Fac} {o : Opts ℝ}
variable {c : PathData} {f : V → V} {J : V → V →ₗ[ℝ] V} {w : ℝ → V} {a b : ℝ}

/-- What the steps along the path keep. -/
structure OnPath (e : Env ℝ V Mat Fac) (o : Opts ℝ) (c : PathData) (J : V → V →ₗ[ℝ] V) (w : ℝ → V) (a phi₀ h : ℝ)
    (s : St ℝ V Mat Fac) : Prop where
  initialized : s.initialized = true
  guess : s.guess = none
  adaptive : s.adaptive = false
  len : s.len = h
  above : a ≤ s.L
  close : ‖s.U - w s.L‖ ≤ c.C * h ^ 4
  side : (o.phiUser = false ∧ s.DUold = 0 ∧ s.DLold = 0) ∨
    (Sided e J w (c.R * h) s ∧ (o.phiUser = true ∧ s.phi = phi₀ ∨ o.phiUser = false ∧ c.θ / 2 * h ≤ s.L))

/-- The predictor of such a step. -/
theorem OnPath.started {s : St ℝ V Mat Fac} {phi₀ h' B tF tU : ℝ} (hr : OnPath e o c J w a phi₀ h' s)
    (h : c.On e f J w a b) (hg : e.geo.Laws) (hc : c.Valid) (hφ : c.φ = ‖e.forcing‖) (hs : c.Short tF tU h')
    (hl : s.L ≤ b) (hw : o.phiUser = false → ∀ l ∈ Icc a b, ‖w l‖ ≤ B * l)
    (hA1 : loadWeight e phi₀ ≤ c.Ā) (hA2 : c.W ^ 2 ≤ c.Ā) (hA3 : (B + 1) ^ 2 ≤ c.Ā) :
    ∃ p y, Started e o c J w s p y ∧ (o.phiUser = true → p.phi = s.phi) := by
  obtain ⟨s1, s2, s3, s4, s5, s6, s7, s8, s9, s10, s11, s12, s13, s14⟩ := hc.signs
  obtain ⟨z1, z2, z3, z4, z5⟩ := hs.sizes hc
  have hp0 := hs.pos
  have hls : s.L ∈ Icc a b := ⟨hr.above, hl⟩
  have hUρ : ‖s.U - w s.L‖ ≤ c.ρ := by linarith [hr.close, (hs.within hc).1]
  have hsol := h.solvable _ hls _ hUρ
  have hFF : 0 < e.geo.dot e.forcing e.forcing := by
    rw [h.dot_self hg, ← hφ]
    exact pow_pos hc.φ 2
  have hW : ∀ y, J s.U y = e.forcing → ‖y‖ ≤ c.W := fun y hy => by
    have := h.inv _ hls s.U hUρ y
    rwa [hy, ← hφ] at this
  have hν : ∀ y, J s.U y = e.forcing → c.ν ≤ ‖y‖ := fun y hy => by
    have := h.bdd _ hls s.U hUρ y
    rw [hy, ← hφ] at this
    unfold PathData.ν
    rwa [div_le_iff₀ hc.μ, mul_comm]
  rcases hr.side with ⟨q1, q2, q3⟩ | ⟨q1, q2⟩
  · obtain ⟨p, y, b1, b2, b3, b4, b5, b6, b7, b8, b9, b10, b11, b12, b13, b14⟩ := begin_crisfield_first (o := o)
      hr.initialized hr.guess hsol q1 (by rw [q2, q3, h.dot_self hg]; simp)
    have hyy : 0 ≤ e.geo.dot y y := hg.nonneg y
    have hwt : loadWeight e p.phi = e.geo.dot y y := by rw [b3, loadWeight_sqrt hg hyy hFF]
    refine ⟨p, y, ⟨b1, b2, ?_, b5, ?_, ?_, b7, b8, b9, b10, b11, b12, b13, b14⟩, by simp [q1]⟩
    · rw [hwt, b4, two_mul]
    · rw [hwt, h.dot_self hg]
      exact (pow_le_pow_left₀ (norm_nonneg _) (hW y b2) 2).trans hA2
    · intro ha
      obtain ⟨k1, k2⟩ := b6 ha
      rw [k1, k2, q2, q3]
      exact ⟨le_rfl, fun X v _ _ => by rw [hg.zero_left]⟩
  · obtain ⟨u, hu⟩ : ∃ u, J s.U u = e.forcing := by
      obtain ⟨m, -, h2⟩ := hsol 0 0
      obtain ⟨F, -, h4⟩ := h2 0
      obtain ⟨y, -, h6⟩ := h4 0 e.forcing
      exact ⟨y, h6⟩
    have hnear : ‖s.U - w s.L‖ ≤ c.R * h' := by
      have h1 := hr.close
      have h2 : h' ≤ c.R * h' := by
        unfold PathData.R
        have := mul_nonneg (mul_nonneg hc.Λ s2.le) hp0.le
        linarith
      linarith
    have hpos := q1.2 _ u hnear hu
    obtain ⟨p, y, b1, b2, b3, b4, b5, b6, b7, b8, b9, b10, b11, b12, b13, b14⟩ := begin_crisfield_later (o := o)
      hr.initialized hr.guess hsol (by
        intro h0
        rw [h.dot_self hg] at h0
        have h1 := h.dot_le hg s.DUold u
        rw [pow_eq_zero_iff two_ne_zero] at h0
        rw [h0, zero_mul] at h1
        linarith [le_abs_self (e.geo.dot s.DUold u)])
    have hA0 : 0 ≤ loadWeight e p.phi := loadWeight_nonneg hg _
    refine ⟨p, y, ⟨b1, b2, ?_, b5, ?_, ?_, b7, b8, b9, b10, b11, b12, b13, b14⟩, ?_⟩
    · have k1 : 0 < e.geo.dot s.DUold y + loadWeight e p.phi * s.DLold := by
        have := q1.2 _ y hnear b2
        have := mul_nonneg hA0 q1.1
        linarith
      have k2 : e.geo.sqrt (e.geo.dot y y + loadWeight e p.phi) ≠ 0 := by
        intro h0
        have h1 := hg.sqrt_sq _ (add_nonneg (hg.nonneg y) hA0)
        rw [h0, h.dot_self hg] at h1
        have h2 := pow_pos (s4.trans_le (hν y b2)) 2
        norm_num at h1
        linarith
      rw [b4, muIncrement, if_neg k2]
      simp [sgn, k1, k1.not_gt]
    · rcases q2 with ⟨q2, q3⟩ | ⟨q2, q3⟩
      · rw [b3, laterPhi, if_pos q2, q3]; exact hA1
      · have hL : 0 < s.L := lt_of_lt_of_le (by positivity) q3
        have e1 : e.geo.dot s.U s.U / (s.L ^ 2 * e.geo.dot e.forcing e.forcing) =
            e.geo.dot s.U s.U / s.L ^ 2 / e.geo.dot e.forcing e.forcing := by rw [div_div]
        rw [b3, laterPhi, if_neg (by simp [q2]), e1, loadWeight_sqrt hg (by have := hg.nonneg s.U; positivity) hFF]
        refine le_trans ?_ hA3
        rw [h.dot_self hg, ← div_pow]
        refine pow_le_pow_left₀ (by positivity) ?_ 2
        rw [div_le_iff₀ hL]
        have k1 : ‖s.U‖ ≤ ‖s.U - w s.L‖ + ‖w s.L‖ := by
          have := norm_add_le (s.U - w s.L) (w s.L)
          rwa [sub_add_cancel] at this
        have k2 := hw q2 _ hls
        have k3 := mul_le_mul_of_nonneg_right hs.weight hp0.le
        have k4 := hr.close
        linarith
    · intro ha
      obtain ⟨k1, k2⟩ := b6 ha
      rw [k1, k2]
      exact ⟨q1.1, fun X v hX hv => (q1.2 X v (by rw [← hr.len]; exact hX) hv).le⟩
    · intro hu'
      rw [b3, laterPhi, if_pos hu']

/-- One step keeps it. -/
theorem OnPath.step {s : St ℝ V Mat Fac} {phi₀ h' B : ℝ} (hr : OnPath e o c J w a phi₀ h' s)
    (h : c.On e f J w a b) (hg : e.geo.Laws) (hc : c.Valid) (hφ : c.φ = ‖e.forcing‖) (ha : 0 ≤ a)
    (hs : c.Short o.tolF o.tolU h') (hF : 0 < o.tolF) (hU : 0 < o.tolU)
    (hq : o.quasi = false) (hrel : o.relax = 1) (hmax : 2 ≤ o.maxIt)
    (hl : s.L + (c.κ + 1) * h' ≤ b) (hw : o.phiUser = false → ∀ l ∈ Icc a b, ‖w l‖ ≤ B * l)
    (hA1 : loadWeight e phi₀ ≤ c.Ā) (hA2 : c.W ^ 2 ≤ c.Ā) (hA3 : (B + 1) ^ 2 ≤ c.Ā) :
    ∃ t, ALM.step e o (crisfield e o) s = (t, .ok .success) ∧ t.numIt = 1 ∧ OnPath e o c J w a phi₀ h' t ∧
      s.L + c.θ / 2 * h' ≤ t.L ∧ t.L ≤ s.L + (c.κ + 1) * h' := by
  obtain ⟨-, s2, -, -, -, s6, -⟩ := hc.signs
  have hp0 := hs.pos
  have hκ : 0 ≤ (c.κ + 1) * h' := by positivity
  obtain ⟨p, y, h1, h2⟩ := hr.started h hg hc hφ hs (by linarith) hw hA1 hA2 hA3
  have hlen := hr.len
  obtain ⟨t, c1, c2, c3, c4, c5, c6, c7, c8, c9, c10, c11⟩ := h1.step h hg hc hφ ha hF hU hq hrel hmax
    (by rw [hlen]; exact hs) hr.guess hr.adaptive hr.initialized hr.above (by rw [hlen]; exact hl)
    (by rw [hlen]; exact hr.close)
  rw [hlen] at c3 c4 c5 c6
  have hθ : 0 ≤ c.θ / 2 * h' := by positivity
  refine ⟨t, c1, c2, ⟨c10, c8, c9, c11.trans hlen, by linarith [hr.above], c3, .inr ⟨c6, ?_⟩⟩, c4, c5⟩
  by_cases hu : o.phiUser = true
  · refine .inl ⟨hu, ?_⟩
    rw [c7, h2 hu]
    rcases hr.side with ⟨q1, -⟩ | ⟨-, ⟨-, q⟩ | ⟨q, -⟩⟩
    · simp [q1] at hu
    · exact q
    · simp [q] at hu
  · exact .inr ⟨by simpa using hu, by linarith [ha.trans hr.above]⟩

/-- The constants of a path. -/
noncomputable def PathData.of (ρ β γ μ Λ φ phi₀ B : ℝ) (e : Env ℝ V Mat Fac) : PathData :=
  ⟨ρ, β, γ, μ, Λ, φ, loadWeight e phi₀ + (β * φ) ^ 2 + (B + 1) ^ 2⟩

variable {ρ β γ μ Λ : ℝ}

/-- **C135**: Crisfield's method along a path of equilibria. There is a bound for the lengths below which any
number of steps along the path succeeds, each in one iteration; every step increases the load by an amount
between fixed multiples of the length; every point is within `C len ^ 4` of the path at its load; and the end
of the path is reached up to such a multiple. The first step starts without stored increments and the default
scaling, or with increments that lead forward. A given scaling is `phi₀`. -/
theorem C135_crisfield_path (h : EqPath e f J w a b ρ β γ μ Λ) (hg : e.geo.Laws) (ha : 0 ≤ a) (hF : e.forcing ≠ 0)
    {tF tU B phi₀ : ℝ} (hF' : 0 < tF) (hU' : 0 < tU) :
    ∃ C r h₀ c₁ c₂ : ℝ, 0 ≤ C ∧ 0 < r ∧ 0 < h₀ ∧ 0 < c₁ ∧ 0 < c₂ ∧ ∀ (o : Opts ℝ) (s : St ℝ V Mat Fac),
      o.quasi = false → o.relax = 1 → 2 ≤ o.maxIt → o.tolF = tF → o.tolU = tU →
      (o.phiUser = false → ∀ l ∈ Icc a b, ‖w l‖ ≤ B * l) →
      s.initialized = true → s.guess = none → s.adaptive = false → 0 < s.len → s.len ≤ h₀ → a ≤ s.L →
      ‖s.U - w s.L‖ ≤ C * s.len ^ 4 →
      (o.phiUser = false ∧ s.DUold = 0 ∧ s.DLold = 0 ∨
        Sided e J w (r * s.len) s ∧ (o.phiUser = true ∧ s.phi = phi₀ ∨ o.phiUser = false ∧ c₁ * s.len ≤ s.L)) →
      let at' := fun k => (fun s => (ALM.step e o (crisfield e o) s).1)^[k] s
      (∀ n, (∀ k < n, (at' k).L + c₂ * s.len ≤ b) →
        (∀ k < n, (ALM.step e o (crisfield e o) (at' k)).2 = .ok .success ∧ (at' (k + 1)).numIt = 1 ∧
          (at' k).L + c₁ * s.len ≤ (at' (k + 1)).L ∧ (at' (k + 1)).L ≤ (at' k).L + c₂ * s.len) ∧
        ∀ k ≤ n, ‖(at' k).U - w (at' k).L‖ ≤ C * s.len ^ 4) ∧
      ∃ n, (∀ k < n, (at' k).L + c₂ * s.len ≤ b) ∧ b < (at' n).L + c₂ * s.len := by
  set c := PathData.of ρ β γ μ Λ ‖e.forcing‖ phi₀ B e with hcd
  have hφ0 : 0 < ‖e.forcing‖ := norm_pos_iff.2 hF
  have hA0 : 0 ≤ loadWeight e phi₀ := loadWeight_nonneg hg _
  have hc : c.Valid := ⟨h.posρ, h.posβ, h.posγ, h.posμ, h.posΛ, hφ0, by
    change 0 ≤ loadWeight e phi₀ + _ + _; positivity⟩
  have hA1 : loadWeight e phi₀ ≤ c.Ā := by
    change _ ≤ loadWeight e phi₀ + _ + _
    have := sq_nonneg (β * ‖e.forcing‖)
    have := sq_nonneg (B + 1)
    linarith
  have hA2 : c.W ^ 2 ≤ c.Ā := by
    change (β * ‖e.forcing‖) ^ 2 ≤ loadWeight e phi₀ + _ + _
    have := sq_nonneg (B + 1)
    linarith
  have hA3 : (B + 1) ^ 2 ≤ c.Ā := by
    change _ ≤ loadWeight e phi₀ + _ + _
    have := sq_nonneg (β * ‖e.forcing‖)
    linarith
  obtain ⟨-, s2, -, -, -, s6, -, -, s9, -, -, -, -, s14⟩ := hc.signs
  obtain ⟨h₀, hh, key⟩ := hc.exists_short hF' hU'
  refine ⟨c.C, c.R, h₀, c.θ / 2, c.κ + 1, s14, s9, hh, half_pos s6, by linarith, ?_⟩
  intro o s hq hrel hmax h1 h2 hw hi hgu had hl0 hl1 hsa hs hside at'
  have hshort := key s.len hl0 hl1
  rw [← h1, ← h2] at hshort
  have hr0 : OnPath e o c J w a phi₀ s.len s := ⟨hi, hgu, had, rfl, hsa, hs, hside⟩
  have next : ∀ k, OnPath e o c J w a phi₀ s.len (at' k) → (at' k).L + (c.κ + 1) * s.len ≤ b →
      OnPath e o c J w a phi₀ s.len (at' (k + 1)) ∧ (ALM.step e o (crisfield e o) (at' k)).2 = .ok .success ∧
      (at' (k + 1)).numIt = 1 ∧ (at' k).L + c.θ / 2 * s.len ≤ (at' (k + 1)).L ∧
      (at' (k + 1)).L ≤ (at' k).L + (c.κ + 1) * s.len := by
    intro k hk hl
    obtain ⟨t, c1, c2, c3, c4, c5⟩ := hk.step (o := o) h hg hc rfl ha hshort (by rw [h1]; exact hF')
      (by rw [h2]; exact hU') hq hrel hmax hl hw hA1 hA2 hA3
    have hat : at' (k + 1) = t := by
      simp only [at', Function.iterate_succ_apply'] at c1 ⊢
      rw [c1]
    rw [hat]
    exact ⟨c3, by rw [c1], c2, c4, c5⟩
  have inv : ∀ n, (∀ k < n, (at' k).L + (c.κ + 1) * s.len ≤ b) → ∀ k ≤ n, OnPath e o c J w a phi₀ s.len (at' k) := by
    intro n hn k
    induction k with
    | zero => exact fun _ => hr0
    | succ k ih => exact fun hk => (next k (ih (by omega)) (hn k (by omega))).1
  refine ⟨fun n hn => ⟨fun k hk => (next k (inv n hn k hk.le) (hn k hk)).2, fun k hk => (inv n hn k hk).close⟩, ?_⟩
  have hex : ∃ n, b < (at' n).L + (c.κ + 1) * s.len := by
    by_contra hno
    have hall : ∀ n, (at' n).L + (c.κ + 1) * s.len ≤ b := fun n => not_lt.1 fun hn => hno ⟨n, hn⟩
    have hgrow : ∀ n : ℕ, s.L + n * (c.θ / 2 * s.len) ≤ (at' n).L := by
      intro n
      induction n with
      | zero => simp [at']
      | succ n ih =>
        have := (next n (inv n (fun k _ => hall k) n le_rfl) (hall n)).2.2.2.1
        push_cast
        linarith
    obtain ⟨n, hn⟩ := exists_nat_gt ((b - s.L) / (c.θ / 2 * s.len))
    rw [div_lt_iff₀ (by positivity)] at hn
    have h3 := hgrow n
    have h4 := hall n
    have h5 : 0 ≤ (c.κ + 1) * s.len := by positivity
    linarith
  classical
  exact ⟨Nat.find hex, fun k hk => not_lt.1 (Nat.find_min hex hk), Nat.find_spec hex⟩

/-- **C135** for twice continuously differentiable internal forces and a structure that is undeformed without
load: starting at rest with the default scaling, all steps of a short enough length succeed, each in one
iteration, stay within `C len ^ 4` of the path of equilibria and reach its end up to a multiple of the length. -/
theorem C135_crisfield_smooth [FiniteDimensional ℝ V] {f : V → V} (hf : ContDiff ℝ 2 f) {w : ℝ → V} {b : ℝ}
    (hw : ContinuousOn w (Icc 0 b)) (hw0 : w 0 = 0) (hb : 0 ≤ b)
    (hbal : ∀ l ∈ Icc 0 b, f (w l) = l • e.forcing) (hreg : ∀ l ∈ Icc 0 b, IsUnit (fderiv ℝ f (w l)))
    (hg : e.geo.Laws) (hgeo : ∀ x, e.geo.norm x = ‖x‖)
    (hres : ∀ n x l, e.residual n x l = some (f x - l • e.forcing))
    (hsolve : ∀ x, IsUnit (fderiv ℝ f x) → Solvable e (fun x => (fderiv ℝ f x : V →ₗ[ℝ] V)) x)
    (hF : e.forcing ≠ 0) {tF tU : ℝ} (hF' : 0 < tF) (hU' : 0 < tU) :
    ∃ C h₀ c₂ : ℝ, 0 ≤ C ∧ 0 < h₀ ∧ 0 < c₂ ∧ ∀ (o : Opts ℝ) (s : St ℝ V Mat Fac),
      o.quasi = false → o.relax = 1 → 2 ≤ o.maxIt → o.tolF = tF → o.tolU = tU → o.phiUser = false →
      s.initialized = true → s.guess = none → s.adaptive = false → 0 < s.len → s.len ≤ h₀ →
      s.U = 0 → s.L = 0 → s.DUold = 0 → s.DLold = 0 →
      let at' := fun k => (fun s => (ALM.step e o (crisfield e o) s).1)^[k] s
      ∃ n, b - c₂ * s.len < (at' n).L ∧ (at' n).L ≤ b ∧
        (∀ k < n, (ALM.step e o (crisfield e o) (at' k)).2 = .ok .success ∧ (at' (k + 1)).numIt = 1 ∧
          (at' k).L < (at' (k + 1)).L ∧ (at' (k + 1)).L ≤ (at' k).L + c₂ * s.len) ∧
        ∀ k ≤ n, ‖(at' k).U - w (at' k).L‖ ≤ C * s.len ^ 4 := by
  obtain ⟨ρ, β, γ, μ, Λ, h⟩ := exists_path hf hw hbal hreg hgeo hres hsolve
  obtain ⟨C, r, h₀, c₁, c₂, k1, -, k3, k4, k5, key⟩ := C135_crisfield_path (B := Λ) (phi₀ := 0) h hg le_rfl hF hF' hU'
  refine ⟨C, h₀, c₂, k1, k3, k5, ?_⟩
  intro o s hq hrel hmax h1 h2 hphi hi hgu had hl0 hl1 hU hL hDU hDL at'
  obtain ⟨a1, n, a2, a3⟩ := key o s hq hrel hmax h1 h2 (fun _ l hl => by
    have := h.lip 0 ⟨le_rfl, hb⟩ l hl
    rwa [hw0, sub_zero, sub_zero, abs_of_nonneg hl.1] at this) hi hgu had hl0 hl1 hL.ge
    (by rw [hU, hL, hw0, sub_zero, norm_zero]; positivity) (.inl ⟨hphi, hDU, hDL⟩)
  obtain ⟨b1, b2⟩ := a1 n a2
  refine ⟨n, by linarith, ?_, fun k hk => ?_, b2⟩
  · rcases n with _ | n
    · change s.L ≤ b
      rw [hL]; exact hb
    · exact (b1 n (by omega)).2.2.2.trans (a2 n (by omega))
  · obtain ⟨d1, d2, d3, d4⟩ := b1 k hk
    exact ⟨d1, d2, by linarith [mul_pos k4 hl0], d4⟩

end GsSA.ALM
