import Mathlib.Algebra.Order.Field.Basic
import Mathlib.Algebra.Order.Ring.Rat
import Mathlib.Algebra.Field.Rat
import Mathlib.Tactic.FieldSimp
import Mathlib.Tactic.NormNum
import Verif.Base.Inertia
import Verif.ALM.SingularProps
import Verif.Static.DRProps
import Verif.Static.NewtonProps
import Verif.Static.Indicator

/-!
# Property C120: stability indicator and options of the static solvers
-/

namespace GsSA

variable {K : Type} [Field K] [LinearOrder K]

/-- What Spectra's shift solver returns for `n` eigenvalues with the rule `LargestAlge`, in exact arithmetic:
of the spectrum `Λ`, which does not contain the shift `σ`, those `n` with the largest `1 / (λ - σ)`. -/
def Selects (Λ : List K) (n : ℕ) (σ : K) (l : List K) : Prop :=
  l.length = n ∧ σ ∉ Λ ∧ ∃ rest, (l ++ rest).Perm Λ ∧ ∀ a ∈ l, ∀ b ∈ rest, 1 / (b - σ) ≤ 1 / (a - σ)

variable [IsStrictOrderedRing K] {Λ l : List K} {n : ℕ} {σ m : K}

/-- The number of eigenvalues above the shift. -/
def above (Λ : List K) (σ : K) : ℕ := (Λ.filter fun x => decide (σ < x)).length

/-- With at least `n` eigenvalues above the shift, only such are returned, and their minimum is the smallest
eigenvalue above the shift. -/
theorem Selects.only_above (h : Selects Λ n σ l) (hn : n ≤ above Λ σ) :
    (∀ a ∈ l, σ < a) ∧ ∀ a ∈ l, ∀ b ∈ Λ, σ < b → b ∉ l → a ≤ b := by
  obtain ⟨hl, hσ, rest, hp, hs⟩ := h
  have hne : ∀ x ∈ l ++ rest, x ≠ σ := fun x hx h0 => hσ (h0 ▸ hp.mem_iff.1 hx)
  have key : ∀ a ∈ l, σ < a := by
    by_contra hc
    push Not at hc
    obtain ⟨a, ha, hle⟩ := hc
    have ha0 : a < σ := lt_of_le_of_ne hle (hne a (List.mem_append_left _ ha))
    -- then nothing in the rest is above the shift
    have hr : ∀ b ∈ rest, ¬σ < b := by
      intro b hb h0
      have h1 := hs a ha b hb
      have h2 : 0 < 1 / (b - σ) := one_div_pos.2 (by linarith)
      have h3 : 1 / (a - σ) < 0 := one_div_neg.2 (by linarith)
      linarith
    have h1 : above Λ σ = (l.filter fun x => decide (σ < x)).length := by
      rw [above, ← (hp.filter _).length_eq, List.filter_append]
      have : rest.filter (fun x => decide (σ < x)) = [] := by
        rw [List.filter_eq_nil_iff]
        intro b hb
        simpa using hr b hb
      rw [this, List.append_nil]
    have h2 : (l.filter fun x => decide (σ < x)).length < l.length := by
      refine List.length_filter_lt_length_iff_exists.2 ⟨a, ha, ?_⟩
      simpa using hle
    omega
  refine ⟨key, fun a ha b hb h0 hbl => ?_⟩
  have hbr : b ∈ rest := (List.mem_append.1 (hp.mem_iff.2 hb)).resolve_left hbl
  have h1 := hs a ha b hbr
  have h2 := key a ha
  rw [one_div_le_one_div (by linarith) (by linarith)] at h1
  linarith

/-- With fewer than `n` eigenvalues above the shift, the smallest eigenvalue is returned. -/
theorem Selects.below (h : Selects Λ n σ l) (hn : above Λ σ < n) :
    ∃ a ∈ l, ∀ b ∈ Λ, a ≤ b := by
  obtain ⟨hl, hσ, rest, hp, hs⟩ := h
  have hne : ∀ x ∈ l ++ rest, x ≠ σ := fun x hx h0 => hσ (h0 ▸ hp.mem_iff.1 hx)
  obtain ⟨c, hc, hcσ⟩ : ∃ c ∈ l, c < σ := by
    by_contra hc
    push Not at hc
    have h1 : l.filter (fun x => decide (σ < x)) = l := by
      rw [List.filter_eq_self]
      intro a ha
      exact decide_eq_true (lt_of_le_of_ne (hc a ha) (hne a (List.mem_append_left _ ha)).symm)
    have h2 : l.length ≤ above Λ σ := by
      rw [above, ← (hp.filter _).length_eq, List.filter_append, h1, List.length_append]
      omega
    omega
  obtain ⟨a, ha, hmin⟩ : ∃ a ∈ l, ∀ b ∈ l, a ≤ b := by
    have hnil : l ≠ [] := List.ne_nil_of_mem hc
    cases hm : ALM.minCoeff l with
    | none => cases l <;> simp_all [ALM.minCoeff]
    | some x => exact ⟨x, ALM.minCoeff_spec hm⟩
  refine ⟨a, ha, fun b hb => ?_⟩
  rcases List.mem_append.1 (hp.mem_iff.2 hb) with hbl | hbr
  · exact hmin b hbl
  · have haσ : a < σ := (hmin c hc).trans_lt hcσ
    have h1 := hs a ha b hbr
    rcases lt_or_ge b σ with hb0 | hb0
    · rw [one_div_le_one_div_of_neg (by linarith) (by linarith)] at h1
      linarith
    · linarith

namespace Static

open GsSA.ALM (Act Err minCoeff minCoeff_spec)
open Stab

set_option linter.unusedSectionVars false

variable {Mat : Type} {e : SEnv K Mat} {A : Mat} {σ : K} {k : Stab.Solver}

/-! ## The value of the indicator -/

theorem takeMin_ok {s t : SSt K} (h : takeMin s = (t, .ok ())) :
    ∃ m, minCoeff s.vec = some m ∧ t = { s with ind := some m } := by
  unfold takeMin at h
  rw [Act.bind_ok (Act.get_apply _)] at h
  cases hm : minCoeff s.vec with
  | none => simp [hm] at h
  | some m =>
    simp only [hm, Act.modify_apply, Prod.mk.injEq, and_true] at h
    exact ⟨m, rfl, h.symm⟩

theorem takeMin_run {s : SSt K} {m : K} (h : minCoeff s.vec = some m) :
    takeMin s = ({ s with ind := some m }, .ok ()) := by
  simp [takeMin, Act.bind_apply, h]

/-- C120: with the method `Eigenvalue`, when the eigenvalue solver succeeds: `indicator` returns the smallest
of the computed eigenvalues, and `stabilityVec` the eigenvalues. -/
theorem C120_eigenvalue {s : SSt K} {o : StabOpts} {l : List K} (hk : k ≠ .opt) (hs : s.active = some o)
    (ho : o.method = 1) (hl : e.eigs s.calls A σ = .values l) (hne : l ≠ []) :
    ∃ m t, indicator k e A σ s = (t, .ok m) ∧ m ∈ l ∧ (∀ x ∈ l, m ≤ x) ∧ t.ind = some m ∧
      stabilityVec k e A σ s = (t, .ok l) := by
  obtain ⟨m, hm⟩ : ∃ m, minCoeff l = some m := by
    cases l with
    | nil => exact absurd rfl hne
    | cons x l => exact ⟨_, rfl⟩
  obtain ⟨h1, h2⟩ := minCoeff_spec hm
  have hc : computeStability e A σ s =
      ({ s with calls := s.calls + 1, vec := l, ind := some m }, .ok true) := by
    simp [computeStability, Act.bind_apply, hs, ho, computeEig, count, hl, takeMin, hm]
  refine ⟨m, { s with calls := s.calls + 1, vec := l, ind := some m }, ?_, h1, h2, rfl, ?_⟩
  · cases k <;> first | exact absurd rfl hk | simp [indicator, Act.bind_apply, hc]
  · cases k <;> first | exact absurd rfl hk | simp [stabilityVec, Act.bind_apply, hc]

/-- C120: with the method `Determinant` and the solver `SimplicialLDLT`: the smallest pivot. -/
theorem C120_determinant {s : SSt K} {o : StabOpts} (hk : k ≠ .opt) (hs : s.active = some o)
    (ho : o.method = 0) (hd : o.ldlt = true) (hf : e.factorize s.calls A = true) (hne : e.vecD A ≠ []) :
    ∃ m t, indicator k e A σ s = (t, .ok m) ∧ m ∈ e.vecD A ∧ (∀ x ∈ e.vecD A, m ≤ x) ∧ t.ind = some m ∧
      stabilityVec k e A σ s = (t, .ok (e.vecD A)) := by
  obtain ⟨m, hm⟩ : ∃ m, minCoeff (e.vecD A) = some m := by
    cases h : e.vecD A with
    | nil => exact absurd h hne
    | cons x l => exact ⟨_, rfl⟩
  obtain ⟨h1, h2⟩ := minCoeff_spec hm
  have hc : computeStability e A σ s =
      ({ s with calls := s.calls + 1, vec := e.vecD A, ind := some m }, .ok true) := by
    simp [computeStability, Act.bind_apply, hs, ho, computeDet, count, hf, hd, takeMin, hm]
  refine ⟨m, { s with calls := s.calls + 1, vec := e.vecD A, ind := some m }, ?_, h1, h2, rfl, ?_⟩
  · cases k <;> first | exact absurd rfl hk | simp [indicator, Act.bind_apply, hc]
  · cases k <;> first | exact absurd rfl hk | simp [stabilityVec, Act.bind_apply, hc]

theorem min_neg {d : List K} {m : K} (h1 : m ∈ d) (h2 : ∀ x ∈ d, m ≤ x) : (∃ a ∈ d, a < 0) ↔ m < 0 :=
  ⟨fun ⟨a, ha, h0⟩ => (h2 a ha).trans_lt h0, fun h0 => ⟨m, h1, h0⟩⟩

theorem min_pos {d : List K} {m : K} (h1 : m ∈ d) (h2 : ∀ x ∈ d, m ≤ x) : (∀ a ∈ d, 0 < a) ↔ 0 < m :=
  ⟨fun h => h m h1, fun h0 a ha => h0.trans_le (h2 a ha)⟩

/-- C120: the sign of the indicator. Let `q x = xᵀAx` be diagonal with the pivots of `A = LDLᵀ`, and with the
eigenvalues of a complete spectrum. By either method the indicator is negative exactly if `q` has a negative
value, and positive exactly if `q` is positive definite. -/
theorem C120_sign {V : Type} [AddCommGroup V] [Module K V] {q : V → K} {s : SSt K} {o : StabOpts}
    (hk : k ≠ .opt) (hs : s.active = some o)
    (h : (o.method = 1 ∧ ∃ l, e.eigs s.calls A σ = .values l ∧ l ≠ [] ∧ Diagonal q l) ∨
      (o.method = 0 ∧ o.ldlt = true ∧ e.factorize s.calls A = true ∧ e.vecD A ≠ [] ∧
        Diagonal q (e.vecD A))) :
    ∃ m, (indicator k e A σ s).2 = .ok m ∧ (m < 0 ↔ ∃ x, q x < 0) ∧ (0 < m ↔ ∀ x, x ≠ 0 → 0 < q x) := by
  rcases h with ⟨ho, l, hl, hne, hq⟩ | ⟨ho, hd, hf, hne, hq⟩
  · obtain ⟨m, t, h1, h2, h3, -⟩ := C120_eigenvalue hk hs ho hl hne
    exact ⟨m, by rw [h1], by rw [hq.neg_iff, min_neg h2 h3], by rw [hq.pos_iff, min_pos h2 h3]⟩
  · obtain ⟨m, t, h1, h2, h3, -⟩ := C120_determinant (σ := σ) hk hs ho hd hf hne
    exact ⟨m, by rw [h1], by rw [hq.neg_iff, min_neg h2 h3], by rw [hq.pos_iff, min_pos h2 h3]⟩

/-- C120: with Spectra only some eigenvalues near the shift are computed. The indicator is the smallest
eigenvalue if all eigenvalues are above the shift, or fewer than the number requested. -/
theorem C120_spectra {s : SSt K} {o : StabOpts} {Λ l : List K} {n : ℕ} (hk : k ≠ .opt)
    (hs : s.active = some o) (ho : o.method = 1) (hl : e.eigs s.calls A σ = .values l)
    (hsel : Selects Λ n σ l) (hn : 1 ≤ n) (hΛ : (∀ x ∈ Λ, σ < x) ∨ above Λ σ < n) :
    ∃ m, (indicator k e A σ s).2 = .ok m ∧ m ∈ Λ ∧ ∀ x ∈ Λ, m ≤ x := by
  have hne : l ≠ [] := by
    intro h0
    have := hsel.1
    rw [h0] at this
    simp at this
    omega
  obtain ⟨m, t, h1, h2, h3, -⟩ := C120_eigenvalue hk hs ho hl hne
  have hmem : ∀ a ∈ l, a ∈ Λ := by
    obtain ⟨-, -, rest, hp, -⟩ := hsel
    exact fun a ha => hp.mem_iff.1 (List.mem_append_left _ ha)
  refine ⟨m, by rw [h1], hmem m h2, fun x hx => ?_⟩
  by_cases hc : above Λ σ < n
  · obtain ⟨a, ha, hmin⟩ := hsel.below hc
    exact (h3 a ha).trans (hmin x hx)
  · obtain ⟨h4, h5⟩ := hsel.only_above (not_lt.1 hc)
    by_cases hxl : x ∈ l
    · exact h3 x hxl
    · exact h5 m h2 x hx ((hΛ.resolve_right hc) x hx) hxl

/-- C120, violation: an eigenvalue below the shift (default `-1e-2`) is not seen if as many eigenvalues as
requested lie above the shift. If these are positive, the indicator is positive although the matrix is
indefinite. -/
theorem C120_violated_shift {s : SSt K} {o : StabOpts} {Λ l : List K} {n : ℕ} (hk : k ≠ .opt)
    (hs : s.active = some o) (ho : o.method = 1) (hl : e.eigs s.calls A σ = .values l)
    (hsel : Selects Λ n σ l) (hn : 1 ≤ n) (hΛ : n ≤ above Λ σ) (hpos : ∀ x ∈ Λ, σ < x → 0 < x) :
    ∃ m, (indicator k e A σ s).2 = .ok m ∧ 0 < m := by
  have hne : l ≠ [] := by
    intro h0
    have := hsel.1
    rw [h0] at this
    simp at this
    omega
  obtain ⟨m, t, h1, h2, h3, -⟩ := C120_eigenvalue hk hs ho hl hne
  obtain ⟨-, -, rest, hp, -⟩ := id hsel
  exact ⟨m, by rw [h1], hpos m (hp.mem_iff.1 (List.mem_append_left _ h2)) ((hsel.only_above hΛ).1 m h2)⟩

/-- C120, violation: when the computation fails (factorisation or eigenvalue solver), `indicator` returns the
value of an earlier call. -/
theorem C120_violated_failure {s : SSt K} {o : StabOpts} {x : K} (hk : k ≠ .opt) (hs : s.active = some o)
    (hx : s.ind = some x)
    (h : (o.method = 0 ∧ e.factorize s.calls A = false) ∨ (o.method = 1 ∧ e.eigs s.calls A σ = .failed) ∨
      (o.method ≠ 0 ∧ o.method ≠ 1)) :
    (indicator k e A σ s).2 = .ok x := by
  rcases h with ⟨ho, hf⟩ | ⟨ho, hf⟩ | ⟨h0, h1⟩
  · have hc : computeStability e A σ s = ({ s with calls := s.calls + 1 }, .ok false) := by
      simp [computeStability, Act.bind_apply, hs, ho, computeDet, count, hf]
    cases k <;> first | exact absurd rfl hk | simp [indicator, Act.bind_apply, hc, hx]
  · have hc : computeStability e A σ s = ({ s with calls := s.calls + 1 }, .ok false) := by
      simp [computeStability, Act.bind_apply, hs, ho, computeEig, count, hf]
    cases k <;> first | exact absurd rfl hk | simp [indicator, Act.bind_apply, hc, hx]
  · have hc : computeStability e A σ s = (s, .ok false) := by
      simp [computeStability, Act.bind_apply, hs, h0, h1]
    cases k <;> first | exact absurd rfl hk | simp [indicator, Act.bind_apply, hc, hx]

/-- C120, violation: with the method `Determinant` and another solver than `SimplicialLDLT` (that of
`gsStaticNewton` is by default `CGDiagonal`), the result does not depend on the matrix: it is the minimum of the
vector of an earlier call, and undefined without one. -/
theorem C120_violated_solver {s : SSt K} {o : StabOpts} (hk : k ≠ .opt) (hs : s.active = some o)
    (ho : o.method = 0) (hd : o.ldlt = false) (hf : e.factorize s.calls A = true) :
    (indicator k e A σ s).2 = match minCoeff s.vec with | none => .error .ub | some m => .ok m := by
  cases hm : minCoeff s.vec with
  | none =>
    have hc : computeStability e A σ s = ({ s with calls := s.calls + 1 }, .error .ub) := by
      simp [computeStability, Act.bind_apply, hs, ho, computeDet, count, hf, hd, takeMin, hm]
    cases k <;> first | exact absurd rfl hk | simp [indicator, Act.bind_apply, hc]
  | some m =>
    have hc : computeStability e A σ s =
        ({ s with calls := s.calls + 1, ind := some m }, .ok true) := by
      simp [computeStability, Act.bind_apply, hs, ho, computeDet, count, hf, hd, takeMin, hm]
    cases k <;> first | exact absurd rfl hk | simp [indicator, Act.bind_apply, hc]

/-- C120, violation: on a new `gsStaticNewton` for which nothing but the method `Determinant` is chosen, the indicator
is undefined for every matrix. With dynamic relaxation, whose solver is `SimplicialLDLT`, it is the smallest
pivot. -/
theorem C120_violated_default :
    (indicator .newton e A σ (getOptions .newton (setOptions .newton (some 0) none (fresh .newton)))).2 = .error .ub ∧
    (e.factorize 0 A = true → ∀ m, minCoeff (e.vecD A) = some m →
      (indicator .dr e A σ (getOptions .dr (setOptions .dr (some 0) none (fresh .dr)))).2 = .ok m) := by
  constructor
  · cases hf : e.factorize 0 A
    · simp [indicator, getOptions, setOptions, fresh, computeStability, Act.bind_apply, computeDet, count, hf]
    · have := C120_violated_solver (k := .newton) (e := e) (A := A) (σ := σ)
        (s := getOptions .newton (setOptions .newton (some 0) none (fresh .newton))) (by simp) rfl rfl rfl hf
      rw [this]
      rfl
  · intro hf m hm
    simp [indicator, getOptions, setOptions, fresh, computeStability, Act.bind_apply, computeDet, count, hf, takeMin, hm]

/-- C120: a change of the options has an effect on the indicator only after `getOptions`, which `initialize`,
`solve` of `gsStaticNewton` and `solve` of `gsStaticOpt` call. Violations: before the first such call the
indicator is undefined; for the composite solver always; `gsStaticOpt` throws. -/
theorem C120_options (a : Option ℤ) (b : Option Bool) (s : SSt K) :
    (indicator k e A σ (setOptions k a b s)).2 = (indicator k e A σ s).2 ∧
    (k ≠ .composite → (getOptions k (setOptions k a b s)).active =
      some ⟨a.getD s.list.method, b.getD s.list.ldlt⟩) ∧
    (k ≠ .opt → s.active = none → (indicator k e A σ s).2 = .error .ub) ∧
    (indicator .opt e A σ s).2 = .error .other ∧
    (s.active = none → (indicator .composite e A σ (getOptions .composite (setOptions .composite a b s))).2 =
      .error .ub) := by
  have hc : ∀ s : SSt K, s.active = none → computeStability e A σ s = (s, .error .ub) := by
    intro s hs
    simp [computeStability, Act.bind_apply, hs]
  refine ⟨?_, ?_, ?_, by simp [indicator], ?_⟩
  · have key : ∀ s : SSt K, ∀ L : StabOpts, (computeStability e A σ { s with list := L }) =
        ({ (computeStability e A σ s).1 with list := L }, (computeStability e A σ s).2) := by
      intro s L
      unfold computeStability
      simp only [Act.bind_apply, Act.get_apply]
      cases hs : s.active with
      | none => simp [hs]
      | some o =>
        simp only [Act.bind_apply]
        by_cases h0 : o.method = 0
        · simp only [h0, if_true, computeDet, Act.bind_apply, Act.get_apply, count, Act.modify_apply]
          by_cases hf : e.factorize s.calls A = true
          · cases hd : o.ldlt
            · simp only [hf, if_true, Bool.false_eq_true, if_false, Act.bind_apply, Act.pure_apply, takeMin,
                Act.get_apply]
              cases minCoeff s.vec <;> simp [hs]
            · simp only [hf, if_true, Act.bind_apply, Act.modify_apply, Act.pure_apply, takeMin,
                Act.get_apply]
              cases minCoeff (e.vecD A) <;> simp [hs]
          · simp [hs, hf]
        · by_cases h1 : o.method = 1
          · simp only [h1, if_true, computeEig, Act.bind_apply, Act.get_apply, count, Act.modify_apply,
              one_ne_zero, if_false]
            cases e.eigs s.calls A σ with
            | threw => simp [hs]
            | failed => simp [hs]
            | values l =>
              simp only [Act.bind_apply, Act.modify_apply, takeMin, Act.get_apply]
              cases hm : minCoeff l <;> simp [hs, hm, Act.bind_apply]
          · simp [hs, h0, h1]
    have key2 : ∀ L : StabOpts, (indicator .newton e A σ { s with list := L }).2 =
        (indicator .newton e A σ s).2 := by
      intro L
      simp only [indicator, Act.bind_apply]
      rw [key s L]
      rcases hr : computeStability e A σ s with ⟨t, r⟩
      cases r with
      | error x => rfl
      | ok b =>
        simp only [Act.get_apply]
        cases t.ind <;> rfl
    cases k
    · exact key2 _
    · exact key2 _
    · rfl
    · rfl
  · cases k <;> intro hk <;> first | exact absurd rfl hk | rfl
  · intro hk hs
    cases k <;> first | exact absurd rfl hk | simp [indicator, Act.bind_apply, hc s hs]
  · intro hs
    simp [indicator, Act.bind_apply, getOptions, setOptions, hc s hs]

/-! ## Options of the solvers -/

variable {V ι : Type} [AddCommGroup V] [Module K V] [Fintype ι]

/-- C120: `gsStaticNewton` uses the options as they are when `solve` is called, whatever was read before. -/
theorem C120_newton (e : NEnv K V Mat) (f : Opts K → Opts K) (c : Cfg (Opts K)) (s : NSt K V) :
    (newtonSolve e (c.setOptions f) s).2 = Newton.solve e (f c.list) s ∧
    ∀ a, newtonSolve e { c with active := a } s = newtonSolve e c s := ⟨rfl, fun _ => rfl⟩

/-- C120: `indicator()` and `stabilityVec()` of `gsStaticNewton` are those of the Jacobian at the current
displacements, with the shift `-1/100`. -/
theorem C120_current {e : SEnv K Mat} {f : V → Option Mat} {n : NSt K V} {A : Mat} (h : f n.U = some A)
    (s : SSt K) : newtonIndicator e (some f) n s = indicator .newton e A (-(1 / 100)) s ∧
    newtonStabilityVec e (some f) n s = stabilityVec .newton e A (-(1 / 100)) s := by
  constructor
  · simp [newtonIndicator, newtonMatrix, h, Act.bind_apply]
  · simp [newtonStabilityVec, newtonMatrix, h, Act.bind_apply]

/-- C120, violation: without a Jacobian that depends on the displacements only, as for the constructor with a
matrix and for the one with a `dJacobian_t`, both throw, whatever the options and the state. So they do if the
assembly fails. -/
theorem C120_violated_current (e : SEnv K Mat) (n : NSt K V) (s : SSt K) :
    (newtonIndicator e none n s = (s, .error .other) ∧ newtonStabilityVec e none n s = (s, .error .other)) ∧
    ∀ f : V → Option Mat, f n.U = none →
      newtonIndicator e (some f) n s = (s, .error .other) ∧
      newtonStabilityVec e (some f) n s = (s, .error .other) := by
  refine ⟨⟨?_, ?_⟩, fun f hf => ⟨?_, ?_⟩⟩
  · simp [newtonIndicator, newtonMatrix, Act.bind_apply]
  · simp [newtonStabilityVec, newtonMatrix, Act.bind_apply]
  · simp [newtonIndicator, newtonMatrix, hf, Act.bind_apply]
  · simp [newtonStabilityVec, newtonMatrix, hf, Act.bind_apply]

/-- C120, violation: `gsStaticDR` uses the options read by `initialize`; options set later have no effect on
`solve`. Calling `initialize` again makes them effective and discards the displacements, the load and the
update. -/
theorem C120_violated_dr (e : DREnv K ι) (f : DROpts K → DROpts K) (c : Cfg (DROpts K)) (s : DRSt K ι) :
    let i := drInitialize e c s
    drSolve e (i.1.setOptions f) i.2 = DR.solve e c.list i.2 ∧
    (let j := drInitialize e (i.1.setOptions f) i.2
     drSolve e j.1 j.2 = DR.solve e (f c.list) j.2 ∧
     j.2 = DR.initializeSolver e (f c.list) s ∧ j.2.U = 0 ∧ j.2.DU = 0 ∧ j.2.L = 0) := ⟨rfl, rfl, rfl, rfl, rfl, rfl⟩

/-! ## Examples -/

namespace Demo

/-- The matrix is the list of its eigenvalues, given by Spectra as asked: the `n` with the largest
`1 / (λ - σ)`, sorted. -/
def stabEnv (n : ℕ) : SEnv ℚ (List ℚ) where
  factorize _ A := !(A.contains 0)
  vecD A := A
  eigs _ A σ :=
    if n = 0 then .threw
    else if A.contains σ then .failed
    else .values ((A.insertionSort fun a b => 1 / (b - σ) ≤ 1 / (a - σ)).take n)

/-- A solver after `getOptions`. -/
def stabSt (method : ℤ) (ldlt : Bool) : SSt ℚ := ⟨⟨method, ldlt⟩, some ⟨method, ldlt⟩, [], none, 0⟩

end Demo

/-- Eigenvalues 3, 2, -1/1000 with shift -1/100: the smallest is found by Spectra with 2 eigenvalues and with
pivots of the same signs. -/
example :
    (indicator .newton (Demo.stabEnv 2) [3, 2, -1 / 1000] (-1 / 100) (Demo.stabSt 1 false)).2 =
      .ok (-1 / 1000) ∧
    (stabilityVec .newton (Demo.stabEnv 2) [3, 2, -1 / 1000] (-1 / 100) (Demo.stabSt 1 false)).2 =
      .ok [-1 / 1000, 2] ∧
    (indicator .dr (Demo.stabEnv 2) [3, 2, -1 / 1000] (-1 / 100) (Demo.stabSt 0 true)).2 =
      .ok (-1 / 1000) := by
  decide +kernel

/-- With the eigenvalue -5 below the shift the indicator is 1. -/
example :
    Selects ([-5, 1, 2, 3] : List ℚ) 2 (-1 / 100) [1, 2] ∧
    (indicator .newton (Demo.stabEnv 2) [-5, 1, 2, 3] (-1 / 100) (Demo.stabSt 1 false)).2 = .ok 1 := by
  refine ⟨⟨rfl, by decide +kernel, [-5, 3], by decide +kernel, by decide +kernel⟩, by decide +kernel⟩

/-- A failed call returns the value of the call before; without `SimplicialLDLT` the result is undefined; a
problem with fewer than five unknowns makes Spectra throw. -/
example :
    let s := (indicator .newton (Demo.stabEnv 2) [3, 2, 7] (-1 / 100) (Demo.stabSt 1 false)).1
    (indicator .newton (Demo.stabEnv 2) [-1, -2, -1 / 100] (-1 / 100) s).2 = .ok 2 ∧
    (indicator .newton (Demo.stabEnv 2) [-1, -2] (-1 / 100) (Demo.stabSt 0 false)).2 = .error .ub ∧
    (indicator .newton (Demo.stabEnv 0) [-1, -2] (-1 / 100) (Demo.stabSt 1 false)).2 = .error .other ∧
    (indicator .newton (Demo.stabEnv 2) [-1, -2] (-1 / 100) (fresh .newton)).2 = .error .ub := by
  decide +kernel

/-- `q (x, y) = x² - 2 y²` is diagonal with entries 1, -2, and indefinite. -/
example : Diagonal (K := ℚ) (fun x : Fin 2 → ℚ => x 0 * x 0 - 2 * (x 1 * x 1)) [1, -2] ∧
    ∃ m, (indicator .dr (Demo.stabEnv 2) [1, -2] 0 (Demo.stabSt 0 true)).2 = .ok m ∧ m < 0 := by
  have hq : Diagonal (K := ℚ) (fun x : Fin 2 → ℚ => x 0 * x 0 - 2 * (x 1 * x 1)) [1, -2] :=
    ⟨LinearEquiv.refl ℚ _, fun x => by
      rw [show (∑ i : Fin ([1, -2] : List ℚ).length, ([1, -2] : List ℚ).get i *
        ((LinearEquiv.refl ℚ (Fin 2 → ℚ)) x i * (LinearEquiv.refl ℚ (Fin 2 → ℚ)) x i)) =
        1 * (x 0 * x 0) + -2 * (x 1 * x 1) from Fin.sum_univ_two _]
      ring⟩
  refine ⟨hq, ?_⟩
  obtain ⟨m, h1, h2, -⟩ := C120_sign (e := Demo.stabEnv 2) (A := [1, -2]) (σ := 0) (k := .dr)
    (s := Demo.stabSt 0 true) (by simp) rfl (.inr ⟨rfl, rfl, by decide +kernel, by decide +kernel, hq⟩)
  exact ⟨m, h1, h2.2 ⟨![0, 1], by norm_num⟩⟩

/-- The Jacobian with eigenvalues `3`, `2 - u` at the displacement `u = 5/2`: unstable. At `u = 9` it cannot be
assembled. -/
example :
    let n : NSt ℚ ℚ := ⟨0, none, 0, 0, 0, false, 0, 0, 0, 0, .success, true, []⟩
    (newtonIndicator (Demo.stabEnv 2) (some fun u => if u < 9 then some [3, 2 - u, 1] else none)
      { n with U := 5 / 2 } (Demo.stabSt 0 true)).2 = .ok (-1 / 2) ∧
    (newtonStabilityVec (Demo.stabEnv 2) (some fun u => if u < 9 then some [3, 2 - u, 1] else none)
      { n with U := 9 } (Demo.stabSt 0 true)).2 = .error .other := by
  decide +kernel

/-- Dynamic relaxation after a change of `maxIt` from 3 to 50: still `NotConverged`; after `initialize` it
succeeds. -/
example :
    let c : Cfg (DROpts ℚ) := ⟨Demo.dropts 3 (3 / 4) (-1), none⟩
    let i := drInitialize (Demo.drenv Demo.drlin) c (DR.ctor (Demo.drenv Demo.drlin) Demo.drraw)
    let c' := i.1.setOptions fun _ => Demo.dropts 50 (3 / 4) (-1)
    let j := drInitialize (Demo.drenv Demo.drlin) c' i.2
    (drSolve (Demo.drenv Demo.drlin) c' i.2).2 = .error .notConverged ∧
    (drSolve (Demo.drenv Demo.drlin) j.1 j.2).2 = .ok .success := by
  decide +kernel

end Static

/-! ## The arc-length methods -/

namespace ALM

variable {V Mat Fac : Type} [AddCommGroup V] [Module K V] {e : Env K V Mat Fac} {o : Opts K}

/-- C41: the stability of the arc-length methods in terms of the Jacobian. If the vector of pivots or
eigenvalues is a diagonal form of `q x = xᵀJx`, then after a successful `computeStability` the value of
`stability()` is 1 exactly if `q` has a negative value; the indicator is positive exactly if `q` is positive
definite; and the number of negative entries is that of any other diagonal form of `q`. -/
theorem C41_definite {W : Type} [AddCommGroup W] [Module K W] {q : W → K} {s t : St K V Mat Fac} {j : Bool}
    {shift : K} (h : computeStability e o j shift s = (t, .ok .success)) (hq : Diagonal q t.stabVec) :
    (t.stability = 1 ↔ ∃ x, q x < 0) ∧ (0 < t.indicator ↔ ∀ x, x ≠ 0 → 0 < q x) ∧
    ∀ d, Diagonal q d → t.negatives = (d.filter fun x => decide (x < 0)).length := by
  obtain ⟨h1, h2, h3, -, h5, -⟩ := C41_evaluation h
  refine ⟨?_, ?_, fun d hd => h3.trans (hq.negatives hd)⟩
  · rw [hq.neg_iff, h5]
    split
    · rename_i h0
      exact ⟨fun _ => ⟨_, h1, h0⟩, fun _ => rfl⟩
    · rename_i h0
      exact ⟨fun h => by simp at h, fun ⟨a, ha, h6⟩ => absurd ((h2 a ha).trans_lt h6) h0⟩
  · rw [hq.pos_iff]
    exact ⟨fun h0 a ha => h0.trans_le (h2 a ha), fun h0 => h0 _ h1⟩

/-- The Jacobian of the examples with pivots 2, -3, 1. -/
example :
    let r := computeStability { Demo.fold with vecD := fun _ => [2, -3, 1] }
      { Demo.foldOpts 5 with bifMethod := .determinant } true (-100) Demo.near
    r.2 = .ok .success ∧ r.1.stabVec = [2, -3, 1] ∧ r.1.stability = 1 ∧ r.1.negatives = 1 := by
  decide +kernel

/-- C41, violation: "the shift is needed to ensure that a negative eigenvalue is found" (`gsALMBase.h` 245). If
an eigenvalue is below the shift, at least as many as requested lie above it, and those are not negative, then
the point is reported as stable. -/
theorem C41_violated_shift {s t : St K V Mat Fac} {j : Bool} {shift : K} {Λ : List K} {n : ℕ}
    (h : computeStability e o j shift s = (t, .ok .success)) (hsel : Selects Λ n shift t.stabVec)
    (hΛ : n ≤ above Λ shift) (hpos : ∀ x ∈ Λ, shift < x → 0 ≤ x) : t.stability = -1 ∧ t.negatives = 0 := by
  obtain ⟨h1, h2, h3, h4, h5, -⟩ := C41_evaluation h
  obtain ⟨-, -, rest, hp, -⟩ := id hsel
  have h0 : ¬t.indicator < 0 := not_lt.2
    (hpos _ (hp.mem_iff.1 (List.mem_append_left _ h1)) ((hsel.only_above hΛ).1 _ h1))
  exact ⟨by rw [h5, if_neg h0], by have := h4.not.2 h0; omega⟩

/-- Eigenvalues -500, 1, 2, 3 of which two are computed with shift -100. -/
example :
    Selects ([-500, 1, 2, 3] : List ℚ) 2 (-100) [1, 2] ∧
    (let r := computeStability { Demo.fold with eigs := fun _ _ _ => some [1, 2] } (Demo.foldOpts 5) true (-100)
      Demo.near
    r.2 = .ok .success ∧ r.1.stabVec = [1, 2] ∧ r.1.stability = -1 ∧ r.1.negatives = 0) :=
  ⟨⟨rfl, by decide +kernel, [-500, 3], by decide +kernel, by decide +kernel⟩, by decide +kernel⟩

end ALM

end GsSA
