import Mathlib.Data.List.Range
import Verif.Static.DRProps
import Verif.Static.VerboseNewton

/-!
# Property C136 for `gsStaticDR`: the option `verbose`
-/

namespace GsSA.Static

open GsSA GsSA.ALM

set_option linter.unusedSectionVars false

variable {K ι : Type} [Field K] [LinearOrder K] [Fintype ι]

namespace DR

variable {e : DREnv K ι} {o : DROpts K}

/-! ## Specification -/

/-- Iteration `y` follows `x`; both are the object as it is when the line is printed. -/
def Follows (e : DREnv K ι) (o : DROpts K) (x y : DRSt K ι) : Prop :=
  ∃ r f, Passed e o r { x with numIt := y.numIt } y f

/-- The lines of the iterations in `l`: all with -1, otherwise those whose number is divisible by `v`. -/
def rows (v : ℤ) (e : DREnv K ι) (l : List (DRSt K ι)) : List (Print K (ι → K) Unit) :=
  (l.filter fun x => decide (v = -1 ∨ v ∣ (x.numIt : ℤ))).map fun x => .row (cells e x.numIt x)

/-- How a solve from `U` ends whose iterations are `l`: the solver is `t`. -/
def Ends {α : Type} (e : DREnv K ι) (o : DROpts K) (U : ι → K) (l : List (DRSt K ι)) (t : DRSt K ι) :
    Except Err α → Prop
  | .ok _ => ∃ x, l.getLast? = some x ∧ converged e o x = true ∧ t.U = U + x.DU ∧ t.DU = x.DU ∧ t.numIt = x.numIt
  | .error .notConverged => ∃ x, l.getLast? = some x ∧ converged e o x = false ∧ t.U = U + x.DU ∧ t.DU = x.DU ∧
      x.numIt + 1 = o.base.maxIt
  | .error _ => ∀ x ∈ l, converged e o x = false

/-! ## The parts of a solve -/

theorem shows_iff {v : ℤ} (hv : v ≠ 0) (k : ℕ) : shows v k = decide (v = -1 ∨ v ∣ (k : ℤ)) := by
  unfold shows
  have h : Int.tmod k v = 0 ↔ v ∣ (k : ℤ) := ⟨Int.dvd_of_tmod_eq_zero, Int.tmod_eq_zero_of_dvd⟩
  rw [Bool.eq_iff_iff]
  simp only [ne_eq, hv, not_false_eq_true, decide_true, Bool.true_and, Bool.or_eq_true, decide_eq_true_eq, h]
  exact or_comm

theorem _root_.GsSA.Static.Prints.congr {σ ρ α : Type} {m : Act (σ × List ρ) α} {s t : σ} {r : Except Err α}
    {l l' : List ρ} (hl : l = l') (h : Prints m s r t l) : Prints m s r t l' := hl ▸ h

theorem prints_body {r r' : ℤ} {s t : DRSt K ι} (h : body e o r s = (t, .ok r')) (v : ℤ) :
    Prints (bodyV v e o r) s (.ok r') t (if shows v t.numIt = true then [.row (cells e t.numIt t)] else []) := by
  unfold body at h
  obtain ⟨s1, ⟨⟩, h1, h⟩ := Act.bind_ok_inv h
  rw [Act.bind_ok (Act.get_apply _)] at h
  obtain ⟨s2, ⟨⟩, h2, h⟩ := Act.bind_ok_inv h
  rw [Act.bind_ok (Act.modify_apply _ _), Act.pure_apply, Prod.mk.injEq] at h
  obtain ⟨rfl, h4⟩ := h
  unfold bodyV
  refine .after h1 (.after (Act.get_apply s1) (.after h2 (.after (Act.get_apply s2) ?_)))
  refine .congr (List.append_nil _) (.bind (.lineIf (shows v s2.numIt = true) (fun s => Print.row (cells e s.numIt s)) s2)
    (.after (Act.modify_apply _ _) ?_))
  rw [← h4]
  exact .ret _ _

theorem prints_body_error {r : ℤ} {s t : DRSt K ι} {x : Err} (h : body e o r s = (t, .error x)) (v : ℤ) :
    Prints (bodyV v e o r) s (.error x) t [] := by
  unfold body at h
  unfold bodyV
  rcases Act.bind_cases h with ⟨s1, ⟨⟩, h1, h⟩ | ⟨y, h1, hy⟩
  · rw [Act.bind_ok (Act.get_apply _)] at h
    refine .after h1 (.after (Act.get_apply s1) ?_)
    rcases Act.bind_cases h with ⟨s2, ⟨⟩, h2, h⟩ | ⟨y, h2, hy⟩
    · simp [Act.bind_apply] at h
    · obtain rfl : x = y := by simpa using hy
      exact .dead h2
  · obtain rfl : x = y := by simpa using hy
    exact .dead h1

/-- A failing iteration adds no energy. -/
theorem body_error_eks {r : ℤ} {s t : DRSt K ι} {x : Err} (h : body e o r s = (t, .error x)) : t.Eks = s.Eks := by
  have k1 : Keeps (fun s : DRSt K ι => s.Eks) (iteration e) :=
    Keeps.bind (.modify fun _ => rfl) fun _ => Keeps.bind Keeps.get fun _ =>
      Keeps.bind (keeps_computeResidual (fun _ _ => rfl) e _) fun _ =>
      Keeps.bind (.modify fun _ => rfl) fun _ =>
      Keeps.bind (.modify fun _ => rfl) fun _ => Keeps.bind (.modify fun _ => rfl) fun _ =>
      .modify fun _ => rfl
  have k2 : Keeps (fun s : DRSt K ι => s.Eks) (peak e) :=
    Keeps.bind Keeps.get fun _ =>
      Keeps.bind (keeps_computeResidual (fun _ _ => rfl) e _) fun _ =>
      Keeps.bind (.modify fun _ => rfl) fun _ => Keeps.bind (.modify fun _ => rfl) fun _ =>
      .modify fun _ => rfl
  unfold body at h
  rcases Act.bind_cases h with ⟨s1, ⟨⟩, h1, h⟩ | ⟨y, h1, hy⟩
  · rw [Act.bind_ok (Act.get_apply _)] at h
    rcases Act.bind_cases h with ⟨s2, ⟨⟩, h2, h⟩ | ⟨y, h2, hy⟩
    · simp [Act.bind_apply] at h
    · exact ((Keeps.ite k2 (.ret _)).run h2).trans (k1.run h1)
  · exact k1.run h1

theorem rows_cons {v : ℤ} (hv : v ≠ 0) (x : DRSt K ι) (l : List (DRSt K ι)) :
    rows v e (x :: l) = (if shows v x.numIt = true then [.row (cells e x.numIt x)] else []) ++ rows v e l := by
  rw [shows_iff hv]
  unfold rows
  rw [List.filter_cons]
  split <;> simp

theorem Ends.cons {α : Type} {U : ι → K} {x : DRSt K ι} {l : List (DRSt K ι)} {t : DRSt K ι} {r : Except Err α}
    (hx : converged e o x = false) (h : Ends e o U l t r) : Ends e o U (x :: l) t r := by
  have hlast : ∀ y, l.getLast? = some y → (x :: l).getLast? = some y := by
    intro y hy
    rw [List.getLast?_cons, hy]
    rfl
  cases r with
  | ok a =>
    obtain ⟨y, h1, h2⟩ := h
    exact ⟨y, hlast y h1, h2⟩
  | error err =>
    cases err with
    | notConverged =>
      obtain ⟨y, h1, h2⟩ := h
      exact ⟨y, hlast y h1, h2⟩
    | _ =>
      intro y hy
      rcases List.mem_cons.1 hy with rfl | hy
      · exact hx
      · exact h y hy

theorem prints_loop {n : ℕ} {r : ℤ} {s t : DRSt K ι} {x : Except Err Unit} (hn : n ≠ 0)
    (h : loop e o n r s = (t, x)) (hm : o.base.maxIt ≠ 0 → s.numIt + n = o.base.maxIt) : ∃ l,
      (∀ v ≠ 0, Prints (loopV v e o n r) s x t (rows v e l)) ∧ Prints (loopV 0 e o n r) s x t [] ∧
      (∀ p : DRSt K ι, s = { p with numIt := s.numIt } → List.IsChain (Follows e o) (p :: l)) ∧
      l.map DRSt.numIt = List.range' s.numIt l.length ∧ (∀ y ∈ l.dropLast, converged e o y = false) ∧
      t.Eks = s.Eks ++ l.map DRSt.Ek ∧ Ends e o s.U l t x := by
  induction n generalizing r s with
  | zero => exact absurd rfl hn
  | succ n ih =>
    unfold loop at h
    rcases Act.bind_cases h with ⟨u, r', h1, h⟩ | ⟨y, h1, rfl⟩
    · obtain ⟨f, hp, rfl⟩ := body_ok h1
      have hf : ∀ p : DRSt K ι, s = { p with numIt := s.numIt } → Follows e o p u := by
        intro p hs
        refine ⟨r, f, ?_⟩
        rw [hp.num, ← hs]
        exact hp
      rw [Act.bind_ok (Act.get_apply _)] at h
      by_cases hc : converged e o u = true
      · rw [if_pos hc] at h
        refine ⟨[u], fun v hv => ?_, ?_, fun p hs => .cons_cons (hf p hs) (.singleton u), by simp [hp.num], by simp, ?_, ?_⟩
        · rw [rows_cons hv]
          unfold loopV
          refine .bind (prints_body h1 v) (.after (Act.get_apply _) ?_)
          rw [if_pos hc]
          exact .quiet h
        · unfold loopV
          refine .bind (l := []) (prints_body h1 0) (.after (Act.get_apply _) ?_)
          rw [if_pos hc]
          exact .quiet h
        · simp only [accept, Act.modify_apply, Prod.mk.injEq] at h
          rw [← h.1]
          exact hp.eks
        · simp only [accept, Act.modify_apply, Prod.mk.injEq] at h
          obtain ⟨rfl, rfl⟩ := h
          exact ⟨u, rfl, hc, by simp only [hp.hU], rfl, rfl⟩
      · rw [if_neg hc] at h
        have hc' : converged e o u = false := by simpa using hc
        by_cases hl : u.numIt + 1 = o.base.maxIt
        · rw [if_pos hl] at h
          refine ⟨[u], fun v hv => ?_, ?_, fun p hs => .cons_cons (hf p hs) (.singleton u), by simp [hp.num], by simp, ?_, ?_⟩
          · rw [rows_cons hv]
            unfold loopV
            refine .bind (prints_body h1 v) (.after (Act.get_apply _) ?_)
            rw [if_neg hc, if_pos hl]
            exact .quiet h
          · unfold loopV
            refine .bind (l := []) (prints_body h1 0) (.after (Act.get_apply _) ?_)
            rw [if_neg hc, if_pos hl]
            exact .quiet h
          · simp only [accept, emit, Act.bind_apply, Act.modify_apply, Act.throw_apply, Prod.mk.injEq] at h
            rw [← h.1]
            exact hp.eks
          · simp only [accept, emit, Act.bind_apply, Act.modify_apply, Act.throw_apply, Prod.mk.injEq] at h
            obtain ⟨rfl, rfl⟩ := h
            exact ⟨u, rfl, hc', by simp only [hp.hU], rfl, hl⟩
        · rw [if_neg hl, Act.bind_ok (Act.modify_apply _ _)] at h
          by_cases hn' : n = 0
          · subst hn'
            by_cases h0 : o.base.maxIt = 0
            · unfold loop at h
              rw [if_pos h0, Act.throw_apply, Prod.mk.injEq] at h
              obtain ⟨rfl, rfl⟩ := h
              refine ⟨[u], fun v hv => ?_, ?_, fun p hs => .cons_cons (hf p hs) (.singleton u), by simp [hp.num], by simp,
                hp.eks, by simp [Ends, hc']⟩
              · rw [rows_cons hv]
                unfold loopV
                refine .bind (prints_body h1 v) (.after (Act.get_apply _) ?_)
                rw [if_neg hc, if_neg hl]
                refine .after (Act.modify_apply _ _) ?_
                unfold loopV
                rw [if_pos h0]
                exact .throw _ _
              · unfold loopV
                refine .bind (l := []) (prints_body h1 0) (.after (Act.get_apply _) ?_)
                rw [if_neg hc, if_neg hl]
                refine .after (Act.modify_apply _ _) ?_
                unfold loopV
                rw [if_pos h0]
                exact .throw _ _
            · have := hm h0
              rw [hp.num] at hl
              omega
          · obtain ⟨l, b1, b2, b3, b4, b5, b6, b7⟩ := ih hn' h (by simp only [hp.num]; intro h0; have := hm h0; omega)
            refine ⟨u :: l, fun v hv => ?_, ?_, fun p hs => .cons_cons (hf p hs) (b3 u rfl), ?_, ?_, ?_, ?_⟩
            · rw [rows_cons hv]
              unfold loopV
              refine .bind (prints_body h1 v) (.after (Act.get_apply _) ?_)
              rw [if_neg hc, if_neg hl]
              exact .after (Act.modify_apply _ _) (b1 v hv)
            · unfold loopV
              refine .bind (l := []) (prints_body h1 0) (.after (Act.get_apply _) ?_)
              rw [if_neg hc, if_neg hl]
              exact .after (Act.modify_apply _ _) b2
            · rw [List.map_cons, List.length_cons, List.range'_succ, b4]
              simp [hp.num]
            · exact Newton.dropLast_cons hc' b5
            · rw [b6, hp.eks]
              simp
            · simp only [hp.hU] at b7
              exact b7.cons hc'
    · refine ⟨[], fun v _ => ?_, ?_, fun p _ => .singleton p, by simp, by simp, ?_, ?_⟩
      · unfold loopV
        exact .fail (prints_body_error h1 v)
      · unfold loopV
        exact .fail (prints_body_error h1 0)
      · simpa using body_error_eks h1
      · have := errs_body e o r s y (by rw [h1])
        subst this
        simp [Ends]

theorem start_residual {s t : DRSt K ι} (h : start e s = (t, .ok ())) : t.residual = nz (norm e e.forcing) := by
  unfold start at h
  rw [Act.bind_ok (Act.modify_apply _ _), Act.bind_ok (Act.get_apply _)] at h
  obtain ⟨u, ⟨⟩, h1, h⟩ := Act.bind_ok_inv h
  rw [Act.bind_ok (Act.modify_apply _ _)] at h
  simp only [Act.modify_apply, Prod.mk.injEq] at h
  obtain ⟨rfl, -⟩ := h
  split at h1
  · obtain ⟨s1, f, h2, h1⟩ := Act.bind_ok_inv h1
    rw [Act.bind_ok (Act.modify_apply _ _)] at h1
    obtain ⟨s2, f₀, h3, h1⟩ := Act.bind_ok_inv h1
    obtain ⟨a2, rfl⟩ := computeResidual_ok h3
    simp only [Act.modify_apply, Prod.mk.injEq] at h1
    rw [← h1.1]
  · rw [Act.bind_ok (Act.modify_apply _ _)] at h1
    obtain ⟨s1, f, h2, h1⟩ := Act.bind_ok_inv h1
    simp only [Act.modify_apply, Prod.mk.injEq] at h1
    rw [← h1.1]

theorem prints_raw {s t : DRSt K ι} {x : Except Err Unit} (hs : s.ready = true) (h : solveRaw e o s = (t, x)) :
    (∃ p l, Started e s p ∧ p.residual = nz (norm e e.forcing) ∧
      (∀ v ≠ 0, Prints (solveRawV v e o) s x t (.header columns :: .row (cells e 0 p) :: rows v e l)) ∧
      Prints (solveRawV 0 e o) s x t [] ∧ List.IsChain (Follows e o) (p :: l) ∧
      l.map DRSt.numIt = List.range' 1 l.length ∧ (∀ y ∈ l.dropLast, converged e o y = false) ∧
      t.Eks = p.Ek :: l.map DRSt.Ek ∧
      ((o.base.maxIt = 1 ∧ l = [] ∧ t = p ∧ x = .ok ()) ∨ (o.base.maxIt ≠ 1 ∧ Ends e o s.U l t x))) ∨
    (x = .error .assembly ∧ (∀ v ≠ 0, Prints (solveRawV v e o) s x t [.header columns]) ∧
      Prints (solveRawV 0 e o) s x t []) := by
  unfold solveRaw at h
  rw [Act.bind_ok (Act.get_apply s), if_pos hs, Act.bind_ok (Act.modify_apply _ _)] at h
  rcases Act.bind_cases h with ⟨u, ⟨⟩, h1, h⟩ | ⟨y, h1, h⟩
  · rw [Act.bind_ok (Act.modify_apply _ _)] at h
    have st := start_ok h1
    have hr := start_residual h1
    left
    have pre : ∀ v ≠ 0, ∀ l, Prints (loopV v e o (if o.base.maxIt = 0 then intMax else o.base.maxIt - 1) 0)
        { u with Ek0 := u.Ek, Eks := [u.Ek], numIt := 1 } x t l → Prints (solveRawV v e o) s x t
          (.header columns :: .row (cells e 0 { u with Ek0 := u.Ek, Eks := [u.Ek], numIt := 1 }) :: l) := by
      intro v hv l hl
      unfold solveRawV
      refine .after (Act.get_apply s) ?_
      rw [if_pos hs]
      refine .after (Act.modify_apply _ _) ?_
      rw [if_pos hv]
      refine .bind (l := [_]) (.line _ _) (.after h1 (.after (Act.modify_apply _ _) ?_))
      rw [if_pos hv]
      exact .bind (l := [_]) (.line _ _) hl
    have pre0 : ∀ l, Prints (loopV 0 e o (if o.base.maxIt = 0 then intMax else o.base.maxIt - 1) 0)
        { u with Ek0 := u.Ek, Eks := [u.Ek], numIt := 1 } x t l → Prints (solveRawV 0 e o) s x t l := by
      intro l hl
      unfold solveRawV
      refine .after (Act.get_apply s) ?_
      rw [if_pos hs]
      exact .after (Act.modify_apply _ _) (.bind (l := []) (.ret _ _) (.after h1 (.after (Act.modify_apply _ _)
        (.bind (l := []) (.ret _ _) hl))))
    by_cases hm : o.base.maxIt = 1
    · have hn : (if o.base.maxIt = 0 then intMax else o.base.maxIt - 1) = 0 := by rw [hm]; rfl
      rw [hn] at h pre pre0
      unfold loop at h
      rw [if_neg (by omega), Act.pure_apply, Prod.mk.injEq] at h
      obtain ⟨rfl, rfl⟩ := h
      have hl : ∀ v, Prints (loopV v e o 0 0) { u with Ek0 := u.Ek, Eks := [u.Ek], numIt := 1 } (.ok ())
          { u with Ek0 := u.Ek, Eks := [u.Ek], numIt := 1 } [] := by
        intro v
        unfold loopV
        rw [if_neg (by omega)]
        exact .ret _ _
      exact ⟨_, [], st, hr, fun v hv => pre v hv _ (hl v), pre0 _ (hl 0), .singleton _, rfl, by simp, rfl,
        .inl ⟨hm, rfl, rfl, rfl⟩⟩
    · obtain ⟨l, b1, b2, b3, b4, b5, b6, b7⟩ := prints_loop (by
        split
        · decide
        · omega) h (by
        intro h0
        rw [if_neg h0]
        show 1 + (o.base.maxIt - 1) = o.base.maxIt
        omega)
      exact ⟨_, l, st, hr, fun v hv => pre v hv _ (b1 v hv), pre0 _ b2, b3 _ rfl, b4, b5, b6, .inr ⟨hm, by
        have := st.hU
        simp only at this b7
        rw [← this]
        exact b7⟩⟩
  · subst h
    right
    have hy : y = .assembly := errs_start e _ y (by rw [h1])
    subst hy
    refine ⟨rfl, fun v hv => ?_, ?_⟩
    · unfold solveRawV
      refine .after (Act.get_apply s) ?_
      rw [if_pos hs]
      refine .after (Act.modify_apply _ _) ?_
      rw [if_pos hv]
      exact .bind (l := [_]) (.line _ _) (.dead h1)
    · unfold solveRawV
      refine .after (Act.get_apply s) ?_
      rw [if_pos hs]
      exact .after (Act.modify_apply _ _) (.bind (l := []) (.ret _ _) (.dead h1))

theorem prints_solve {v : ℤ} {s t : DRSt K ι} {x : Except Err Unit} {l : List (Print K (ι → K) Unit)}
    (h : solveRaw e o s = (t, x)) (hp : Prints (solveRawV v e o) s x t l) :
    Prints (solveV v e o) s (solve e o s).2 (solve e o s).1 l := by
  unfold solve solveV
  cases x with
  | ok a =>
    obtain ⟨⟩ := a
    rw [Act.bind_ok h]
    exact .congr (List.append_nil _) (.bind hp (.after (Act.modify_apply _ _) (.after (Act.get_apply _) (.ret _ _))))
  | error y =>
    rw [Act.bind_error h]
    exact .fail hp

end DR

open DR

/-- **C136 (`gsStaticDR`).** `verbose` has no influence on a solve: the solver and the outcome are the same for all
values, and whatever has been printed before is followed by lines that do not depend on it. -/
theorem C136_dr_same (v : ℤ) (e : DREnv K ι) (o : DROpts K) (s : DRSt K ι) : ∃ l, ∀ out,
    solveV v e o (s, out) = (((solve e o s).1, out ++ l), (solve e o s).2) := by
  cases hs : s.ready with
  | true =>
    rcases hr : solveRaw e o s with ⟨t, x⟩
    have key : ∃ l, Prints (solveRawV v e o) s x t l := by
      rcases prints_raw hs hr with ⟨p, l, -, -, h1, h2, -⟩ | ⟨-, h1, h2⟩
      · by_cases hv : v = 0
        · subst hv
          exact ⟨_, h2⟩
        · exact ⟨_, h1 v hv⟩
      · by_cases hv : v = 0
        · subst hv
          exact ⟨_, h2⟩
        · exact ⟨_, h1 v hv⟩
    obtain ⟨l, hl⟩ := key
    exact ⟨l, prints_solve hr hl⟩
  | false =>
    have hr : solveRaw e o s = (s, .error .ub) := by
      simp [solveRaw, Act.bind_apply, hs]
    refine ⟨[], prints_solve hr ?_⟩
    unfold solveRawV
    refine .after (Act.get_apply s) ?_
    rw [if_neg (by simp [hs])]
    exact .throw _ _

/-- **C136 (`gsStaticDR`).** With `verbose = 0` there is no table. -/
theorem C136_dr_silent (e : DREnv K ι) (o : DROpts K) (s : DRSt K ι) (out : List (Print K (ι → K) Unit)) :
    (solveV 0 e o (s, out)).1.2 = out := by
  cases hs : s.ready with
  | true =>
    rcases hr : solveRaw e o s with ⟨t, x⟩
    have hp : Prints (solveRawV 0 e o) s x t [] := by
      rcases prints_raw hs hr with ⟨p, l, -, -, -, h2, -⟩ | ⟨-, -, h2⟩ <;> exact h2
    rw [prints_solve hr hp out]
    simp
  | false => simp [solveV, solveRawV, Act.bind_apply, hs, ALM.quiet]

/-- **C136 (`gsStaticDR`).** The output of `solve()` with `verbose ≠ 0` after `initialize()` is the table of the start
`p` and of the iterations in `l`: all iterations with `verbose = -1`, and otherwise those whose number is divisible by
`verbose`. The iterations are numbered 1, 2, …; each follows from the one before, and column `Ek` of the complete table
is `energies()`. On the line of the start, column `|R|` is not the norm of the residual but of the load, or 1 if the
load vanishes.

With `Success` the last iteration is the only one that meets the criteria, `solution()` is the initial solution plus the
update of this iteration, and `iterations()` is its number; unless `maxIt` is 1, in which case there is only the line of
the start. When the limit is reached, there are `maxIt - 1` iterations, and the last update is added all the same. If
the residual fails in an iteration, none of the lines meets the criteria; if it fails at the start, there is only the
header. -/
theorem C136_dr_table {e : DREnv K ι} {o : DROpts K} {s : DRSt K ι} (hs : s.ready = true) :
    (∃ p l, Started e s p ∧ p.residual = nz (norm e e.forcing) ∧
      (∀ v ≠ 0, ∀ out, (solveV v e o (s, out)).1.2 = out ++ (.header columns :: .row (cells e 0 p) :: rows v e l)) ∧
      List.IsChain (Follows e o) (p :: l) ∧ l.map DRSt.numIt = List.range' 1 l.length ∧
      (∀ y ∈ l.dropLast, converged e o y = false) ∧ (solve e o s).1.Eks = p.Ek :: l.map DRSt.Ek ∧
      ((o.base.maxIt = 1 ∧ l = [] ∧ (solve e o s).1.U = s.U ∧ (solve e o s).2 = .ok .success) ∨
        (o.base.maxIt ≠ 1 ∧ Ends e o s.U l (solve e o s).1 (solve e o s).2))) ∨
    ((solve e o s).2 = .error .assembly ∧
      ∀ v ≠ 0, ∀ out, (solveV v e o (s, out)).1.2 = out ++ [.header columns]) := by
  rcases hr : solveRaw e o s with ⟨t, x⟩
  rcases prints_raw hs hr with ⟨p, l, h1, h2, h3, -, h5, h6, h7, h8, h9⟩ | ⟨rfl, h1, -⟩
  · refine .inl ⟨p, l, h1, h2, fun v hv out => by rw [prints_solve hr (h3 v hv) out], h5, h6, h7, ?_, ?_⟩
    · unfold solve
      cases x with
      | ok a => rw [Act.bind_ok hr]; exact h8
      | error y => rw [Act.bind_error hr]; exact h8
    · unfold solve
      cases x with
      | ok a =>
        rw [Act.bind_ok hr]
        rcases h9 with ⟨b1, b2, rfl, b3⟩ | ⟨b1, b2⟩
        · exact .inl ⟨b1, b2, h1.hU, rfl⟩
        · exact .inr ⟨b1, b2⟩
      | error y =>
        rw [Act.bind_error hr]
        rcases h9 with ⟨b1, b2, b3, b4⟩ | ⟨b1, b2⟩
        · simp at b4
        · refine .inr ⟨b1, ?_⟩
          cases y <;> exact b2
  · refine .inr ⟨?_, fun v hv out => by rw [prints_solve hr (h1 v hv) out]⟩
    unfold solve
    rw [Act.bind_error hr]

/-- A solve with nine iterations: with `verbose = 1` a header and ten lines. With `verbose = 4` the last line is that of
iteration 8, and the line on which the criteria are met is not shown. -/
example :
    let o := Demo.dropts 50 (3 / 4) (-1)
    let s := Demo.drnew Demo.drlin o
    let out := fun v => (solveV v (Demo.drenv Demo.drlin) o (s, [])).1.2
    s.ready = true ∧ (solve (Demo.drenv Demo.drlin) o s).2 = .ok .success ∧ (out 1).length = 11 ∧
    (solve (Demo.drenv Demo.drlin) o s).1.numIt = 9 ∧
    out 4 = [.header columns,
      .row [.count 0, .num 1, .quot 1 1, .num (1 / 4), .quot (1 / 4) (1 / 4), .num (1 / 2), .quot (1 / 2) (1 / 2),
        .quot (1 / 2) (1 / 2), .num (1 / 2)],
      .row [.count 4, .num (53 / 512), .quot (53 / 512) 1, .num (529 / 262144), .quot (529 / 262144) (1 / 4),
        .num (23 / 512), .quot (23 / 512) (493 / 512), .quot (23 / 512) (493 / 512), .num (23 / 512)],
      .row [.count 8, .num (379 / 131072), .quot (379 / 131072) 1, .num (418609 / 17179869184),
        .quot (418609 / 17179869184) (1 / 4), .num (647 / 131072), .quot (647 / 131072) (131005 / 131072),
        .quot (647 / 131072) (131005 / 131072), .num (647 / 131072)]] := by
  decide +kernel

/-- The limit, a failing residual, a failing start, and an object that is not initialized. -/
example :
    let o := Demo.dropts 3 1 (-1)
    let s := Demo.drnew Demo.drlin o
    let f := fun n => Demo.drenv fun k u => if k = n then none else some (1 - u)
    let r := solveV 1 (Demo.drenv Demo.drlin) o (s, [])
    let r₂ := solveV (-1) (f 2) o (s, [])
    let r₀ := solveV 5 (f 0) o (s, [])
    let r' := solveV 5 (f 0) o ({ s with ready := false }, [])
    r.2 = .error .notConverged ∧ r.1.2.length = 4 ∧ r₂.2 = .error .assembly ∧ r₂.1.2.length = 3 ∧
    r₀.2 = .error .assembly ∧ r₀.1.2 = [.header columns] ∧ r'.2 = .error .ub ∧ r'.1.2 = [] := by
  decide +kernel

/-- **C136 (`gsStaticDR`).** With `verbose = 1` and with `verbose = -1` every iteration has its line; the output is the
same. A negative value other than -1 is as good as its absolute value. -/
theorem C136_dr_values {e : DREnv K ι} {o : DROpts K} {s : DRSt K ι} (hs : s.ready = true)
    (out : List (Print K (ι → K) Unit)) :
    solveV (-1) e o (s, out) = solveV 1 e o (s, out) ∧
    ∀ v : ℤ, v ≠ 0 → v ≠ 1 → v ≠ -1 → solveV (-v) e o (s, out) = solveV v e o (s, out) := by
  have key : ∀ v w : ℤ, v ≠ 0 → w ≠ 0 → (∀ k : ℕ, (v = -1 ∨ v ∣ (k : ℤ)) ↔ (w = -1 ∨ w ∣ (k : ℤ))) →
      solveV v e o (s, out) = solveV w e o (s, out) := by
    intro v w hv hw h
    have hrows : ∀ l, rows v e l = rows w e l := by
      intro l
      unfold rows
      simp only [h]
    obtain ⟨l, hl⟩ := C136_dr_same v e o s
    obtain ⟨l', hl'⟩ := C136_dr_same w e o s
    have : out ++ l = out ++ l' := by
      have a := congrArg (fun x => x.1.2) (hl out)
      have b := congrArg (fun x => x.1.2) (hl' out)
      simp only at a b
      rw [← a, ← b]
      rcases C136_dr_table (e := e) (o := o) hs with ⟨p, m, -, -, h1, -⟩ | ⟨-, h1⟩
      · rw [h1 v hv, h1 w hw, hrows]
      · rw [h1 v hv, h1 w hw]
    rw [hl out, hl' out, this]
  refine ⟨key _ _ (by decide) (by decide) (by simp), fun v h0 h1 h2 => key _ _ (by simpa using h0) h0 fun k => ?_⟩
  have : -v ≠ -1 := by omega
  simp [this, h2]

end GsSA.Static
