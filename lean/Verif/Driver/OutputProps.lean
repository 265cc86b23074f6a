import Verif.Driver.Output
import Verif.Driver.ParallelProps
import Verif.Driver.SolveProps
import Verif.Driver.SerialProps
import Verif.Driver.FinalizeProps

/-!
# C129: output of the programs for the parallel method
-/

set_option linter.unusedSectionVars false

namespace GsSA.APALM

open GsSA MPI Tools

/-! ### The hooks -/

section Hooks

variable {A K S : Type*} [Field K]

theorem swaps_range {α : Type*} (x y : α) : ∀ (r : ℕ) (p₁ p₂ a b : List α), p₁.length = p₂.length → a.length = r →
    b.length = r → swaps (List.range' p₁.length r) (p₁ ++ a, x :: (p₂ ++ b ++ [y])) =
      .ok (p₁ ++ b, x :: (p₂ ++ a ++ [y])) := by
  intro r
  induction r with
  | zero =>
    intro p₁ p₂ a b _ ha hb
    rw [List.length_eq_zero_iff.1 ha, List.length_eq_zero_iff.1 hb]
    rfl
  | succ r ih =>
    intro p₁ p₂ a b hp ha hb
    match a, b, ha, hb with
    | u :: a, v :: b, ha, hb =>
      have h1 : (p₁ ++ u :: a)[p₁.length]? = some u := by simp
      have h2 : (x :: (p₂ ++ v :: b ++ [y]))[p₁.length + 1]? = some v := by
        rw [List.getElem?_cons_succ, hp]
        simp
      have h3 : (p₁ ++ u :: a).set p₁.length v = (p₁ ++ [v]) ++ a := by simp
      have h4 : (x :: (p₂ ++ v :: b ++ [y])).set (p₁.length + 1) u = x :: ((p₂ ++ [u]) ++ b ++ [y]) := by
        rw [List.set_cons_succ, hp]
        simp
      have hs : swapAt p₁.length (p₁ ++ u :: a, x :: (p₂ ++ v :: b ++ [y])) =
          .ok ((p₁ ++ [v]) ++ a, x :: ((p₂ ++ [u]) ++ b ++ [y])) := by
        simp only [swapAt, h1, h2, h3, h4]
      rw [List.range'_succ, swaps, hs]
      have := ih (p₁ ++ [v]) (p₂ ++ [u]) a b (by simp [hp]) (by simpa using ha) (by simpa using hb)
      rw [List.length_append, List.length_singleton] at this
      simp only [this]
      simp

theorem exported_eq {α : Type*} (front back x : α) {n : ℕ} {v : List α} (hv : v.length = n) :
    exported front back x n v = .ok (front :: (v ++ [back]), v) := by
  have h1 := swaps_range front back n [] [] v (List.replicate n x) rfl hv (by simp)
  have h2 := swaps_range front back n [] [] (List.replicate n x) v rfl (by simp) hv
  simp only [List.length_nil, List.nil_append, ← List.range_eq_range'] at h1 h2
  simp only [exported, exportOf, h1, h2]

theorem outBody_c (M : Solver A K S) (dL0 : K) (s : OState A K S) : (outBody M dL0 s).c = corrBody M dL0 s.c := by
  unfold outBody
  split <;> rfl

theorem outLoop_c (M : Solver A K S) (dL0 : K) (fuel : ℕ) (s : OState A K S) :
    (outLoop M dL0 fuel s).map (·.c) = corrLoop M dL0 fuel s.c := by
  induction fuel generalizing s with
  | zero => rfl
  | succ n ih =>
    rw [outLoop, corrLoop]
    split
    · rfl
    · rw [ih, outBody_c]

/-- Loop invariant: times and calls belong to the stored steps. -/
structure OInv (t₀ : K) (s : OState A K S) : Prop where
  time : s.time = t₀ + s.c.ds.sum
  lenT : s.times.length = s.c.sols.length
  lenD : s.c.ds.length = s.c.sols.length
  lenC : s.calls.length = s.c.sols.length
  k : s.c.k = s.c.sols.length
  at_ : ∀ i, s.times[i]? = if i < s.c.sols.length then some (t₀ + (s.c.ds.take (i + 1)).sum) else none
  call : ∀ i, s.calls[i]? = (s.c.sols[i]?).map fun x => (x, t₀ + (s.c.ds.take (i + 1)).sum, i)

theorem OInv.body {M : Solver A K S} {dL0 t₀ : K} {s : OState A K S} (h : OInv t₀ s) : OInv t₀ (outBody M dL0 s) := by
  by_cases hh : Status.halves (M.step s.c.alm).1
  · have hc : (corrBody M dL0 s.c).sols = s.c.sols ∧ (corrBody M dL0 s.c).ds = s.c.ds ∧
        (corrBody M dL0 s.c).k = s.c.k := by simp [corrBody, hh]
    have hb : outBody M dL0 s = { s with c := corrBody M dL0 s.c } := by simp [outBody, hh]
    rw [hb]
    exact ⟨by rw [h.time, hc.2.1], by rw [h.lenT, hc.1], by rw [hc.2.1, h.lenD, hc.1], by rw [h.lenC, hc.1],
      by rw [hc.2.2, h.k, hc.1], fun i => by rw [h.at_, hc.1, hc.2.1], fun i => by rw [h.call, hc.1, hc.2.1]⟩
  · have hc : (corrBody M dL0 s.c).sols = s.c.sols ++ [M.sol (M.step s.c.alm).2] ∧
        (corrBody M dL0 s.c).ds = s.c.ds ++ [M.dist (M.step s.c.alm).2 (M.sol (M.step s.c.alm).2) s.c.old] ∧
        (corrBody M dL0 s.c).k = s.c.k + 1 := by simp [corrBody, hh]
    have hb : outBody M dL0 s = ⟨corrBody M dL0 s.c, s.time + M.dist (M.step s.c.alm).2 (M.sol (M.step s.c.alm).2) s.c.old,
        s.times ++ [s.time + M.dist (M.step s.c.alm).2 (M.sol (M.step s.c.alm).2) s.c.old],
        s.calls ++ [(M.sol (M.step s.c.alm).2,
          s.time + M.dist (M.step s.c.alm).2 (M.sol (M.step s.c.alm).2) s.c.old, s.c.k)]⟩ := by simp [outBody, hh]
    generalize M.dist (M.step s.c.alm).2 (M.sol (M.step s.c.alm).2) s.c.old = δ at hc hb
    generalize M.sol (M.step s.c.alm).2 = z at hc hb
    obtain ⟨h1, h2, h3⟩ := hc
    rw [hb]
    have htake : ∀ i, i < s.c.sols.length → (s.c.ds ++ [δ]).take (i + 1) = s.c.ds.take (i + 1) := fun i hi =>
      List.take_append_of_le_length (by rw [h.lenD]; omega)
    have hfull : (s.c.ds ++ [δ]).take (s.c.sols.length + 1) = s.c.ds ++ [δ] :=
      List.take_of_length_le (by simp [h.lenD])
    refine ⟨?_, ?_, ?_, ?_, ?_, fun i => ?_, fun i => ?_⟩
    · rw [h2, h.time]; simp [add_assoc]
    · rw [h1]; simp [h.lenT]
    · rw [h1, h2]; simp [h.lenD]
    · rw [h1]; simp [h.lenC]
    · rw [h3, h1, h.k]; simp
    · rw [h1, h2]
      simp only [List.length_append, List.length_singleton]
      rcases lt_trichotomy i s.c.sols.length with hi | hi | hi
      · rw [List.getElem?_append_left (by rw [h.lenT]; exact hi), h.at_, if_pos hi, if_pos (by omega), htake i hi]
      · subst hi
        rw [List.getElem?_append_right (by rw [h.lenT]), h.lenT, if_pos (by omega), hfull, h.time]
        simp [add_assoc]
      · rw [if_neg (by omega), List.getElem?_eq_none (by simp [h.lenT]; omega)]
    · rw [h1, h2]
      rcases lt_trichotomy i s.c.sols.length with hi | hi | hi
      · rw [List.getElem?_append_left (by rw [h.lenC]; exact hi), List.getElem?_append_left hi, h.call, htake i hi]
      · subst hi
        rw [List.getElem?_append_right (by rw [h.lenC]), h.lenC, List.getElem?_append_right le_rfl, hfull, h.time, h.k]
        simp [add_assoc]
      · rw [List.getElem?_eq_none (by simp [h.lenC]; omega), List.getElem?_eq_none (by simp; omega)]
        rfl

theorem outLoop_inv {M : Solver A K S} {dL0 t₀ : K} (fuel : ℕ) {s s' : OState A K S} (h : OInv t₀ s)
    (hr : outLoop M dL0 fuel s = some s') : OInv t₀ s' ∧ s'.c.k = s'.c.n := by
  induction fuel generalizing s with
  | zero => cases hr
  | succ n ih =>
    rw [outLoop] at hr
    split at hr
    · injection hr with hr
      subst hr
      exact ⟨h, by assumption⟩
    · exact ih h.body hr

theorem OInv.start (M : Solver A K S) (N : ℕ) (a : A) (dt t₀ : K) (start prev : S) :
    OInv t₀ ⟨corrStart M N a dt start prev, t₀, [], []⟩ := by
  constructor <;> simp [corrStart]

/-- What comes out of `outFinish`. -/
theorem outFinish_eq {M : Solver A K S} {x : S} {t : K × K} {level id : ℕ} {start ref : S} {s : OState A K S}
    (h : OInv t.1 s) (hk : s.c.k = s.c.n) : outFinish M x t level id start ref s =
      (corrFinish M start ref s.c).map fun c =>
        (c, s.calls, ⟨start :: (s.c.sols ++ [ref]), t.1 :: (s.times ++ [t.2]), level, id⟩) := by
  have hn : s.c.sols.length = s.c.n := by rw [← h.k, hk]
  have ht : s.times.length = s.c.n := by rw [h.lenT, hn]
  unfold outFinish corrFinish
  cases hl : s.c.sols.getLast? with
  | none => rfl
  | some last => simp only [exported_eq _ _ _ hn, exported_eq _ _ _ ht]; rfl

/-- **C129** The hooks do not disturb the correction: the vectors swapped into the export are swapped back, no `at` is
out of range, and the result is the one without output. -/
theorem C129_undisturbed (M : Solver A K S) (x : S) (N fuel : ℕ) (a : A) (r : Popped K S) (t : K × K) (level : ℕ)
    (ref : S) : (correctionOut M x N fuel a r t level ref).map (Except.map Prod.fst) =
      correction M N fuel a r.dt r.start r.prev ref := by
  unfold correctionOut correction
  have hc := outLoop_c M (r.dt / N) fuel ⟨corrStart M N a r.dt r.start r.prev, t.1, [], []⟩
  cases ho : outLoop M (r.dt / N) fuel ⟨corrStart M N a r.dt r.start r.prev, t.1, [], []⟩ with
  | none =>
    rw [ho] at hc
    rw [← hc]
    rfl
  | some s =>
    rw [ho] at hc
    obtain ⟨hi, hk⟩ := outLoop_inv fuel (OInv.start M N a r.dt t.1 r.start r.prev) ho
    rw [← hc]
    simp only [Option.map_some, outFinish_eq hi hk]
    cases corrFinish M r.start ref s.c <;> rfl

/-- What a returned correction has passed to the hooks, in terms of its result. -/
theorem correctionOut_ok {M : Solver A K S} {x : S} {N fuel : ℕ} {a : A} {r : Popped K S} {t : K × K} {level : ℕ}
    {ref : S} {c : Corr K S} {calls : List (S × K × ℕ)} {o : IntervalOut K S}
    (h : correctionOut M x N fuel a r t level ref = some (.ok (c, calls, o))) :
    ∃ s : OState A K S, OInv t.1 s ∧ s.c.sols = c.sols ∧ s.c.ds = c.ds.dropLast ∧ c.ds.length = c.sols.length + 1 ∧
      calls = s.calls ∧ o = ⟨r.start :: (c.sols ++ [ref]), t.1 :: (s.times ++ [t.2]), level, r.id⟩ := by
  unfold correctionOut at h
  rw [Option.map_eq_some_iff] at h
  obtain ⟨s, ho, hf⟩ := h
  obtain ⟨hi, hk⟩ := outLoop_inv fuel (OInv.start M N a r.dt t.1 r.start r.prev) ho
  rw [outFinish_eq hi hk] at hf
  unfold corrFinish at hf
  split at hf
  · cases hf
  · simp only [Except.map, Except.ok.injEq, Prod.mk.injEq] at hf
    obtain ⟨rfl, rfl, rfl⟩ := hf
    refine ⟨s, hi, rfl, ?_, ?_, rfl, rfl⟩
    · simp
    · simp [hi.lenD]

/-- **C129** `parallelIntervalOutput` is called with the start of the interval, the computed solutions in order, and
the reference at its end; the times are the start time, the start time plus the distances so far, and the end time of
the interval; level and ID are those of the job. Solutions and times are equally many, two more than computed. -/
theorem C129_interval {M : Solver A K S} {x : S} {N fuel : ℕ} {a : A} {r : Popped K S} {t : K × K} {level : ℕ}
    {ref : S} {c : Corr K S} {calls : List (S × K × ℕ)} {o : IntervalOut K S}
    (h : correctionOut M x N fuel a r t level ref = some (.ok (c, calls, o))) :
    o.sols = r.start :: (c.sols ++ [ref]) ∧
      o.times = t.1 :: ((List.range c.sols.length).map (fun k => t.1 + (c.ds.take (k + 1)).sum) ++ [t.2]) ∧
      o.level = level ∧ o.id = r.id ∧ o.sols.length = o.times.length ∧ o.sols.length = c.sols.length + 2 := by
  obtain ⟨s, hi, h1, h2, h3, -, rfl⟩ := correctionOut_ok h
  have htimes : s.times = (List.range c.sols.length).map (fun k => t.1 + (c.ds.take (k + 1)).sum) := by
    apply List.ext_getElem?
    intro i
    rw [hi.at_, h1, h2, List.getElem?_map]
    by_cases hlt : i < c.sols.length
    · rw [if_pos hlt, List.getElem?_range hlt]
      simp only [Option.map_some, Option.some.injEq]
      rw [List.dropLast_eq_take, List.take_take, show min (i + 1) (c.ds.length - 1) = i + 1 by omega]
    · rw [if_neg hlt, List.getElem?_eq_none (by simpa using hlt)]
      rfl
  refine ⟨rfl, by rw [htimes], rfl, rfl, ?_, ?_⟩
  · simp [htimes]
  · simp

/-- **C129** `parallelStepOutput` is called once for each stored solution and in their order, with its time and its
number, counted from 0; not for steps that are repeated with half the length. -/
theorem C129_steps {M : Solver A K S} {x : S} {N fuel : ℕ} {a : A} {r : Popped K S} {t : K × K} {level : ℕ}
    {ref : S} {c : Corr K S} {calls : List (S × K × ℕ)} {o : IntervalOut K S}
    (h : correctionOut M x N fuel a r t level ref = some (.ok (c, calls, o))) :
    calls.length = c.sols.length ∧
      ∀ k, calls[k]? = (c.sols[k]?).map fun y => (y, t.1 + (c.ds.take (k + 1)).sum, k) := by
  obtain ⟨s, hi, h1, h2, h3, rfl, -⟩ := correctionOut_ok h
  refine ⟨by rw [hi.lenC, h1], fun k => ?_⟩
  rw [hi.call, h1, h2]
  by_cases hlt : k < c.sols.length
  · rw [List.dropLast_eq_take, List.take_take, show min (k + 1) (c.ds.length - 1) = k + 1 by omega]
  · rw [List.getElem?_eq_none (by simpa using hlt)]
    rfl

/-- **C129** violated: the times of the rows of an interval never increase strictly. If a step travels at least its
length, the last computed row has at least the time of the row for the end of the interval, which follows it. -/
theorem C129_violated_order [LinearOrder K] [IsStrictOrderedRing K] {M : Solver A K S} {len : A → K}
    (hM : Lawful M len)
    (hge : ∀ a, NotHalving (M.step a).1 → len a ≤ M.dist (M.step a).2 (M.sol (M.step a).2) (M.sol a))
    {x : S} {N fuel : ℕ} (hN : N ≠ 0) {a : A} {r : Popped K S} {t : K × K} (ht : r.dt = t.2 - t.1) {level : ℕ}
    {ref : S} {c : Corr K S} {calls : List (S × K × ℕ)} {o : IntervalOut K S}
    (h : correctionOut M x N fuel a r t level ref = some (.ok (c, calls, o))) :
    ¬ o.times.Pairwise (· < ·) := by
  have hr : correction M N fuel a r.dt r.start r.prev ref = some (.ok c) := by
    rw [← C129_undisturbed M x N fuel a r t level ref, h]
    rfl
  have hsum := C18_total_length hM hge hN hr
  obtain ⟨c', l, h1, -, -, -, -, h6, h7, -⟩ := C17_correction_is_a_path hM hN hr
  injection h1 with h1
  subst h1
  obtain ⟨-, htimes, -⟩ := C129_interval h
  intro hp
  rw [htimes, List.pairwise_cons, List.pairwise_append] at hp
  have := hp.2.2.2 (t.1 + (c.ds.take (c.sols.length - 1 + 1)).sum)
    (List.mem_map.2 ⟨c.sols.length - 1, by simp; omega, rfl⟩) t.2 (by simp)
  rw [show c.sols.length - 1 + 1 = c.ds.length - 1 by omega, ← List.dropLast_eq_take] at this
  rw [ht] at hsum
  linarith

end Hooks

/-- A job for the solver on the line. -/
def lineJob : Popped ℚ ℚ := ⟨7, 3, 10, 9⟩

/-- `C129_undisturbed`, `C129_interval`, `C129_steps`, `C129_violated_order`: length 3 in 2 intervals, both bisected;
six solutions, and the times 3, 3 at the end. -/
example : Lawful (lineSolver (2/3) .notConverged) (fun a => a.2) ∧ lineJob.dt = (5 : ℚ) - 2 ∧
    (match correctionOut (lineSolver (2/3) .notConverged) 0 2 100 (0, 0) lineJob (2, 5) 1 14 with
      | some (.ok (c, calls, o)) => decide (c.sols.length = 6 ∧ calls.length = 6 ∧ o.sols.length = 8 ∧
          o.sols.head? = some 10 ∧ o.sols.getLast? = some 14 ∧ o.times.head? = some 2 ∧
          o.times.drop 6 = [5, 5] ∧ o.id = 7 ∧ o.level = 1)
      | _ => false) = true :=
  ⟨lineSolver_lawful _ _, by norm_num [lineJob], by decide +kernel⟩

/-! ### The tables -/

section Tables

variable {K S : Type}

/-- The programs never fail in the assertions of `add`: headers and numbers of a row agree. -/
def Sheet.Fits (h : Sheet K S) : Prop := h.dim = h.ph.length ∧ ∀ s t l, (h.other s t l).length = h.oh.length

theorem adds_total (fmt : ℤ → K → Text) (l : List (Mat K × List K)) (s : Out)
    (h : ∀ r ∈ l, r.1.rows = s.nPoint ∧ r.2.length = s.nOther) : ∃ t, s.adds fmt l = .ok t := by
  induction l generalizing s with
  | nil => exact ⟨s, rfl⟩
  | cons r l ih =>
    obtain ⟨m, o⟩ := r
    have hr := h (m, o) (by simp)
    rw [Out.adds, Out.add, if_pos hr]
    exact ih _ fun q hq => h q (by simp [hq])

/-- **C129** A table is written without failure; read back it has the header and one line per row, in order, with the
displacements of the reference points and the other numbers. -/
theorem C129_table (h : Sheet K S) (hf : h.Fits) (hp : h.points ≠ 0) (fmt : ℤ → K → Text)
    (hfmt : ∀ p x, Clean (fmt p x)) (hph : ∀ x ∈ h.ph, Clean x) (hoh : ∀ x ∈ h.oh, Clean x) (old : Text)
    (rows : List (S × K × ℕ)) : ∃ t, h.write fmt old rows = .ok t ∧
      (linesOf t.file).map fieldsOf = (pointNames h.points h.ph ++ h.oh) ::
        rows.map fun r => (((List.range h.points).flatMap fun p => (List.range h.dim).map fun c => h.disp r.1 c p) ++
          h.other r.1 r.2.1 r.2.2).map (fmt 6) := by
  have hrec : h.records rows = rows.map fun r => (⟨h.dim, h.points, h.disp r.1⟩, h.other r.1 r.2.1 r.2.2) := by
    rw [Sheet.records, if_neg hp]
  obtain ⟨t, ht⟩ := adds_total fmt (h.records rows) ((Out.new h.points old).init h.ph h.oh) (by
    rw [hrec]
    intro r hr
    obtain ⟨q, -, rfl⟩ := List.mem_map.1 hr
    exact ⟨hf.1, hf.2 _ _ _⟩)
  refine ⟨t, ht, ?_⟩
  rw [(C70_records fmt hfmt h.ph h.oh hph hoh _ _ _ ht).1, hrec]
  simp only [table, List.map_map]
  rfl

/-- **C129** The tables of the programs: their headers and what a row holds. -/
theorem C129_sheets [Field K] (q : Quantities K S) (height area : K) :
    ((shellSheet q).Fits ∧ (frustrumSheet q).Fits ∧ (snappingSheet q height area).Fits) ∧
      (∀ s t l, (shellSheet q).other s t l = [q.norm s, q.lam s, t, q.nat l]) ∧
      (∀ s t l, (frustrumSheet q).other s t l = [q.lam s, q.nat l]) ∧
      (∀ s t l, (snappingSheet q height area).other s t l =
        [q.norm s, q.disp s 1 0 / height, q.lam s / area, q.lam s, t, q.nat l]) ∧
      (∀ s, (shellSheet q).disp s = q.disp s ∧ (frustrumSheet q).disp s = q.disp s ∧
        (snappingSheet q height area).disp s = q.disp s) ∧
      (shellSheet q).oh = ["U-norm", "lambda", "time", "level"].map String.toList ∧
      (frustrumSheet q).oh = ["lambda", "level"].map String.toList ∧
      (snappingSheet q height area).oh = ["U-norm", "Eps", "Sigma", "Lambda", "time", "level"].map String.toList ∧
      (shellSheet q).ph = ["u_x", "u_y", "u_z"].map String.toList ∧ (frustrumSheet q).ph = (shellSheet q).ph ∧
      (snappingSheet q height area).ph = ["u_x", "u_y"].map String.toList ∧
      (shellSheet q).points = 1 ∧ (frustrumSheet q).points = 1 ∧ (snappingSheet q height area).points = 1 :=
  ⟨⟨⟨rfl, fun _ _ _ => rfl⟩, ⟨rfl, fun _ _ _ => rfl⟩, rfl, fun _ _ _ => rfl⟩, fun _ _ _ => rfl, fun _ _ _ => rfl,
    fun _ _ _ => rfl, fun _ => ⟨rfl, rfl, rfl⟩, rfl, rfl, rfl, rfl, rfl, rfl, rfl, rfl, rfl⟩

/-- **C129** The rows of an interval: the start, the computed solutions and the reference, with the times of
`C129_interval` and the level of the job. -/
theorem C129_intervalRows [Field K] [LinearOrder K] [IsStrictOrderedRing K] {A : Type}
    {M : Solver A K S} {x : S} {N fuel : ℕ} {a : A} {r : Popped K S}
    {t : K × K} {level : ℕ} {ref : S} {c : Corr K S} {calls : List (S × K × ℕ)} {o : IntervalOut K S}
    (h : correctionOut M x N fuel a r t level ref = some (.ok (c, calls, o))) :
    (intervalRows o).length = c.sols.length + 2 ∧ (intervalRows o)[0]? = some (r.start, t.1, level) ∧
      (∀ k < c.sols.length, (intervalRows o)[k + 1]? =
        (c.sols[k]?).map fun y => (y, t.1 + (c.ds.take (k + 1)).sum, level)) ∧
      (intervalRows o)[c.sols.length + 1]? = some (ref, t.2, level) := by
  obtain ⟨h1, h2, h3, -⟩ := C129_interval h
  unfold intervalRows
  rw [h1, h2, h3]
  refine ⟨by simp, by simp, fun k hk => ?_, ?_⟩
  · simp only [List.zip_cons_cons, List.map_cons, List.getElem?_cons_succ]
    rw [List.zip_append (by simp), List.map_append, List.getElem?_append_left (by simpa using hk)]
    simp [hk]
  · simp only [List.zip_cons_cons, List.map_cons, List.getElem?_cons_succ]
    rw [List.zip_append (by simp), List.map_append, List.getElem?_append_right (by simp)]
    simp

/-- **C129** The rows of the table of a branch are its points, in the order of their times. -/
theorem C129_branchRows [Field K] [LinearOrder K] [IsStrictOrderedRing K] {c : Container K S}
    {old : List (List (List ℕ))} {v : Views K S}
    (h : finalize c old = .ok v) {b : ℕ} {d : Data K S} (hb : c[b]? = some d) :
    branchRows v b = .ok ((flat d).map fun p => (p.sol, p.time, p.level)) := by
  rw [branchRows, C24_flat h b d hb]

/-- **C129** violated: Roof, Frustrum and Snapping ask for the points of branch 0 only, whatever the number of
branches: a point on another branch alone is in none of their tables. -/
theorem C129_violated_first [Field K] [LinearOrder K] [IsStrictOrderedRing K] {c : Container K S}
    {old : List (List (List ℕ))} {v : Views K S}
    (h : finalize c old = .ok v) {d : Data K S} (hb : c[0]? = some d) {s : S} (hs : ∀ p ∈ flat d, p.sol ≠ s) :
    ∃ rows, branchRows v 0 = .ok rows ∧ ∀ r ∈ rows, r.1 ≠ s :=
  ⟨_, C129_branchRows h hb, by
    intro r hr
    obtain ⟨p, hp, rfl⟩ := List.mem_map.1 hr
    exact hs p hp⟩

/-- A format, and quantities of solutions that are natural numbers. -/
def demoFmt (_ : ℤ) (x : ℚ) : Text := (Nat.repr x.num.toNat).toList

/-- Quantities for the examples. -/
def demoQuantities : Quantities ℚ ℕ := ⟨fun s c _ => s + c, fun s => s * s, fun s => s + 10, fun n => n⟩

theorem demoFmt_clean (p : ℤ) (x : ℚ) : Clean (demoFmt p x) := by
  have h : ∀ c ∈ demoFmt p x, c.isDigit = true := by
    intro c hc
    rw [demoFmt, Nat.toList_repr] at hc
    exact Nat.isDigit_of_mem_toDigits (by norm_num) (by norm_num) hc
  constructor <;> intro hc <;> exact absurd (h _ hc) (by decide)

/-- `C129_table` with `C129_sheets`: the table of a roof with two rows. -/
example : (shellSheet demoQuantities).Fits ∧ (shellSheet demoQuantities).points ≠ 0 ∧
    (∀ p x, Clean (demoFmt p x)) ∧
    (∀ x ∈ (shellSheet demoQuantities).ph, Clean x) ∧ (∀ x ∈ (shellSheet demoQuantities).oh, Clean x) ∧
    (match (shellSheet demoQuantities).write demoFmt [] [(1, 2, 0), (3, 4, 1)] with
      | .ok t => decide ((linesOf t.file).map fieldsOf =
          [["point0-u_x", "point0-u_y", "point0-u_z", "U-norm", "lambda", "time", "level"].map String.toList,
           ["1", "2", "3", "1", "11", "2", "0"].map String.toList,
           ["3", "4", "5", "9", "13", "4", "1"].map String.toList])
      | _ => false) = true := by
  refine ⟨⟨rfl, fun _ _ _ => rfl⟩, by decide, demoFmt_clean, ?_, ?_, by decide +kernel⟩ <;>
    simp [shellSheet, Clean]

/-- `C129_intervalRows`: the interval of the example above has eight rows. -/
example : (match correctionOut (lineSolver (2/3) .notConverged) 0 2 100 (0, 0) lineJob (2, 5) 1 14 with
      | some (.ok (c, _, o)) => decide ((intervalRows o).length = c.sols.length + 2 ∧
          (intervalRows o)[0]? = some (10, 2, 1) ∧ (intervalRows o)[7]? = some (14, 5, 1))
      | _ => false) = true := by
  decide +kernel

/-- `C129_branchRows`, `C129_violated_first`: the rows of the second of two branches with different solutions; the
solution 150 of the second is not in the table of the first. -/
example : (match sampleSerial with
    | some (.ok (c, _)) => (match finalize c [] with
        | .ok v => (match branchRows v 0, branchRows v 1 with
          | .ok l, .ok m => decide (l.length = 2 ∧ m.length = 2 ∧ ∀ r ∈ m, r.1 ∉ l.map Prod.fst)
          | _, _ => false)
        | _ => false)
    | _ => false) = true := by
  decide +kernel

end Tables

/-! ### The files -/

theorem repr_toList_inj {m n : ℕ} (h : (Nat.repr m).toList = (Nat.repr n).toList) : m = n := by
  rw [Nat.toList_repr, Nat.toList_repr] at h
  rw [← Nat.ofDigitChars_ten_toDigits (n := m), ← Nat.ofDigitChars_ten_toDigits (n := n), h]

/-- **C129** Intervals with different IDs, and tables of different branches, are in different files. -/
theorem C129_names (dir : Text) (m n : ℕ) : (intervalName dir m = intervalName dir n ↔ m = n) ∧
    (branchName dir m = branchName dir n ↔ m = n) := by
  refine ⟨⟨fun h => ?_, fun h => by rw [h]⟩, fun h => ?_, fun h => by rw [h]⟩
  · simp only [intervalName, List.append_assoc] at h
    have h := List.append_cancel_left (List.append_cancel_left h)
    exact repr_toList_inj (List.append_cancel_right h)
  · simp only [branchName, List.append_assoc] at h
    exact repr_toList_inj (List.append_cancel_right (List.append_cancel_left h))

/-- **C129** The ParaView files of different points are different if there are at most ten branches. -/
theorem C129_frames (pre : Text) {b b' k k' : ℕ} (hb : b < 10) (hb' : b' < 10)
    (h : frameName pre b k = frameName pre b' k') : b = b' ∧ k = k' := by
  simp only [frameName, List.append_assoc] at h
  have h := List.append_cancel_left h
  have hlen : ∀ n < 10, (Nat.repr n).toList.length = 1 := by decide
  obtain ⟨h1, h2⟩ := List.append_inj h (by rw [hlen b hb, hlen b' hb'])
  exact ⟨repr_toList_inj h1, repr_toList_inj h2⟩

/-- **C129** violated: with twelve branches point 11 of branch 1 and point 1 of branch 11 share a ParaView file. -/
theorem C129_violated_frames (pre : Text) : frameName pre 1 11 = frameName pre 11 1 := by
  simp only [frameName, List.append_assoc]
  rw [show (Nat.repr 1).toList ++ (Nat.repr 11).toList = (Nat.repr 11).toList ++ (Nat.repr 1).toList by decide]

theorem writeFiles_of_notMem {l : List (Text × Text)} {f : Files} {n : Text} (h : n ∉ l.map Prod.fst) :
    writeFiles l f n = f n := by
  induction l generalizing f with
  | nil => rfl
  | cons x l ih =>
    simp only [List.map_cons, List.mem_cons, not_or] at h
    rw [writeFiles, ih h.2, Function.update_of_ne h.1]

theorem writeFiles_of_nodup {l : List (Text × Text)} (f : Files) (hl : (l.map Prod.fst).Nodup) {x : Text × Text}
    (hx : x ∈ l) : writeFiles l f x.1 = some x.2 := by
  induction l generalizing f with
  | nil => cases hx
  | cons y l ih =>
    simp only [List.map_cons, List.nodup_cons] at hl
    rw [writeFiles]
    rcases List.mem_cons.1 hx with rfl | hx
    · rw [writeFiles_of_notMem hl.1, Function.update_self]
    · exact ih _ hl.2 hx

/-- `C129_names`, `C129_frames`. -/
example : intervalName "out".toList 17 = "out/interval_17.csv".toList ∧
    branchName "out/data_branch".toList 3 = "out/data_branch3.csv".toList ∧
    frameName "data_branch".toList 1 11 = "data_branch111".toList := by
  decide

section Ids

variable {K S : Type*} [Field K] [LinearOrder K]

theorem buildMap_nextID {d d' : Data K S} (h : buildMap d = .ok d') : d'.nextID = d.nextID := by
  unfold buildMap at h
  split at h <;> cases h
  rfl

theorem takeCorr_nextID {d d' : Data K S} {r : Popped K S} {lv : ℕ} {ref : S}
    (h : takeCorr d = .ok (r, lv, ref, d')) :
    r.id = d.nextID ∧ d'.nextID = d.nextID + 1 := by
  unfold takeCorr at h
  cases hp : pop d with
  | error e => simp [hp] at h
  | ok x =>
    obtain ⟨r₁, d₁⟩ := x
    have h1 : r₁.id = d.nextID ∧ d₁.nextID = d.nextID + 1 := by
      unfold pop at hp
      split at hp
      · cases hp
      · split at hp
        · cases hp
        · simp only at hp
          split at hp
          · simp only [Except.ok.injEq, Prod.mk.injEq] at hp
            obtain ⟨rfl, rfl⟩ := hp
            exact ⟨rfl, rfl⟩
          · cases hp
    simp only [hp] at h
    split at h
    · cases h
    · rename_i ref' d₃ hg
      simp only [Except.ok.injEq, Prod.mk.injEq] at h
      obtain ⟨rfl, -, -, rfl⟩ := h
      have : d₃.nextID = d₁.nextID := by
        have := congrArg Prod.snd hg
        simp only [getReferenceByID, jobIndex, jobLevel] at this
        rw [← this]
      exact ⟨h1.1, by simp [jobTimes, jobIndex, this, h1.2]⟩

theorem takeJob_nextID {d d' : Data K S} {r : Popped K S} {lv : ℕ} {ref : S} (h : takeJob d = .ok (r, lv, ref, d')) :
    r.id = d.nextID ∧ d'.nextID = d.nextID + 1 := by
  unfold takeJob at h
  cases hp : pop d with
  | error e => simp [hp] at h
  | ok x =>
    obtain ⟨r₁, d₁⟩ := x
    have h1 : r₁.id = d.nextID ∧ d₁.nextID = d.nextID + 1 := by
      unfold pop at hp
      split at hp
      · cases hp
      · split at hp
        · cases hp
        · simp only at hp
          split at hp
          · simp only [Except.ok.injEq, Prod.mk.injEq] at hp
            obtain ⟨rfl, rfl⟩ := hp
            exact ⟨rfl, rfl⟩
          · cases hp
    simp only [hp] at h
    split at h
    · simp only [Except.ok.injEq, Prod.mk.injEq] at h
      obtain ⟨rfl, -, -, rfl⟩ := h
      exact ⟨h1.1, by simp [jobStartTime, jobLevel, jobIndex, h1.2]⟩
    · split at h
      · cases h
      · rename_i ref' d₃ hg
        simp only [Except.ok.injEq, Prod.mk.injEq] at h
        obtain ⟨rfl, -, -, rfl⟩ := h
        have : d₃.nextID = d₁.nextID := by
          have := congrArg Prod.snd hg
          simp only [getReferenceByID, jobIndex, jobLevel] at this
          rw [← this]
        exact ⟨h1.1, by simp [jobTimes, jobIndex, this, h1.2]⟩

theorem submit_nextID {d d' : Data K S} {id : ℕ} {ds : List K} {ss : List S} {u l : K}
    (h : submit d id ds ss u l = .ok d') : d'.nextID = d.nextID := by
  unfold submit at h
  split at h
  · cases h
  · split at h
    · cases h
    · simp only at h
      split at h
      · cases h
      · split at h
        · cases h
        · split at h
          · cases h
          · split at h
            · cases h
            · split at h
              · cases h
              · rename_i d₁ hb
                split at h
                · cases h
                · simp only [Except.ok.injEq] at h
                  subst h
                  exact (buildMap_nextID hb).trans rfl

theorem storeCorr_nextID {d d' : Data K S} {id : ℕ} {c : Corr K S} (h : storeCorr d id c = .ok d') :
    d'.nextID = d.nextID := by
  unfold storeCorr at h
  split at h
  · cases h
  · rename_i d₁ hs
    cases h
    exact (submit_nextID hs : d₁.nextID = _)

theorem storeInit_nextID {d d' : Data K S} {id : ℕ} {x : K} {s : S} (h : storeInit d id x s = .ok d') :
    d'.nextID = d.nextID := by
  unfold storeInit at h
  split at h
  · cases h
  · rename_i d₁ hs
    cases h
    show d₁.nextID = _
    have h0 : (jobStartTime d id).2.nextID = d.nextID := rfl
    rw [← h0]
    generalize (jobStartTime d id).2 = e at hs
    unfold appendData at hs
    split at hs
    · cases hs
    · split at hs
      · simp only at hs
        split at hs
        · cases hs
        · exact (buildMap_nextID hs).trans rfl
      · cases hs
      · simp only at hs
        split at hs
        · cases hs
        · split at hs
          · cases hs
          · exact (buildMap_nextID hs).trans rfl

/-- The jobs listed have different pairs of branch and ID, and every ID is below the counter of its branch. -/
structure LogInv (c : Container K S) (log : List (Item K S)) : Prop where
  nodup : (log.map fun i => (i.branch, i.job.id)).Nodup
  below : ∀ i ∈ log, ∃ d, c[i.branch]? = some d ∧ i.job.id < d.nextID

theorem LogInv.handOut {c : Container K S} {log : List (Item K S)} (h : LogInv c log) {k : ℕ} {d d' : Data K S}
    (hk : c[k]? = some d) {i : Item K S} (hi : i.branch = k) (hid : i.job.id = d.nextID)
    (hd : d'.nextID = d.nextID + 1) : LogInv (c.set k d') (log ++ [i]) := by
  have hlt : k < c.length := (List.getElem?_eq_some_iff.1 hk).1
  refine ⟨?_, fun j hj => ?_⟩
  · rw [List.map_append, List.nodup_append]
    refine ⟨h.nodup, by simp, fun x hx y hy => ?_⟩
    obtain ⟨j, hj, rfl⟩ := List.mem_map.1 hx
    simp only [List.map_cons, List.map_nil, List.mem_singleton] at hy
    subst hy
    intro he
    simp only [Prod.mk.injEq] at he
    obtain ⟨e, he1, he2⟩ := h.below j hj
    rw [he.1, hi, hk] at he1
    cases he1
    rw [he.2, hid] at he2
    exact lt_irrefl _ he2
  · rcases List.mem_append.1 hj with hj | hj
    · obtain ⟨e, he1, he2⟩ := h.below j hj
      by_cases hb : j.branch = k
      · rw [hb, hk] at he1
        cases he1
        exact ⟨d', by rw [hb, List.getElem?_set_self hlt], by omega⟩
      · exact ⟨e, by rw [List.getElem?_set_ne (Ne.symm hb), he1], he2⟩
    · rw [List.mem_singleton] at hj
      subst hj
      exact ⟨d', by rw [hi, List.getElem?_set_self hlt], by omega⟩

theorem LogInv.store {c : Container K S} {log : List (Item K S)} (h : LogInv c log) {k : ℕ} {d d' : Data K S}
    (hk : c[k]? = some d) (hd : d'.nextID = d.nextID) : LogInv (c.set k d') log := by
  have hlt : k < c.length := (List.getElem?_eq_some_iff.1 hk).1
  refine ⟨h.nodup, fun j hj => ?_⟩
  obtain ⟨e, he1, he2⟩ := h.below j hj
  by_cases hb : j.branch = k
  · rw [hb, hk] at he1
    cases he1
    exact ⟨d', by rw [hb, List.getElem?_set_self hlt], by omega⟩
  · exact ⟨e, by rw [List.getElem?_set_ne (Ne.symm hb), he1], he2⟩

theorem LogInv.append {c : Container K S} {log : List (Item K S)} (h : LogInv c log) (d : Data K S) :
    LogInv (c ++ [d]) log :=
  ⟨h.nodup, fun j hj => by
    obtain ⟨e, he1, he2⟩ := h.below j hj
    exact ⟨e, by rw [List.getElem?_append_left (List.getElem?_eq_some_iff.1 he1).1, he1], he2⟩⟩

theorem branch_ok {c : Container K S} {k : ℕ} {d : Data K S} (h : c.branch k = .ok d) : c[k]? = some d := by
  unfold Container.branch at h
  split at h
  · cases h; assumption
  · cases h

theorem LogInv.corrPop {c c' : Container K S} {log : List (Item K S)} (h : LogInv c log) {i : Item K S}
    (hp : corrPop c = .ok (i, c')) : LogInv c' (log ++ [i]) := by
  unfold APALM.corrPop at hp
  split at hp
  · cases hp
  · split at hp
    · cases hp
    · rename_i d hd
      split at hp
      · cases hp
      · rename_i r lv ref d' ht
        simp only [Except.ok.injEq, Prod.mk.injEq] at hp
        obtain ⟨rfl, rfl⟩ := hp
        obtain ⟨h1, h2⟩ := takeCorr_nextID ht
        exact h.handOut (branch_ok hd) rfl h1 h2

theorem LogInv.corrSubmit {c c' : Container K S} {log : List (Item K S)} (h : LogInv c log) {x : ℕ × ℕ × Corr K S}
    (hp : corrSubmit c x = .ok c') : LogInv c' log := by
  unfold APALM.corrSubmit at hp
  split at hp
  · cases hp
  · rename_i d hd
    split at hp
    · cases hp
    · rename_i d' ht
      cases hp
      exact h.store (branch_ok hd) (storeCorr_nextID ht)

theorem LogInv.solvePop {s s' : SolveState K S} {log : List (Item K S)} (h : LogInv s.data log) {i : Item K S}
    (hp : solvePop s = .ok (i, s')) : LogInv s'.data (log ++ [i]) := by
  unfold APALM.solvePop at hp
  split at hp
  · cases hp
  · split at hp
    · cases hp
    · rename_i d hd
      split at hp
      · cases hp
      · rename_i r lv ref d' ht
        simp only [Except.ok.injEq, Prod.mk.injEq] at hp
        obtain ⟨rfl, rfl⟩ := hp
        obtain ⟨h1, h2⟩ := takeJob_nextID ht
        exact h.handOut (branch_ok hd) rfl h1 h2

theorem LogInv.newBranch {p : SolveParams K S} {c c' : Container K S} {log : List (Item K S)} (h : LogInv c log)
    {s : S} {len : K} {b : Bool} (hn : newBranch p c s len b = .ok c') : LogInv c' log := by
  unfold APALM.newBranch at hn
  split at hn
  · cases hn
  · cases hn
    exact h.append _

theorem LogInv.advance {p : SolveParams K S} {almLen : K} {br id : ℕ} {b : Bool} {rest : List S} {k : ℕ}
    {d : Data K S} {s s' : SolveState K S} {log : List (Item K S)} (h : LogInv s.data log) (hd : s.data[br]? = some d)
    (ha : advance p almLen br id b rest k d s = .ok s') : LogInv s'.data log := by
  unfold APALM.advance at ha
  split at ha
  · split at ha
    · split at ha
      · split at ha
        · cases ha
        · rename_i c hc
          cases ha
          exact h.newBranch hc
      · cases ha
    · split at ha
      · split at ha
        · cases ha
        · rename_i d' hd'
          cases ha
          have h1 : d'.nextID = d.nextID := by
            unfold appendPoint at hd'
            split at hd'
            · cases hd'
            · cases hd'; rfl
          refine h.store hd ?_
          split
          · exact h1
          · exact h1
      · cases ha
  · cases ha; exact h

theorem LogInv.solveSubmit {p : SolveParams K S} {almLen : K} {s s' : SolveState K S} {log : List (Item K S)}
    (h : LogInv s.data log) {x : ℕ × ℕ × Payload K S} (hp : solveSubmit p almLen s x = .ok s') :
    LogInv s'.data log := by
  unfold APALM.solveSubmit at hp
  split at hp
  · cases hp
  · rename_i d₀ hd
    have hk := branch_ok hd
    have h0 : (jobLevel d₀ x.2.1).2.nextID = d₀.nextID := rfl
    simp only at hp
    split at hp
    · split at hp
      · cases hp
      · split at hp
        · cases hp
        · split at hp
          · cases hp
          · rename_i d₁ hs
            split at hp
            · cases hp
            · have h1 := (storeInit_nextID hs).trans h0
              refine (h.store hk h1).advance ?_ hp
              exact List.getElem?_set_self (List.getElem?_eq_some_iff.1 hk).1
    · split at hp
      · cases hp
      · split at hp
        · cases hp
        · rename_i d₁ hs
          cases hp
          exact h.store hk ((storeCorr_nextID hs).trans h0)

theorem seqRun_log {A D J R : Type*} {sv : Server D J R} {I : D → List J → Prop}
    (hpop : ∀ d l j d', I d l → sv.pop d = .ok (j, d') → I d' (l ++ [j]))
    (hsub : ∀ d l r d', I d l → sv.submit d r = .ok d' → I d' l) {work : A → J → R × A}
    {x y : (D × List J) × List J} {m n : ℕ} (h : SeqRun (logged sv) work x m n y) (hx : I x.1.1 x.1.2) :
    I y.1.1 y.1.2 := by
  induction h with
  | nil => exact hx
  | pop h he hp ih =>
    rename_i d d' j out m n
    have hp' : (match sv.pop d.1 with
      | .error e => .error e
      | .ok (j, e) => .ok (j, (e, d.2 ++ [j])) : Except Fail (J × (D × List J))) = .ok (j, d') := hp
    split at hp'
    · cases hp'
    · rename_i j' e hpe
      simp only [Except.ok.injEq, Prod.mk.injEq] at hp'
      obtain ⟨rfl, rfl⟩ := hp'
      exact hpop _ _ _ _ ih hpe
  | submit a h hs ih =>
    rename_i d d' j o₁ o₂ m n
    have hs' : (match sv.submit d.1 (work a j).1 with
      | .error e => .error e
      | .ok e => .ok (e, d.2) : Except Fail (D × List J)) = .ok d' := hs
    split at hs'
    · cases hs'
    · rename_i e hpe
      simp only [Except.ok.injEq] at hs'
      obtain rfl := hs'
      exact hsub _ _ _ _ ih hpe

/-- **C129** In a `parallelSolve` with any number of processes and any order of events, the jobs handed out have
different pairs of branch and ID. -/
theorem C129_ids {A : Type*} {work : A → Item K S → (ℕ × ℕ × Corr K S) × A} {P maxIt : ℕ} {pool : List ℕ}
    (hp : ∀ w ∈ pool, w ∈ ranks P) {a : ℕ → A} {c₀ : Container K S} {n : ℕ}
    {s : State (Container K S × List (Item K S)) A (Item K S) (ℕ × ℕ × Corr K S)}
    (r : Run (logged (corrServer K S)) work P maxIt (start (c₀, []) pool a) n s) :
    (s.data.2.map fun i => (i.branch, i.job.id)).Nodup := by
  obtain ⟨m, out, hs, -⟩ := C25_refines_sequential hp r
  exact (seqRun_log (sv := corrServer K S) (I := LogInv) (fun _ _ _ _ h hq => LogInv.corrPop h hq)
    (fun _ _ _ _ h hq => LogInv.corrSubmit h hq) hs ⟨by simp, by simp⟩).nodup

/-- **C129** The same in `solve`. -/
theorem C129_ids_solve {A : Type*} {p : SolveParams K S} {almLen : K}
    {work : A → Item K S → (ℕ × ℕ × Payload K S) × A} {P maxIt : ℕ} {pool : List ℕ}
    (hp : ∀ w ∈ pool, w ∈ ranks P) {a : ℕ → A} {s₀ : SolveState K S} {n : ℕ}
    {s : State (SolveState K S × List (Item K S)) A (Item K S) (ℕ × ℕ × Payload K S)}
    (r : Run (logged (solveServer p almLen)) work P maxIt (start (s₀, []) pool a) n s) :
    (s.data.2.map fun i => (i.branch, i.job.id)).Nodup := by
  obtain ⟨m, out, hs, -⟩ := C25_refines_sequential hp r
  exact (seqRun_log (sv := solveServer p almLen) (I := fun s l => LogInv s.data l)
    (fun _ _ _ _ h hq => LogInv.solvePop h hq) (fun _ _ _ _ h hq => LogInv.solveSubmit h hq) hs
    ⟨by simp, by simp⟩).nodup

/-- **C129** The files of a set of jobs of one branch, whatever the order in which the processes write them: every job
finds its own text in its file. -/
theorem C129_files {log w : List (Item K S)} (hlog : (log.map fun i => (i.branch, i.job.id)).Nodup) {b : ℕ}
    (hb : ∀ i ∈ log, i.branch = b) (hw : w.Perm log) (dir : Text) (text : Item K S → Text) (f : Files) :
    ∀ i ∈ log, writeFiles (w.map fun i => (intervalName dir i.job.id, text i)) f (intervalName dir i.job.id) =
      some (text i) := by
  intro i hi
  refine writeFiles_of_nodup f ?_ (x := (intervalName dir i.job.id, text i))
    (List.mem_map.2 ⟨i, hw.mem_iff.2 hi, rfl⟩)
  have h1 : (w.map fun i => (i.branch, i.job.id)).Nodup := (hw.map _).nodup_iff.2 hlog
  rw [List.map_map]
  rw [List.Nodup, List.pairwise_map] at h1 ⊢
  refine h1.imp_of_mem fun {x y} hx hy hne he => hne ?_
  rw [Prod.mk.injEq]
  exact ⟨(hb x (hw.mem_iff.1 hx)).trans (hb y (hw.mem_iff.1 hy)).symm, ((C129_names dir _ _).1.1 he)⟩

/-- **C129** violated: two jobs of different branches with the same ID have the same file; the text of the one that is
written first is lost. -/
theorem C129_violated_overwritten {i j : Item K S} (h : i.job.id = j.job.id) (dir : Text) (text : Item K S → Text)
    (f : Files) (w : List (Item K S)) (hw : ∀ k ∈ w, k.job.id ≠ j.job.id) :
    writeFiles (((i :: j :: w)).map fun k => (intervalName dir k.job.id, text k)) f (intervalName dir i.job.id) =
      some (text j) := by
  simp only [List.map_cons, writeFiles]
  rw [writeFiles_of_notMem]
  · rw [h, Function.update_self]
  · simp only [List.map_map, List.mem_map, Function.comp_apply, not_exists, not_and]
    intro k hk he
    exact hw k hk (((C129_names dir _ _).1.1 he).trans h)

/-- `C129_ids`, `C129_violated_overwritten`: four jobs in two branches on three processes; the pairs differ, but there
are two files. -/
example : ∃ (c₀ : Container ℚ ℕ) (n : ℕ)
    (s : State (Container ℚ ℕ × List (Item ℚ ℕ)) ℕ (Item ℚ ℕ) (ℕ × ℕ × Corr ℚ ℕ)),
    (∀ w ∈ ranks 3, w ∈ ranks 3) ∧
    Run (logged (corrServer ℚ ℕ)) sampleWork 3 100 (start (c₀, []) (ranks 3) fun _ => 0) n s ∧
    s.phase = .finished ∧ s.data.2.length = 4 ∧
    (s.data.2.map fun i => intervalName "out".toList i.job.id).dedup.length = 2 := by
  have h : sampleBranch.any (fun d : Data ℚ ℕ =>
      (fireAll (logged (corrServer ℚ ℕ)) sampleWork 3 100 (start ([d, d], []) (ranks 3) fun _ => 0)
        sampleLabels).any (fun s => decide (s.data.2.length = 4 ∧
            (s.data.2.map fun i => intervalName "out".toList i.job.id).dedup.length = 2) &&
          (match s.phase with | .finished => true | _ => false))) = true := by
    decide +kernel
  simp only [Option.any_eq_true, Bool.and_eq_true, decide_eq_true_eq] at h
  obtain ⟨d, -, s, hs, ⟨h1, h2⟩, h4⟩ := h
  have hph : s.phase = .finished := by
    revert h4
    cases s.phase <;> simp
  exact ⟨[d, d], _, s, fun _ h => h, fireAll_run hs, hph, h1, h2⟩

/-- `C129_ids_solve`, `C129_files`: a complete `solve` on three processes, with one branch. -/
example : ∃ (st : SolveState ℚ ℕ) (n : ℕ)
    (s : State (SolveState ℚ ℕ × List (Item ℚ ℕ)) ℚ (Item ℚ ℕ) (ℕ × ℕ × Payload ℚ ℕ)),
    (∀ w ∈ ranks 3, w ∈ ranks 3) ∧
    Run (logged (solveServer (sampleParams 1 1) 1)) (sampleSolveWork []) 3 100
      (start (st, []) (ranks 3) fun _ => 1) n s ∧
    s.phase = .finished ∧ s.data.2.length = 4 ∧ ∀ i ∈ s.data.2, i.branch = 0 := by
  have h : (match solveStart (sampleParams 1 1) [] [(0, 1)] with
      | .ok st => (fireAll (logged (solveServer (sampleParams 1 1) 1)) (sampleSolveWork []) 3 100
          (start (st, []) (ranks 3) fun _ => 1) overlapped).any (fun s =>
            decide (s.data.2.length = 4 ∧ ∀ i ∈ s.data.2, i.branch = 0) &&
            (match s.phase with | .finished => true | _ => false))
      | .error _ => false) = true := by
    decide +kernel
  split at h
  · rename_i st hst
    simp only [Option.any_eq_true, Bool.and_eq_true, decide_eq_true_eq] at h
    obtain ⟨s, hs, ⟨h1, h2⟩, h4⟩ := h
    have hph : s.phase = .finished := by
      revert h4
      cases s.phase <;> simp
    exact ⟨st, _, s, fun _ h => h, fireAll_run hs, hph, h1, h2⟩
  · cases h

end Ids

/-! ### Lengths after bifurcation -/

section Lengths

variable {K S : Type*} [Field K] [LinearOrder K] [IsStrictOrderedRing K]

/-- **C129** In `serialSolve` a branch from a bifurcation has the length of the branch it starts from times
`BranchLengthMultiplier`. -/
theorem C129_lengths {p : SolveParams K S} {ini : Initiator K S} {st : Start K S} {pts : List (K × S)}
    {new : List (Start K S)} (h : serialBranch p ini st = .ok (pts, new)) :
    ∀ x ∈ new, x.len = st.len * p.branchMult ∧ x.bisected = true := by
  unfold serialBranch at h
  split at h
  · cases h
  · rename_i l b hb
    simp only [Except.ok.injEq, Prod.mk.injEq] at h
    obtain ⟨-, rfl⟩ := h
    intro x hx
    cases b with
    | none => cases hx
    | some y =>
      simp only [newStarts, List.mem_singleton] at hx
      subst hx
      exact ⟨rfl, rfl⟩

/-- **C129** With the multipliers of the programs, a branch from the first branch, of length `dLb`, has the length
`dL`; the first step on it is `dL / 20` in Beam and `dLb / 20` in Elasticity_Beam. `dL = 0` means `dLb`. -/
theorem C129_multipliers {dL dLb : K} (hb : dLb ≠ 0) :
    (dL ≠ 0 → dLb * (beamMultipliers dL dLb).branchMult = dL ∧
      dL * (beamMultipliers dL dLb).bifMult = dL / 20 ∧
      dLb * (elasticityMultipliers dL dLb).branchMult = dL ∧
      dL * (elasticityMultipliers dL dLb).bifMult = dLb / 20) ∧
    (beamMultipliers (0 : K) dLb).branchMult = 1 ∧ (elasticityMultipliers (0 : K) dLb).branchMult = 1 ∧
      dLb * (beamMultipliers (0 : K) dLb).bifMult = dLb / 20 ∧
      dLb * (elasticityMultipliers (0 : K) dLb).bifMult = dLb / 20 := by
  refine ⟨fun h => ⟨?_, ?_, ?_, ?_⟩, ?_, ?_, ?_, ?_⟩ <;>
    simp only [beamMultipliers, elasticityMultipliers, if_true] <;>
    (try rw [if_neg h]) <;> field_simp <;> norm_num

/-- **C129** violated: the arc length after bifurcation (option `l`) holds for branches from the first branch only: in
`serialSolve` a branch from such a branch has the length `dL² / dLb`. -/
theorem C129_violated_generation {dL dLb : K} (hL : dL ≠ 0) (hb : dLb ≠ 0) (hne : dL ≠ dLb) :
    dL * (beamMultipliers dL dLb).branchMult = dL ^ 2 / dLb ∧ dL * (beamMultipliers dL dLb).branchMult ≠ dL := by
  have h1 : dL * (beamMultipliers dL dLb).branchMult = dL ^ 2 / dLb := by
    simp only [beamMultipliers]
    rw [if_neg hL]
    field_simp
  refine ⟨h1, fun h => hne ?_⟩
  rw [h1] at h
  field_simp at h
  exact h

/-- **C129** In `solve` with MPI a new branch has the length of the solver of the main process times both multipliers,
whatever branch it starts from: `dL / 20` in Beam. -/
theorem C129_solve_length {p : SolveParams K S} {dL dLb : K} (hL : dL ≠ 0) (hb : dLb ≠ 0)
    (hp : p.branchMult = (beamMultipliers dL dLb).branchMult ∧ p.bifMult = (beamMultipliers dL dLb).bifMult)
    {br id : ℕ} {rest : List S} {k : ℕ} {d : Data K S} {s s' : SolveState K S} (hk : (k : ℤ) < p.nSteps - 1)
    (h : advance p dLb br id true rest k d s = .ok s') :
    ∃ e, s'.data = s.data ++ [e] ∧ e.dt = dL / 20 := by
  unfold APALM.advance at h
  rw [if_pos hk, if_pos rfl] at h
  split at h
  · split at h
    · cases h
    · rename_i c hc
      cases h
      unfold newBranch at hc
      split at hc
      · cases hc
      · cases hc
        refine ⟨_, rfl, ?_⟩
        show dLb * p.branchMult * p.bifMult = dL / 20
        rw [hp.1, hp.2]
        simp only [beamMultipliers]
        rw [if_neg hL]
        field_simp
        norm_num
  · cases h

/-- `C129_lengths`: the branch from the first branch of the sample. -/
example : (match serialBranch (sampleParams (1/2) (1/4)) (sampleIni [0]) ⟨0, 1, false⟩ with
    | .ok (_, new) => decide (new.map (fun x => (x.len, x.bisected)) = [((1 : ℚ) * (1/2), true)])
    | .error _ => false) = true := by
  decide +kernel

/-- `C129_multipliers`, `C129_violated_generation`, `C129_solve_length`: length 2 after and 1/2 before bifurcation. -/
example : (2 : ℚ) ≠ 0 ∧ (1/2 : ℚ) ≠ 0 ∧ (2 : ℚ) ≠ 1/2 ∧ (1/2 : ℚ) * (beamMultipliers 2 (1/2)).branchMult = 2 ∧
    (2 : ℚ) * (beamMultipliers 2 (1/2)).branchMult = 8 ∧
    (2 : ℚ) * (elasticityMultipliers 2 (1/2)).bifMult = 1/40 := by
  decide +kernel

/-- `C129_solve_length`: a bifurcation on the first branch. -/
example : (sampleParams 4 (1/20)).branchMult = (beamMultipliers (2 : ℚ) (1/2)).branchMult ∧
    (sampleParams 4 (1/20)).bifMult = (beamMultipliers (2 : ℚ) (1/2)).bifMult ∧
    ((0 : ℕ) : ℤ) < (sampleParams 4 (1/20)).nSteps - 1 ∧
    (match advance (sampleParams 4 (1/20)) (1/2) 0 0 true [50] 0 (Data.fresh 1 (1/10) 1) ⟨[], []⟩ with
      | .ok s => decide (s.data.map (·.dt) = [2 / 20])
      | .error _ => false) = true := by
  refine ⟨?_, ?_, ?_, ?_⟩ <;> decide +kernel

end Lengths

/-- **C129** violated: Roof started with its default options stops with an error. -/
theorem C129_violated_default : roofThickness roofDefault = .error .exc ∧
    (∀ t, (∃ x, roofThickness t = .ok x) ↔ t = 1 ∨ t = 2 ∨ t = 3) ∧
    [1, 2, 3].map roofThickness = [.ok 6350, .ok 12700, .ok 16750] := by
  refine ⟨rfl, fun t => ?_, rfl⟩
  unfold roofThickness
  by_cases h1 : t = 1
  · simp [h1]
  · by_cases h2 : t = 2
    · simp [h2]
    · by_cases h3 : t = 3 <;> simp [h1, h2, h3]

end GsSA.APALM
