import Verif.ALM.VerboseProps
import Verif.ALM.CrisfieldSpec

/-!
# C132: the table of a step
-/

namespace GsSA.ALM

set_option linter.unusedSectionVars false

variable {K V Mat Fac : Type} [Field K] [LinearOrder K] [IsStrictOrderedRing K] [AddCommGroup V] [Module K V]
variable {e : Env K V Mat Fac} {o : Opts K} {α β : Type}

/-- The lines for a list of states. -/
def rows (e : Env K V Mat Fac) (k : Kind) (l : List (St K V Mat Fac)) : List (Line K) := l.map fun t => .row (k.row e t)

theorem stepOutput_run (k : Kind) (p : Printing K V Mat Fac) :
    ∃ t, stepOutput e o k p = ((t, p.2 ++ [.row (k.row e t)]), .ok ()) ∧ StabFrame p.1 t := by
  obtain ⟨t, st, h1, h2, -⟩ := computeStability_frame (e := e) (o := o) (-100) p.1
  refine ⟨t, ?_, h2⟩
  unfold stepOutput
  rw [Act.bind_ok (t := (t, p.2)) (a := st) (by unfold quiet; simp only [h1])]
  rfl

theorem quiet_inv {m : Act (St K V Mat Fac) α} {p q : Printing K V Mat Fac} {r : Except Err α}
    (h : quiet m p = (q, r)) : m p.1 = (q.1, r) ∧ q.2 = p.2 :=
  ⟨Prod.ext (congrArg (fun r => r.1.1) h) (congrArg (fun r => r.2) h), (congrArg (fun r => r.1.2) h).symm⟩

theorem finishStep_ok (k : Kind) {u v : St K V Mat Fac} {r : Except Err Unit} (hn : u.numIt ≠ 0)
    (h : finishStep o (k.method e o) u = (v, r)) :
    r = .ok () ∧ v.numIt = u.numIt ∧ v.U = u.U + u.DU ∧ v.L = u.L + u.DL := by
  obtain ⟨a, b, hf⟩ := (k.isMethod e o).lawful.finish u
  unfold finishStep at h
  rw [Act.bind_ok hf, Act.bind_ok (Act.get_apply _)] at h
  by_cases ha : u.adaptive = true
  · simp only [ha, if_true, computeLength] at h
    rw [Act.bind_ok (Act.get_apply _)] at h
    simp only [hn, if_false, Act.modify_apply, Prod.mk.injEq] at h
    obtain ⟨rfl, rfl⟩ := h
    exact ⟨rfl, rfl, rfl, rfl⟩
  · simp only [ha, Bool.false_eq_true, if_false, Act.modify_apply, Prod.mk.injEq] at h
    obtain ⟨rfl, rfl⟩ := h
    exact ⟨rfl, rfl, rfl, rfl⟩

theorem table_iterate (k : Kind) (rem : ℕ) {n : ℕ} {p q : Printing K V Mat Fac} {r : Except Err Unit}
    (hp : p.1.numIt = n) (hn : n ≠ 0) (hmax : n + rem = o.maxIt) (h : iterateV true e o k rem p = (q, r)) :
    ∃ l, q.2 = p.2 ++ rows e k l ∧ l.map St.numIt = List.range' n l.length ∧
      (∀ t ∈ l, t.U = p.1.U ∧ t.L = p.1.L) ∧
      (r = .ok () → rem ≠ 0 → q.1.numIt + 1 = n + l.length ∧
        ∃ t, l.getLast? = some t ∧ q.1.U = t.U + t.DU ∧ q.1.L = t.L + t.DL) ∧
      (r = .error .notConverged → l.length = rem) ∧ l.length ≤ rem := by
  have hM := (k.isMethod e o).lawful
  induction rem generalizing n p with
  | zero =>
    cases h
    exact ⟨[], by simp [rows], rfl, by simp, by simp, by simp, le_refl _⟩
  | succ rem ih =>
    unfold iterateV at h
    rcases Act.bind_cases h with ⟨p1, ⟨⟩, h1, h⟩ | ⟨x, h1, rfl⟩
    swap
    · obtain ⟨h1, h1'⟩ := quiet_inv h1
      obtain ⟨-, h2, -⟩ := iterationBody_spec hM (by rw [hp]; exact hn) h1
      refine ⟨[], by simp [rows, h1'], rfl, by simp, by simp, ?_, by simp⟩
      intro hx
      cases hx
      rcases h2 _ rfl with h2 | h2 <;> cases h2
    obtain ⟨h1, h1'⟩ := quiet_inv h1
    obtain ⟨k1, -, -⟩ := iterationBody_spec hM (by rw [hp]; exact hn) h1
    obtain ⟨t, h2, h2'⟩ := stepOutput_run (e := e) (o := o) k p1
    have k2 := k1.trans (Kept.of_stab h2')
    rw [if_pos rfl, Act.bind_ok h2, Act.bind_ok (t := (t, p1.2 ++ [.row (k.row e t)])) (a := t) rfl, h1'] at h
    have ht : t.numIt = n := k2.numIt.trans hp
    split at h
    · obtain ⟨h3, h3'⟩ := quiet_inv h
      obtain ⟨rfl, a, b, c⟩ := finishStep_ok k (by rw [ht]; exact hn) h3
      refine ⟨[t], h3', by simp [ht], by simp [k2.U, k2.L], fun _ _ => ⟨?_, t, rfl, b, c⟩, by simp, by simp⟩
      rw [a]
      simp only [ht, List.length_singleton]
    split at h
    · next h4 =>
      have h5 := (quiet_inv h).2
      refine ⟨[t], h5, by simp [ht], by simp [k2.U, k2.L], ?_, ?_, by simp⟩
      · intro hr
        have h6 := congrArg Prod.snd (quiet_inv h).1
        subst hr
        cases h6
      · intro _
        rw [ht] at h4
        simp only [List.length_singleton]
        omega
    · next h4 =>
      rw [Act.bind_ok (t := ({ t with numIt := t.numIt + 1 }, p.2 ++ [.row (k.row e t)])) (a := ()) rfl] at h
      obtain ⟨l, a, b, c, d, f, g⟩ := ih (n := n + 1) (by simp only [ht]) (by omega) (by omega) h
      refine ⟨t :: l, ?_, ?_, ?_, ?_, ?_, ?_⟩
      · rw [a]
        simp [rows]
      · rw [List.map_cons, b, ht, List.length_cons, List.range'_succ]
      · intro u hu
        rcases List.mem_cons.1 hu with rfl | hu
        · exact ⟨k2.U, k2.L⟩
        · exact ⟨(c u hu).1.trans k2.U, (c u hu).2.trans k2.L⟩
      · intro hr _
        have hrem : rem ≠ 0 := by
          rintro rfl
          rw [ht] at h4
          omega
        obtain ⟨d1, u, d2, d3⟩ := d hr hrem
        refine ⟨by rw [d1, List.length_cons]; omega, u, ?_, d3⟩
        rw [List.getLast?_cons, d2]
        rfl
      · intro hr
        rw [List.length_cons, f hr]
      · rw [List.length_cons]
        omega

theorem predictStep_spec (k : Kind) {s t : St K V Mat Fac} {r : Except Err Unit}
    (hi : s.initialized = true) (h : predictStep e (k.method e o) s = (t, r)) :
    t.U = s.U ∧ t.L = s.L ∧ t.numIt = 0 ∧ ∀ x, r = .error x → x = .assembly ∨ x = .solver := by
  have h' : beginStep e (k.method e o) s = (t, r) := by
    rw [← h]
    unfold beginStep predictStep
    simp only [Act.bind_apply, Act.get_apply, hi]
    rfl
  obtain ⟨u, -, h2, -, h3⟩ := beginStep_spec (k.isMethod e o).lawful hi h'
  exact ⟨u.U, u.L, h2, h3⟩

theorem table_stepRaw (k : Kind) {p q : Printing K V Mat Fac} {r : Except Err Unit} (hi : p.1.initialized = true)
    (h : stepRawV true e o k p = (q, r)) :
    ∃ l, q.2 = p.2 ++ .header k.columns :: rows e k l ∧ l.map St.numIt = List.range' 0 l.length ∧
      (∀ t ∈ l, t.U = p.1.U ∧ t.L = p.1.L) ∧
      (r = .ok () → 2 ≤ o.maxIt → q.1.numIt + 1 = l.length ∧
        ∃ t, l.getLast? = some t ∧ q.1.U = t.U + t.DU ∧ q.1.L = t.L + t.DL) ∧
      (r = .error .notConverged → l.length = o.maxIt) ∧ l.length ≤ max 1 o.maxIt := by
  have hM := (k.isMethod e o).lawful
  unfold stepRawV at h
  rw [Act.bind_ok (t := p) (a := ()) (by
    unfold quiet assertInitialized
    simp only [Act.bind_apply, Act.get_apply, hi]
    rfl)] at h
  rw [if_pos rfl, Act.bind_ok (t := (p.1, p.2 ++ [.header k.columns])) (a := ()) rfl] at h
  have early : ∀ {x : Err}, (x = .assembly ∨ x = .solver) → q.2 = p.2 ++ [.header k.columns] →
      ∃ l, q.2 = p.2 ++ .header k.columns :: rows e k l ∧ l.map St.numIt = List.range' 0 l.length ∧
      (∀ t ∈ l, t.U = p.1.U ∧ t.L = p.1.L) ∧
      ((.error x : Except Err Unit) = .ok () → 2 ≤ o.maxIt → q.1.numIt + 1 = l.length ∧
        ∃ t, l.getLast? = some t ∧ q.1.U = t.U + t.DU ∧ q.1.L = t.L + t.DL) ∧
      ((.error x : Except Err Unit) = .error .notConverged → l.length = o.maxIt) ∧ l.length ≤ max 1 o.maxIt := by
    intro x hx hq
    refine ⟨[], hq, rfl, by simp, by simp, ?_, by simp⟩
    intro h'
    cases h'
    rcases hx with hx | hx <;> cases hx
  rcases Act.bind_cases h with ⟨p1, ⟨⟩, h1, h⟩ | ⟨x, h1, rfl⟩
  swap
  · obtain ⟨h1, h1'⟩ := quiet_inv h1
    exact early ((predictStep_spec k hi h1).2.2.2 _ rfl) h1'
  obtain ⟨h1, e1⟩ := quiet_inv h1
  obtain ⟨a1, b1, c1, -⟩ := predictStep_spec k hi h1
  rcases Act.bind_cases h with ⟨p2, ⟨⟩, h2, h⟩ | ⟨x, h2, rfl⟩
  swap
  · obtain ⟨h2, h2'⟩ := quiet_inv h2
    exact early ((safe_computeResidual e).errs p1.1 x (by rw [h2])) (h2'.trans e1)
  obtain ⟨h2, e2⟩ := quiet_inv h2
  have k2 := (safe_computeResidual e).kept h2
  rcases Act.bind_cases h with ⟨p3, ⟨⟩, h3, h⟩ | ⟨x, h3, rfl⟩
  swap
  · have h3 := congrArg Prod.snd (quiet_inv h3).1
    cases h3
  obtain ⟨h3, e3⟩ := quiet_inv h3
  have a3 : p3.1.U = p2.1.U ∧ p3.1.L = p2.1.L ∧ p3.1.numIt = p2.1.numIt := by
    have h3 := congrArg Prod.fst h3
    rw [← h3]
    unfold computeResidualNorms
    simp only [Act.modify_apply]
    split <;> exact ⟨rfl, rfl, rfl⟩
  obtain ⟨t, h4, h4'⟩ := stepOutput_run (e := e) (o := o) k p3
  have k4 := Kept.of_stab h4'
  have U4 : t.U = p.1.U := k4.U.trans (a3.1.trans (k2.U.trans a1))
  have L4 : t.L = p.1.L := k4.L.trans (a3.2.1.trans (k2.L.trans b1))
  have n4 : t.numIt = 0 := k4.numIt.trans (a3.2.2.trans (k2.numIt.trans c1))
  rw [if_pos rfl, Act.bind_ok h4] at h
  have sq : Safe (if o.quasi then (k.method e o).quasiPredictor else pure () : Act (St K V Mat Fac) Unit) :=
    Safe.iteBool hM.quasiPredictor
  rcases Act.bind_cases h with ⟨p5, ⟨⟩, h5, h⟩ | ⟨x, h5, rfl⟩
  swap
  · obtain ⟨h5, e5⟩ := quiet_inv h5
    refine ⟨[t], ?_, by simp [n4], by simp [U4, L4], by simp, ?_, by simp⟩
    · rw [e5, e3, e2, e1]
      simp [rows]
    · intro h'
      cases h'
      rcases sq.errs t .notConverged (by rw [h5]) with h' | h' <;> cases h'
  obtain ⟨h5, e5⟩ := quiet_inv h5
  have k5 := sq.kept h5
  rw [Act.bind_ok (t := ({ p5.1 with stabilityPrev := p5.1.stability, numIt := 1 }, p5.2)) (a := ()) rfl] at h
  by_cases hmax : o.maxIt ≤ 1
  · rw [show o.maxIt - 1 = 0 by omega] at h
    cases h
    refine ⟨[t], ?_, by simp [n4], by simp [U4, L4], fun _ h => by omega, by simp, by simp⟩
    show p5.2 = _
    rw [e5, e3, e2, e1]
    simp [rows]
  · obtain ⟨l, a, b, c, d, f, g⟩ := table_iterate k (o.maxIt - 1) (n := 1) rfl one_ne_zero (by omega) h
    refine ⟨t :: l, ?_, ?_, ?_, ?_, ?_, ?_⟩
    · rw [a]
      show p5.2 ++ _ = _
      rw [e5, e3, e2, e1]
      simp [rows]
    · rw [List.map_cons, b, n4, List.length_cons, List.range'_succ]
    · intro u hu
      rcases List.mem_cons.1 hu with rfl | hu
      · exact ⟨U4, L4⟩
      · exact ⟨(c u hu).1.trans (k5.U.trans U4), (c u hu).2.trans (k5.L.trans L4)⟩
    · intro hr _
      obtain ⟨d1, u, d2, d3⟩ := d hr (by omega)
      refine ⟨by rw [d1, List.length_cons]; omega, u, ?_, d3⟩
      rw [List.getLast?_cons, d2]
      rfl
    · intro hr
      rw [List.length_cons, f hr]
      omega
    · rw [List.length_cons]
      omega

/-- **C132** What a step prints with `Verbose`: the names of the columns, and one row for the predictor and for each
iteration. The rows are numbered from `0`. If the step succeeds the last number is `numIterations()` and the last row
shows the accepted point; if it does not converge there are as many rows as `MaxIter` says. All rows belong to the
starting point of the step. -/
theorem C132_table (k : Kind) (s : St K V Mat Fac) (out : List (Line K)) (hi : s.initialized = true) :
    let q := (stepV true e o k (s, out)).1
    let r := (stepV true e o k (s, out)).2
    ∃ l : List (St K V Mat Fac), q.2 = out ++ .header k.columns :: l.map (fun t => .row (k.row e t)) ∧
      l.map St.numIt = List.range l.length ∧ (∀ t ∈ l, t.U = s.U ∧ t.L = s.L) ∧ l.length ≤ max 1 o.maxIt ∧
      (r = .ok .success → 2 ≤ o.maxIt → l.length = q.1.numIt + 1 ∧
        ∃ t, l.getLast? = some t ∧ q.1.U = t.U + t.DU ∧ q.1.L = t.L + t.DL) ∧
      (r = .ok .notConverged → l.length = o.maxIt) := by
  intro q r
  rcases hr : stepRawV true e o k (s, out) with ⟨p, x⟩
  obtain ⟨l, a, b, c, d, f, g⟩ := table_stepRaw k hi hr
  rw [← List.range_eq_range'] at b
  have hq : q.2 = p.2 ∧ (r = .ok .success → x = .ok () ∧ q.1 = { p.1 with status := .success }) ∧
      (r = .ok .notConverged → x = .error .notConverged) := by
    show (stepV true e o k (s, out)).1.2 = p.2 ∧ ((stepV true e o k (s, out)).2 = _ → x = .ok () ∧
      (stepV true e o k (s, out)).1.1 = _) ∧ ((stepV true e o k (s, out)).2 = _ → _)
    unfold stepV caughtV
    simp only [hr]
    rcases x with x | ⟨⟩
    · cases x <;> simp [statusOf]
    · simp
  refine ⟨l, hq.1.trans a, b, c, g, fun hs hm => ?_, fun hs => f (hq.2.2 hs)⟩
  obtain ⟨h1, h2⟩ := hq.2.1 hs
  obtain ⟨h3, h4⟩ := d h1 hm
  rw [h2]
  exact ⟨h3.symm, h4⟩

/-- The value in a column with a given name. -/
def shown (k : Kind) (cells : List (Cell K)) (name : String) : Option (Cell K) := cells[k.columns.idxOf name]?

/-- **C132** What the columns are: every row has as many cells as there are names, and under the names are the
quantities of the iterate. -/
theorem C132_columns (e : Env K V Mat Fac) (k : Kind) (t : St K V Mat Fac) :
    (k.row e t).length = k.columns.length ∧
      shown k (k.row e t) "It." = some (.nat t.numIt) ∧
      shown k (k.row e t) "Res. F" = some (.meas t.residueF) ∧
      shown k (k.row e t) "|dU|/|Du|" = some (.meas t.residueU) ∧
      shown k (k.row e t) "|U|" = some (.num (e.geo.norm (t.U + t.DU))) ∧
      shown k (k.row e t) "L" = some (.num (t.L + t.DL)) ∧
      shown k (k.row e t) "|DU|" = some (.num (e.geo.norm t.DU)) ∧
      shown k (k.row e t) "DL" = some (.num t.DL) ∧
      shown k (k.row e t) "|dU|" = some (.num (e.geo.norm t.dU)) ∧
      shown k (k.row e t) "dL" = some (.num t.dL) := by
  cases k <;> exact ⟨rfl, rfl, rfl, rfl, rfl, rfl, rfl, rfl, rfl, rfl⟩

/-- **C132** violated: `ds²`, `|dU|²` and `dL²`. For Riks and for the consistent method the first is the sum of the
others; for Crisfield's method it is the square root of the sum, a length and not its square. -/
theorem C132_violated_squares (hg : e.geo.Laws) (k : Kind) (t : St K V Mat Fac) (hk : k ≠ .loadControl) :
    ∃ a b c : K, shown k (k.row e t) "ds²" = some (.num a) ∧ shown k (k.row e t) "|dU|²" = some (.num b) ∧
      shown k (k.row e t) "dL²" = some (.num c) ∧ (if k = .crisfield then a ^ 2 = b + c ∧ 0 ≤ a else a = b + c) := by
  cases k with
  | loadControl => exact absurd rfl hk
  | riks => exact ⟨_, _, _, rfl, rfl, rfl, rfl⟩
  | consistent => exact ⟨_, _, _, rfl, rfl, rfl, rfl⟩
  | crisfield =>
    refine ⟨_, _, _, rfl, rfl, rfl, ?_⟩
    rw [if_pos rfl]
    refine ⟨?_, hg.sqrt_nonneg _⟩
    show e.geo.sqrt (crForm e t.phi t.DU t.DL) ^ 2 = e.geo.sqrt (e.geo.dot t.DU t.DU) ^ 2 + loadWeight e t.phi * t.DL ^ 2
    rw [hg.sqrt_sq _ (crForm_nonneg hg _ _ _), hg.sqrt_sq _ (hg.nonneg _)]
    rfl

/-! ## The extended system -/

/-- The lines of a table of the extended system which starts at `(U, L)` and `v`. -/
def AtStart (e : Env K V Mat Fac) (U v : V) (L : K) (x : Line K) : Prop :=
  ∃ c : List (Cell K), x = .row c ∧ ((∃ y, c = [.num y, .note]) ∨ c.length + 2 = extendedColumns.length ∧
    c[extendedColumns.idxOf "|U|"]? = some (.num (e.geo.norm U)) ∧
    c[extendedColumns.idxOf "|φ|"]? = some (.num (e.geo.norm v)) ∧
    c[extendedColumns.idxOf "L"]? = some (.num L))

theorem table_extendedLoop (tol : K) (rem : ℕ) {p q : Printing K V Mat Fac} {r : Except Err Bool}
    (h : extendedLoopV true e o tol rem p = (q, r)) :
    ∃ l, q.2 = p.2 ++ l ∧ ∀ x ∈ l, AtStart e p.1.U p.1.v p.1.L x := by
  induction rem generalizing p with
  | zero =>
    cases h
    exact ⟨[], by simp, by simp⟩
  | succ rem ih =>
    unfold extendedLoopV at h
    have kb : Keeps pointV (extendedBody e) :=
      framed_pointV.extendedBody (fun _ _ => rfl) (fun _ _ _ _ => rfl) (fun _ _ _ _ => rfl) (fun _ _ => rfl)
    rcases Act.bind_cases h with ⟨p1, ⟨⟩, h1, h⟩ | ⟨x, h1, rfl⟩
    swap
    · exact ⟨[], by simp [(quiet_inv h1).2], by simp⟩
    obtain ⟨h1, e1⟩ := quiet_inv h1
    have k1 : pointV p1.1 = pointV p.1 := kb.run h1
    have g1 : AtStart e p.1.U p.1.v p.1.L (.row (extendedRow e p1.1)) := by
      simp only [pointV, Prod.mk.injEq] at k1
      refine ⟨_, rfl, .inr ⟨rfl, ?_, ?_, ?_⟩⟩
      · show some (Cell.num (e.geo.norm p1.1.U)) = _
        rw [k1.1]
      · show some (Cell.num (e.geo.norm p1.1.v)) = _
        rw [k1.2.2]
      · show some (Cell.num p1.1.L) = _
        rw [k1.2.1]
    rw [if_pos rfl] at h
    have out2 : ∀ {p2 : Printing K V Mat Fac} {y : Except Err Unit}, extendedOutput e o p1 = (p2, y) →
        pointV p2.1 = pointV p.1 ∧ ∃ l, p2.2 = p.2 ++ l ∧ ∀ x ∈ l, AtStart e p.1.U p.1.v p.1.L x := by
      intro p2 y h2
      unfold extendedOutput at h2
      rw [Act.bind_ok (t := (p1.1, p1.2 ++ [.row (extendedRow e p1.1)])) (a := ()) rfl,
        Act.bind_ok (t := (p1.1, p1.2 ++ [.row (extendedRow e p1.1)])) (a := p1.1) rfl] at h2
      have kt : Keeps pointV (termination e o p1.1.U false) := framed_pointV.termination _ _
      rcases Act.bind_cases h2 with ⟨p3, y, h3, h2⟩ | ⟨x, h3, rfl⟩
      · obtain ⟨h3, e3⟩ := quiet_inv h3
        cases h2
        refine ⟨(kt.run h3).trans k1, [.row (extendedRow e p1.1), .row [.num y, .note]], ?_, ?_⟩
        · show p3.2 ++ _ = _
          rw [e3, e1]
          simp
        · intro x hx
          rcases List.mem_cons.1 hx with rfl | hx
          · exact g1
          · rw [List.mem_singleton.1 hx]
            exact ⟨_, rfl, .inl ⟨y, rfl⟩⟩
      · obtain ⟨h3, e3⟩ := quiet_inv h3
        refine ⟨(kt.run h3).trans k1, [.row (extendedRow e p1.1)], by rw [e3, e1], ?_⟩
        intro x hx
        rw [List.mem_singleton.1 hx]
        exact g1
    rcases Act.bind_cases h with ⟨p2, ⟨⟩, h2, h⟩ | ⟨x, h2, rfl⟩
    swap
    · exact (out2 h2).2
    obtain ⟨k2, l, e2, hl⟩ := out2 h2
    rw [Act.bind_ok (t := p2) (a := p2.1) rfl] at h
    split at h
    · exact ⟨l, (quiet_inv h).2.trans e2, hl⟩
    split at h
    · exact ⟨l, (quiet_inv h).2.trans e2, hl⟩
    · rw [Act.bind_ok (t := ({ p2.1 with numIt := p2.1.numIt + 1 }, p2.2)) (a := ()) rfl] at h
      obtain ⟨l', a, b⟩ := ih h
      simp only [pointV, Prod.mk.injEq] at k2
      refine ⟨l ++ l', by rw [a, e2, List.append_assoc], ?_⟩
      intro x hx
      rcases List.mem_append.1 hx with hx | hx
      · exact hl x hx
      · have := b x hx
        simp only at this
        rwa [k2.1, k2.2.1, k2.2.2] at this

/-- **C132** violated: in the table of the extended system the columns `|U|`, `|φ|` and `L` never change. They show
the point where the iterations started, without the increments; the table of a step shows `|U+DU|` and `L+DL`. -/
theorem C132_violated_extended_table (s : St K V Mat Fac) (out : List (Line K)) (U : V) (L tol : K) :
    (extendedSolveV true e o U L tol (s, out)).1.2 = out ∨
      ∃ l, (extendedSolveV true e o U L tol (s, out)).1.2 = out ++ .header extendedColumns :: l ∧
        ∀ x ∈ l, AtStart e U s.v L x := by
  rcases hr : extendedSolveV true e o U L tol (s, out) with ⟨q, r⟩
  show q.2 = _ ∨ ∃ l, q.2 = _ ∧ _
  unfold extendedSolveV at hr
  rcases Act.bind_cases hr with ⟨p1, ⟨⟩, h1, h⟩ | ⟨x, h1, rfl⟩
  swap
  · exact .inl (quiet_inv h1).2
  obtain ⟨h1, e1⟩ := quiet_inv h1
  have k1 : pointV p1.1 = (U, L, s.v) := by
    unfold extendedStart at h1
    rw [Act.bind_ok (Act.modify_apply _ _), Act.bind_ok (Act.get_apply _)] at h1
    obtain ⟨t, ⟨⟩, h2, h1⟩ := Act.bind_ok_inv h1
    have := (framed_pointV.refactorize (e := e) _ _).run h2
    exact (congrArg (fun r => pointV r.1) h1).symm.trans this
  rw [if_pos rfl, Act.bind_ok (t := (p1.1, p1.2 ++ [.header extendedColumns])) (a := ()) rfl] at h
  obtain ⟨l, a, b⟩ := table_extendedLoop _ _ h
  simp only [pointV, Prod.mk.injEq] at k1
  simp only [k1] at b
  refine .inr ⟨l, ?_, b⟩
  rw [a, e1]
  simp

end GsSA.ALM
