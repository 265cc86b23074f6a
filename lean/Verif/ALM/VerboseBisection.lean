import Verif.ALM.VerboseTable
import Verif.ALM.VerboseDemo

/-!
# C132: what the bisection and the test of a singular point print
-/

namespace GsSA.ALM

set_option linter.unusedSectionVars false

variable {K V Mat Fac : Type} [Field K] [LinearOrder K] [IsStrictOrderedRing K] [AddCommGroup V] [Module K V]
variable {e : Env K V Mat Fac} {o : Opts K} {α β : Type}

/-- Number and length of a line at the start of a pass. -/
def Line.pass? : Line K → Option (ℕ × K)
  | .bisection k len => some (k, len)
  | _ => none

/-- Relative error and value of a line at the end of a pass. -/
def Line.finished? : Line K → Option (Option K × K)
  | .finished err term => some (err, term)
  | _ => none

theorem rows_pass (k : Kind) (l : List (St K V Mat Fac)) : (rows e k l).filterMap Line.pass? = [] := by
  unfold rows
  rw [List.filterMap_map]
  exact List.filterMap_eq_nil_iff.2 fun _ _ => rfl

theorem rows_finished (k : Kind) (l : List (St K V Mat Fac)) : (rows e k l).filterMap Line.finished? = [] := by
  unfold rows
  rw [List.filterMap_map]
  exact List.filterMap_eq_nil_iff.2 fun _ _ => rfl

/-- A step prints no lines of the bisection. -/
theorem step_lines (k : Kind) (p : Printing K V Mat Fac) :
    (stepV true e o k p).1.2.filterMap Line.pass? = p.2.filterMap Line.pass? ∧
      (stepV true e o k p).1.2.filterMap Line.finished? = p.2.filterMap Line.finished? := by
  obtain ⟨s, out⟩ := p
  by_cases hi : s.initialized = true
  · obtain ⟨l, h, -⟩ := C132_table (e := e) (o := o) k s out hi
    rw [h]
    have h1 := rows_pass (e := e) k l
    have h2 := rows_finished (e := e) k l
    unfold rows at h1 h2
    rw [List.filterMap_append, List.filterMap_append, List.filterMap_cons, List.filterMap_cons, h1, h2]
    simp [Line.pass?, Line.finished?]
  · have h : (stepRawV true e o k (s, out)).1.2 = out := by
      rcases hr : stepRawV true e o k (s, out) with ⟨q, x⟩
      unfold stepRawV at hr
      rcases Act.bind_cases hr with ⟨p1, ⟨⟩, h1, -⟩ | ⟨x, h1, rfl⟩
      · have h1 := (quiet_inv h1).1
        unfold assertInitialized at h1
        rw [Act.bind_ok (Act.get_apply _), if_pos (Bool.eq_false_iff.2 hi)] at h1
        cases congrArg Prod.snd h1
      · exact (quiet_inv h1).2
    have h' : (stepV true e o k (s, out)).1.2 = out := by
      unfold stepV caughtV
      rcases hr : stepRawV true e o k (s, out) with ⟨q, x | ⟨⟩⟩
      · rw [hr] at h
        simp only [hr]
        cases x <;> exact h
      · rw [hr] at h
        simp only [hr]
        exact h
    rw [h']
    exact ⟨rfl, rfl⟩

/-- The lines of `rem` passes or less. -/
def Passes (o : Opts K) (ref tol : K) (rem : ℕ) (b : Bool) (p q : Printing K V Mat Fac) : Prop :=
  ∃ (l : List (ℕ × K)) (m : List (Option K × K)),
    q.2.filterMap Line.pass? = p.2.filterMap Line.pass? ++ l ∧
    q.2.filterMap Line.finished? = p.2.filterMap Line.finished? ++ m ∧
    l.map Prod.fst = List.range' (o.maxIt - rem) l.length ∧ m.length = l.length ∧
    (∀ x ∈ l.head?, x.2 = p.1.len) ∧
    (∀ x ∈ m, x.1 = ratio |x.2| |ref|) ∧ (∀ x ∈ m.dropLast, below x.1 tol = false) ∧
    (if b then ∃ x ∈ m.getLast?, below x.1 tol = true else l.length = rem ∧ ∀ x ∈ m, below x.1 tol = false)

theorem bisection_lines (k : Kind) (ref tol : K) (rem : ℕ) (U : V) (L : K) (fa : ℕ) {p q : Printing K V Mat Fac}
    {b : Bool} (h : bisectionLoopV true e o k ref tol rem U L fa p = (q, .ok b)) (hrem : rem ≤ o.maxIt) :
    Passes o ref tol rem b p q := by
  induction rem generalizing U L fa p with
  | zero =>
    cases h
    exact ⟨[], [], by simp⟩
  | succ rem ih =>
    unfold bisectionLoopV at h
    rw [if_pos rfl, Act.bind_ok (t := (p.1, p.2 ++ [.bisection (o.maxIt - (rem + 1)) p.1.len])) (a := ()) rfl,
      Act.bind_ok (t := ({ p.1 with U := U, L := L }, p.2 ++ [.bisection (o.maxIt - (rem + 1)) p.1.len])) (a := ()) rfl]
      at h
    obtain ⟨p1, st, h1, h⟩ := Act.bind_ok_inv h
    obtain ⟨a1, b1⟩ := step_lines (e := e) (o := o) k
      ({ p.1 with U := U, L := L }, p.2 ++ [.bisection (o.maxIt - (rem + 1)) p.1.len])
    rw [h1] at a1 b1
    obtain ⟨p2, s2, h2, h⟩ := Act.bind_ok_inv h
    have e2 := (quiet_inv h2).2
    obtain ⟨p3, fb, h3, h⟩ := Act.bind_ok_inv h
    have e3 := (quiet_inv h3).2
    obtain ⟨p4, ⟨⟩, h4, h⟩ := Act.bind_ok_inv h
    have e4 := (quiet_inv h4).2
    obtain ⟨p5, s5, h5, h⟩ := Act.bind_ok_inv h
    have e5 := (quiet_inv h5).2
    obtain ⟨p6, term, h6, h⟩ := Act.bind_ok_inv h
    have e6 := (quiet_inv h6).2
    rw [Act.bind_ok (t := (p6.1, p6.2 ++ [Line.finished (ratio |term| |ref|) term])) (a := ()) rfl] at h
    have e7 : p6.2 = p1.2 := e6.trans (e5.trans (e4.trans (e3.trans e2)))
    simp only [List.filterMap_append, List.filterMap_cons, List.filterMap_nil, Line.pass?, Line.finished?] at a1 b1
    have a7 : (p6.2 ++ [Line.finished (ratio |term| |ref|) term]).filterMap Line.pass? =
        p.2.filterMap Line.pass? ++ [(o.maxIt - (rem + 1), p.1.len)] := by
      rw [List.filterMap_append, e7, a1]
      simp [Line.pass?]
    have b7 : (p6.2 ++ [Line.finished (ratio |term| |ref|) term]).filterMap Line.finished? =
        p.2.filterMap Line.finished? ++ [(ratio |term| |ref|, term)] := by
      rw [List.filterMap_append, e7, b1]
      simp [Line.finished?]
    have again : ∀ U' L' fa', below (ratio |term| |ref|) tol = false →
        bisectionLoopV true e o k ref tol rem U' L' fa'
          (p6.1, p6.2 ++ [Line.finished (ratio |term| |ref|) term]) = (q, .ok b) →
        Passes o ref tol (rem + 1) b p q := by
      intro U' L' fa' hb h
      obtain ⟨l, m, g1, g2, g3, g4, -, g5, g6, g7⟩ := ih U' L' fa' h (by omega)
      simp only [a7, b7] at g1 g2
      refine ⟨(o.maxIt - (rem + 1), p.1.len) :: l, (ratio |term| |ref|, term) :: m, ?_, ?_, ?_, ?_, ?_, ?_, ?_, ?_⟩
      · rw [g1]
        simp
      · rw [g2]
        simp
      · rw [List.map_cons, List.length_cons, List.range'_succ, g3]
        simp only [List.cons.injEq, true_and]
        congr 1
        omega
      · simp [g4]
      · simp
      · intro x hx
        rcases List.mem_cons.1 hx with rfl | hx
        · rfl
        · exact g5 x hx
      · intro x hx
        rcases m with _ | ⟨y, m⟩
        · simp at hx
        · rw [List.dropLast_cons_cons] at hx
          rcases List.mem_cons.1 hx with rfl | hx
          · exact hb
          · exact g6 x hx
      · cases b
        · simp only [Bool.false_eq_true, if_false] at g7 ⊢
          refine ⟨by simp [g7.1], ?_⟩
          intro x hx
          rcases List.mem_cons.1 hx with rfl | hx
          · exact hb
          · exact g7.2 x hx
        · simp only [if_true] at g7 ⊢
          obtain ⟨x, hx, hx'⟩ := g7
          exact ⟨x, by rw [List.getLast?_cons, Option.mem_def.1 hx]; rfl, hx'⟩
    split at h
    · next hb =>
      cases h
      exact ⟨[(o.maxIt - (rem + 1), p.1.len)], [(ratio |term| |ref|, term)], a7, b7, by simp, rfl, by simp, by simp,
        by simp, by simp [hb]⟩
    · next hb =>
      split at h
      · exact again _ _ _ (Bool.eq_false_iff.2 hb) h
      · exact again _ _ _ (Bool.eq_false_iff.2 hb) h

/-- **C132** What the bisection prints with `Verbose`, besides the tables of its steps: the passes are numbered from
`1`, the first with the arc length at hand, and each ends with the relative error and the value. The relative error
belongs to the value; only the last one can be below the tolerance, and it is if and only if the bisection succeeds. -/
theorem C132_bisection (k : Kind) (ref tol : K) (U : V) (L : K) (fa : ℕ) {s t : St K V Mat Fac}
    {out out' : List (Line K)} {b : Bool} (hmax : 1 ≤ o.maxIt)
    (h : bisectionLoopV true e o k ref tol (o.maxIt - 1) U L fa (s, out) = ((t, out'), .ok b)) :
    ∃ (l : List (ℕ × K)) (m : List (Option K × K)),
      out'.filterMap Line.pass? = out.filterMap Line.pass? ++ l ∧
      out'.filterMap Line.finished? = out.filterMap Line.finished? ++ m ∧
      l.map Prod.fst = List.range' 1 l.length ∧ m.length = l.length ∧ (∀ x ∈ l.head?, x.2 = s.len) ∧
      (∀ x ∈ m, x.1 = ratio |x.2| |ref|) ∧ (∀ x ∈ m.dropLast, below x.1 tol = false) ∧
      (if b then ∃ x ∈ m.getLast?, below x.1 tol = true
        else l.length = o.maxIt - 1 ∧ ∀ x ∈ m, below x.1 tol = false) := by
  have := bisection_lines k ref tol (o.maxIt - 1) U L fa h (by omega)
  unfold Passes at this
  rwa [show o.maxIt - (o.maxIt - 1) = 1 by omega] at this

/-- **C132** The test of a singular point announces its result. -/
theorem C132_test (jacobian : Bool) {s t : St K V Mat Fac} {out out' : List (Line K)} {b : Bool}
    (h : testSingularPointV true e o jacobian (s, out) = ((t, out'), .ok b)) :
    testSingularPoint e o jacobian s = (t, .ok b) ∧ out' = out ++ [.singular b] := by
  unfold testSingularPointV at h
  obtain ⟨p1, c, h1, h⟩ := Act.bind_ok_inv h
  obtain ⟨h1, e1⟩ := quiet_inv h1
  have h2 := congrArg (fun r => r.1.1) h
  have h3 := congrArg (fun r => r.1.2) h
  have h4 := congrArg (fun r => r.2) h
  change p1.1 = t at h2
  change p1.2 ++ [.singular c] = out' at h3
  change Except.ok c = Except.ok b at h4
  cases h4
  rw [← h2, ← h3, e1]
  exact ⟨h1, rfl⟩

/-- **C132** The columns of the extended system: two parts of a line have together as many cells as there are names,
and under the names are the quantities. -/
theorem C132_extended_columns (e : Env K V Mat Fac) (t : St K V Mat Fac) (x : K) :
    (extendedRow e t ++ [Cell.num x, Cell.note]).length = extendedColumns.length ∧
      ∀ c ∈ [("It.", Cell.nat t.numIt), ("Res. F", .meas t.residueF), ("|dU|/|Du|", .meas t.residueU),
        ("dL/DL", .meas (if t.numIt = 0 then some t.DL else ratio t.dL t.DL)), ("K_T * φ", .num t.residueKTPhi),
        ("|DU|", .num (e.geo.norm t.DU)), ("|Dφ|", .num (e.geo.norm t.DV)), ("DL", .num t.DL),
        ("|dU|", .num (e.geo.norm t.dU)), ("|dφ|", .num (e.geo.norm t.dV)), ("dL", .num t.dL), ("Dmin", .num x)],
        (extendedRow e t ++ [Cell.num x, Cell.note])[extendedColumns.idxOf c.1]? = some c.2 := by
  refine ⟨rfl, ?_⟩
  intro c hc
  simp only [List.mem_cons, List.not_mem_nil, or_false] at hc
  rcases hc with rfl | rfl | rfl | rfl | rfl | rfl | rfl | rfl | rfl | rfl | rfl | rfl <;> rfl

/-- **C132** The columns which only some tables have. -/
theorem C132_more_columns (e : Env K V Mat Fac) (k : Kind) (t : St K V Mat Fac) :
    (k ≠ .loadControl →
      shown k (k.row e t) "dL/DL" = some (.meas (if t.numIt = 0 then some t.DL else ratio t.dL t.DL))) ∧
      shown k (k.row e t) "Dmin" =
        some (if k = .crisfield then .counted t.indicator t.negatives else .num t.indicator) ∧
      (k = .riks ∨ k = .consistent →
        shown k (k.row e t) "|dU|²" = some (.num (t.phi * e.geo.norm t.DU ^ 2)) ∧
        shown k (k.row e t) "dL²" = some (.num ((1 - t.phi) * t.DL ^ 2))) ∧
      (k = .crisfield →
        shown k (k.row e t) "|dU|²" = some (.num (e.geo.norm t.DU ^ 2)) ∧
        shown k (k.row e t) "dL²" = some (.num (t.phi ^ 2 * e.geo.dot e.forcing e.forcing * t.DL ^ 2))) := by
  cases k
  · exact ⟨fun h => absurd rfl h, rfl, fun h => (by cases h <;> contradiction), fun h => by cases h⟩
  · exact ⟨fun _ => rfl, rfl, fun _ => ⟨rfl, rfl⟩, fun h => by cases h⟩
  · exact ⟨fun _ => rfl, rfl, fun _ => ⟨rfl, rfl⟩, fun h => by cases h⟩
  · exact ⟨fun _ => rfl, rfl, fun h => (by cases h <;> contradiction), fun _ => ⟨rfl, rfl⟩⟩

end GsSA.ALM

namespace GsSA.ALM.VerboseDemo

open GsSA.ALM.Demo

/-- `C132_bisection`: two passes towards the limit point, the second one close enough. -/
example : (bisectionLoopV true soft { det with maxIt := 4 } .loadControl 2 (4 / 5) 3 0 0 0 (start (1 / 2) false, [])).2 =
      .ok true ∧
    (bisectionLoopV true soft { det with maxIt := 4 } .loadControl 2 (4 / 5) 3 0 0 0
      (start (1 / 2) false, [])).1.2.filterMap Line.pass? = [(1, 1 / 2), (2, 1 / 2)] := by decide +kernel

/-- `C132_test`: the load moves the solution along the eigenvector, so the point is a limit point. -/
example : (testSingularPointV true soft det true (near, [])).2 = .ok false ∧
    (testSingularPointV true soft det true (near, [])).1.2 = [.singular false] := by decide +kernel

example := C132_extended_columns soft near 0

example := C132_more_columns soft .riks near

end GsSA.ALM.VerboseDemo
