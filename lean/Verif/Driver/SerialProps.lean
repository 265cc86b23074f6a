import Verif.Driver.Serial
import Verif.Driver.SolveProps

/-!
# Properties of `serialSolve` (C21)
-/

set_option linter.unusedSectionVars false

namespace GsSA.APALM

open GsSA

variable {K S : Type*} [Field K] [LinearOrder K] [IsStrictOrderedRing K]
variable {ini : Initiator K S} {p : SolveParams K S}

/-- The result of step `k` of a path of times and solutions: it starts from point `k`, the previous
solution is that of point `k-1` (the start itself for the first step), and the length is `len`, for the
first step `len₁`. -/
def stepOf (ini : Initiator K S) (len₁ len : K) (path : List (K × S)) (k : ℕ) : Option (InitRes K S) :=
  match path[k]?, path[k - 1]? with
  | some b, some a => some (ini (if k = 0 then len₁ else len) b.2 a.2)
  | _, _ => none

/-- General form of `stepOf` with a given previous solution of the first step. -/
theorem serialSteps_spec (hini : InitOK ini) (len : K) (n : ℕ) (dL s : K) (old prev : S) :
    ∃ l b, serialSteps ini len n dL s old prev = .ok (l, b) ∧ l.length ≤ n ∧
      (b = none → l.length = n) ∧ (b ≠ none → l ≠ []) ∧
      ∀ k a x c, (prev :: old :: l.map Prod.snd)[k]? = some a → ((s, old) :: l)[k]? = some x →
        l[k]? = some c →
        (ini (if k = 0 then dL else len) x.2 a).sols.head? = some c.2 ∧
        c.1 = x.1 + (ini (if k = 0 then dL else len) x.2 a).distance ∧
        ((ini (if k = 0 then dL else len) x.2 a).bifurcation = true ↔ b ≠ none ∧ k + 1 = l.length) ∧
        (∀ y, b = some y → k + 1 = l.length →
          (ini (if k = 0 then dL else len) x.2 a).sols[1]? = some y) := by
  induction n generalizing dL s old prev with
  | zero => exact ⟨[], none, rfl, le_rfl, by simp, by simp, by simp⟩
  | succ n ih =>
    obtain ⟨hpos, hnb, hbf⟩ := hini dL old prev
    cases hb : (ini dL old prev).bifurcation with
    | true =>
      obtain ⟨x, y, hxy⟩ := hbf hb
      refine ⟨[(s + (ini dL old prev).distance, x)], some y, ?_, by simp, by simp, by simp, ?_⟩
      · simp [serialSteps, hxy, hb]
      · intro k a z c h1 h2 h3
        have hk : k = 0 := by
          by_contra hk
          rw [List.getElem?_eq_none (by simp; omega)] at h3
          simp at h3
        subst hk
        simp only [List.getElem?_cons_zero, Option.some.injEq] at h1 h2 h3
        subst h1 h2 h3
        simp [hxy, hb]
    | false =>
      obtain ⟨x, hx⟩ := hnb hb
      obtain ⟨l, b, h1, h2, h3, h4, h5⟩ := ih len (s + (ini dL old prev).distance) x old
      refine ⟨(s + (ini dL old prev).distance, x) :: l, b, ?_, by simpa using h2, by simpa using h3,
        by simp, ?_⟩
      · simp [serialSteps, hx, hb, h1]
      · intro k a z c g1 g2 g3
        cases k with
        | zero =>
          simp only [List.getElem?_cons_zero, Option.some.injEq] at g1 g2 g3
          subst g1 g2 g3
          simp only [if_true, hx, hb, List.head?_cons, true_and, List.length_cons]
          refine ⟨⟨by simp, ?_⟩, ?_⟩
          · rintro ⟨hbn, hl⟩
            exact absurd (List.length_eq_zero_iff.1 (by omega)) (h4 hbn)
          · intro y hy hl
            exact absurd (List.length_eq_zero_iff.1 (by omega)) (h4 (by simp [hy]))
        | succ k =>
          simp only [List.map_cons, List.getElem?_cons_succ] at g1 g2 g3
          obtain ⟨f1, f2, f3, f4⟩ := h5 k a z c g1 g2 g3
          have hlen : (if k + 1 = 0 then dL else len) = len := by simp
          have hlen' : (if k = 0 then len else len) = len := by simp
          rw [hlen'] at f1 f2 f3 f4
          rw [hlen]
          simp only [List.length_cons, Nat.add_right_cancel_iff]
          exact ⟨f1, f2, f3, f4⟩

/-- **C21** The points computed from one start form a path: it begins with the start at time 0, each
point is what the step from the point before finds, at the time of the point before plus the distance of
the step; the path has at most `max(N,1)` points and it is shorter only if its last step found a
bifurcation; the other steps did not. All points are stored, except the first one for a start that comes
from a bifurcation, whose first step is multiplied by `BifLengthMultiplier`. If the last step found a
bifurcation, exactly one new start, the second solution of that step, is queued, with the length
multiplied by `BranchLengthMultiplier`. -/
theorem C21_path (hini : InitOK ini) (p : SolveParams K S) (st : Start K S) :
    ∃ path new, serialBranch p ini st = .ok (if st.bisected then path.tail else path, new) ∧
      path[0]? = some (0, st.sol) ∧ (path.length : ℤ) ≤ max p.nSteps 1 ∧
      (∀ k b c, path[k]? = some b → path[k + 1]? = some c →
        ∃ r, stepOf ini (if st.bisected then st.len * p.bifMult else st.len) st.len path k = some r ∧
          r.sols.head? = some c.2 ∧ c.1 = b.1 + r.distance ∧
          (k + 2 < path.length → r.bifurcation = false) ∧
          (k + 2 = path.length → r.bifurcation = false → new = []) ∧
          (k + 2 = path.length → r.bifurcation = true →
            ∃ y, r.sols[1]? = some y ∧ new = [⟨y, st.len * p.branchMult, true⟩])) ∧
      (new = [] → (path.length : ℤ) = max p.nSteps 1) ∧
      (path.length = 1 → new = []) := by
  set len₁ := if st.bisected then st.len * p.bifMult else st.len with hlen₁
  obtain ⟨l, b, h1, h2, h3, h4, h5⟩ :=
    serialSteps_spec hini st.len (p.nSteps - 1).toNat len₁ 0 st.sol st.sol
  have hnone : newStarts p st.len b = [] ↔ b = none := by
    cases b <;> simp [newStarts]
  refine ⟨(0, st.sol) :: l, newStarts p st.len b, ?_, rfl, ?_, ?_, ?_, ?_⟩
  · unfold serialBranch
    rw [h1]
    rfl
  · simp only [List.length_cons]
    push_cast
    omega
  · intro k x c g1 g2
    simp only [List.getElem?_cons_succ] at g2
    obtain ⟨a, ha, ha'⟩ : ∃ a : K × S, ((0, st.sol) :: l)[k - 1]? = some a ∧
        (st.sol :: st.sol :: l.map Prod.snd)[k]? = some a.2 := by
      cases k with
      | zero => exact ⟨(0, st.sol), rfl, rfl⟩
      | succ k =>
        have hk : k < ((0, st.sol) :: l).length := by
          have := (List.getElem?_eq_some_iff.1 g1).1
          omega
        refine ⟨((0, st.sol) :: l)[k], by simp, ?_⟩
        have : (st.sol :: l.map Prod.snd) = ((0, st.sol) :: l).map Prod.snd := by simp
        rw [List.getElem?_cons_succ, this, List.getElem?_map, List.getElem?_eq_getElem hk]
        rfl
    obtain ⟨f1, f2, f3, f4⟩ := h5 k a.2 x c ha' g1 g2
    refine ⟨ini (if k = 0 then len₁ else st.len) x.2 a.2, ?_, f1, f2, ?_, ?_, ?_⟩
    · simp only [stepOf, g1, ha]
    · intro hk
      simp only [List.length_cons] at hk
      rw [← Bool.not_eq_true, f3]
      rintro ⟨-, h⟩
      omega
    · intro hk hb
      simp only [List.length_cons] at hk
      rw [hnone]
      by_contra hbn
      rw [f3.2 ⟨hbn, by omega⟩] at hb
      simp at hb
    · intro hk hb
      simp only [List.length_cons] at hk
      obtain ⟨y, hy⟩ := Option.ne_none_iff_exists'.1 (f3.1 hb).1
      exact ⟨y, f4 y hy (by omega), by rw [hy]; rfl⟩
  · intro hn
    have := h3 (hnone.1 hn)
    simp only [List.length_cons]
    push_cast
    omega
  · intro hl
    rw [hnone]
    by_contra hbn
    exact h4 hbn (by simpa using hl)

/-- The times on a path increase. -/
theorem path_increasing {path : List (K × S)} (h : ∀ k b c, path[k]? = some b → path[k + 1]? = some c →
    b.1 < c.1) : (path.map Prod.fst).Pairwise (· < ·) := by
  rw [← List.isChain_iff_pairwise, List.isChain_iff_getElem]
  intro i hi
  simp only [List.length_map] at hi
  simp only [List.getElem_map]
  exact h i path[i] path[i + 1] (by simp) (by simp)

theorem serialBranch_increasing (hini : InitOK ini) {st : Start K S} {pts : List (K × S)}
    {new : List (Start K S)} (h : serialBranch p ini st = .ok (pts, new)) :
    (pts.map Prod.fst).Pairwise (· < ·) := by
  obtain ⟨path, new', h1, h2, h3, h4, -⟩ := C21_path hini p st
  rw [h, Except.ok.injEq, Prod.mk.injEq] at h1
  have hp : (path.map Prod.fst).Pairwise (· < ·) := by
    refine path_increasing fun k b c hb hc => ?_
    obtain ⟨r, hr, -, hd, -⟩ := h4 k b c hb hc
    unfold stepOf at hr
    split at hr
    · rename_i b' a' _ _
      simp only [Option.some.injEq] at hr
      have := (hini (if k = 0 then (if st.bisected then st.len * p.bifMult else st.len) else st.len)
        b'.2 a'.2).1
      rw [hr] at this
      linarith
    · simp at hr
  rw [h1.1]
  split
  · rw [List.map_tail]
    exact hp.sublist (List.tail_sublist _)
  · exact hp

/-- What `parallelSolve` and `_finalize` see of a branch computed by `serialSolve`: it is ready for
`parallelSolve`, and its points are the stored ones, at level 0. -/
theorem serialBranch_data (hini : InitOK ini) (hp : FreshParams p) {st : Start K S}
    {pts : List (K × S)} {new : List (Start K S)} (h : serialBranch p ini st = .ok (pts, new))
    (h2 : 2 ≤ pts.length) :
    ∃ d, initData p.empty (pts.map Prod.fst) (pts.map Prod.snd) = .ok d ∧ ReadyBranch d ∧
      flat d = pts.map (fun x => ⟨x.1, x.2, 0⟩) := by
  have hs := serialBranch_increasing hini h
  obtain ⟨e1, e2⟩ := initData_eq hp.isFresh (times := pts.map Prod.fst) (sols := pts.map Prod.snd) hs
    (by simpa using h2) (by simp)
  refine ⟨_, e1, ⟨?_, ?_, ?_⟩, ?_⟩
  · obtain ⟨m, tol, dt, hfr⟩ := hp
    refine ⟨m, tol, dt, [.init (pts.map Prod.fst) (pts.map Prod.snd)], ?_⟩
    refine Exec.cons ?_ ?_ (Exec.nil _)
    · exact ⟨rfl, hs, by simpa using h2, by simp⟩
    · rw [← hfr]
      exact e1
  · intro j hj
    have hz := e2.jobs
    by_contra hl
    have : j.level = 0 := by omega
    have hj' : j ∈ gaps (initCurve (pts.map Prod.fst) (pts.map Prod.snd)) := hj
    have := gaps_level_pos e2.pendPos j hj'
    omega
  · simp [initState, applyOptions, hp.isFresh.jobs]
  · rw [e2.flat_eq]
    match pts, h2 with
    | (a, s) :: l, h3 =>
      simp only [List.map_cons, initCurve, List.zip_cons_cons, initPts, List.cons.injEq]
      refine ⟨rfl, ?_⟩
      have hz : (l.map Prod.fst).zip (l.map Prod.snd) = l := (List.zip_of_prod rfl rfl).symm
      rw [hz]
      generalize unitPar a _ = xf
      clear hz hs h h2 e1 e2 h3
      induction l generalizing s with
      | nil => rfl
      | cons y l ih =>
        simp only [initTail, List.map_cons, List.cons.injEq]
        exact ⟨rfl, ih y.2⟩

/-- No start with property `Good` leads to a branch of fewer than two points, and the new starts have
the property as well. -/
def NoShortBranch (p : SolveParams K S) (ini : Initiator K S) (Good : Start K S → Prop) : Prop :=
  ∀ st pts new, Good st → serialBranch p ini st = .ok (pts, new) →
    2 ≤ pts.length ∧ ∀ s ∈ new, Good s

theorem serialLoop_ok (hini : InitOK ini) (hp : FreshParams p) {Good : Start K S → Prop}
    (hshort : NoShortBranch p ini Good) (fuel : ℕ) (starts : List (Start K S))
    (hg : ∀ s ∈ starts, Good s) (c : Container K S) (out : List (List (K × S)))
    (r : Except Fail (Container K S × List (List (K × S))))
    (h : serialLoop p ini fuel starts c out = some r) :
    ∃ ds ptss, r = .ok (c ++ ds, out ++ ptss) ∧ (starts ≠ [] → ds ≠ []) ∧
      List.Forall₂ (fun d pts => ReadyBranch d ∧
        flat d = pts.map (fun x => (⟨x.1, x.2, 0⟩ : FlatPoint K S))) ds ptss := by
  induction fuel generalizing starts c out with
  | zero =>
    cases starts with
    | nil =>
      simp only [serialLoop, Option.some.injEq] at h
      exact ⟨[], [], by simp [← h], by simp, List.Forall₂.nil⟩
    | cons st l => simp [serialLoop] at h
  | succ fuel ih =>
    cases starts with
    | nil =>
      simp only [serialLoop, Option.some.injEq] at h
      exact ⟨[], [], by simp [← h], by simp, List.Forall₂.nil⟩
    | cons st l =>
      obtain ⟨path, new, h1, -⟩ := C21_path hini p st
      obtain ⟨hl, hg'⟩ := hshort _ _ _ (hg st (by simp)) h1
      obtain ⟨d, h2, h3, h4⟩ := serialBranch_data hini hp h1 hl
      simp only [serialLoop, h1, h2] at h
      obtain ⟨ds, ptss, h5, -, h6⟩ := ih _ (by
        intro s hs
        rcases List.mem_append.1 hs with hs | hs
        · exact hg s (by simp [hs])
        · exact hg' s hs) _ _ h
      refine ⟨d :: ds, _ :: ptss, ?_, by simp, List.Forall₂.cons ⟨h3, h4⟩ h6⟩
      rw [h5]
      simp [Container.add]

/-- **C21** If no branch has fewer than two points, `serialSolve` does not fail; for every start it
adds a branch ready for `parallelSolve` (the hypothesis of C27) with the stored points at level 0. Partial:
a branch of one point is outside the model, see `C21_violated_single_point`. -/
theorem C21_serialSolve_partial (hini : InitOK ini) (hp : FreshParams p) {Good : Start K S → Prop}
    (hshort : NoShortBranch p ini Good) {fuel : ℕ} {starts : List (Start K S)} (hs : starts ≠ [])
    (hg : ∀ s ∈ starts, Good s) {c : Container K S}
    {out : List (List (K × S))} {r : Except Fail (Container K S × List (List (K × S)))}
    (h : serialSolve p ini fuel starts c out = some r) :
    ∃ ds ptss, r = .ok (c ++ ds, out ++ ptss) ∧ ds ≠ [] ∧
      List.Forall₂ (fun d pts => ReadyBranch d ∧
        flat d = pts.map (fun x => (⟨x.1, x.2, 0⟩ : FlatPoint K S))) ds ptss := by
  unfold serialSolve at h
  rw [if_neg hs] at h
  obtain ⟨ds, ptss, h1, h2, h3⟩ := serialLoop_ok hini hp hshort fuel starts hg c out r h
  exact ⟨ds, ptss, h1, h2 hs, h3⟩

/-- **C21** Without a start `serialSolve` stops in its assertion. -/
theorem C21_no_starts (fuel : ℕ) (c : Container K S) (out : List (List (K × S))) :
    serialSolve p ini fuel [] c out = some (.error .assert) := rfl

/-- **C21** Without bifurcations `serialSolve(N)`, `N ≥ 2`, from one start ends after one branch of
`N` points, the start and `N-1` successive steps. -/
theorem C21_no_bifurcation (hini : InitOK ini) (hb : ∀ dt s q, (ini dt s q).bifurcation = false)
    (hp : FreshParams p) (hN : 2 ≤ p.nSteps) (s₀ : S) (len : K) (fuel : ℕ) :
    ∃ d pts, serialSolve p ini (fuel + 1) [⟨s₀, len, false⟩] [] [] = some (.ok ([d], [pts])) ∧
      (pts.length : ℤ) = p.nSteps ∧ pts.map Prod.snd = s₀ :: stepSeq ini len (p.nSteps - 1).toNat s₀ s₀ ∧
      ReadyBranch d ∧ flat d = pts.map (fun x => ⟨x.1, x.2, 0⟩) := by
  have key : ∀ (n : ℕ) (s : K) (old prev : S), ∃ l, serialSteps ini len n len s old prev = .ok (l, none) ∧
      l.map Prod.snd = stepSeq ini len n old prev := by
    intro n
    induction n with
    | zero => exact fun _ _ _ => ⟨[], rfl, rfl⟩
    | succ n ih =>
      intro s old prev
      obtain ⟨x, hx⟩ := (hini len old prev).2.1 (hb _ _ _)
      obtain ⟨l, h1, h2⟩ := ih (s + (ini len old prev).distance) x old
      refine ⟨(s + (ini len old prev).distance, x) :: l, ?_, ?_⟩
      · simp [serialSteps, hx, hb, h1]
      · simp [stepSeq, hx, h2]
  obtain ⟨l, h1, h2⟩ := key (p.nSteps - 1).toNat 0 s₀ s₀
  have hbr : serialBranch p ini ⟨s₀, len, false⟩ = .ok ((0, s₀) :: l, []) := by
    unfold serialBranch
    simp only [Bool.false_eq_true, if_false]
    rw [h1]
    rfl
  have hl : (((0, s₀) :: l).length : ℤ) = p.nSteps := by
    have := congrArg List.length h2
    rw [List.length_map, stepSeq_length] at this
    simp only [List.length_cons]
    push_cast
    omega
  obtain ⟨d, h3, h4, h5⟩ := serialBranch_data hini hp hbr (by omega)
  refine ⟨d, (0, s₀) :: l, ?_, hl, by simp [h2], h4, h5⟩
  simp only [serialSolve, serialLoop, hbr, h3]
  simp [serialLoop, Container.add]

/-- **C21** violated: with one step (`N ≤ 1`) the stored branch has only its start, and `setData` scales
its times by `1/0`. -/
theorem C21_violated_single_point (hN : p.nSteps ≤ 1) (s₀ : S) (len : K) (fuel : ℕ) :
    serialSolve p ini (fuel + 1) [⟨s₀, len, false⟩] [] [] = some (.error .ub) := by
  have h0 : (p.nSteps - 1).toNat = 0 := by omega
  have hbr : serialBranch p ini ⟨s₀, len, false⟩ = .ok ([(0, s₀)], []) := by
    unfold serialBranch
    rw [h0]
    rfl
  have hin : initData p.empty ([((0 : K), s₀)].map Prod.fst) ([((0 : K), s₀)].map Prod.snd) =
      .error .ub := by
    simp only [initData, setData, List.map_cons, List.map_nil, List.length_singleton, lt_self_iff_false,
      if_false, List.head?_cons, List.getLast?_singleton, if_true]
    rfl
  simp only [serialSolve, serialLoop, hbr, hin]
  simp

/-- **C21** violated: a branch from a bifurcation whose first step finds another bifurcation has one
point (its start is not stored), whatever the number of steps. -/
theorem C21_violated_double_bifurcation (hN : 2 ≤ p.nSteps) {s₀ x y x' y' : S} {len : K}
    (h₁ : (ini len s₀ s₀).bifurcation = true ∧ (ini len s₀ s₀).sols = [x, y])
    (h₂ : (ini (len * p.branchMult * p.bifMult) y y).bifurcation = true ∧
      (ini (len * p.branchMult * p.bifMult) y y).sols = [x', y'])
    (hini : InitOK ini) (hp : FreshParams p) (fuel : ℕ) :
    serialSolve p ini (fuel + 2) [⟨s₀, len, false⟩] [] [] = some (.error .ub) := by
  obtain ⟨n, hn⟩ : ∃ n, (p.nSteps - 1).toNat = n + 1 := ⟨(p.nSteps - 2).toNat, by omega⟩
  have hb1 : serialBranch p ini ⟨s₀, len, false⟩ =
      .ok ([(0, s₀), (0 + (ini len s₀ s₀).distance, x)], [⟨y, len * p.branchMult, true⟩]) := by
    unfold serialBranch
    rw [hn]
    simp [serialSteps, newStarts, h₁.1, h₁.2]
  have hb2 : ∃ t new, serialBranch p ini ⟨y, len * p.branchMult, true⟩ = .ok ([(t, x')], new) := by
    unfold serialBranch
    rw [hn]
    simp [serialSteps, h₂.1, h₂.2]
  obtain ⟨t, new, hb2⟩ := hb2
  obtain ⟨d, h3, -⟩ := serialBranch_data hini hp hb1 (by simp)
  have hin : initData p.empty ([(t, x')].map Prod.fst) ([(t, x')].map Prod.snd) = .error .ub := by
    simp only [initData, setData, List.map_cons, List.map_nil, List.length_singleton, lt_self_iff_false,
      if_false, List.head?_cons, List.getLast?_singleton, if_true]
    rfl
  have : serialLoop p ini (fuel + 2) [⟨s₀, len, false⟩] [] [] = some (.error .ub) := by
    rw [serialLoop, hb1]
    simp only [h3, List.nil_append]
    rw [serialLoop, hb2]
    simp only [hin]
  simp [serialSolve, this]

/-- **C21/C22** A bifurcation found in the last allowed step does open a branch in `serialSolve`
(in `solve` it does not, `C22_no_branch_from_last_step`): with `N = 2` and a bifurcation in the step there
are at least two branches, the second being computed from the new start. -/
theorem C21_bifurcation_in_last_step (hN : p.nSteps = 2) {s₀ x y : S} {len : K}
    (h : (ini len s₀ s₀).bifurcation = true ∧ (ini len s₀ s₀).sols = [x, y]) :
    serialBranch p ini ⟨s₀, len, false⟩ =
      .ok ([(0, s₀), (0 + (ini len s₀ s₀).distance, x)], [⟨y, len * p.branchMult, true⟩]) := by
  unfold serialBranch
  rw [hN]
  simp [serialSteps, newStarts, h.1, h.2]

/-! ## Examples -/

/-- Two branches: a bifurcation in the first step of the first branch; `N = 3`. -/
def sampleSerial : Option (Except Fail (Container ℚ ℕ × List (List (ℚ × ℕ)))) :=
  serialSolve (sampleParams (1/2) (1/4)) (sampleIni [0]) 10 [⟨0, 1, false⟩] [] []

/-- `C21_path`: the points of the two branches; the second has no start point, and its first step is `1/8`. -/
example : (match sampleSerial with
    | some (.ok (c, out)) => c.map (fun d => (flat d).map (·.time)) = [[0, 1], [1/8, 5/8]] ∧
        out = [[(0, 0), (1, 1)], [(1/8, 151), (5/8, 252)]]
    | _ => False) := by
  have h : (match sampleSerial with
    | some (.ok (c, out)) => decide (c.map (fun d => (flat d).map (·.time)) = [[0, 1], [1/8, 5/8]] ∧
        out = [[(0, 0), (1, 1)], [(1/8, 151), (5/8, 252)]])
    | _ => false) = true := by decide +kernel
  split
  · rename_i c out hs
    rw [hs] at h
    exact of_decide_eq_true h
  · rename_i hs
    split at h
    · rename_i c out hs'
      exact (hs c out hs').elim
    · simp at h

/-- `C21_serialSolve_partial` applies to it: unbisected starts, and bisected starts at 50. -/
example : InitOK (sampleIni [0]) ∧ FreshParams (sampleParams (1/2) (1/4)) ∧
    NoShortBranch (sampleParams (1/2) (1/4)) (sampleIni [0])
      (fun st => st.bisected = false ∨ st.sol = 50) := by
  refine ⟨sampleIni_ok _, sampleParams_fresh _ _, ?_⟩
  intro st pts new hg h
  unfold serialBranch at h
  rw [show ((sampleParams (1/2) (1/4)).nSteps - 1).toNat = 2 from rfl] at h
  have hb : ∀ dt s q, s ≠ 0 → (sampleIni [0] dt s q).bifurcation = false ∧
      (sampleIni [0] dt s q).sols = [s + 2 * q + 1] := by
    intro dt s q hs
    simp [sampleIni, hs]
  by_cases h0 : st.sol = 0
  · have hbis : st.bisected = false := by
      rcases hg with hg | hg
      · exact hg
      · omega
    simp only [serialSteps, h0, hbis, sampleIni, newStarts] at h
    simp at h
    obtain ⟨rfl, rfl⟩ := h
    simp
  · obtain ⟨e1, e2⟩ := hb (if st.bisected = true then st.len * (sampleParams (1/2) (1/4)).bifMult
      else st.len) st.sol st.sol h0
    obtain ⟨e3, e4⟩ := hb st.len (st.sol + 2 * st.sol + 1) st.sol (by omega)
    simp only [serialSteps, e1, e2, e3, e4, newStarts, Bool.false_eq_true, if_false] at h
    simp only [Except.ok.injEq, Prod.mk.injEq] at h
    obtain ⟨rfl, rfl⟩ := h
    constructor
    · split <;> simp
    · simp

/-- `C21_violated_double_bifurcation` and `C21_bifurcation_in_last_step` apply to bifurcations at 0
and 50. -/
example : (sampleIni [0, 50] 1 0 0).bifurcation = true ∧ (sampleIni [0, 50] 1 0 0).sols = [1, 50] ∧
    (sampleIni [0, 50] (1 * (1/2) * (1/4)) 50 50).bifurcation = true ∧
    (sampleIni [0, 50] (1 * (1/2) * (1/4)) 50 50).sols = [151, 100] := by
  decide +kernel

/-- `C21_no_bifurcation` applies to the sample without bifurcations. -/
example : (∀ dt s q, (sampleIni [] dt s q).bifurcation = false) ∧ 2 ≤ (sampleParams 1 1).nSteps := by
  constructor
  · simp [sampleIni]
  · decide

end GsSA.APALM
