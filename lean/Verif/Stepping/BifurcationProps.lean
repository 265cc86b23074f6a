import Verif.Stepping.Bifurcation

/-!
# Load stepping with branch switching: properties (C124)
-/

namespace GsSA.Stepping.Bif

open GsSA GsSA.ALM GsSA.Stepping

set_option linter.unusedSectionVars false

variable {K V Mat Fac : Type} [Field K] [LinearOrder K] [IsStrictOrderedRing K] [AddCommGroup V] [Module K V]
variable {e : Env K V Mat Fac} {o : Opts K} {M : Method K V Mat Fac} {p : Prog V K}

/-! ### No undefined behaviour -/

/-- The action does not end with undefined behaviour. -/
def NoUB {α : Type} (m : Act (St K V Mat Fac) α) : Prop := ∀ s, (m s).2 ≠ .error .ub

section

variable {α β : Type}

theorem NoUB.safe {m : Act (St K V Mat Fac) α} (h : Safe m) : NoUB m := by
  intro s hs
  exact (h.noUB (Prod.ext rfl hs : m s = ((m s).1, .error .ub))).1 rfl

theorem NoUB.ret (a : α) : NoUB (pure a : Act (St K V Mat Fac) α) := fun _ => by simp

theorem NoUB.get : NoUB (Act.get : Act (St K V Mat Fac) _) := fun _ => by simp

theorem NoUB.modify (f : St K V Mat Fac → St K V Mat Fac) : NoUB (Act.modify f) := fun _ => by simp

theorem NoUB.bind {m : Act (St K V Mat Fac) α} {g : α → Act (St K V Mat Fac) β} (hm : NoUB m) (hg : ∀ a, NoUB (g a)) :
    NoUB (m >>= g) := by
  intro s
  have h1 := hm s
  rw [Act.bind_apply]
  rcases h : m s with ⟨t, r⟩
  rw [h] at h1
  cases r with
  | error err => simpa using h1
  | ok a => exact hg a t

theorem NoUB.ite {c : Prop} [Decidable c] {m m' : Act (St K V Mat Fac) α} (h : NoUB m) (h' : NoUB m') :
    NoUB (if c then m else m') := by
  split <;> assumption

theorem NoUB.caught {m : Act (St K V Mat Fac) Unit} (f : St K V Mat Fac → St K V Mat Fac) (h : NoUB m) :
    NoUB (ALM.caught m f) := by
  intro s
  have h1 := h s
  rcases hr : m s with ⟨t, r⟩
  rw [hr] at h1
  cases r with
  | ok _ => rw [caught_ok hr]; simp
  | error x =>
    rw [caught_error hr (by simpa using h1)]
    simp

end

theorem noUB_stabilityRaw (x : V) (j : Bool) (shift : K) : NoUB (computeStabilityRaw e o x j shift) := by
  unfold computeStabilityRaw
  refine .bind (.ite (.safe (safe_reassemble x)) (.ret _)) fun _ => .bind (stabilityVector_noUB shift) fun _ =>
    .bind .get fun s => ?_
  cases minCoeff s.stabVec with
  | none => intro s; simp
  | some m => exact .modify _

theorem noUB_stability (j : Bool) (shift : K) : NoUB (computeStability e o j shift) := fun s =>
  NoUB.caught _ (noUB_stabilityRaw s.U j shift) s

theorem noUB_step (hM : IsMethod e o M) : NoUB (step e o M) := by
  intro s
  obtain ⟨t, st, h, -⟩ := C31_total hM s
  rw [h]
  simp

theorem noUB_quiet {α : Type} {m : Act (St K V Mat Fac) α} (h : Quiet m) : NoUB m := by
  intro s hs
  rcases h.errs s .ub hs with h | h <;> cases h

theorem noUB_bisectionLoop (hM : IsMethod e o M) (ref tol : K) (rem : ℕ) :
    ∀ (U : V) (L : K) (fa : ℕ), NoUB (bisectionLoop e o M ref tol rem U L fa) := by
  induction rem with
  | zero => exact fun _ _ _ => .ret _
  | succ rem ih =>
    intro U L fa
    rw [bisectionLoop]
    refine .bind (.modify _) fun _ => .bind (noUB_step hM) fun st => .bind .get fun s =>
      .bind (.bind (noUB_stabilityRaw _ _ _) fun _ => .bind .get fun _ => .ret _) fun fb =>
      .bind (.ite (.ret _) (.modify _)) fun _ => .bind .get fun s =>
      .bind (.bind (noUB_stabilityRaw _ _ _) fun _ => .bind .get fun _ => .ret _) fun t => .ite (.ret _) (.ite (ih _ _ _) (ih _ _ _))

theorem noUB_bisectionPower (c : Bool) (n : ℕ) : ∀ v : V, NoUB (bisectionPower e o c n v) := by
  induction n with
  | zero => exact fun _ => .ret _
  | succ n ih =>
    intro v
    rw [bisectionPower]
    exact .bind .get fun s => .bind (.safe (safe_factorizeMatrix e _)) fun _ =>
      .bind (.safe (safe_solveSystem e _)) fun x => .bind (.modify _) fun _ => .bind .get fun s => .ite (.ret _) (ih _)

/-- **C124**: computing a singular point always returns, whatever the options and the problem. -/
theorem C124_returns (hM : IsMethod e o M) (U : V) (L : K) (sw j test : Bool) (s : St K V Mat Fac) :
    ∃ t st, computeSingularPoint e o M U L sw j test s = (t, .ok st) := by
  have : NoUB (computeSingularPoint e o M U L sw j test) := by
    refine NoUB.caught _ ?_
    unfold computeSingularPointRaw
    refine .bind (.ite (.safe (safe_testSingularPoint j)) (.ret _)) fun b => .bind (.modify _) fun _ =>
      .ite ?_ (.ret _)
    unfold solveSingularPoint
    refine .bind .get fun s => .bind (.ite ?_ (.ret _)) fun _ => .bind .get fun s =>
      .bind (noUB_quiet (quiet_extendedSolve _ _ _)) fun c => .bind (.ite (.modify _) (.ret _)) fun _ => .modify _
    refine .bind ?_ fun _ => .ret _
    unfold bisectionSolve
    exact .bind (.modify _) fun _ => .bind .get fun s => .bind (.modify _) fun _ =>
      .bind (.bind (noUB_stabilityRaw _ _ _) fun _ => .bind .get fun _ => .ret _) fun _ =>
      .bind (.bind (noUB_stabilityRaw _ _ _) fun _ => .bind .get fun _ => .ret _) fun _ =>
      .bind (noUB_bisectionLoop hM _ _ _ _ _ _) fun _ => .bind (.modify _) fun _ => noUB_bisectionPower _ _ _
  have h := this s
  rcases hr : computeSingularPoint e o M U L sw j test s with ⟨t, r⟩
  rw [hr] at h
  cases r with
  | ok st => exact ⟨t, st, rfl⟩
  | error x =>
    exfalso
    rcases hq : computeSingularPointRaw e o M U L sw j test s with ⟨u, q⟩
    cases q with
    | ok _ =>
      rw [computeSingularPoint, caught_ok hq] at hr
      simp at hr
    | error y =>
      by_cases hy : y = .ub
      · subst hy
        simp only [computeSingularPoint, ALM.caught, hq, Prod.mk.injEq, Except.error.injEq] at hr
        rw [← hr.2] at h
        simp at h
      · rw [computeSingularPoint, caught_error hq hy] at hr
        simp at hr

/-! ### The invariant -/

def settings (s : St K V Mat Fac) : Bool × Bool := (s.initialized, s.adaptive)

theorem framed_settings : Framed (settings : St K V Mat Fac → _) := by
  constructor <;> intros <;> rfl

theorem ready_of_settings {α : Type} {m : Act (St K V Mat Fac) α} (h : Keeps settings m) : Pres Ready m :=
  .of_keeps (f := settings) (fun s t h hs => by
    simp only [settings, Prod.mk.injEq] at h
    exact ⟨h.1.trans hs.1, h.2.trans hs.2⟩) h

theorem ready_step (hM : IsMethod e o M) : Pres Ready (step e o M) := by
  intro t ht
  rw [alm_step hM t]
  exact (alm_laws hM).good_step t ht

theorem ready_bisectionLoop (hM : IsMethod e o M) (ref tol : K) (rem : ℕ) :
    ∀ (U : V) (L : K) (fa : ℕ), Pres Ready (bisectionLoop e o M ref tol rem U L fa) := by
  induction rem with
  | zero => exact fun _ _ _ => .ret _
  | succ rem ih =>
    intro U L fa
    rw [bisectionLoop]
    exact .bind (.modify fun _ h => h) fun _ => .bind (ready_step hM) fun st => .bind .get fun s =>
      .bind (ready_of_settings (framed_settings.objective _ _)) fun fb =>
      .bind (.ite (.ret _) (.modify fun _ h => h)) fun _ => .bind .get fun s =>
      .bind (ready_of_settings (framed_settings.termination _ _)) fun t =>
      .ite (.ret _) (.ite (ih _ _ _) (ih _ _ _))

theorem ready_bisectionSolve (hM : IsMethod e o M) (U : V) (L tol : K) : Pres Ready (bisectionSolve e o M U L tol) := by
  intro s hs
  unfold bisectionSolve
  rw [Act.bind_ok (Act.modify_apply _ _), Act.bind_ok (Act.get_apply _), Act.bind_ok (Act.modify_apply _ _)]
  refine Pres.bind (P := Ready) (ready_of_settings (framed_settings.termination _ _)) (fun ref => ?_) _ ⟨hs.1, rfl⟩
  refine .bind (ready_of_settings (framed_settings.objective _ _)) fun fa =>
    .bind (ready_bisectionLoop hM _ _ _ _ _ _) fun c => .bind (.modify ?_) fun _ =>
    ready_of_settings (framed_settings.bisectionPower (fun _ _ => rfl) _ _ _)
  exact fun t ht => ⟨ht.1, hs.2⟩

theorem ready_singular (hM : IsMethod e o M) (U : V) (L : K) (sw j test : Bool) :
    Pres Ready (computeSingularPoint e o M U L sw j test) := by
  refine Pres.caught ?_ (fun _ h => h) fun _ _ h => h
  unfold computeSingularPointRaw
  refine .bind (.ite (ready_of_settings (framed_settings.testSingularPoint (fun _ _ => rfl) _)) (.ret _)) fun b =>
    .bind (.modify fun _ h => h) fun _ => .ite ?_ (.ret _)
  unfold solveSingularPoint
  exact .bind .get fun s => .bind (.ite (.bind (ready_bisectionSolve hM _ _ _) fun _ => .ret _) (.ret _)) fun _ =>
    .bind .get fun s => .bind (ready_of_settings (keeps_extendedSolve framed_settings (fun _ _ _ => rfl)
      (fun _ _ => rfl) (fun _ _ _ _ => rfl) (fun _ _ _ _ => rfl) (fun _ _ => rfl) (fun _ _ => rfl) _ _ _)) fun c =>
    .bind (.ite (.modify fun _ h => h) (.ret _)) fun _ => .modify fun _ h => h

theorem ready_treat (hM : IsMethod e o M) (U : V) (L : K) {t : St K V Mat Fac} (h : Ready t) :
    Ready (treat e o M p U L t) := by
  have h1 := ready_singular hM U L false false true t h
  unfold treat
  split
  · exact h1
  · exact h1

/-- What `computeStability` does not touch. -/
structure Same (s t : St K V Mat Fac) : Prop where
  ready : Ready s → Ready t
  U : t.U = s.U
  L : t.L = s.L
  len : t.len = s.len
  prev : t.stabilityPrev = s.stabilityPrev

theorem stability_same (j : Bool) (shift : K) (s : St K V Mat Fac) : Same s (computeStability e o j shift s).1 := by
  have hf : Framed (fun s : St K V Mat Fac => (s.initialized, s.adaptive, s.U, s.L, s.len, s.stabilityPrev)) := by
    constructor <;> intros <;> rfl
  have h := hf.computeStability (e := e) (o := o) j shift s
  simp only [Prod.mk.injEq] at h
  obtain ⟨h1, h2, h3, h4, h5, h6⟩ := h
  exact ⟨fun h => ⟨h1.trans h.1, h2.trans h.2⟩, h3, h4, h5, h6⟩

/-- The sign class of an indicator, as `stability()` returns it. -/
def sgn (x : K) : ℤ := if x < 0 then 1 else -1

/-- The row for the start of the path. -/
def origin : Row V K := ⟨0, 0, 0, false, none, 0⟩

/-- How a row follows from the row before: by a step from there that was not repeated. The stability before the
step is that of the row before if no attempt failed and no branch was switched there. -/
def Link (e : Env K V Mat Fac) (o : Opts K) (M : Method K V Mat Fac) (p : Prog V K) (a b : Row V K) : Prop :=
  ∃ t, Ready t ∧ t.U = a.U ∧ t.L = a.L ∧ fails e o M p t = false ∧
    (b.tries = 0 → a.spotted = false → ∀ x, a.found = some x → t.stability = sgn x) ∧
    let u := ((alm e o M).step t).1
    let c := computeStability e o p.jac (-100) u
    b.spotted = stabilityChange c.1 ∧
    b.found = (if c.2 matches .ok .success then some c.1.indicator else none) ∧
    if b.spotted then b.U = (treat e o M p a.U a.L c.1).U ∧ b.L = (treat e o M p a.U a.L c.1).L
    else b.U = u.U ∧ b.L = u.L ∧ b.indicator = c.1.indicator

/-- The invariant of the loop. -/
structure Inv (e : Env K V Mat Fac) (o : Opts K) (M : Method K V Mat Fac) (p : Prog V K) (st : BSt K V Mat Fac) :
    Prop where
  ready : Ready st.obj
  len : st.obj.len = st.dL
  U : st.obj.U = st.Uold
  L : st.obj.L = st.Lold
  chain : List.IsChain (Link e o M p) (origin :: st.rows)
  last : ∃ a, (origin :: st.rows).getLast? = some a ∧ a.U = st.Uold ∧ a.L = st.Lold ∧
    (st.tries = 0 → a.spotted = false → ∀ x, a.found = some x → st.obj.stability = sgn x)

/-- **C124**: the program starts at the origin, with the length of the options and with an indicator of zero,
whatever the solver had before. -/
theorem C124_start (obj : St K V Mat Fac) :
    (start obj).obj = { obj with U := 0, L := 0, indicator := 0 } ∧ (start obj).dL = obj.len ∧
      (start obj).dL0 = obj.len ∧ (start obj).Uold = 0 ∧ (start obj).Lold = 0 ∧ (start obj).rows = [] :=
  ⟨rfl, rfl, rfl, rfl, rfl, rfl⟩

theorem Inv.start {obj : St K V Mat Fac} (h : Ready obj) : Inv e o M p (start obj) :=
  ⟨h, rfl, rfl, rfl, List.isChain_singleton _, origin, rfl, rfl, rfl, by simp [origin]⟩

theorem Inv.onFail (hM : IsMethod e o M) {st : BSt K V Mat Fac} (h : Inv e o M p st) :
    Inv e o M p (onFail p st ((alm e o M).step st.obj).1) := by
  obtain ⟨a, h1, h2, h3, -⟩ := h.last
  exact ⟨(alm_laws hM).good_step _ h.ready, rfl, rfl, rfl, h.chain, a, h1, h2, h3, by simp [Bif.onFail]⟩

theorem chain_append {α : Type} {R : α → α → Prop} {l : List α} {a b : α} (h : l.IsChain R)
    (hl : l.getLast? = some a) (hab : R a b) : (l ++ [b]).IsChain R := by
  rw [List.isChain_append]
  refine ⟨h, List.isChain_singleton _, ?_⟩
  intro x hx y hy
  rw [hl] at hx
  obtain rfl : a = x := by simpa using hx
  obtain rfl : b = y := by simpa using hy
  exact hab

theorem Inv.onSuccess (hM : IsMethod e o M) {st : BSt K V Mat Fac} (h : Inv e o M p st)
    (hf : fails e o M p st.obj = false) : Inv e o M p (onSuccess e o M p st ((alm e o M).step st.obj).1) := by
  obtain ⟨a, h1, h2, h3, h4⟩ := h.last
  have hr := (alm_laws hM).good_step _ h.ready
  have hl := (alm_laws hM).len_step _ h.ready
  have hs := stability_same (e := e) (o := o) p.jac (-100) ((alm e o M).step st.obj).1
  set u := ((alm e o M).step st.obj).1 with hu
  set c := computeStability e o p.jac (-100) u with hc
  have hlen : c.1.len = st.dL := hs.len.trans (hl.trans h.len)
  have hrc : Ready c.1 := hs.ready hr
  have hlink : Link e o M p a ⟨(if stabilityChange c.1 then (setLength (p.len2 st.dL0)
      (treat e o M p st.Uold st.Lold c.1)).1 else c.1).U, (if stabilityChange c.1 then (setLength (p.len2 st.dL0)
      (treat e o M p st.Uold st.Lold c.1)).1 else c.1).L, (if stabilityChange c.1 then (setLength (p.len2 st.dL0)
      (treat e o M p st.Uold st.Lold c.1)).1 else c.1).indicator, stabilityChange c.1,
      if c.2 matches .ok .success then some c.1.indicator else none, st.tries⟩ := by
    refine ⟨st.obj, h.ready, h.U.trans h2.symm, h.L.trans h3.symm, hf, h4, rfl, rfl, ?_⟩
    simp only [← hu, ← hc]
    rw [h2, h3]
    split
    · exact ⟨rfl, rfl⟩
    · exact ⟨hs.U, hs.L, rfl⟩
  constructor
  · simp only [Bif.onSuccess, ← hc]
    have : Ready (if stabilityChange c.1 then (setLength (p.len2 st.dL0) (treat e o M p st.Uold st.Lold c.1)).1
        else c.1) := by
      split
      · exact ready_treat hM _ _ hrc
      · exact hrc
    split
    · exact this
    · exact this
  · simp only [Bif.onSuccess, ← hc]
    by_cases h5 : (p.resets && !st.bisected) = true
    · rw [if_pos h5, if_pos h5]
      rfl
    · rw [if_neg h5, if_neg h5]
      split
      · rfl
      · exact hlen
  · simp only [Bif.onSuccess]
    split <;> rfl
  · simp only [Bif.onSuccess]
    split <;> rfl
  · exact chain_append h.chain h1 hlink
  · have hl' : (origin :: (Bif.onSuccess e o M p st u).rows).getLast? = some _ :=
      List.getLast?_concat (l := origin :: st.rows) ..
    refine ⟨_, hl', rfl, rfl, ?_⟩
    simp only [Bif.onSuccess, ← hc]
    intro _ hsp x hx
    rw [hsp]
    have hx' : c.2 = .ok .success ∧ c.1.indicator = x := by
      revert hx
      split
      · rename_i hm
        intro hx
        exact ⟨hm, by simpa using hx⟩
      · simp
    have := (C41_evaluation (s := u) (t := c.1) (o := o) (e := e) (j := p.jac) (shift := -100)
      (Prod.ext rfl hx'.1)).2.2.2.2.1
    rw [hx'.2] at this
    split <;> exact this

theorem loop_inv (hM : IsMethod e o M) (fuel n : ℕ) (st r : BSt K V Mat Fac) (h : Inv e o M p st)
    (hr : loop e o M p fuel n st = some r) : Inv e o M p r := by
  induction fuel generalizing n st with
  | zero =>
    cases n with
    | zero =>
      rw [loop] at hr
      obtain rfl := Option.some.inj hr
      exact h
    | succ n =>
      rw [loop] at hr
      split at hr
      · cases hr
      · obtain rfl := Option.some.inj hr
        exact h
  | succ fuel ih =>
    cases n with
    | zero =>
      rw [loop] at hr
      obtain rfl := Option.some.inj hr
      exact h
    | succ n =>
      rw [loop] at hr
      split at hr
      · simp only at hr
        split at hr
        · exact ih _ _ (h.onFail hM) hr
        · rename_i hf
          exact ih _ _ (h.onSuccess hM (by simpa using hf)) hr
      · obtain rfl := Option.some.inj hr
        exact h

/-! ### What holds -/

theorem loop_count (fuel n : ℕ) (st r : BSt K V Mat Fac) (h : ∀ x ∈ st.rows.dropLast, p.limit x.U = false)
    (hr : loop e o M p fuel n st = some r) :
    st.rows.length ≤ r.rows.length ∧ r.rows.length ≤ st.rows.length + n ∧
      (∀ x ∈ r.rows.dropLast, p.limit x.U = false) ∧
      (r.rows.length < st.rows.length + n → ∃ x, r.rows.getLast? = some x ∧ p.limit x.U = true) := by
  have hstop : ∀ st : BSt K V Mat Fac, ¬goesOn p st = true → ∃ x, st.rows.getLast? = some x ∧ p.limit x.U = true := by
    intro st hg
    unfold goesOn at hg
    cases hl : st.rows.getLast? with
    | none => simp [hl] at hg
    | some x => exact ⟨x, rfl, by simpa [hl] using hg⟩
  induction fuel generalizing n st with
  | zero =>
    cases n with
    | zero =>
      rw [loop] at hr
      obtain rfl := Option.some.inj hr
      exact ⟨le_rfl, le_rfl, h, fun h => absurd h (lt_irrefl _)⟩
    | succ n =>
      rw [loop] at hr
      split at hr
      · cases hr
      · rename_i hg
        obtain rfl := Option.some.inj hr
        exact ⟨le_rfl, by omega, h, fun _ => hstop _ hg⟩
  | succ fuel ih =>
    cases n with
    | zero =>
      rw [loop] at hr
      obtain rfl := Option.some.inj hr
      exact ⟨le_rfl, le_rfl, h, fun h => absurd h (lt_irrefl _)⟩
    | succ n =>
      rw [loop] at hr
      split at hr
      · rename_i hg
        simp only at hr
        split at hr
        · exact ih (n + 1) (onFail p st _) h hr
        · have hrows : (onSuccess e o M p st ((alm e o M).step st.obj).1).rows.length = st.rows.length + 1 := by
            simp [onSuccess]
          obtain ⟨h1, h2, h3, h4⟩ := ih n (onSuccess e o M p st _) (by
            simp only [onSuccess, List.dropLast_concat]
            intro x hx
            rcases List.eq_nil_or_concat st.rows with hn | ⟨l, y, hn⟩
            · simp [hn] at hx
            · rw [hn] at hx
              rw [List.concat_eq_append] at hn hx
              rw [hn, List.dropLast_concat] at h
              rcases List.mem_append.1 hx with hx | hx
              · exact h x hx
              · obtain rfl := List.mem_singleton.1 hx
                simpa [goesOn, hn] using hg) hr
          rw [hrows] at h1 h2 h4
          exact ⟨by omega, by omega, h3, fun hlt => h4 (by omega)⟩
      · rename_i hg
        obtain rfl := Option.some.inj hr
        exact ⟨le_rfl, by omega, h, fun _ => hstop _ hg⟩

/-- **C124**: the rows of a run. Every row follows from the one before by a step from that point that was not
repeated; at the end the solver is at the last row and its length is that of the program. There are as many rows
as asked for, unless the last row is over the limit; no other row is. -/
theorem C124_rows (hM : IsMethod e o M) (fuel n : ℕ) {obj : St K V Mat Fac} (h : Ready obj) {r : BSt K V Mat Fac}
    (hr : loop e o M p fuel n (start obj) = some r) :
    List.IsChain (Link e o M p) (origin :: r.rows) ∧ r.obj.U = r.Uold ∧ r.obj.L = r.Lold ∧ r.obj.len = r.dL ∧
      (∃ a, (origin :: r.rows).getLast? = some a ∧ a.U = r.Uold ∧ a.L = r.Lold) ∧
      r.rows.length ≤ n ∧ (∀ x ∈ r.rows.dropLast, p.limit x.U = false) ∧
      (r.rows.length < n → ∃ x, r.rows.getLast? = some x ∧ p.limit x.U = true) := by
  have hi := loop_inv hM fuel n _ r (Inv.start h) hr
  obtain ⟨-, h2, h3, h4⟩ := loop_count fuel n _ r (by simp [start]) hr
  obtain ⟨a, h5, h6, h7, -⟩ := hi.last
  exact ⟨hi.chain, hi.U, hi.L, hi.len, ⟨a, h5, h6, h7⟩, by simpa [start] using h2, h3, by simpa [start] using h4⟩

/-- The test of a program lets successful steps pass only. -/
def Strict (e : Env K V Mat Fac) (o : Opts K) (M : Method K V Mat Fac) (p : Prog V K) : Prop :=
  ∀ t, Ready t → fails e o M p t = false → ((alm e o M).step t).2 = .success

/-- A test of `converged()` does, with at least two iterations. -/
theorem strict_converged (hM : IsMethod e o M) (hmax : 2 ≤ o.maxIt) (hp : p.failed = notConverged) :
    Strict e o M p := by
  intro t ht hf
  rw [← converged_iff hM hmax t ht.1]
  show ((alm e o M).step t).1.converged = true
  simpa [fails, hp, notConverged] using hf

/-- **C124**: the programs that ask `converged()`: every step that they do not repeat has succeeded. -/
theorem C124_strict (hM : IsMethod e o M) (hmax : 2 ≤ o.maxIt) (quasi : Bool) (dL : K) (l2 : Option K)
    (over : V → Bool) :
    Strict e o M (snappingExample quasi dL over) ∧ Strict e o M (quasistatic l2) ∧ Strict e o M (multipatch l2) ∧
      Strict e o M (beam quasi dL) :=
  ⟨strict_converged hM hmax rfl, strict_converged hM hmax rfl, strict_converged hM hmax rfl,
    strict_converged hM hmax rfl⟩

/-- **C124**: every row at which no change of stability was seen is in equilibrium up to the tolerance. -/
theorem C124_equilibrium (hM : IsMethod e o M) (hmax : 2 ≤ o.maxIt) (hp : Strict e o M p) (fuel n : ℕ)
    {obj : St K V Mat Fac} (h : Ready obj) {r : BSt K V Mat Fac} (hr : loop e o M p fuel n (start obj) = some r) :
    ∀ b ∈ r.rows, b.spotted = false → ∃ (k : ℕ) (x : V) (c : K), e.residual k b.U b.L = some x ∧
      e.geo.norm (c • e.forcing) ≠ 0 ∧ e.geo.norm x / e.geo.norm (c • e.forcing) < o.tolF := by
  have key : ∀ (l : List (Row V K)) (a : Row V K), List.IsChain (Link e o M p) (a :: l) → ∀ b ∈ l, ∃ a', Link e o M p a' b := by
    intro l
    induction l with
    | nil => intro a _ b hb; cases hb
    | cons y l ih =>
      intro a hc b hb
      rw [List.isChain_cons_cons] at hc
      rcases List.mem_cons.1 hb with rfl | hb
      · exact ⟨a, hc.1⟩
      · exact ih y hc.2 b hb
  intro b hb hsp
  obtain ⟨a, t, ht, -, -, hf, -, -, -, h6⟩ := key _ _ (C124_rows hM fuel n h hr).1 b hb
  rw [hsp] at h6
  obtain ⟨hU, hL, -⟩ := h6
  have hs := alm_step hM t
  rw [hp t ht hf] at hs
  obtain ⟨q, k, x, -, hres, hn, hlt, -⟩ := C32_success hM hs hmax
  rw [← hU, ← hL] at hres
  exact ⟨k, x, _, hres, hn, hlt⟩

/-- **C124**: when a change is seen. If no attempt failed since the row before and no branch was switched there,
then the branch is switched exactly if the indicators of the two points, as computed then, are on different sides
of zero. -/
theorem C124_spotted (hM : IsMethod e o M) (hp : Strict e o M p) (fuel n : ℕ)
    {obj : St K V Mat Fac} (h : Ready obj) {r : BSt K V Mat Fac} (hr : loop e o M p fuel n (start obj) = some r) :
    List.IsChain (fun a b : Row V K => ∀ x y, a.spotted = false → a.found = some x → b.found = some y → b.tries = 0 →
      (b.spotted = true ↔ (y < 0 ↔ ¬x < 0))) r.rows := by
  have hc := (C124_rows hM fuel n h hr).1
  have hc' : List.IsChain (Link e o M p) r.rows := by
    cases hl : r.rows with
    | nil => exact List.isChain_nil
    | cons a l =>
      rw [hl, List.isChain_cons_cons] at hc
      exact hc.2
  refine hc'.imp ?_
  rintro a b ⟨t, ht, -, -, hf, hsg, h1, h2, -⟩ x y hsp hx hy htr
  have hst := hsg htr hsp x hx
  have hs := alm_step hM t
  rw [hp t ht hf] at hs
  have hprev := step_stabilityPrev hM hs
  set u := ((alm e o M).step t).1
  have hsame := (stability_same (e := e) (o := o) p.jac (-100) u).prev
  rw [hy] at h2
  have hok : (computeStability e o p.jac (-100) u).2 = .ok .success ∧
      (computeStability e o p.jac (-100) u).1.indicator = y := by
    revert h2
    split
    · rename_i hm
      intro h2
      exact ⟨hm, by simpa using h2.symm⟩
    · simp
  have hev := (C41_evaluation (s := u) (o := o) (e := e) (j := p.jac) (shift := -100)
    (Prod.ext rfl hok.1)).2.2.2.2.1
  rw [hok.2] at hev
  rw [h1]
  unfold stabilityChange
  rw [hev, hsame, hprev, hst]
  unfold sgn
  by_cases h3 : y < 0 <;> by_cases h4 : x < 0 <;> simp [h3, h4]

theorem loop_total (hM : IsMethod e o M) {D : K} {m : ℕ} (hs : ∀ t, Ready t → t.len ≤ D / 2 ^ m → fails e o M p t = false)
    (h2 : ∀ d, d ≤ D → p.len2 d ≤ D) (fuel n j : ℕ) (st : BSt K V Mat Fac) (h : Inv e o M p st)
    (h0 : st.dL0 ≤ D) (hj : st.dL ≤ D / 2 ^ j) (hjm : j ≤ m) (hf : n * (m + 1) ≤ fuel + j) :
    (loop e o M p fuel n st).isSome := by
  induction fuel generalizing n j st with
  | zero =>
    cases n with
    | zero => rfl
    | succ n =>
      rw [Nat.add_mul] at hf
      omega
  | succ fuel ih =>
    cases n with
    | zero => rfl
    | succ n =>
      rw [loop]
      split
      · simp only
        split
        · rename_i hfail
          have hlt : j < m := by
            by_contra hc
            obtain rfl : j = m := by omega
            rw [hs _ h.ready (h.len.le.trans hj)] at hfail
            cases hfail
          refine ih (n + 1) (j + 1) _ (h.onFail hM) h0 ?_ (by omega) (by omega)
          simp only [onFail]
          rw [pow_succ, ← div_div]
          exact div_le_div_of_nonneg_right hj (by norm_num)
        · rename_i hfail
          have hi := h.onSuccess hM (by simpa using hfail)
          rw [Nat.add_mul] at hf
          have hd0 : (onSuccess e o M p st ((alm e o M).step st.obj).1).dL0 ≤ D := by
            simp only [onSuccess]
            split
            · exact h2 _ h0
            · exact h0
          have hdl : (onSuccess e o M p st ((alm e o M).step st.obj).1).dL ≤ D ∨
              (onSuccess e o M p st ((alm e o M).step st.obj).1).dL = st.dL := by
            simp only [onSuccess]
            split
            · left
              exact hd0
            · split
              · exact .inl (h2 _ h0)
              · exact .inr rfl
          rcases hdl with hdl | hdl
          · exact ih n 0 _ hi hd0 (by simpa using hdl) (by omega) (by omega)
          · exact ih n j _ hi hd0 (by rw [hdl]; exact hj) hjm (by omega)
      · rfl

/-- **C124**: if no step with a length up to `D / 2^m` is repeated and no length is larger than `D`, the loop
ends after at most `n (m + 1)` steps. -/
theorem C124_terminates (hM : IsMethod e o M) {D : K} {m : ℕ}
    (hs : ∀ t, Ready t → t.len ≤ D / 2 ^ m → fails e o M p t = false) (h2 : ∀ d, d ≤ D → p.len2 d ≤ D) (n : ℕ)
    {obj : St K V Mat Fac} (h : Ready obj) (hD : obj.len ≤ D) :
    ∃ r, loop e o M p (n * (m + 1)) n (start obj) = some r :=
  Option.isSome_iff_exists.1 (loop_total hM hs h2 _ n 0 _ (Inv.start h) hD (by simpa [start] using hD)
    (by omega) (by omega))

/-- **C124**: after a change of stability both the solver and the program have the length for the new branch,
whatever happened before and in the computation of the singular point. -/
theorem C124_length (st : BSt K V Mat Fac) (t : St K V Mat Fac) (hp : p.first = true ∨ p.resets = false)
    (hs : stabilityChange (computeStability e o p.jac (-100) t).1 = true) :
    (onSuccess e o M p st t).obj.len = p.len2 st.dL0 ∧ (onSuccess e o M p st t).dL = p.len2 st.dL0 := by
  simp only [onSuccess, hs, if_true, Bool.true_and]
  rcases hp with hp | hp
  · simp only [hp, if_true, ite_self]
    refine ⟨?_, trivial⟩
    split <;> rfl
  · simp only [hp, Bool.false_and, Bool.false_eq_true, if_false]
    exact ⟨rfl, trivial⟩

/-- **C124**: a halved length is used for at most one step more: the loop returns to the first length after the first
success that does not follow a halving, hence after the second of two. -/
theorem C124_restored (hp : p.resets = true) (st : BSt K V Mat Fac) (t t' : St K V Mat Fac) :
    (st.bisected = false → (onSuccess e o M p st t).dL = (onSuccess e o M p st t).dL0 ∧
      (onSuccess e o M p st t).obj.len = (onSuccess e o M p st t).dL0) ∧
    (onSuccess e o M p (onSuccess e o M p st t) t').dL = (onSuccess e o M p (onSuccess e o M p st t) t').dL0 ∧
    (onSuccess e o M p (onSuccess e o M p st t) t').obj.len =
      (onSuccess e o M p (onSuccess e o M p st t) t').dL0 := by
  have key : ∀ (st : BSt K V Mat Fac) t, st.bisected = false →
      (onSuccess e o M p st t).dL = (onSuccess e o M p st t).dL0 ∧
      (onSuccess e o M p st t).obj.len = (onSuccess e o M p st t).dL0 := by
    intro st t hb
    simp [onSuccess, hp, hb, setLength]
  exact ⟨key st t, key _ t' rfl⟩

/-! ### Where the new branch starts -/

/-- Where `switchBranch()` goes: `1 / tau` along the vector, if the program calls it. -/
theorem treat_eq {U : V} {L : K} {t u : St K V Mat Fac} {st : Status}
    (h : computeSingularPoint e o M U L false false true t = (u, .ok st)) (hg : e.geo.Laws)
    (hv : 0 < e.geo.dot u.v u.v) (ht : 0 < o.tau) :
    (treat e o M p U L t).L = u.L ∧
      (treat e o M p U L t).U = if p.switches then u.U + (1 / (o.tau * e.geo.norm u.v)) • u.v else u.U := by
  unfold treat
  rw [h]
  simp only
  split
  · obtain ⟨h1, -, h3, -⟩ := C77_distance (s := u) (t := (switchBranch e o u).1) hg hv ht rfl
    exact ⟨h3, h1⟩
  · exact ⟨rfl, rfl⟩

/-- What the row of a changed stability contains. -/
theorem row_spotted (st : BSt K V Mat Fac) (t : St K V Mat Fac)
    (hs : stabilityChange (computeStability e o p.jac (-100) t).1 = true) :
    ∃ b : Row V K, (onSuccess e o M p st t).rows = st.rows ++ [b] ∧
      b.U = (treat e o M p st.Uold st.Lold (computeStability e o p.jac (-100) t).1).U ∧
      b.L = (treat e o M p st.Uold st.Lold (computeStability e o p.jac (-100) t).1).L ∧ b.spotted = true := by
  refine ⟨_, rfl, ?_, ?_, hs⟩
  · simp only [hs, if_true]
    rfl
  · simp only [hs, if_true]
    rfl

theorem solveSingularPoint_eq (hB : o.spTolB = 0) {s w : St K V Mat Fac} {b : Bool}
    (h : extendedSolve e o s.U s.L o.spTolE s = (w, .ok b)) :
    solveSingularPoint e o M false s = ({ w with stability := w.stabilityPrev }, .ok ()) := by
  unfold solveSingularPoint
  rw [Act.bind_ok (Act.get_apply _), if_neg (by simp [hB]), Act.bind_ok (Act.pure_apply _ _),
    Act.bind_ok (Act.get_apply _), Act.bind_ok h]
  simp only [Bool.false_and, Bool.false_eq_true, if_false]
  rfl

/-- **C124**: a change of stability that the test takes for a bifurcation. Without bisection the extended system
is solved from the row before; the new row is at the load found and, if the branch is switched, at `1 / tau` from
the point found, along the vector of the test. The stability is set to the one before the change. -/
theorem C124_bifurcation (hg : e.geo.Laws) (ht : 0 < o.tau) (hB : o.spTolB = 0) {st : BSt K V Mat Fac}
    {t c u w : St K V Mat Fac} {r : Except Err Status} {b : Bool}
    (hc : computeStability e o p.jac (-100) t = (c, r)) (hs : stabilityChange c = true)
    (h1 : testSingularPoint e o false c = (u, .ok true))
    (h2 : extendedSolve e o st.Uold st.Lold o.spTolE { u with U := st.Uold, L := st.Lold } = (w, .ok b))
    (hv : 0 < e.geo.dot w.v w.v) :
    (∃ x : Row V K, (onSuccess e o M p st t).rows = st.rows ++ [x] ∧ x.spotted = true ∧ x.L = w.L ∧
      x.U = if p.switches then w.U + (1 / (o.tau * e.geo.norm w.v)) • w.v else w.U) ∧
    (onSuccess e o M p st t).obj.stability = t.stabilityPrev := by
  have hraw : computeSingularPointRaw e o M st.Uold st.Lold false false true c =
      ({ w with stability := w.stabilityPrev }, .ok ()) := by
    unfold computeSingularPointRaw
    simp only [if_true]
    rw [Act.bind_ok h1, Act.bind_ok (Act.modify_apply _ _), if_pos rfl]
    exact solveSingularPoint_eq hB h2
  have hsp : computeSingularPoint e o M st.Uold st.Lold false false true c =
      ({ w with stability := w.stabilityPrev }, .ok w.status) := caught_ok hraw
  have hs' : stabilityChange (computeStability e o p.jac (-100) t).1 = true := by rw [hc]; exact hs
  obtain ⟨x, k1, k2, k3, k4⟩ := row_spotted (M := M) (p := p) st t hs'
  obtain ⟨k5, k6⟩ := treat_eq (p := p) hsp hg hv ht
  rw [hc] at k2 k3
  refine ⟨⟨x, k1, k4, k3.trans k5, k2.trans k6⟩, ?_⟩
  have hp1 : w.stabilityPrev = t.stabilityPrev := by
    have hf : Framed (fun s : St K V Mat Fac => s.stabilityPrev) := by constructor <;> intros <;> rfl
    have e1 := (keeps_extendedSolve hf (fun _ _ _ => rfl) (fun _ _ => rfl) (fun _ _ _ _ => rfl)
      (fun _ _ _ _ => rfl) (fun _ _ => rfl) (fun _ _ => rfl) (e := e) (o := o) st.Uold st.Lold o.spTolE).run h2
    have e2 := (hf.testSingularPoint (fun _ _ => rfl) false).run h1
    have e3 := (stability_same (e := e) (o := o) p.jac (-100) t).prev
    rw [hc] at e3
    exact e1.trans (e2.trans e3)
  have : (treat e o M p st.Uold st.Lold c).stability = t.stabilityPrev := by
    unfold treat
    rw [hsp]
    simp only
    split <;> exact hp1
  simp only [onSuccess, hc, hs, if_true]
  split <;> exact this

/-- **C124** violated: if the extended system does not converge, the step is lost. The new row has the load of the
row before, and its displacements or, if the branch is switched, those moved by `1 / tau`. -/
theorem C124_violated_lost (hg : e.geo.Laws) (ht : 0 < o.tau) (hB : o.spTolB = 0) (hmax : o.maxIt ≠ 0)
    (hF : o.spFail ≠ 1) {st : BSt K V Mat Fac} {t c u w : St K V Mat Fac} {r : Except Err Status}
    (hc : computeStability e o p.jac (-100) t = (c, r)) (hs : stabilityChange c = true)
    (h1 : testSingularPoint e o false c = (u, .ok true))
    (h2 : extendedSolve e o st.Uold st.Lold o.spTolE { u with U := st.Uold, L := st.Lold } = (w, .ok false))
    (hv : 0 < e.geo.dot u.v u.v) :
    ∃ x : Row V K, (onSuccess e o M p st t).rows = st.rows ++ [x] ∧ x.spotted = true ∧ x.L = st.Lold ∧
      x.U = if p.switches then st.Uold + (1 / (o.tau * e.geo.norm u.v)) • u.v else st.Uold := by
  have hx := C76_extended hmax h2
  obtain ⟨k1, k2, -⟩ := hx.kept rfl hF
  have k3 : w.v = u.v := hx.vector
  obtain ⟨⟨x, j1, j2, j3, j4⟩, -⟩ := C124_bifurcation (M := M) (p := p) hg ht hB hc hs h1 h2 (by rw [k3]; exact hv)
  rw [k1, k3] at j4
  rw [k2] at j3
  exact ⟨x, j1, j2, j3, j4⟩

/-- **C124** violated: and so it is at a limit point, which is no bifurcation. -/
theorem C124_violated_limit (hg : e.geo.Laws) (ht : 0 < o.tau) {st : BSt K V Mat Fac} {t c u : St K V Mat Fac}
    {r : Except Err Status} (hc : computeStability e o p.jac (-100) t = (c, r)) (hs : stabilityChange c = true)
    (h1 : testSingularPoint e o false c = (u, .ok false)) (hv : 0 < e.geo.dot u.v u.v) :
    ∃ x : Row V K, (onSuccess e o M p st t).rows = st.rows ++ [x] ∧ x.spotted = true ∧ x.L = st.Lold ∧
      x.U = if p.switches then st.Uold + (1 / (o.tau * e.geo.norm u.v)) • u.v else st.Uold := by
  obtain ⟨hsp, -⟩ := C116_point (M := M) (U := st.Uold) (L := st.Lold) (sw := false) h1
  have hs' : stabilityChange (computeStability e o p.jac (-100) t).1 = true := by rw [hc]; exact hs
  obtain ⟨x, k1, k2, k3, k4⟩ := row_spotted (M := M) (p := p) st t hs'
  obtain ⟨k5, k6⟩ := treat_eq (p := p) hsp hg hv ht
  rw [hc] at k2 k3
  exact ⟨x, k1, k4, k3.trans k5, k2.trans k6⟩

/-- **C124** violated: after a failed attempt the stability is compared with that of the last iterate of this
attempt, not with that of the row before. -/
theorem C124_violated_retry (hM : IsMethod e o M) (hp : Strict e o M p) {st : BSt K V Mat Fac} (h : Inv e o M p st)
    (hsg : SignOK st.obj) (hf : fails e o M p (onFail p st ((alm e o M).step st.obj).1).obj = false) :
    let a := ((alm e o M).step st.obj).1
    let t := ((alm e o M).step (onFail p st a).obj).1
    let c := computeStability e o p.jac (-100) t
    stabilityChange c.1 = true ↔ (c.1.indicator < 0 ↔ ¬a.indicator < 0) := by
  intro a t c
  have ha : SignOK a := by
    have := SignOK.step hM.lawful (e := e) (o := o) st.obj hsg
    rw [alm_step hM] at this
    exact this
  have ha' : SignOK (onFail p st a).obj := ha
  have hs := alm_step hM (onFail p st a).obj
  rw [hp _ ((h.onFail hM).ready) hf] at hs
  obtain ⟨h1, -⟩ := C41_change hM ha' hs
  have hprev := step_stabilityPrev hM hs
  have hc : SignOK c.1 := SignOK.computeStability p.jac (-100) t h1
  have hsame : c.1.stabilityPrev = t.stabilityPrev := (stability_same (e := e) (o := o) p.jac (-100) t).prev
  unfold stabilityChange
  unfold SignOK at hc ha
  rw [hc, hsame, hprev]
  show decide (_ * a.stability < 0) = true ↔ _
  rw [ha]
  by_cases h3 : c.1.indicator < 0 <;> by_cases h4 : a.indicator < 0 <;> simp [h3, h4]

/-- **C124** violated: the stability after a bifurcation is that of before. If the new branch is on the other side
of zero as well, then the next step from there is taken for a bifurcation again. -/
theorem C124_violated_again (hM : IsMethod e o M) (hp : Strict e o M p) (hg : e.geo.Laws) (ht : 0 < o.tau)
    (hB : o.spTolB = 0) {st : BSt K V Mat Fac} (h : Inv e o M p st) (hf : fails e o M p st.obj = false)
    {c u w : St K V Mat Fac} {r : Except Err Status} {b : Bool} {x : K} (hx : st.obj.stability = sgn x)
    (hc : computeStability e o p.jac (-100) ((alm e o M).step st.obj).1 = (c, r)) (hs : stabilityChange c = true)
    (h1 : testSingularPoint e o false c = (u, .ok true))
    (h2 : extendedSolve e o st.Uold st.Lold o.spTolE { u with U := st.Uold, L := st.Lold } = (w, .ok b))
    (hv : 0 < e.geo.dot w.v w.v) :
    let st' := onSuccess e o M p st ((alm e o M).step st.obj).1
    ∀ d, fails e o M p st'.obj = false →
      computeStability e o p.jac (-100) ((alm e o M).step st'.obj).1 = (d, .ok .success) →
      (stabilityChange d = true ↔ (d.indicator < 0 ↔ ¬x < 0)) := by
  intro st' d hf' hd
  have hst : st'.obj.stability = sgn x := by
    have hs1 := alm_step hM st.obj
    rw [hp _ h.ready hf] at hs1
    rw [(C124_bifurcation (M := M) (p := p) hg ht hB hc hs h1 h2 hv).2, step_stabilityPrev hM hs1, hx]
  have hs2 := alm_step hM st'.obj
  rw [hp _ (h.onSuccess hM hf).ready hf'] at hs2
  have h3 := step_stabilityPrev hM hs2
  obtain ⟨-, -, -, -, h4, h5, -⟩ := C41_evaluation hd
  unfold stabilityChange
  rw [h4, h5, h3, hst]
  unfold sgn
  by_cases h6 : d.indicator < 0 <;> by_cases h7 : x < 0 <;> simp [h6, h7]

/-! ### Examples -/

section examples

open Demo

/-- A spring that loses its stiffness at `u = top`: the load has its maximum there. -/
def kink (top : ℚ) : Env ℚ ℚ ℚ ℚ :=
  { env 0 fine fine with
    residual := fun _ u l => some ((if u ≤ top then 2 * u else 4 * top - 2 * u) - l)
    jacobian := fun _ u _ => some (if u ≤ top then 2 else -2) }

/-- A spring that gets stiffer at `u = 1` and `u = 7 / 4`; from 1 on the path is unstable (in a direction that the
load does not see). -/
def stiff : Env ℚ ℚ ℚ ℚ :=
  { env 0 fine fine with
    residual := fun _ u l => some ((if u ≤ 1 then 2 * u else if u ≤ 7 / 4 then 4 * u - 2 else 8 * u - 9) - l)
    jacobian := fun _ u _ => some (if u ≤ 1 then 2 else if u ≤ 7 / 4 then 4 else 8)
    eigs := fun _ m _ => some [if m ≤ 2 then m else -m] }

/-- The rows of a run of load control. -/
def run (p : Prog ℚ ℚ) (e : Env ℚ ℚ ℚ ℚ) (o : Opts ℚ) (n : ℕ) (len : ℚ) : Option (List (Row ℚ ℚ)) :=
  (loop e o (loadControl e) p 20 n (start { Demo.start len false with stability := -1 })).map (·.rows)

/-- `C124_rows`, `C124_equilibrium`, `C124_spotted`, `C124_length`, `C124_violated_limit`: at the third row the
stability changes; it is not taken for a bifurcation. The row is the second one, moved by 1/1000; the length is 1/2
from there on. -/
example : run (thinShell false (1 / 2)) stiff (foldOpts 3) 4 1 =
    some [⟨1 / 2, 1, 2, false, some 2, 0⟩, ⟨1, 2, 2, false, some 2, 0⟩, ⟨1001 / 1000, 2, -4, true, some (-4), 0⟩,
      ⟨9 / 8, 5 / 2, -4, false, some (-4), 0⟩] := by
  decide +kernel

/-- `C124_violated_limit` without switch: the second row twice. -/
example : run (quasistatic none) stiff (foldOpts 4) 4 1 =
    some [⟨1 / 2, 1, 2, false, some 2, 0⟩, ⟨1, 2, 2, false, some 2, 0⟩, ⟨1, 2, -4, true, some (-4), 0⟩,
      ⟨5 / 4, 3, -4, false, some (-4), 0⟩] := by
  decide +kernel

/-- `C124_violated_retry`, a false alarm: all points are stable, but before the third there was an attempt that
ended where the stiffness is negative. The row is not in equilibrium. -/
example : run (thinShell false (1 / 2)) (kink (5 / 4)) (foldOpts 4) 4 1 =
    some [⟨1 / 2, 1, 2, false, some 2, 0⟩, ⟨1, 2, 2, false, some 2, 0⟩, ⟨1001 / 1000, 2, 2, true, some 2, 1⟩,
      ⟨5 / 4, 5 / 2, 2, false, some 2, 0⟩] := by
  decide +kernel

/-- `C124_violated_retry`, no alarm: between the first and the second row the path loses its stability; the attempt
before the second row had seen that already. -/
example : run (thinShell false (1 / 2)) stiff (foldOpts 3) 3 2 =
    some [⟨1, 2, 2, false, some 2, 0⟩, ⟨5 / 4, 3, -4, false, some (-4), 1⟩, ⟨3 / 2, 4, -4, false, some (-4), 0⟩] := by
  decide +kernel

/-- `C124_bifurcation`, `C124_violated_again`: the extended system converges, and every later row is taken for a
bifurcation: the load does not grow any more. -/
example : (run (multipatch none) stiff { foldOpts 4 with spTestTol := 2, spTolE := 10 } 5 1).map (List.map
      fun r => (r.spotted, r.L, decide (|r.U - 1| < 2 / 1000))) =
    some [(false, 1, false), (false, 2, true), (true, 2 - 1 / 50000000, true), (true, 2 - 1 / 50000000, true),
      (true, 2 - 1 / 50000000, true)] := by
  decide +kernel

/-- `C124_violated_lost`: the extended system does not converge (tolerance 0). -/
example : (run (multipatch none) stiff { foldOpts 3 with spTestTol := 2, spTolE := 0 } 3 1).map (List.map
      fun r => (r.U, r.L, r.spotted)) =
    some [(1 / 2, 1, false), (1, 2, false), (1001 / 1000, 2, true)] := by
  decide +kernel

/-- `C124_rows` with a limit for the displacements: the second row is the first over the limit. -/
example : (run (snappingExample false 1 fun u => decide (1 / 2 < u)) stiff (foldOpts 4) 6 1).map (List.map
      fun r => r.U) = some [1 / 2, 1] := by
  decide +kernel

end examples

end GsSA.Stepping.Bif
