import Verif.Data.Ops

/-!
# `setData` / `init` on the abstract curve (proof machinery)
-/

set_option linter.unusedSectionVars false

namespace GsSA.APALM

open GsSA

variable {K S : Type*} [Field K] [LinearOrder K] [IsStrictOrderedRing K]
variable {d : Data K S} {ps : List (Pt K S)}

/-- Points after the first one of an initial data set: (time, solution) pairs. -/
def initTail (xf : K → K) : S → List (K × S) → List (Pt K S)
  | _, [] => []
  | sp, (t, s) :: l => ⟨xf t, t, s, 0, sp, some 1⟩ :: initTail xf s l

/-- Points of an initial data set. -/
def initPts (xf : K → K) : List (K × S) → List (Pt K S)
  | [] => []
  | (t, s) :: l => ⟨xf t, t, s, 0, s, none⟩ :: initTail xf s l

section
variable (xf : K → K)

theorem initTail_map (sp : S) (l : List (K × S)) :
    (initTail xf sp l).map (·.t) = l.map Prod.fst ∧
    (initTail xf sp l).map (·.xi) = l.map (fun a => xf a.1) ∧
    (initTail xf sp l).map (fun p => (p.xi, p.sol)) = l.map (fun a => (xf a.1, a.2)) ∧
    (initTail xf sp l).map (fun p => (p.xi, p.level)) = l.map (fun a => (xf a.1, 0)) := by
  induction l generalizing sp with
  | nil => simp [initTail]
  | cons a l ih =>
    obtain ⟨t, s⟩ := a
    obtain ⟨h1, h2, h3, h4⟩ := ih s
    simp [initTail, h1, h2, h3, h4]

theorem initTail_mem (sp : S) (l : List (K × S)) :
    ∀ p ∈ initTail xf sp l, p.pend = some 1 ∧ p.level = 0 := by
  induction l generalizing sp with
  | nil => simp [initTail]
  | cons a l ih =>
    obtain ⟨t, s⟩ := a
    intro p hp
    simp only [initTail, List.mem_cons] at hp
    rcases hp with hp | hp
    · subst hp; simp
    · exact ih _ p hp

theorem setDataLoop_eq (d : Data K S) (x : K) (sp : S) (l : List (K × S)) (qs : List (Pt K S))
    (hs : d.sols = qs.map (fun p => (p.xi, p.sol)))
    (hl : d.levels = qs.map (fun p => (p.xi, p.level)))
    (hp : d.prevs = qs.map (fun p => (p.xi, p.prev)))
    (hx : ∃ q ∈ qs, q.xi = x ∧ q.sol = sp)
    (hsort : (qs ++ initTail xf sp l).Pairwise (fun p q => p.xi < q.xi)) :
    setDataLoop d x (l.map (fun a => (xf a.1, a.2))) =
      .ok { d with
        sols := (qs ++ initTail xf sp l).map (fun p => (p.xi, p.sol))
        levels := (qs ++ initTail xf sp l).map (fun p => (p.xi, p.level))
        prevs := (qs ++ initTail xf sp l).map (fun p => (p.xi, p.prev)) } := by
  induction l generalizing d x sp qs with
  | nil => simp [setDataLoop, initTail, ← hs, ← hl, ← hp]
  | cons a l ih =>
    obtain ⟨t, s⟩ := a
    set p : Pt K S := ⟨xf t, t, s, 0, sp, some 1⟩ with hpdef
    have hsplit : qs ++ initTail xf sp ((t, s) :: l) = (qs ++ [p]) ++ initTail xf s l := by
      simp [initTail, hpdef]
    rw [hsplit] at hsort ⊢
    have hlt : ∀ q ∈ qs, q.xi < xf t := by
      intro q hq
      have := (List.pairwise_append.1 (List.pairwise_append.1 hsort).1).2.2 q hq p (by simp)
      exact this
    have e1 : OMap.insertNew d.sols (xf t) s = (qs ++ [p]).map (fun p => (p.xi, p.sol)) := by
      rw [hs, OMap.insertNew_last]
      · simp [hpdef]
      · intro q hq
        obtain ⟨r, hr, rfl⟩ := List.mem_map.1 hq
        exact hlt r hr
    have e2 : OMap.insertNew d.levels (xf t) 0 = (qs ++ [p]).map (fun p => (p.xi, p.level)) := by
      rw [hl, OMap.insertNew_last]
      · simp [hpdef]
      · intro q hq
        obtain ⟨r, hr, rfl⟩ := List.mem_map.1 hq
        exact hlt r hr
    have e3 : OMap.insertNew d.prevs (xf t) sp = (qs ++ [p]).map (fun p => (p.xi, p.prev)) := by
      rw [hp, OMap.insertNew_last]
      · simp [hpdef]
      · intro q hq
        obtain ⟨r, hr, rfl⟩ := List.mem_map.1 hq
        exact hlt r hr
    obtain ⟨q, hq, hqx, hqs⟩ := hx
    have hget : OMap.get? ((qs ++ [p]).map (fun p => (p.xi, p.sol))) x = some sp := by
      rw [← hqx, ← hqs]
      exact get_map (List.pairwise_append.1 hsort).1 _ (by simp [hq])
    simp only [List.map_cons, setDataLoop]
    rw [e1, hget]
    simp only
    rw [e2, e3, ih (d := { d with
        sols := (qs ++ [p]).map (fun p => (p.xi, p.sol)),
        levels := (qs ++ [p]).map (fun p => (p.xi, p.level)),
        prevs := (qs ++ [p]).map (fun p => (p.xi, p.prev)) }) (x := xf t) (sp := s)
      (qs := qs ++ [p]) rfl rfl rfl ⟨p, by simp, rfl, rfl⟩ hsort]

end

/-- The affine map of `transform(0,1)`. -/
def unitPar (a b : K) (t : K) : K := (t - a) / (b - a)

theorem unitPar_lt {a b x y : K} (h : a < b) (hxy : x < y) : unitPar a b x < unitPar a b y := by
  unfold unitPar
  apply div_lt_div_of_pos_right _ (by linarith)
  linarith

/-- The curve of an initial data set. -/
def initCurve (times : List K) (sols : List S) : List (Pt K S) :=
  match times with
  | [] => []
  | a :: l => initPts (unitPar a ((a :: l).getLast (by simp))) ((a :: l).zip sols)

/-- The state after `init(times, solutions)`. -/
def initState (d : Data K S) (ps : List (Pt K S)) : Data K S :=
  { applyOptions d with
    t := ps.map (·.t)
    xi := ps.map (·.xi)
    sols := ps.map (fun p => (p.xi, p.sol))
    levels := ps.map (fun p => (p.xi, p.level))
    prevs := ps.map (fun p => (p.xi, p.prev))
    tmap := ps.map (fun p => (p.xi, p.t))
    ximap := ps.map (fun p => (p.t, p.xi))
    queue := gaps ps
    initialized := true }

theorem gaps_pairJobs (p : Pt K S) (l : List (Pt K S)) (h : ∀ q ∈ l, q.pend = some 1) :
    pairJobs ((p :: l).map (·.xi)) = gaps (p :: l) := by
  induction l generalizing p with
  | nil => rfl
  | cons q l ih =>
    have := ih q (fun r hr => h r (by simp [hr]))
    simp only [List.map_cons, pairJobs, gaps] at this ⊢
    rw [this]
    simp [gapJob, h q (by simp)]

theorem initCurve_sorted {a : K} {l : List K} {s : S} {ss : List S}
    (hs : (a :: l).Pairwise (· < ·)) (hl : l ≠ []) (hlen : l.length = ss.length) :
    (initCurve (a :: l) (s :: ss)).Pairwise (fun p q => p.xi < q.xi) ∧
    (initCurve (a :: l) (s :: ss)).Pairwise (fun p q => p.t < q.t) := by
  have hlast : a < (a :: l).getLast (by simp) := by
    rw [List.getLast_cons hl]
    exact (List.pairwise_cons.1 hs).1 _ (List.getLast_mem hl)
  set b := (a :: l).getLast (by simp) with hb
  have hfst : (l.zip ss).map Prod.fst = l := List.map_fst_zip (by rw [hlen])
  have ht : (initCurve (a :: l) (s :: ss)).map (·.t) = a :: l := by
    simp only [initCurve, List.zip_cons_cons, initPts, List.map_cons]
    rw [(initTail_map _ _ _).1, hfst]
  have hx : (initCurve (a :: l) (s :: ss)).map (·.xi) = (a :: l).map (unitPar a b) := by
    simp only [initCurve, List.zip_cons_cons, initPts, List.map_cons]
    rw [(initTail_map _ _ _).2.1, ← hb]
    conv_rhs => rw [← hfst, List.map_map]
    rfl
  constructor
  · rw [← List.pairwise_map (f := fun p : Pt K S => p.xi) (R := (· < ·)), hx, List.pairwise_map]
    exact hs.imp (fun {x y} hxy => unitPar_lt hlast hxy)
  · rw [← List.pairwise_map (f := fun p : Pt K S => p.t) (R := (· < ·)), ht]
    exact hs

theorem initData_eq (h : IsFresh d) {times : List K} {sols : List S}
    (hs : times.Pairwise (· < ·)) (h2 : 2 ≤ times.length) (hlen : times.length = sols.length) :
    initData d times sols = .ok (initState d (initCurve times sols)) ∧
    Rep (initState d (initCurve times sols)) (initCurve times sols) := by
  match times, sols, hs, h2, hlen with
  | a :: a' :: l, s :: ss, hs, h2, hlen =>
    have hlen' : (a' :: l).length = ss.length := by simpa using hlen
    obtain ⟨hsx, hst⟩ := initCurve_sorted (s := s) (ss := ss) hs (by simp) hlen'
    have hlt : a < (a :: a' :: l).getLast (by simp) := by
      rw [List.getLast_cons (by simp)]
      exact (List.pairwise_cons.1 hs).1 _ (List.getLast_mem _)
    set b := (a :: a' :: l).getLast (by simp) with hb
    have hne : ¬ (a :: a' :: l).head? = (a :: a' :: l).getLast? := by
      rw [List.getLast?_eq_getLast_of_ne_nil (by simp), ← hb]
      simp only [List.head?_cons, Option.some.injEq]
      exact ne_of_lt hlt
    have hfst : ((a' :: l).zip ss).map Prod.fst = a' :: l := List.map_fst_zip (by rw [hlen'])
    set p0 : Pt K S := ⟨unitPar a b a, a, s, 0, s, none⟩ with hp0
    have hcurve : initCurve (a :: a' :: l) (s :: ss) =
        [p0] ++ initTail (unitPar a b) s ((a' :: l).zip ss) := by
      simp [initCurve, initPts, ← hb, hp0]
    have hunit : unitKnots (a :: a' :: l) = unitPar a b a :: (a' :: l).map (unitPar a b) := by
      simp only [unitKnots, ← hb]
      rfl
    have hzip : ((a' :: l).map (unitPar a b)).zip ss =
        ((a' :: l).zip ss).map (fun x => (unitPar a b x.1, x.2)) := by
      rw [List.zip_map_left]
      rfl
    have htl : a :: a' :: l = (initCurve (a :: a' :: l) (s :: ss)).map (·.t) := by
      rw [hcurve, List.map_append, (initTail_map _ _ _).1, hfst]
      simp [hp0]
    have hxl : unitPar a b a :: (a' :: l).map (unitPar a b) =
        (initCurve (a :: a' :: l) (s :: ss)).map (·.xi) := by
      rw [hcurve, List.map_append, (initTail_map _ _ _).2.1]
      conv_lhs => rw [← hfst, List.map_map]
      simp [hp0]
    have hset : setData d (a :: a' :: l) (s :: ss) = .ok { d with
        t := (initCurve (a :: a' :: l) (s :: ss)).map (·.t)
        xi := (initCurve (a :: a' :: l) (s :: ss)).map (·.xi)
        sols := (initCurve (a :: a' :: l) (s :: ss)).map (fun p => (p.xi, p.sol))
        levels := (initCurve (a :: a' :: l) (s :: ss)).map (fun p => (p.xi, p.level))
        prevs := (initCurve (a :: a' :: l) (s :: ss)).map (fun p => (p.xi, p.prev)) } := by
      unfold setData
      rw [if_neg (by rw [hlen]; simp), if_neg hne, hunit]
      simp only [h.sols, h.levels, h.prevs, OMap.insertNew, OMap.get?, if_true]
      rw [hzip, setDataLoop_eq (unitPar a b) (sp := s) (qs := [p0])]
      · simp only [← hcurve, ← hxl, ← htl]
      · simp [hp0]
      · simp [hp0]
      · simp [hp0]
      · exact ⟨p0, by simp, rfl, rfl⟩
      · rw [← hcurve]; exact hsx
    have hpend : ∀ q ∈ initTail (unitPar a b) s ((a' :: l).zip ss), q.pend = some 1 :=
      fun q hq => (initTail_mem _ _ _ q hq).1
    have hq : pairJobs ((initCurve (a :: a' :: l) (s :: ss)).map (·.xi)) =
        gaps (initCurve (a :: a' :: l) (s :: ss)) := by
      rw [hcurve]
      exact gaps_pairJobs (K := K) p0 (initTail (unitPar a b) s ((a' :: l).zip ss)) hpend
    have hpos : ∀ p ∈ initCurve (a :: a' :: l) (s :: ss), ∀ ℓ, p.pend = some ℓ → 0 < ℓ := by
      intro p hp ℓ hl
      rw [hcurve, List.mem_append, List.mem_singleton] at hp
      rcases hp with hp | hp
      · subst hp; simp [hp0] at hl
      · rw [hpend p hp] at hl; simp at hl; omega
    constructor
    · unfold initData
      rw [hset]
      have hb' : ∀ x : Data K S, (do let d' ← (Except.ok x : Except Fail (Data K S)); initQueue d') =
          initQueue x := fun _ => rfl
      rw [hb']
      unfold initQueue
      rw [if_neg (by simp [hcurve]), buildMap_eq _ (initCurve (a :: a' :: l) (s :: ss)) rfl rfl hsx hst]
      simp only [hq]
      rfl
    · exact {
        xi := rfl
        t := rfl
        sols := rfl
        levels := rfl
        prevs := rfl
        tmap := Or.inl rfl
        ximap := Or.inl rfl
        sortedXi := hsx
        sortedT := hst
        head0 := by
          intro p hp
          rw [hcurve] at hp
          simp [hp0] at hp
          subst hp
          simp [unitPar]
        jobs := by
          simp only [allJobs, initState, applyOptions, h.jobs, OMap.vals, List.map_nil,
            List.append_nil]
          rw [List.filter_eq_self.2 (fun j hj => by simpa using gaps_level_pos hpos j hj)]
        zero := by
          intro j hj hl
          simp only [allJobs, initState, applyOptions, h.jobs, OMap.vals, List.map_nil,
            List.append_nil] at hj
          have := gaps_level_pos hpos j hj
          omega
        jobsSorted := by simp [initState, applyOptions, h.jobs, OMap.Sorted]
        ids := by simp [initState, applyOptions, h.jobs]
        init := fun _ => rfl
        pendPos := hpos }

end GsSA.APALM
