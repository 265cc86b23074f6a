import Verif.Data.Rep

/-!
# `submit` on the abstract curve (proof machinery)
-/

set_option linter.unusedSectionVars false

namespace GsSA.APALM

open GsSA

variable {K S : Type*} [Field K] [LinearOrder K] [IsStrictOrderedRing K]

/-- The points created by a submission: (distance, solution) pairs accumulated from time `t`,
the previous solution of each being its predecessor. -/
def newPts (xf : K → K) (level : ℕ) (pend : Option ℕ) : K → S → List (K × S) → List (Pt K S)
  | _, _, [] => []
  | t, sp, (δ, s) :: r =>
    ⟨xf (t + δ), t + δ, s, level, sp, pend⟩ :: newPts xf level pend (t + δ) s r

/-- Translation in time. -/
def shiftPt (c : K) (p : Pt K S) : Pt K S := { p with t := p.t + c }

section newPts

variable (xf : K → K) (level : ℕ) (pend : Option ℕ)

theorem newPts_t (t : K) (sp : S) (l : List (K × S)) :
    (newPts xf level pend t sp l).map (·.t) = (submitTimes t (l.map Prod.fst)).tail := by
  induction l generalizing t sp with
  | nil => simp [newPts, submitTimes]
  | cons a l ih =>
    obtain ⟨δ, s⟩ := a
    simp only [newPts, List.map_cons, ih, submitTimes, List.scanl_cons, List.tail_cons]
    cases l <;> simp

theorem newPts_xi (t : K) (sp : S) (l : List (K × S)) :
    (newPts xf level pend t sp l).map (·.xi) = (newPts xf level pend t sp l).map (fun p => xf p.t) := by
  induction l generalizing t sp with
  | nil => simp [newPts]
  | cons a l ih =>
    obtain ⟨δ, s⟩ := a
    simp only [newPts, List.map_cons, ih]

theorem newPts_sol (t : K) (sp : S) (l : List (K × S)) :
    (newPts xf level pend t sp l).map (·.sol) = l.map Prod.snd := by
  induction l generalizing t sp with
  | nil => simp [newPts]
  | cons a l ih =>
    obtain ⟨δ, s⟩ := a
    simp only [newPts, List.map_cons, ih]

theorem newPts_length (t : K) (sp : S) (l : List (K × S)) :
    (newPts xf level pend t sp l).length = l.length := by
  rw [← List.length_map (f := (·.sol)), newPts_sol, List.length_map]

theorem newPts_mem (t : K) (sp : S) (l : List (K × S)) :
    ∀ p ∈ newPts xf level pend t sp l, p.xi = xf p.t ∧ p.level = level ∧ p.pend = pend := by
  induction l generalizing t sp with
  | nil => simp [newPts]
  | cons a l ih =>
    obtain ⟨δ, s⟩ := a
    intro p hp
    simp only [newPts, List.mem_cons] at hp
    rcases hp with hp | hp
    · subst hp; simp
    · exact ih _ _ p hp

theorem newPts_bounds (t : K) (sp : S) (l : List (K × S)) (hl : ∀ x ∈ l, 0 < x.1) :
    ∀ p ∈ newPts xf level pend t sp l, t < p.t ∧ p.t ≤ t + (l.map Prod.fst).sum := by
  induction l generalizing t sp with
  | nil => simp [newPts]
  | cons a l ih =>
    obtain ⟨δ, s⟩ := a
    intro p hp
    have hδ : 0 < δ := hl (δ, s) (by simp)
    have hsum : 0 ≤ (l.map Prod.fst).sum :=
      List.sum_nonneg (by intro x hx; obtain ⟨y, hy, rfl⟩ := List.mem_map.1 hx
                          exact (hl y (by simp [hy])).le)
    simp only [newPts, List.mem_cons] at hp
    simp only [List.map_cons, List.sum_cons]
    rcases hp with hp | hp
    · subst hp; simp only; constructor <;> linarith
    · have := ih (t + δ) s (fun x hx => hl x (by simp [hx])) p hp
      constructor <;> linarith [this.1, this.2]

theorem newPts_sorted (t : K) (sp : S) (l : List (K × S)) (hl : ∀ x ∈ l, 0 < x.1) :
    (newPts xf level pend t sp l).Pairwise (fun p q => p.t < q.t) := by
  induction l generalizing t sp with
  | nil => simp [newPts]
  | cons a l ih =>
    obtain ⟨δ, s⟩ := a
    simp only [newPts, List.pairwise_cons]
    have hl' : ∀ x ∈ l, 0 < x.1 := fun x hx => hl x (by simp [hx])
    exact ⟨fun p hp => (newPts_bounds xf level pend (t + δ) s l hl' p hp).1, ih _ _ hl'⟩

end newPts

theorem submitTimes_getLastD (x y : K) (l : List K) : (submitTimes x l).getLastD y = x + l.sum := by
  induction l generalizing x y with
  | nil => simp [submitTimes]
  | cons a l ih =>
    have := ih (x + a) x
    simp only [submitTimes, List.scanl_cons, List.getLastD_cons, List.sum_cons] at this ⊢
    rw [this]; ring

/-- Parameter of a new point. -/
def parOf (lo hi tlow dt : K) (tk : K) : K := lo + (hi - lo) * (tk - tlow) / dt

theorem parOf_lt {lo hi tlow dt x y : K} (h : lo < hi) (hdt : 0 < dt) (hxy : x < y) :
    parOf lo hi tlow dt x < parOf lo hi tlow dt y := by
  unfold parOf
  have : (hi - lo) * (x - tlow) / dt < (hi - lo) * (y - tlow) / dt := by
    apply div_lt_div_of_pos_right _ hdt
    apply mul_lt_mul_of_pos_left <;> linarith
  linarith

theorem parOf_low (lo hi tlow dt : K) : parOf lo hi tlow dt tlow = lo := by simp [parOf]

theorem parOf_upp {lo hi tlow dt : K} (hdt : 0 < dt) :
    parOf lo hi tlow dt (tlow + dt) = hi := by
  unfold parOf
  field_simp
  ring

/-- The jobs pushed for a list of adjacent pairs with common status. -/
def pendJobs (o : Option ℕ) (l : List (K × K)) : List (Job K) :=
  match o with
  | some ℓ => l.map (fun p => ⟨p.1, p.2, ℓ⟩)
  | none => []

/-- The gaps created by a submission. -/
theorem gaps_new (a b : Pt K S) (l : List (Pt K S)) (ol ou : Option ℕ) (hl : ∀ p ∈ l, p.pend = ol)
    (hb : b.pend = ou) :
    gaps (a :: (l ++ [b])) =
      pendJobs ol (((a :: (l ++ [b])).map (·.xi)).zip ((l ++ [b]).map (·.xi))).dropLast ++
      pendJobs ou ((((a :: (l ++ [b])).map (·.xi)).zip ((l ++ [b]).map (·.xi))).drop l.length) := by
  induction l generalizing a with
  | nil => cases ol <;> cases ou <;> simp [gaps, gapJob, hb, pendJobs]
  | cons p l ih =>
    have := ih p (fun q hq => hl q (by simp [hq]))
    simp only [List.cons_append, gaps, this]
    have hp := hl p (by simp)
    cases ol <;> cases ou <;> simp [gapJob, hp, List.dropLast_cons_of_ne_nil, pendJobs]

variable {d : Data K S}

/-- Quantities of a submission on the gap `a, b`. -/
structure SubmitData (K S : Type*) where
  ds : List K
  δ : K
  sols : List S
  upper : K
  lower : K

/-- Pending status given to the interior new intervals. -/
def SubmitData.pendLow (s : SubmitData K S) (maxLevel : ℕ) (tol Dt : K) (level : ℕ) : Option ℕ :=
  if level < maxLevel ∧ ¬ (Dt - s.lower) / Dt < tol then some (level + 1) else none

/-- Pending status given to the last new interval. -/
def SubmitData.pendUpp (s : SubmitData K S) (maxLevel : ℕ) (tol Dt : K) (level : ℕ) : Option ℕ :=
  if level < maxLevel ∧ ¬ ((s.ds.sum + s.δ - s.upper) - (Dt - s.lower)) / Dt < tol then
    some (level + 1) else none

/-- Points replacing the gap. -/
def SubmitData.newPts (s : SubmitData K S) (maxLevel : ℕ) (tol : K) (a b : Pt K S) (level : ℕ) :
    List (Pt K S) :=
  APALM.newPts (parOf a.xi b.xi a.t (s.ds.sum + s.δ)) level
    (s.pendLow maxLevel tol (b.t - a.t) level) a.t a.sol (s.ds.zip s.sols)

/-- New end point of the gap. -/
def SubmitData.endPt (s : SubmitData K S) (maxLevel : ℕ) (tol : K) (a b : Pt K S) (level : ℕ) :
    Pt K S :=
  { b with
    t := b.t + (s.ds.sum + s.δ - (b.t - a.t))
    pend := s.pendUpp maxLevel tol (b.t - a.t) level }

/-- The new curve. -/
def SubmitData.curve (s : SubmitData K S) (maxLevel : ℕ) (tol : K) (pre : List (Pt K S))
    (a b : Pt K S) (post : List (Pt K S)) (level : ℕ) : List (Pt K S) :=
  pre ++ a :: (s.newPts maxLevel tol a b level ++
    s.endPt maxLevel tol a b level :: post.map (shiftPt (s.ds.sum + s.δ - (b.t - a.t))))

/-- The state after `submit`. -/
def submitState (d : Data K S) (queue' : List (Job K)) (ps' : List (Pt K S)) : Data K S :=
  { d with
    queue := queue'
    t := ps'.map (·.t)
    xi := ps'.map (·.xi)
    tmap := ps'.map (fun p => (p.xi, p.t))
    ximap := ps'.map (fun p => (p.t, p.xi))
    sols := ps'.map (fun p => (p.xi, p.sol))
    levels := ps'.map (fun p => (p.xi, p.level))
    prevs := ps'.map (fun p => (p.xi, p.prev)) }

/-- The contract of a submission on a gap. -/
structure SubmitOK (s : SubmitData K S) (a b : Pt K S) : Prop where
  len : s.ds.length = s.sols.length
  pos : ∀ x ∈ s.ds, 0 < x
  posLast : 0 < s.δ
  ensure : ((b.t - a.t) - s.ds.sum) / (b.t - a.t) < 1 / 10 ^ 12

theorem SubmitOK.zip_pos {s : SubmitData K S} {a b : Pt K S} (h : SubmitOK s a b) :
    ∀ x ∈ s.ds.zip s.sols, 0 < x.1 := by
  intro x hx
  obtain ⟨u, v⟩ := x
  exact h.pos _ (List.of_mem_zip hx).1

theorem SubmitOK.zip_fst {s : SubmitData K S} {a b : Pt K S} (h : SubmitOK s a b) :
    (s.ds.zip s.sols).map Prod.fst = s.ds := List.map_fst_zip (by rw [h.len])

theorem SubmitOK.zip_snd {s : SubmitData K S} {a b : Pt K S} (h : SubmitOK s a b) :
    (s.ds.zip s.sols).map Prod.snd = s.sols := List.map_snd_zip (by rw [h.len])

theorem SubmitOK.dt_pos {s : SubmitData K S} {a b : Pt K S} (h : SubmitOK s a b) :
    0 < s.ds.sum + s.δ := by
  have : 0 ≤ s.ds.sum := List.sum_nonneg (fun x hx => (h.pos x hx).le)
  linarith [h.posLast]

/-- Ordering of the new curve. -/
theorem curve_sorted {s : SubmitData K S} (maxLevel : ℕ) (tol : K) {pre : List (Pt K S)}
    {a b : Pt K S} {post : List (Pt K S)} (level : ℕ)
    (hx : (pre ++ a :: b :: post).Pairwise (fun p q => p.xi < q.xi))
    (ht : (pre ++ a :: b :: post).Pairwise (fun p q => p.t < q.t)) (h : SubmitOK s a b) :
    (s.curve maxLevel tol pre a b post level).Pairwise (fun p q => p.xi < q.xi) ∧
    (s.curve maxLevel tol pre a b post level).Pairwise (fun p q => p.t < q.t) := by
  have hpos := h.dt_pos
  have hzp := h.zip_pos
  set c := s.ds.sum + s.δ - (b.t - a.t) with hc
  set new := s.newPts maxLevel tol a b level with hnew
  have hnt : ∀ p ∈ new, a.t < p.t ∧ p.t < a.t + (s.ds.sum + s.δ) := by
    intro p hp
    have := newPts_bounds _ _ _ _ _ _ hzp p hp
    rw [h.zip_fst] at this
    exact ⟨this.1, by linarith [this.2, h.posLast]⟩
  have hns : new.Pairwise (fun p q => p.t < q.t) := newPts_sorted _ _ _ _ _ _ hzp
  have hnxi : ∀ p ∈ new, p.xi = parOf a.xi b.xi a.t (s.ds.sum + s.δ) p.t :=
    fun p hp => (newPts_mem _ _ _ _ _ _ p hp).1
  simp only [List.pairwise_append, List.pairwise_cons, List.mem_cons, forall_eq_or_imp] at hx ht
  obtain ⟨hx1, ⟨⟨hab, hapost⟩, hbpost, hx2⟩, hx3⟩ := hx
  obtain ⟨ht1, ⟨⟨tab, tapost⟩, tbpost, ht2⟩, ht3⟩ := ht
  have hnx : ∀ p ∈ new, a.xi < p.xi ∧ p.xi < b.xi := by
    intro p hp
    rw [hnxi p hp]
    constructor
    · conv_lhs => rw [← parOf_low a.xi b.xi a.t (s.ds.sum + s.δ)]
      exact parOf_lt hab hpos (hnt p hp).1
    · conv_rhs => rw [← parOf_upp (lo := a.xi) (hi := b.xi) (tlow := a.t) hpos]
      exact parOf_lt hab hpos (hnt p hp).2
  have hend : (s.endPt maxLevel tol a b level).t = a.t + (s.ds.sum + s.δ) := by
    simp only [SubmitData.endPt]; ring
  have hendx : (s.endPt maxLevel tol a b level).xi = b.xi := rfl
  constructor
  · unfold SubmitData.curve
    rw [← hc, ← hnew]
    simp only [List.pairwise_append, List.pairwise_cons, List.mem_cons, List.mem_append,
      List.mem_map, forall_eq_or_imp, hendx]
    refine ⟨hx1, ⟨?_, ?_, ⟨?_, ?_⟩, ?_⟩, ?_⟩
    · rintro p (hp | hp | ⟨q, hq, rfl⟩)
      · exact (hnx p hp).1
      · rw [hp]; exact hab
      · exact hapost q hq
    · refine hns.imp_of_mem (fun {p q} hp hq hpq => ?_)
      rw [hnxi p hp, hnxi q hq]
      exact parOf_lt hab hpos hpq
    · rintro p ⟨q, hq, rfl⟩; exact hbpost q hq
    · rw [List.pairwise_map]; exact hx2
    · intro p hp
      refine ⟨(hnx p hp).2, ?_⟩
      rintro q ⟨r, hr, rfl⟩
      exact (hnx p hp).2.trans (hbpost r hr)
    · intro p hp
      refine ⟨(hx3 p hp).1, ?_⟩
      rintro q (hq | hq | ⟨r, hr, rfl⟩)
      · exact (hx3 p hp).1.trans (hnx q hq).1
      · rw [hq]; exact (hx3 p hp).2.1
      · exact (hx3 p hp).2.2 r hr
  · unfold SubmitData.curve
    rw [← hc, ← hnew]
    simp only [List.pairwise_append, List.pairwise_cons, List.mem_cons, List.mem_append,
      List.mem_map, forall_eq_or_imp, hend]
    have hpostt : ∀ q ∈ post, a.t + (s.ds.sum + s.δ) < (shiftPt c q).t := by
      intro q hq
      have := tbpost q hq
      simp only [shiftPt, hc]; linarith
    refine ⟨ht1, ⟨?_, hns, ⟨?_, ?_⟩, ?_⟩, ?_⟩
    · rintro p (hp | hp | ⟨q, hq, rfl⟩)
      · exact (hnt p hp).1
      · rw [hp, hend]; linarith
      · have := hpostt q hq; linarith
    · rintro p ⟨q, hq, rfl⟩; exact hpostt q hq
    · rw [List.pairwise_map]
      refine ht2.imp (fun {p q} hpq => ?_)
      simp only [shiftPt]; linarith
    · intro p hp
      refine ⟨(hnt p hp).2, ?_⟩
      rintro q ⟨r, hr, rfl⟩
      exact (hnt p hp).2.trans (hpostt r hr)
    · intro p hp
      have h1 := (ht3 p hp).1
      refine ⟨h1, ?_⟩
      rintro q (hq | hq | ⟨r, hr, rfl⟩)
      · exact h1.trans (hnt q hq).1
      · rw [hq, hend]; linarith
      · have := hpostt r hr; linarith

theorem submitPrevs_eq (xf : K → K) (level : ℕ) (pend : Option ℕ) (sols : OMap K S) (x : K) (t : K)
    (sp : S) (l : List (K × S)) (m₁ m₂ : OMap K S)
    (hx : OMap.get? sols x = some sp)
    (hs : ∀ p ∈ newPts xf level pend t sp l, OMap.get? sols p.xi = some p.sol)
    (hsort : (newPts xf level pend t sp l).Pairwise (fun p q => p.xi < q.xi))
    (h₁ : ∀ q ∈ m₁, ∀ p ∈ newPts xf level pend t sp l, q.1 < p.xi)
    (h₂ : ∀ q ∈ m₂, ∀ p ∈ newPts xf level pend t sp l, p.xi < q.1) :
    submitPrevs sols x ((newPts xf level pend t sp l).map (·.xi)) (m₁ ++ m₂) =
      .ok (m₁ ++ (newPts xf level pend t sp l).map (fun p => (p.xi, p.prev)) ++ m₂) := by
  induction l generalizing x t sp m₁ with
  | nil => simp [newPts, submitPrevs]
  | cons a l ih =>
    obtain ⟨δ, s⟩ := a
    simp only [newPts, List.map_cons, submitPrevs, hx, List.pairwise_cons, List.mem_cons,
      forall_eq_or_imp] at *
    rw [OMap.set_between m₁ m₂ _ sp (fun q hq => (h₁ q hq).1) (fun q hq => (h₂ q hq).1)]
    have := ih (xf (t + δ)) (t + δ) s (m₁ ++ [(xf (t + δ), sp)]) hs.1 hs.2 hsort.2 (by
      intro q hq p hp
      rcases List.mem_append.1 hq with hq | hq
      · exact (h₁ q hq).2 p hp
      · simp at hq; subst hq; exact hsort.1 p hp) (fun q hq p hp => (h₂ q hq).2 p hp)
    simpa using this

theorem addConstant_split (l₁ l₂ : List K) (s c : K) (h₁ : ∀ x ∈ l₁, x < s) (h₂ : ∀ x ∈ l₂, s ≤ x) :
    addConstant (l₁ ++ l₂) s c = l₁ ++ l₂.map (· + c) := by
  unfold addConstant
  rw [List.map_append]
  congr 1
  · conv_rhs => rw [← List.map_id l₁]
    apply List.map_congr_left
    intro x hx
    simp [not_le.2 (h₁ x hx)]
  · apply List.map_congr_left
    intro x hx
    simp [h₂ x hx]

set_option maxHeartbeats 1000000 in
/-- Symbolic evaluation of `submit` within its contract. -/
theorem Rep.submit_eq {pre : List (Pt K S)} {a b : Pt K S} {post : List (Pt K S)} {id ℓ : ℕ}
    (h : Rep d (pre ++ a :: b :: post)) (hj : OMap.get? d.jobs id = some ⟨a.xi, b.xi, ℓ⟩)
    {s : SubmitData K S} (hs : SubmitOK s a b) :
    submit d id (s.ds ++ [s.δ]) s.sols s.upper s.lower =
      .ok (submitState d
        (d.queue ++ gaps (a :: (s.newPts d.maxLevel d.tol a b ℓ ++ [s.endPt d.maxLevel d.tol a b ℓ])))
        (s.curve d.maxLevel d.tol pre a b post ℓ)) := by
  have hab : a.t < b.t := by
    have := h.sortedT
    simp only [List.pairwise_append, List.pairwise_cons, List.mem_cons, forall_eq_or_imp] at this
    exact this.2.1.1.1
  have hinit : d.initialized = true := h.init (Or.inr (by intro hn; rw [hn] at hj; simp at hj))
  obtain ⟨hcx, hct⟩ := curve_sorted (s := s) d.maxLevel d.tol ℓ h.sortedXi h.sortedT hs
  set new := s.newPts d.maxLevel d.tol a b ℓ with hnew
  set e := s.endPt d.maxLevel d.tol a b ℓ with he
  set c := s.ds.sum + s.δ - (b.t - a.t) with hc
  have hcurve : s.curve d.maxLevel d.tol pre a b post ℓ =
      (pre ++ [a]) ++ new ++ (e :: post.map (shiftPt c)) := by
    simp [SubmitData.curve, ← hnew, ← he, ← hc]
  rw [hcurve] at hcx hct ⊢
  -- interior times and parameters
  have hint : (submitTimes a.t (s.ds ++ [s.δ])).tail.dropLast = new.map (·.t) := by
    rw [scanl_tail_dropLast, hnew, SubmitData.newPts, newPts_t, hs.zip_fst]
  have hlast : (submitTimes a.t (s.ds ++ [s.δ])).getLastD 0 - a.t = s.ds.sum + s.δ := by
    rw [submitTimes_getLastD]; simp
  have hhead : (submitTimes a.t (s.ds ++ [s.δ])).headD 0 = a.t := by
    simp [submitTimes]
  have hpars : submitPars a.xi b.xi (s.ds.sum + s.δ) (submitTimes a.t (s.ds ++ [s.δ])) =
      a.xi :: (new.map (·.xi) ++ [b.xi]) := by
    unfold submitPars
    rw [hint, hhead, hnew, SubmitData.newPts, newPts_xi, List.map_map]
    rfl
  have hparlen : (a.xi :: (new.map (·.xi) ++ [b.xi])).length = new.length + 2 := by simp
  have hparint : (a.xi :: (new.map (·.xi) ++ [b.xi])).tail.dropLast = new.map (·.xi) := by simp
  unfold submit
  rw [hinit]
  simp only [Bool.not_true, Bool.false_eq_true, if_false]
  rw [if_neg (by simp [hs.len])]
  have hji : jobIndex d id = (⟨a.xi, b.xi, ℓ⟩, d) := by
    simp [jobIndex, OMap.index_of_get? hj]
  rw [hji]
  simp only
  rw [timeMap_index h.tmap h.sortedXi (p := a) (by simp)]
  simp only
  rw [timeMap_index (timeMapOK_built _) h.sortedXi (p := b) (by simp)]
  simp only [List.dropLast_concat]
  rw [if_neg (by linarith), if_neg (not_not.2 hs.ensure), hlast, if_neg (ne_of_gt hs.dt_pos), hpars,
    submitPush_eq _ _ _ _ _ (by rw [hparlen]; omega)]
  simp only [List.tail_cons, List.dropLast_concat]
  rw [hint]
  -- the pushed jobs
  have hpush : (if ℓ < d.maxLevel then
      ((if (b.t - a.t - s.lower) / (b.t - a.t) < d.tol then []
        else ((a.xi :: (new.map (·.xi) ++ [b.xi])).zip (new.map (·.xi) ++ [b.xi])).dropLast) ++
        (if (s.ds.sum + s.δ - s.upper - (b.t - a.t - s.lower)) / (b.t - a.t) < d.tol then []
        else ((a.xi :: (new.map (·.xi) ++ [b.xi])).zip (new.map (·.xi) ++ [b.xi])).drop
          ((a.xi :: (new.map (·.xi) ++ [b.xi])).length - 2))).map
          (fun p => (⟨p.1, p.2, ℓ + 1⟩ : Job K))
      else []) = gaps (a :: (new ++ [e])) := by
    rw [gaps_new a e new (s.pendLow d.maxLevel d.tol (b.t - a.t) ℓ)
      (s.pendUpp d.maxLevel d.tol (b.t - a.t) ℓ) (fun p hp => (newPts_mem _ _ _ _ _ _ p hp).2.2) rfl]
    have hex : e.xi = b.xi := rfl
    rw [hparlen]
    simp only [List.map_cons, List.map_append, hex, List.map_nil, Nat.add_sub_cancel,
      SubmitData.pendLow, SubmitData.pendUpp]
    by_cases h1 : ℓ < d.maxLevel <;>
    by_cases h2 : (b.t - a.t - s.lower) / (b.t - a.t) < d.tol <;>
    by_cases h3 : (s.ds.sum + s.δ - s.upper - (b.t - a.t - s.lower)) / (b.t - a.t) < d.tol <;>
    simp [h1, h2, h3, pendJobs]
  rw [hpush]
  -- knots
  have hxs := h.sortedXi
  have hts := h.sortedT
  have hnewx : (new.map (·.xi)).Pairwise (· < ·) := by
    rw [List.pairwise_map]
    exact (List.pairwise_append.1 (List.pairwise_append.1 hcx).1).2.1
  have hnewt : (new.map (·.t)).Pairwise (· < ·) := by
    rw [List.pairwise_map]
    exact (List.pairwise_append.1 (List.pairwise_append.1 hct).1).2.1
  have hx1 : ∀ p ∈ pre ++ [a], ∀ q ∈ new, p.xi < q.xi :=
    (List.pairwise_append.1 (List.pairwise_append.1 hcx).1).2.2
  have ht1 : ∀ p ∈ pre ++ [a], ∀ q ∈ new, p.t < q.t :=
    (List.pairwise_append.1 (List.pairwise_append.1 hct).1).2.2
  have hx2 : ∀ q ∈ new, ∀ p ∈ e :: post.map (shiftPt c), q.xi < p.xi :=
    fun q hq p hp => (List.pairwise_append.1 hcx).2.2 q (by simp [hq]) p hp
  have ht2 : ∀ q ∈ new, ∀ p ∈ e :: post.map (shiftPt c), q.t < p.t :=
    fun q hq p hp => (List.pairwise_append.1 hct).2.2 q (by simp [hq]) p hp
  have hmapx : (e :: post.map (shiftPt c)).map (·.xi) = (b :: post).map (·.xi) := by
    simp [shiftPt, he, SubmitData.endPt]
  have hmapt : (e :: post.map (shiftPt c)).map (·.t) = ((b :: post).map (·.t)).map (· + c) := by
    simp only [he, SubmitData.endPt, List.map_cons, List.map_map, ← hc]
    rfl
  have hknotx : (new.map (·.xi)).foldl knotInsert d.xi =
      ((pre ++ [a]) ++ new ++ (e :: post.map (shiftPt c))).map (·.xi) := by
    rw [h.xi, show pre ++ a :: b :: post = (pre ++ [a]) ++ (b :: post) by simp, List.map_append,
      foldl_knotInsert _ _ _ hnewx]
    · rw [← hmapx]; simp only [List.map_append]
    · intro x hx y hy
      obtain ⟨p, hp, rfl⟩ := List.mem_map.1 hx
      obtain ⟨q, hq, rfl⟩ := List.mem_map.1 hy
      exact hx1 p hp q hq
    · intro x hx y hy
      rw [← hmapx] at hx
      obtain ⟨p, hp, rfl⟩ := List.mem_map.1 hx
      obtain ⟨q, hq, rfl⟩ := List.mem_map.1 hy
      exact hx2 q hq p hp
  have hknott : (new.map (·.t)).foldl knotInsert (addConstant d.t b.t c) =
      ((pre ++ [a]) ++ new ++ (e :: post.map (shiftPt c))).map (·.t) := by
    have hsplit := hts
    rw [show pre ++ a :: b :: post = (pre ++ [a]) ++ (b :: post) by simp, List.pairwise_append]
      at hsplit
    rw [h.t, show pre ++ a :: b :: post = (pre ++ [a]) ++ (b :: post) by simp, List.map_append,
      addConstant_split, foldl_knotInsert _ _ _ hnewt]
    · rw [← hmapt]; simp only [List.map_append]
    · intro x hx y hy
      obtain ⟨p, hp, rfl⟩ := List.mem_map.1 hx
      obtain ⟨q, hq, rfl⟩ := List.mem_map.1 hy
      exact ht1 p hp q hq
    · intro x hx y hy
      rw [← hmapt] at hx
      obtain ⟨p, hp, rfl⟩ := List.mem_map.1 hx
      obtain ⟨q, hq, rfl⟩ := List.mem_map.1 hy
      exact ht2 q hq p hp
    · intro x hx
      obtain ⟨p, hp, rfl⟩ := List.mem_map.1 hx
      exact hsplit.2.2 p hp b (by simp)
    · intro x hx
      obtain ⟨p, hp, rfl⟩ := List.mem_map.1 hx
      simp only [List.mem_cons] at hp
      rcases hp with rfl | hp
      · exact le_rfl
      · exact ((List.pairwise_cons.1 hsplit.2.1).1 p hp).le
  rw [buildMap_eq _ _ hknotx hknott hcx hct]
  simp only
  -- solutions and levels
  have hzip : (new.map (·.xi)).zip s.sols = new.map (fun p => (p.xi, p.sol)) := by
    rw [← hs.zip_snd, ← newPts_sol (parOf a.xi b.xi a.t (s.ds.sum + s.δ)) ℓ
      (s.pendLow d.maxLevel d.tol (b.t - a.t) ℓ) a.t a.sol (s.ds.zip s.sols)]
    change (new.map (·.xi)).zip (new.map (·.sol)) = _
    rw [List.zip_map']
  have hstore : submitStore ℓ ((new.map (·.xi)).zip s.sols) d.sols d.levels =
      (((pre ++ [a]) ++ new ++ (e :: post.map (shiftPt c))).map (fun p => (p.xi, p.sol)),
       ((pre ++ [a]) ++ new ++ (e :: post.map (shiftPt c))).map (fun p => (p.xi, p.level))) := by
    have e1 : (e :: post.map (shiftPt c)).map (fun p => (p.xi, p.sol)) =
        (b :: post).map (fun p => (p.xi, p.sol)) := by
      simp [shiftPt, he, SubmitData.endPt]
    have e2 : (e :: post.map (shiftPt c)).map (fun p => (p.xi, p.level)) =
        (b :: post).map (fun p => (p.xi, p.level)) := by
      simp [shiftPt, he, SubmitData.endPt]
    rw [hzip, h.sols, h.levels, show pre ++ a :: b :: post = (pre ++ [a]) ++ (b :: post) by simp,
      List.map_append, List.map_append (f := fun p : Pt K S => (p.xi, p.level)), ← e1, ← e2,
      submitStore_eq]
    · simp only [List.map_append, List.map_map, Prod.mk.injEq]
      refine ⟨trivial, ?_⟩
      congr 2
      apply List.map_congr_left
      intro p hp
      simp [(newPts_mem _ _ _ _ _ _ p hp).2.1]
    · rw [List.pairwise_map]; exact (List.pairwise_map.1 hnewx)
    all_goals
      intro x hx y hy
      obtain ⟨p, hp, rfl⟩ := List.mem_map.1 hx
      obtain ⟨q, hq, rfl⟩ := List.mem_map.1 hy
      first
        | exact hx1 p hp q hq
        | exact hx2 q hq p hp
  rw [hstore]
  simp only
  have hprev : submitPrevs
      (((pre ++ [a]) ++ new ++ (e :: post.map (shiftPt c))).map (fun p => (p.xi, p.sol))) a.xi
      (new.map (·.xi)) d.prevs =
      .ok (((pre ++ [a]) ++ new ++ (e :: post.map (shiftPt c))).map (fun p => (p.xi, p.prev))) := by
    have e1 : (e :: post.map (shiftPt c)).map (fun p => (p.xi, p.prev)) =
        (b :: post).map (fun p => (p.xi, p.prev)) := by
      simp [shiftPt, he, SubmitData.endPt]
    have e2 : d.prevs = (pre ++ [a]).map (fun p => (p.xi, p.prev)) ++
        (e :: post.map (shiftPt c)).map (fun p => (p.xi, p.prev)) := by
      rw [e1, h.prevs]; simp
    rw [e2, hnew, SubmitData.newPts, submitPrevs_eq]
    · simp only [List.map_append]
    · exact get_map (p := a) hcx _ (by simp)
    · intro p hp
      exact get_map (p := p) hcx _ (by
        simp only [List.mem_append]; exact Or.inl (Or.inr hp))
    · exact List.pairwise_map.1 hnewx
    all_goals
      intro x hx q hq
      obtain ⟨p, hp, rfl⟩ := List.mem_map.1 hx
      first
        | exact hx1 p hp q hq
        | exact hx2 q hq p hp
  rw [hprev]
  rw [← hc, hknotx, hknott]
  simp only [submitState, hinit]

end GsSA.APALM
