import Verif.Driver.Jobs
import Verif.MPI.Protocol

/-!
# `parallelSolve`

The data of `parallelSolve_impl` (`src/gsALMSolvers/gsAPALM.hpp` 248-472) as a server of the protocol,
and the loop without MPI.
-/

namespace GsSA.APALM

open GsSA

variable {K S : Type*} [Field K] [LinearOrder K]

/-- A job as sent to a worker, `gsAPALM.hpp` 303-312: branch, what `pop` returned, level and reference
solution. The times of the interval are sent too; they are used for output only. -/
structure Item (K S : Type*) where
  branch : ℕ
  job : Popped K S
  level : ℕ
  ref : S

/-- `gsAPALM.hpp` 296-301, 310 and 356-361, 369; without MPI 449-457. -/
def corrPop (c : Container K S) : Except Fail (Item K S × Container K S) :=
  match c.getFirstNonEmptyBranch with
  | .error e => .error e
  | .ok k =>
    match c.branch k with
    | .error e => .error e
    | .ok d =>
      match takeCorr d with
      | .error e => .error e
      | .ok (r, lv, ref, d') => .ok (⟨k, r, lv, ref⟩, c.set k d')

/-- `gsAPALM.hpp` 333-334, 466-467. -/
def corrSubmit (c : Container K S) (x : ℕ × ℕ × Corr K S) : Except Fail (Container K S) :=
  match c.branch x.1 with
  | .error e => .error e
  | .ok d =>
    match storeCorr d x.2.1 x.2.2 with
    | .error e => .error e
    | .ok d' => .ok (c.set x.1 d')

/-- The main process of `parallelSolve_impl`; a result is branch, ID and correction. -/
def corrServer (K S : Type*) [Field K] [LinearOrder K] :
    MPI.Server (Container K S) (Item K S) (ℕ × ℕ × Corr K S) where
  empty := Container.empty
  pop := corrPop
  submit := corrSubmit

end GsSA.APALM

namespace GsSA.MPI

open GsSA

variable {D A J R : Type*}

/-- The loop without MPI: take out a job, work on it, store the result; `gsAPALM.hpp` 446-469. The
first argument is the number of iterations left. -/
def single (sv : Server D J R) (work : A → J → R × A) : ℕ → A → D → Except Fail (D × A)
  | 0, a, d => .ok (d, a)
  | n + 1, a, d =>
    if sv.empty d then .ok (d, a)
    else
      match sv.pop d with
      | .error e => .error e
      | .ok (j, d₁) =>
        match sv.submit d₁ (work a j).1 with
        | .error e => .error e
        | .ok d₂ => single sv work n (work a j).2 d₂

/-- It is a sequential execution. -/
theorem single_seq {sv : Server D J R} {work : A → J → R × A} {n : ℕ} {a a' : A} {d d' : D}
    (h : single sv work n a d = .ok (d', a')) {x : D × List J} {k : ℕ}
    (h₀ : SeqRun sv work x k k (d, [])) : ∃ m, SeqRun sv work x m m (d', []) := by
  induction n generalizing a d k with
  | zero =>
    simp only [single, Except.ok.injEq, Prod.mk.injEq] at h
    obtain ⟨rfl, rfl⟩ := h
    exact ⟨k, h₀⟩
  | succ n ih =>
    simp only [single] at h
    split at h
    · simp only [Except.ok.injEq, Prod.mk.injEq] at h
      obtain ⟨rfl, rfl⟩ := h
      exact ⟨k, h₀⟩
    · rename_i he
      split at h
      · simp at h
      · rename_i j d₁ hp
        split at h
        · simp at h
        · rename_i d₂ hs
          have h1 := SeqRun.pop h₀ (by simpa using he) hp
          have h2 := SeqRun.submit (o₁ := []) (o₂ := []) a h1 hs
          exact ih h h2

end GsSA.MPI
