import Mathlib.Data.List.Chain
import Verif.Dynamic.StepProps
import Verif.Dynamic.Verbose
import Verif.Static.VerboseNewton

/-!
# Property C137: the switch `Verbose` of the time integrators
-/

namespace GsSA.Dynamic

open GsSA GsSA.Static
open GsSA.ALM (Act Err quiet printLine)

set_option linter.unusedSectionVars false

variable {K V : Type} [Field K] [LinearOrder K] [AddCommGroup V] [Module K V]

/-! ## Programs with and without output -/

/-- `m` does the same as `n`, and prints something that does not depend on earlier output, and nothing if `v` is off. -/
def Same {α : Type} (v : Bool) (m : Act (Printer K V) α) (n : Act (DSt K V) α) : Prop :=
  ∀ s, ∃ l, Prints m s (n s).2 (n s).1 l ∧ (v = false → l = [])

section

variable {α β : Type} {v : Bool}

theorem Same.quiet (n : Act (DSt K V) α) : Same v (quiet n) n := fun _ => ⟨[], .quiet rfl, fun _ => rfl⟩

theorem Same.ret (a : α) : Same (K := K) (V := V) v (pure a) (pure a) := fun s => ⟨[], .ret a s, fun _ => rfl⟩

theorem Same.bind {m : Act (Printer K V) α} {n : Act (DSt K V) α} {f : α → Act (Printer K V) β}
    {g : α → Act (DSt K V) β} (h : Same v m n) (h' : ∀ a, Same v (f a) (g a)) : Same v (m >>= f) (n >>= g) := by
  intro s
  obtain ⟨l, h1, h2⟩ := h s
  rcases hn : n s with ⟨u, r⟩
  rw [hn] at h1
  cases r with
  | ok a =>
    obtain ⟨l', h3, h4⟩ := h' a u
    rw [Act.bind_ok hn]
    exact ⟨l ++ l', .bind h1 h3, fun hv => by rw [h2 hv, h4 hv]; rfl⟩
  | error x =>
    rw [Act.bind_error hn]
    exact ⟨l, .fail h1, h2⟩

/-- A line. -/
theorem prints_say (v : Bool) (l : Line K) (s : DSt K V) :
    Prints (say v l) s (.ok ()) s (if v then [l] else []) := by
  cases v
  · exact .ret () s
  · exact .line (fun _ => l) s

theorem Same.say (l : Line K) {f : Unit → Act (Printer K V) β} {n : Act (DSt K V) β} (h : Same v (f ()) n) :
    Same v (say v l >>= f) n := by
  intro s
  obtain ⟨l', h1, h2⟩ := h s
  exact ⟨_, .bind (prints_say v l s) h1, fun hv => by rw [h2 hv, hv]; rfl⟩

theorem Same.ite {c : Prop} [Decidable c] {m m' : Act (Printer K V) α} {n n' : Act (DSt K V) α} (h : Same v m n)
    (h' : Same v m' n') : Same v (if c then m else m') (if c then n else n') := by
  split
  · exact h
  · exact h'

theorem prints_onCopy {m : Act (Printer K V) α} {n : Act (DSt K V) α} {s : DSt K V} {l : List (Line K)}
    (h : Prints m s (n s).2 (n s).1 l) : Prints (onCopyV m) s (onCopy n s).2 (onCopy n s).1 l := by
  intro out
  rcases hn : n s with ⟨t, r⟩
  have h1 := h out
  rw [hn] at h1
  cases r <;> simp [onCopyV, onCopy, h1, hn]

theorem Same.onCopy {m : Act (Printer K V) α} {n : Act (DSt K V) α} (h : Same v m n) :
    Same v (onCopyV m) (onCopy n) := by
  intro s
  obtain ⟨l, h1, h2⟩ := h s
  exact ⟨l, prints_onCopy h1, h2⟩

end

theorem bind_assoc' {σ α β γ : Type} (m : Act σ α) (f : α → Act σ β) (g : β → Act σ γ) :
    (m >>= f) >>= g = m >>= fun a => f a >>= g := by
  refine congrArg Act.mk (funext fun s => ?_)
  show ((m >>= f) >>= g) s = (m >>= fun a => f a >>= g) s
  rcases hm : m s with ⟨t, r⟩
  cases r with
  | ok a =>
    rw [Act.bind_ok hm]
    rcases hf : f a t with ⟨u, r'⟩
    cases r' with
    | ok b => rw [Act.bind_ok (m := m >>= f) (by rw [Act.bind_ok hm, hf])]; rw [Act.bind_ok hf]
    | error x => rw [Act.bind_error (m := m >>= f) (by rw [Act.bind_ok hm, hf])]; rw [Act.bind_error hf]
  | error x => rw [Act.bind_error (m := m >>= f) (by rw [Act.bind_error hm]), Act.bind_error hm]

theorem pure_bind' {σ α β : Type} (a : α) (f : α → Act σ β) : (pure a : Act σ α) >>= f = f a :=
  congrArg Act.mk (funext fun s => Act.bind_ok (Act.pure_apply a s))

section

variable {e : Env K V} {o : Opts K} {t dt : K} {v : Bool}

theorem newmarkLoop_pass (M : V →ₗ[K] V) (res0 : K) (n it : ℕ) (C S : V →ₗ[K] V) (rhs : V) :
    newmarkLoop e o t dt M res0 (n + 1) it C S rhs = newmarkPass e o t dt M it C S rhs >>= fun x =>
      if updNorm (e.norm x.d) (e.norm x.a) < o.tolU ∧ e.norm x.rhs / res0 < o.tolF then pure .success
      else newmarkLoop e o t dt M res0 n (it + 1) x.C x.S x.rhs := by
  rw [newmarkLoop, newmarkPass]
  simp only [bind_assoc', pure_bind']

theorem batheLoop_pass (M : V →ₗ[K] V) (u0 v0 us vs : V) (res0 : K) (n it : ℕ) (C S : V →ₗ[K] V) (rhs : V) :
    batheLoop e o t dt M u0 v0 us vs res0 (n + 1) it C S rhs =
      bathePass e o t dt M u0 v0 us vs it C S rhs >>= fun x =>
      if quotLt (e.norm x.d) (e.norm x.u) o.tolU = true ∧ e.norm x.rhs / res0 < o.tolF then do
        Act.modify fun s =>
          let v := c1 o dt • u0 + c2 o dt • us + c3 o dt • s.u
          { s with v := v, a := c1 o dt • v0 + c2 o dt • vs + c3 o dt • v }
        pure .success
      else batheLoop e o t dt M u0 v0 us vs res0 n (it + 1) x.C x.S x.rhs := by
  rw [batheLoop, bathePass]
  simp only [bind_assoc', pure_bind']

theorem implicitEulerLoop_pass (u0 v0 : V) (M : V →ₗ[K] V) (res0 : K) (n it : ℕ) (C S : V →ₗ[K] V) (R : V) :
    implicitEulerLoop e o t dt u0 v0 M res0 (n + 1) it C S R =
      implicitEulerPass e o t dt u0 v0 M it C S R >>= fun x =>
      if updNorm (e.norm2 x.d x.d') (e.norm2 x.u x.v) < o.tolU ∧ e.norm2 x.rhs x.rhs' / res0 < o.tolF then
        pure .success
      else implicitEulerLoop e o t dt u0 v0 M res0 n (it + 1) x.C x.S x.R := by
  rw [implicitEulerLoop, implicitEulerPass]
  simp only [bind_assoc', pure_bind']

theorem same_newmarkLoop (M : V →ₗ[K] V) (res0 : K) (n it : ℕ) (C S : V →ₗ[K] V) (rhs : V) :
    Same v (newmarkLoopV v e o t dt M res0 n it C S rhs) (newmarkLoop e o t dt M res0 n it C S rhs) := by
  induction n generalizing it C S rhs with
  | zero => exact .ret _
  | succ n ih =>
    rw [newmarkLoop_pass, newmarkLoopV]
    exact .bind (.quiet _) fun x => .say _ (.ite (.ret _) (ih _ _ _ _))

theorem same_batheLoop (M : V →ₗ[K] V) (u0 v0 us vs : V) (res0 : K) (n it : ℕ) (C S : V →ₗ[K] V) (rhs : V) :
    Same v (batheLoopV v e o t dt M u0 v0 us vs res0 n it C S rhs)
      (batheLoop e o t dt M u0 v0 us vs res0 n it C S rhs) := by
  induction n generalizing it C S rhs with
  | zero => exact .bind (.quiet _) fun _ => .ret _
  | succ n ih =>
    rw [batheLoop_pass, batheLoopV]
    exact .bind (.quiet _) fun x => .say _ (.ite (.bind (.quiet _) fun _ => .ret _) (ih _ _ _ _))

theorem same_implicitEulerLoop (u0 v0 : V) (M : V →ₗ[K] V) (res0 : K) (n it : ℕ) (C S : V →ₗ[K] V) (R : V) :
    Same v (implicitEulerLoopV v e o t dt u0 v0 M res0 n it C S R)
      (implicitEulerLoop e o t dt u0 v0 M res0 n it C S R) := by
  induction n generalizing it C S R with
  | zero => exact .ret _
  | succ n ih =>
    rw [implicitEulerLoop_pass, implicitEulerLoopV]
    exact .bind (.quiet _) fun x => .say _ (.ite (.ret _) (ih _ _ _ _))

theorem same_newmark (nl : Bool) : Same v (newmarkV v nl e o t dt) (newmark nl e o t dt) := by
  cases nl
  · exact .bind (.quiet _) fun _ => .bind (.quiet _) fun _ => .bind (.quiet _) fun _ => .bind (.quiet _) fun _ =>
      .bind (.quiet _) fun _ => .bind (.quiet _) fun _ => .say _ (.bind (.quiet _) fun _ => .bind (.quiet _) fun _ =>
      .say _ (.ret _))
  · exact .bind (.quiet _) fun _ => .bind (.quiet _) fun _ => .bind (.quiet _) fun _ => .bind (.quiet _) fun _ =>
      .bind (.quiet _) fun _ => .say _ (same_newmarkLoop _ _ _ _ _ _ _)

theorem same_integrate (m : Method) (nl : Bool) : Same v (integrateV v m nl e o t dt) (integrate m nl e o t dt) := by
  cases m <;> cases nl
  · exact .bind (.quiet _) fun _ => .bind (.quiet _) fun _ => .bind (.quiet _) fun _ => .bind (.quiet _) fun _ =>
      .bind (.quiet _) fun _ => .bind (.quiet _) fun _ => .say _ (.say _ (.bind (.quiet _) fun _ => .ret _))
  · exact .bind (.quiet _) fun _ => .bind (.quiet _) fun _ => .bind (.quiet _) fun _ => .bind (.quiet _) fun _ =>
      .bind (.quiet _) fun _ => .say _ (.say _ (.bind (.quiet _) fun _ => .ret _))
  · exact .quiet _
  · exact .quiet _
  · exact .bind (.quiet _) fun _ => .bind (.quiet _) fun _ => .bind (.quiet _) fun _ => .bind (.quiet _) fun _ =>
      .bind (.quiet _) fun _ => .bind (.quiet _) fun _ => .bind (.quiet _) fun _ => .say _ (.say _ (.ret _))
  · exact .bind (.quiet _) fun _ => .bind (.quiet _) fun _ => .bind (.quiet _) fun _ => .bind (.quiet _) fun _ =>
      .say _ (same_implicitEulerLoop _ _ _ _ _ _ _ _ _)
  · exact same_newmark false
  · exact same_newmark true
  · exact .bind (.onCopy (same_newmark false)) fun _ => .bind (.quiet _) fun _ => .ret _
  · exact .bind (.onCopy (same_newmark true)) fun _ => .bind (.quiet _) fun _ => .ret _
  · exact .bind (.quiet _) fun _ => .say _ (.bind (.onCopy (same_newmark false)) fun _ => .bind (.quiet _) fun _ =>
      .bind (.quiet _) fun _ => .bind (.quiet _) fun _ => .bind (.quiet _) fun _ => .say _ (.say _
      (.bind (.quiet _) fun _ => .bind (.quiet _) fun _ => .say _ (.ret _))))
  · exact .bind (.quiet _) fun _ => .say _ (.bind (.onCopy (same_newmark true)) fun _ => .bind (.quiet _) fun _ =>
      .bind (.quiet _) fun _ => .bind (.quiet _) fun _ => .bind (.quiet _) fun _ => .say _
      (same_batheLoop _ _ _ _ _ _ _ _ _ _ _))

end

/-! ## C137 -/

/-- **C137.** The switch `Verbose` changes what is printed and nothing else: `step(dt)` of all six integrators, linear and
nonlinear, gives the same status or exception and leaves the same object, for all callbacks. What is printed does not
depend on earlier output; without the switch it is nothing. -/
theorem C137_same (v : Bool) (cb : Option (ℕ → K → K → Bool)) (m : Method) (nl : Bool) (e : Env K V) (o : Opts K) (dt : K)
    (s : DSt K V) : ∃ l, (∀ out, stepV cb (integrateV v m nl e o) dt (s, out) =
        (((step cb (integrate m nl e o) dt s).1, out ++ l), (step cb (integrate m nl e o) dt s).2)) ∧
      (v = false → l = []) :=
  (Same.bind (.quiet _) fun _ => .ite (.bind (same_integrate m nl) fun _ => .bind (.quiet _) fun _ => .ret _)
    (.bind (.quiet _) fun _ => .ret _) : Same v (stepV cb (integrateV v m nl e o) dt) (step cb (integrate m nl e o) dt)) s

/-- With the switch there are lines; status and displacement are the same. -/
example : let r := fun v => stepV none (integrateV v .newmark true (demo fun _ => false) demoOpts) 1 (DSt.init 1 0 0, [])
    (r true).1.2.length = 3 ∧ (r false).1.2 = [] ∧ (r true).2 = .ok .success ∧ (r false).2 = .ok .success ∧
    (r true).1.1.u = 4 / 5 ∧ (r false).1.1.u = 4 / 5 := by
  decide +kernel

/-- **C137.** Runge-Kutta prints nothing, also with the switch. -/
theorem C137_rk4 (v nl : Bool) (cb : Option (ℕ → K → K → Bool)) (e : Env K V) (o : Opts K) (dt : K) (s : DSt K V)
    (out : List (Line K)) : (stepV cb (integrateV v .rk4 nl e o) dt (s, out)).1.2 = out := by
  have h : integrateV v .rk4 nl e o = integrateV false .rk4 nl e o := by
    cases nl <;> rfl
  rw [h]
  obtain ⟨l, h1, h2⟩ := C137_same false cb .rk4 nl e o dt s
  rw [h1, h2 rfl, List.append_nil]

/-- The step throws nothing, changes the displacement, and prints nothing. -/
example : (stepV none (integrateV true .rk4 true (demo fun _ => false) demoOpts) 1 (DSt.init 1 0 0, [])).1.2 = [] ∧
    (stepV none (integrateV true .rk4 true (demo fun _ => false) demoOpts) 1 (DSt.init 1 0 0, [])).1.1.u = 13 / 24 := by
  decide +kernel

end GsSA.Dynamic
