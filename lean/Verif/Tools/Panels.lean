import Mathlib.Algebra.Field.Rat
import Mathlib.Tactic.Ring
import Mathlib.Tactic.FieldSimp
import Mathlib.Tactic.LinearCombination
import Mathlib.Tactic.IntervalCases
import Mathlib.Data.Fintype.Prod

/-!
# Model of the panel creator

`src/gsStructuralAnalysisTools/gsPanelCreator.hpp`. Every patch is a bilinear surface given by the four rows
of its coefficient matrix. The topology computed by `computeTopology` is not modelled; the interface added by
hand in `LBeam` is.
-/

namespace GsSA.Tools

set_option linter.unusedSectionVars false

variable {K : Type} [Field K]

/-- A point in space. -/
@[ext] structure Pt (K : Type) where
  x : K
  y : K
  z : K
deriving DecidableEq

/-- A patch by the rows 0 to 3 of its coefficients: the corners (0,0), (1,0), (0,1) and (1,1). -/
@[ext] structure Patch (K : Type) where
  r0 : Pt K
  r1 : Pt K
  r2 : Pt K
  r3 : Pt K
deriving DecidableEq

/-- Adding to the three columns, `gsPanelCreator.hpp` 87-89. -/
def Pt.shift (x y z : K) (p : Pt K) : Pt K := ⟨p.x + x, p.y + y, p.z + z⟩

/-- Exchanging the first two columns, `gsPanelCreator.hpp` 279. -/
def Pt.swap (p : Pt K) : Pt K := ⟨p.y, p.x, p.z⟩

def Patch.map (f : Pt K → Pt K) (P : Patch K) : Patch K := ⟨f P.r0, f P.r1, f P.r2, f P.r3⟩

/-- The loop over the patches in lines 85-90 and its copies. -/
def shiftAll (x y z : K) (l : List (Patch K)) : List (Patch K) := l.map (Patch.map (Pt.shift x y z))

/-- The value of the patch at the parameters `u`, `v` (degree 1 with the knots of line 32). -/
def Patch.eval (P : Patch K) (u v : K) : Pt K :=
  let f := fun (a b c d : K) => (1 - u) * (1 - v) * a + u * (1 - v) * b + (1 - u) * v * c + u * v * d
  ⟨f P.r0.x P.r1.x P.r2.x P.r3.x, f P.r0.y P.r1.y P.r2.y P.r3.y, f P.r0.z P.r1.z P.r2.z P.r3.z⟩

/-- `Plate`, `gsPanelCreator.hpp` 28-43. -/
def plate (Lp Wp x y z : K) : List (Patch K) :=
  [⟨⟨x, y, z⟩, ⟨Lp + x, y, z⟩, ⟨x, Wp + y, z⟩, ⟨Lp + x, Wp + y, z⟩⟩]

/-- `Strip`, `gsPanelCreator.hpp` 46-61. -/
def strip (Lb Hw x y z : K) : List (Patch K) :=
  [⟨⟨x, y, z⟩, ⟨Lb + x, y, z⟩, ⟨x, y, Hw + z⟩, ⟨Lb + x, y, Hw + z⟩⟩]

/-- `IBeam`, `gsPanelCreator.hpp` 64-95. -/
def iBeam (Lb Hw Wf x y z : K) : List (Patch K) :=
  shiftAll x y z (strip Lb Hw 0 0 (-Hw / 2) ++ plate Lb (Wf / 2) 0 0 (Hw / 2) ++
    plate Lb (Wf / 2) 0 (-Wf / 2) (Hw / 2) ++ plate Lb (Wf / 2) 0 0 (-Hw / 2) ++
    plate Lb (Wf / 2) 0 (-Wf / 2) (-Hw / 2))

/-- `TBeam`, `gsPanelCreator.hpp` 98-130. -/
def tBeam (Lb Hw Wf x y z : K) : List (Patch K) :=
  shiftAll x y z (strip Lb Hw 0 0 0 ++ plate Lb (Wf / 2) 0 0 Hw ++ plate Lb (Wf / 2) 0 (-Wf / 2) Hw)

/-- `LBeam`, `gsPanelCreator.hpp` 133-160. -/
def lBeam (Lb Hw Wf x y z : K) : List (Patch K) :=
  shiftAll x y z (strip Lb Hw 0 0 0 ++ plate Lb Wf 0 0 Hw)

/-- The interface added by `LBeam`, `gsPanelCreator.hpp` 155: patch, side, patch, side. -/
def lBeamInterface : ℕ × ℕ × ℕ × ℕ := (0, 4, 1, 1)

/-- `PanelT`, `gsPanelCreator.hpp` 163-202. -/
def panelT (Lp Wp Hw Wf x y z : K) : List (Patch K) :=
  shiftAll x y z (plate Lp (Wp / 2) 0 0 0 ++ plate Lp (Wp / 2) 0 (-Wp / 2) 0 ++ tBeam Lp Hw Wf 0 0 0)

/-- `PanelStrip`, `gsPanelCreator.hpp` 205-227. -/
def panelStrip (Lp Wp Hw x y z : K) : List (Patch K) :=
  shiftAll x y z (plate Lp (Wp / 2) 0 0 0 ++ plate Lp (Wp / 2) 0 (-Wp / 2) 0 ++ strip Lp Hw 0 0 0)

/-- `PanelL`, `gsPanelCreator.hpp` 230-254. -/
def panelL (Lp Wp Hw Wf x y z : K) : List (Patch K) :=
  shiftAll x y z (plate Lp (Wp / 2) 0 (-Wp / 2) 0 ++ plate Lp Wf 0 0 0 ++ plate Lp (Wp / 2 - Wf) 0 Wf 0 ++
    lBeam Lp Hw Wf 0 0 0)

/-- Lines 277-311: the columns are exchanged and a constant is added to the second one. -/
def turned (dy : K) (l : List (Patch K)) : List (Patch K) := shiftAll 0 dy 0 (l.map (Patch.map Pt.swap))

/-- `PlateGirderL`, `gsPanelCreator.hpp` 257-323; the position is not used. -/
def plateGirderL (Lp Wp Hwg Wfg Hws Wfs _x _y _z : K) : List (Patch K) :=
  plate (Lp / 2) (Wp / 2) 0 (-Wp / 2) 0 ++ plate (Lp / 2) Wfs 0 0 0 ++
  plate (Lp / 2) (Wp / 2 - Wfs) 0 Wfs 0 ++ plate (Lp / 2) (Wp / 2) (-Lp / 2) (-Wp / 2) 0 ++
  plate (Lp / 2) Wfs (-Lp / 2) 0 0 ++ plate (Lp / 2) (Wp / 2 - Wfs) (-Lp / 2) Wfs 0 ++
  lBeam (Lp / 2) Hws Wfs 0 0 0 ++ lBeam (Lp / 2) Hws Wfs (-Lp / 2) 0 0 ++
  turned 0 (tBeam Wfs (Hwg - Hws) Wfg 0 0 Hws) ++ turned Wfs (tBeam (Wp / 2 - Wfs) (Hwg - Hws) Wfg 0 0 Hws) ++
  turned (-(Wp / 2)) (tBeam (Wp / 2) (Hwg - Hws) Wfg 0 0 Hws) ++
  turned 0 (strip Wfs Hws 0 0 0) ++ turned Wfs (strip (Wp / 2 - Wfs) Hws 0 0 0) ++
  turned (-(Wp / 2)) (strip (Wp / 2) Hws 0 0 0)

/-! ### Translation -/

theorem Patch.eval_shift (x y z u v : K) (P : Patch K) :
    (P.map (Pt.shift x y z)).eval u v = (P.eval u v).shift x y z := by
  ext <;> simp only [Patch.eval, Patch.map, Pt.shift] <;> ring

theorem Pt.shift_shift (a b c x y z : K) (p : Pt K) :
    (p.shift a b c).shift x y z = p.shift (a + x) (b + y) (c + z) := by
  ext <;> simp only [Pt.shift] <;> ring

theorem Pt.shift_zero (p : Pt K) : p.shift 0 0 0 = p := by
  ext <;> simp only [Pt.shift, add_zero]

theorem shiftAll_zero (l : List (Patch K)) : shiftAll 0 0 0 l = l := by
  have : (Patch.map (Pt.shift (0 : K) 0 0)) = id := by
    funext P
    simp only [Patch.map, Pt.shift_zero, id]
  rw [shiftAll, this, List.map_id]

/-- **C105**: a panel at `(x,y,z)` is the panel at the origin moved by `(x,y,z)`, patch by patch. -/
theorem C105_translation (L W H F x y z : K) :
    plate L W x y z = shiftAll x y z (plate L W 0 0 0) ∧
    strip L H x y z = shiftAll x y z (strip L H 0 0 0) ∧
    iBeam L H F x y z = shiftAll x y z (iBeam L H F 0 0 0) ∧
    tBeam L H F x y z = shiftAll x y z (tBeam L H F 0 0 0) ∧
    lBeam L H F x y z = shiftAll x y z (lBeam L H F 0 0 0) ∧
    panelT L W H F x y z = shiftAll x y z (panelT L W H F 0 0 0) ∧
    panelStrip L W H x y z = shiftAll x y z (panelStrip L W H 0 0 0) ∧
    panelL L W H F x y z = shiftAll x y z (panelL L W H F 0 0 0) := by
  refine ⟨?_, ?_, ?_, ?_, ?_, ?_, ?_, ?_⟩
  · simp only [plate, shiftAll, List.map_cons, List.map_nil, Patch.map, Pt.shift, add_zero, zero_add]
  · simp only [strip, shiftAll, List.map_cons, List.map_nil, Patch.map, Pt.shift, add_zero, zero_add]
  · rw [iBeam, iBeam, shiftAll_zero]
  · rw [tBeam, tBeam, shiftAll_zero]
  · rw [lBeam, lBeam, shiftAll_zero]
  · rw [panelT, panelT, shiftAll_zero]
  · rw [panelStrip, panelStrip, shiftAll_zero]
  · rw [panelL, panelL, shiftAll_zero]

/-- **C105**: moving the coefficients moves every point of the surface. -/
theorem C105_surface (x y z : K) (l : List (Patch K)) (i : ℕ) (P : Patch K) (h : l[i]? = some P) (u v : K) :
    ((shiftAll x y z l)[i]?.map fun Q => Q.eval u v) = some ((P.eval u v).shift x y z) := by
  rw [shiftAll, List.getElem?_map, h]
  simp only [Option.map_some, Patch.eval_shift]

/-- **C105** violated: the plate girder ignores its position; away from the origin it is never the moved
girder. -/
theorem C105_violated_girder (Lp Wp Hwg Wfg Hws Wfs x y z : K) :
    plateGirderL Lp Wp Hwg Wfg Hws Wfs x y z = plateGirderL Lp Wp Hwg Wfg Hws Wfs 0 0 0 ∧
      (plateGirderL Lp Wp Hwg Wfg Hws Wfs x y z =
        shiftAll x y z (plateGirderL Lp Wp Hwg Wfg Hws Wfs 0 0 0) ↔ x = 0 ∧ y = 0 ∧ z = 0) := by
  refine ⟨rfl, ⟨fun h => ?_, ?_⟩⟩
  · have h0 := congrArg (fun l : List (Patch K) => l[0]?.map fun P => P.r0) h
    simp only [plateGirderL, plate, shiftAll, List.cons_append, List.nil_append, List.map_cons,
      List.getElem?_cons_zero, Option.map_some, Patch.map, Pt.shift, Option.some.injEq, Pt.mk.injEq] at h0
    obtain ⟨h1, h2, h3⟩ := h0
    exact ⟨by linear_combination -h1, by linear_combination -h2, by linear_combination -h3⟩
  · rintro ⟨rfl, rfl, rfl⟩
    rw [shiftAll_zero]

/-! ### Interfaces -/

/-- The end points of a side: 1 west (u=0), 2 east (u=1), 3 south (v=0), 4 north (v=1). -/
def Patch.side (P : Patch K) : ℕ → Option (Pt K × Pt K)
  | 1 => some (P.r0, P.r2)
  | 2 => some (P.r1, P.r3)
  | 3 => some (P.r0, P.r1)
  | 4 => some (P.r2, P.r3)
  | _ => none

/-- The point of a side at the parameter `t`. -/
def Patch.onSide (P : Patch K) (s : ℕ) (t : K) : Pt K :=
  if s = 1 then P.eval 0 t else if s = 2 then P.eval 1 t else if s = 3 then P.eval t 0 else P.eval t 1

/-- Two sides coincide, in the same or the opposite direction. -/
def Match (P : Patch K) (s : ℕ) (Q : Patch K) (t : ℕ) : Prop :=
  ∃ a b, P.side s = some (a, b) ∧ (Q.side t = some (a, b) ∨ Q.side t = some (b, a))

/-- The `t`-point of a side is that of the segment between its end points. -/
theorem onSide_eq (P : Patch K) (s : ℕ) (a b : Pt K) (h : P.side s = some (a, b)) (t : K) :
    P.onSide s t = ⟨(1 - t) * a.x + t * b.x, (1 - t) * a.y + t * b.y, (1 - t) * a.z + t * b.z⟩ := by
  unfold Patch.side at h
  split at h <;> simp only [Option.some.injEq, Prod.mk.injEq, reduceCtorEq] at h <;> obtain ⟨rfl, rfl⟩ := h <;>
    ext <;> simp [Patch.onSide, Patch.eval]

/-- **C106**: sides that match by their corners are the same curve on both patches. -/
theorem C106_curve (P Q : Patch K) (s t : ℕ) (h : Match P s Q t) :
    (∀ w, P.onSide s w = Q.onSide t w) ∨ ∀ w, P.onSide s w = Q.onSide t (1 - w) := by
  obtain ⟨a, b, h1, h2 | h2⟩ := h
  · exact .inl fun w => by rw [onSide_eq P s a b h1, onSide_eq Q t a b h2]
  · refine .inr fun w => ?_
    rw [onSide_eq P s a b h1, onSide_eq Q t b a h2]
    ext <;> simp only <;> ring

/-- Every patch but the first shares a whole side with an earlier one. -/
def Joined (l : List (Patch K)) : Prop :=
  ∀ i, 0 < i → ∀ P, l[i]? = some P → ∃ j < i, ∃ Q, l[j]? = some Q ∧ ∃ s t, Match P s Q t

/-- Matching sides match after a move. -/
theorem Match.map (f : Pt K → Pt K) {P Q : Patch K} {s t : ℕ} (h : Match P s Q t) :
    Match (P.map f) s (Q.map f) t := by
  have key : ∀ (R : Patch K) (k : ℕ) (a b : Pt K), R.side k = some (a, b) →
      (R.map f).side k = some (f a, f b) := by
    intro R k a b hr
    unfold Patch.side at hr
    split at hr <;> simp only [Option.some.injEq, Prod.mk.injEq, reduceCtorEq] at hr <;> obtain ⟨rfl, rfl⟩ := hr <;> rfl
  obtain ⟨a, b, h1, h2⟩ := h
  exact ⟨f a, f b, key P s a b h1, h2.imp (key Q t a b) (key Q t b a)⟩

theorem Joined.shiftAll {l : List (Patch K)} (h : Joined l) (x y z : K) : Joined (shiftAll x y z l) := by
  intro i hi P hP
  rw [Tools.shiftAll, List.getElem?_map, Option.map_eq_some_iff] at hP
  obtain ⟨P', hP', rfl⟩ := hP
  obtain ⟨j, hj, Q, hQ, s, t, hm⟩ := h i hi P' hP'
  exact ⟨j, hj, Q.map (Pt.shift x y z), by rw [Tools.shiftAll, List.getElem?_map, hQ]; rfl, s, t, hm.map _⟩

/-- Closes the equality of two sides with coefficients in a field. -/
local macro "panel" : tactic => `(tactic| (
  refine congrArg some (Prod.ext (Pt.ext ?_ ?_ ?_) (Pt.ext ?_ ?_ ?_)) <;>
    dsimp only [Patch.map, Pt.shift, Pt.swap] <;> ring))

/-- **C106**: the patches of an I-beam are joined along whole sides: the flanges to the web. -/
theorem C106_iBeam (Lb Hw Wf x y z : K) (h2 : (2 : K) ≠ 0) : Joined (iBeam Lb Hw Wf x y z) := by
  have h3 : Hw + -Hw / 2 = Hw / 2 := by field_simp; ring
  unfold iBeam strip
  rw [h3]
  intro i hi P hP
  have hlt : i < 5 := by
    by_contra hc
    rw [List.getElem?_eq_none (by simp [shiftAll, plate]; omega)] at hP
    cases hP
  match i, hi, hlt, hP with
  | 1, _, _, hP =>
    cases hP
    exact ⟨0, by omega, _, rfl, 3, 4, _, _, rfl, .inl (by panel)⟩
  | 2, _, _, hP =>
    cases hP
    exact ⟨0, by omega, _, rfl, 4, 4, _, _, rfl, .inl (by panel)⟩
  | 3, _, _, hP =>
    cases hP
    exact ⟨0, by omega, _, rfl, 3, 3, _, _, rfl, .inl (by panel)⟩
  | 4, _, _, hP =>
    cases hP
    exact ⟨0, by omega, _, rfl, 4, 3, _, _, rfl, .inl (by panel)⟩

/-- **C106**: a T-beam. -/
theorem C106_tBeam (Lb Hw Wf x y z : K) : Joined (tBeam Lb Hw Wf x y z) := by
  intro i hi P hP
  have hlt : i < 3 := by
    by_contra hc
    rw [List.getElem?_eq_none (by simp [tBeam, shiftAll, strip, plate]; omega)] at hP
    cases hP
  match i, hi, hlt, hP with
  | 1, _, _, hP =>
    cases hP
    exact ⟨0, by omega, _, rfl, 3, 4, _, _, rfl, .inl (by panel)⟩
  | 2, _, _, hP =>
    cases hP
    exact ⟨0, by omega, _, rfl, 4, 4, _, _, rfl, .inl (by panel)⟩

/-- **C106**: an L-beam. -/
theorem C106_lBeam (Lb Hw Wf x y z : K) : Joined (lBeam Lb Hw Wf x y z) := by
  intro i hi P hP
  have hlt : i < 2 := by
    by_contra hc
    rw [List.getElem?_eq_none (by simp [lBeam, shiftAll, strip, plate]; omega)] at hP
    cases hP
  match i, hi, hlt, hP with
  | 1, _, _, hP =>
    cases hP
    exact ⟨0, by omega, _, rfl, 3, 4, _, _, rfl, .inl (by panel)⟩

/-- **C106**: a plate with a T-stiffener. -/
theorem C106_panelT (Lp Wp Hw Wf x y z : K) : Joined (panelT Lp Wp Hw Wf x y z) := by
  intro i hi P hP
  have hlt : i < 5 := by
    by_contra hc
    rw [List.getElem?_eq_none (by simp [panelT, tBeam, shiftAll, strip, plate]; omega)] at hP
    cases hP
  match i, hi, hlt, hP with
  | 1, _, _, hP =>
    cases hP
    exact ⟨0, by omega, _, rfl, 4, 3, _, _, rfl, .inl (by panel)⟩
  | 2, _, _, hP =>
    cases hP
    exact ⟨0, by omega, _, rfl, 3, 3, _, _, rfl, .inl (by panel)⟩
  | 3, _, _, hP =>
    cases hP
    exact ⟨2, by omega, _, rfl, 3, 4, _, _, rfl, .inl (by panel)⟩
  | 4, _, _, hP =>
    cases hP
    exact ⟨2, by omega, _, rfl, 4, 4, _, _, rfl, .inl (by panel)⟩

/-- **C106**: a plate with a strip. -/
theorem C106_panelStrip (Lp Wp Hw x y z : K) : Joined (panelStrip Lp Wp Hw x y z) := by
  intro i hi P hP
  have hlt : i < 3 := by
    by_contra hc
    rw [List.getElem?_eq_none (by simp [panelStrip, shiftAll, strip, plate]; omega)] at hP
    cases hP
  match i, hi, hlt, hP with
  | 1, _, _, hP =>
    cases hP
    exact ⟨0, by omega, _, rfl, 4, 3, _, _, rfl, .inl (by panel)⟩
  | 2, _, _, hP =>
    cases hP
    exact ⟨0, by omega, _, rfl, 3, 3, _, _, rfl, .inl (by panel)⟩

/-- **C106**: a plate with an L-stiffener. -/
theorem C106_panelL (Lp Wp Hw Wf x y z : K) : Joined (panelL Lp Wp Hw Wf x y z) := by
  intro i hi P hP
  have hlt : i < 5 := by
    by_contra hc
    rw [List.getElem?_eq_none (by simp [panelL, lBeam, shiftAll, strip, plate]; omega)] at hP
    cases hP
  match i, hi, hlt, hP with
  | 1, _, _, hP =>
    cases hP
    exact ⟨0, by omega, _, rfl, 3, 4, _, _, rfl, .inl (by panel)⟩
  | 2, _, _, hP =>
    cases hP
    exact ⟨1, by omega, _, rfl, 3, 4, _, _, rfl, .inl (by panel)⟩
  | 3, _, _, hP =>
    cases hP
    exact ⟨0, by omega, _, rfl, 3, 4, _, _, rfl, .inl (by panel)⟩
  | 4, _, _, hP =>
    cases hP
    exact ⟨3, by omega, _, rfl, 3, 4, _, _, rfl, .inl (by panel)⟩

/-- **C106**: the 22 patches of the plate with girder and stiffeners. -/
theorem C106_plateGirderL (Lp Wp Hwg Wfg Hws Wfs x y z : K) : Joined (plateGirderL Lp Wp Hwg Wfg Hws Wfs x y z) := by
  unfold plateGirderL turned lBeam tBeam shiftAll strip plate
  simp only [List.map_cons, List.map_nil, List.cons_append, List.nil_append, Patch.map, Pt.shift, Pt.swap]
  intro i hi P hP
  have hlt : i < 22 := by
    by_contra hc
    rw [List.getElem?_eq_none (by simp; omega)] at hP
    cases hP
  interval_cases i <;> simp only [List.getElem?_cons_succ, List.getElem?_cons_zero] at hP
  · obtain rfl := Option.some.inj hP
    exact ⟨0, by omega, _, rfl, 3, 4, _, _, rfl, .inl (by panel)⟩
  · obtain rfl := Option.some.inj hP
    exact ⟨1, by omega, _, rfl, 3, 4, _, _, rfl, .inl (by panel)⟩
  · obtain rfl := Option.some.inj hP
    exact ⟨0, by omega, _, rfl, 2, 1, _, _, rfl, .inl (by panel)⟩
  · obtain rfl := Option.some.inj hP
    exact ⟨3, by omega, _, rfl, 3, 4, _, _, rfl, .inl (by panel)⟩
  · obtain rfl := Option.some.inj hP
    exact ⟨4, by omega, _, rfl, 3, 4, _, _, rfl, .inl (by panel)⟩
  · obtain rfl := Option.some.inj hP
    exact ⟨0, by omega, _, rfl, 3, 4, _, _, rfl, .inl (by panel)⟩
  · obtain rfl := Option.some.inj hP
    exact ⟨6, by omega, _, rfl, 3, 4, _, _, rfl, .inl (by panel)⟩
  · obtain rfl := Option.some.inj hP
    exact ⟨3, by omega, _, rfl, 3, 4, _, _, rfl, .inl (by panel)⟩
  · obtain rfl := Option.some.inj hP
    exact ⟨8, by omega, _, rfl, 3, 4, _, _, rfl, .inl (by panel)⟩
  · obtain rfl := Option.some.inj hP
    exact ⟨7, by omega, _, rfl, 3, 1, _, _, rfl, .inl (by panel)⟩
  · obtain rfl := Option.some.inj hP
    exact ⟨10, by omega, _, rfl, 3, 4, _, _, rfl, .inl (by panel)⟩
  · obtain rfl := Option.some.inj hP
    exact ⟨10, by omega, _, rfl, 4, 4, _, _, rfl, .inl (by panel)⟩
  · obtain rfl := Option.some.inj hP
    exact ⟨10, by omega, _, rfl, 1, 2, _, _, rfl, .inl (by panel)⟩
  · obtain rfl := Option.some.inj hP
    exact ⟨13, by omega, _, rfl, 3, 4, _, _, rfl, .inl (by panel)⟩
  · obtain rfl := Option.some.inj hP
    exact ⟨13, by omega, _, rfl, 4, 4, _, _, rfl, .inl (by panel)⟩
  · obtain rfl := Option.some.inj hP
    exact ⟨10, by omega, _, rfl, 2, 1, _, _, rfl, .inl (by panel)⟩
  · obtain rfl := Option.some.inj hP
    exact ⟨16, by omega, _, rfl, 3, 4, _, _, rfl, .inl (by panel)⟩
  · obtain rfl := Option.some.inj hP
    exact ⟨16, by omega, _, rfl, 4, 4, _, _, rfl, .inl (by panel)⟩
  · obtain rfl := Option.some.inj hP
    exact ⟨1, by omega, _, rfl, 3, 1, _, _, rfl, .inl (by panel)⟩
  · obtain rfl := Option.some.inj hP
    exact ⟨2, by omega, _, rfl, 3, 1, _, _, rfl, .inl (by panel)⟩
  · obtain rfl := Option.some.inj hP
    exact ⟨0, by omega, _, rfl, 3, 1, _, _, rfl, .inl (by panel)⟩

/-- **C106**: the joint of the L-beam is between the sides 4 and 3. -/
theorem C106_lBeam_sides (Lb Hw Wf x y z : K) : ∃ P Q, lBeam Lb Hw Wf x y z = [P, Q] ∧ Match P 4 Q 3 :=
  ⟨_, _, rfl, _, _, rfl, .inl (by panel)⟩

/-- **C106** violated: the interface that `LBeam` declares joins sides that are different unless the beam has
neither length nor flange. -/
theorem C106_violated_interface (Lb Hw Wf x y z : K) : ∃ P Q,
    (lBeam Lb Hw Wf x y z)[lBeamInterface.1]? = some P ∧
    (lBeam Lb Hw Wf x y z)[lBeamInterface.2.2.1]? = some Q ∧
    (Match P lBeamInterface.2.1 Q lBeamInterface.2.2.2 ↔ Lb = 0 ∧ Wf = 0) := by
  refine ⟨_, _, rfl, rfl, ?_⟩
  constructor
  · rintro ⟨a, b, h1, h2⟩
    simp only [lBeamInterface, Patch.side, Patch.map, Pt.shift, Option.some.injEq, Prod.mk.injEq] at h1 h2
    obtain ⟨rfl, rfl⟩ := h1
    simp only [Pt.mk.injEq] at h2
    rcases h2 with h2 | h2
    · obtain ⟨_, ⟨h3, h4, _⟩⟩ := h2
      exact ⟨by linear_combination -h3, by linear_combination h4⟩
    · obtain ⟨⟨h3, _⟩, ⟨_, h4, _⟩⟩ := h2
      exact ⟨by linear_combination -h3, by linear_combination h4⟩
  · rintro ⟨rfl, rfl⟩
    exact ⟨_, _, rfl, .inl (by panel)⟩

/-! ### Examples -/

/-- `C106_violated_interface`: a beam of length 3, height 1 and flange 2. -/
example : lBeam (3 : ℚ) 1 2 0 0 0 = [⟨⟨0, 0, 0⟩, ⟨3, 0, 0⟩, ⟨0, 0, 1⟩, ⟨3, 0, 1⟩⟩,
    ⟨⟨0, 0, 1⟩, ⟨3, 0, 1⟩, ⟨0, 2, 1⟩, ⟨3, 2, 1⟩⟩] := by
  decide +kernel

/-- `C105_translation`: the same beam elsewhere. -/
example : lBeam (3 : ℚ) 1 2 5 6 7 = shiftAll 5 6 7 (lBeam 3 1 2 0 0 0) ∧
    lBeam (3 : ℚ) 1 2 5 6 7 ≠ lBeam 3 1 2 0 0 0 := by
  decide +kernel

/-- `C105_violated_girder`, `C106_plateGirderL`: a girder that should stand at (1,0,0). -/
example : (plateGirderL (4 : ℚ) 4 2 1 1 1 1 0 0).length = 22 ∧
    plateGirderL (4 : ℚ) 4 2 1 1 1 1 0 0 ≠ shiftAll 1 0 0 (plateGirderL (4 : ℚ) 4 2 1 1 1 0 0 0) := by
  decide +kernel

/-- A flat rectangle of the length `Lp` from `x` on, at the height `z`, from `lo` to `hi` in the second
direction. -/
def Skin (Lp x z : K) (P : Patch K) (lo hi : K) : Prop :=
  P = ⟨⟨x, lo, z⟩, ⟨Lp + x, lo, z⟩, ⟨x, hi, z⟩, ⟨Lp + x, hi, z⟩⟩

/-- **C106**: the skins of the panels are `Lp` long and reach from `-Wp/2` to `Wp/2` across, without gap or overlap. -/
theorem C106_skin (Lp Wp Hw Wf x y z : K) :
    (∃ P Q R, (panelL Lp Wp Hw Wf x y z).take 3 = [P, Q, R] ∧ Skin Lp x z P (y - Wp / 2) y ∧
        Skin Lp x z Q y (y + Wf) ∧ Skin Lp x z R (y + Wf) (y + Wp / 2)) ∧
      (∃ P Q, (panelT Lp Wp Hw Wf x y z).take 2 = [P, Q] ∧ Skin Lp x z P y (y + Wp / 2) ∧
        Skin Lp x z Q (y - Wp / 2) y) ∧
      ∃ P Q, (panelStrip Lp Wp Hw x y z).take 2 = [P, Q] ∧ Skin Lp x z P y (y + Wp / 2) ∧
        Skin Lp x z Q (y - Wp / 2) y := by
  refine ⟨⟨_, _, _, rfl, ?_, ?_, ?_⟩, ⟨_, _, rfl, ?_, ?_⟩, _, _, rfl, ?_, ?_⟩ <;>
    simp [Skin, Patch.map, Pt.shift] <;> ring_nf <;> simp

/-- `C106_skin`: a panel of width 6 with a flange of width 1. -/
example : ((panelL (4 : ℚ) 6 2 1 0 0 0).take 3).map (fun P => (P.r0.y, P.r3.y)) = [(-3, 0), (0, 1), (1, 3)] := by
  decide +kernel

end GsSA.Tools
