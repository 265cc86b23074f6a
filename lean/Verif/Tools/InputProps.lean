import Mathlib.Tactic.Linarith
import Mathlib.Tactic.FinCases
import Mathlib.Tactic.NormNum
import Verif.Tools.Input

/-!
# The input of the solver programs is handed on as given (C130)
-/

set_option linter.unusedSectionVars false

namespace GsSA.Tools

open GsSA

variable {K M F O : Type}

/-! ### Point loads -/

section Loads

variable [Zero K]

theorem loadLoop_ok {p l : Mat K} {i : Mat ℤ} {ks : List ℕ}
    (h : ∀ k ∈ ks, k < p.cols ∧ k < l.cols ∧ k < i.rows * i.cols) :
    loadLoop p l i ks = .ok (ks.map fun k => ⟨(List.range p.rows).map fun r => p.entry r k,
      (List.range l.rows).map fun r => l.entry r k, i.entry (k % i.rows) (k / i.rows)⟩) := by
  induction ks with
  | nil => rfl
  | cons k ks ih =>
    obtain ⟨h1, h2, h3⟩ := h k (by simp)
    rw [loadLoop, oneLoad, Mat.col?, Mat.col?, Mat.at?, if_pos h1, if_pos h2, if_pos h3,
      ih fun k' hk' => h k' (by simp [hk'])]
    rfl

theorem loadLoop_error {p l : Mat K} {i : Mat ℤ} {ks : List ℕ}
    (h : ∃ k ∈ ks, ¬ (k < p.cols ∧ k < l.cols ∧ k < i.rows * i.cols)) : loadLoop p l i ks = .error .ub := by
  induction ks with
  | nil => simp at h
  | cons k ks ih =>
    by_cases hk : k < p.cols ∧ k < l.cols ∧ k < i.rows * i.cols
    · obtain ⟨k', hk', hn⟩ := h
      have hk' : k' ∈ ks := by
        rcases List.mem_cons.1 hk' with rfl | h'
        · exact absurd hk hn
        · exact h'
      rw [loadLoop, oneLoad, Mat.col?, Mat.col?, Mat.at?, if_pos hk.1, if_pos hk.2.1, if_pos hk.2.2,
        ih ⟨k', hk', hn⟩]
    · have : oneLoad p l i k = .error .ub := by
        unfold oneLoad Mat.col? Mat.at?
        by_cases h1 : k < p.cols
        · by_cases h2 : k < l.cols
          · have h3 : ¬ k < i.rows * i.cols := fun h3 => hk ⟨h1, h2, h3⟩
            rw [if_neg h3, if_pos h1, if_pos h2]
          · rw [if_neg h2, if_pos h1]
        · rw [if_neg h1]
      rw [loadLoop, this]

/-- **C130** Every point of ID 30 carries the load in the same column of ID 31, on the patch given by ID 32, and on
patch 0 if there is no ID 32. -/
theorem C130_loads (f : InFile K M F O) {p l : Mat K} (hp : f.points = some p) (hl : f.loads = some l)
    (hc : p.cols ≤ l.cols) (hi : ∀ i, f.patches = some i → i.rows = 1 ∧ p.cols ≤ i.cols) :
    f.pointLoads = .ok ((List.range p.cols).map fun k => ⟨(List.range p.rows).map fun r => p.entry r k,
      (List.range l.rows).map fun r => l.entry r k, (f.patches.map fun i => i.entry 0 k).getD 0⟩) := by
  unfold InFile.pointLoads
  rw [hp, hl]
  cases h : f.patches with
  | none =>
    simp only [Option.getD_some, Option.isNone_none, or_true, if_true]
    rw [loadLoop_ok (by intro k hk; have := List.mem_range.1 hk; simp; omega)]
    rfl
  | some i =>
    obtain ⟨h1, h2⟩ := hi i h
    simp only [Option.getD_some, Option.isNone_some, Bool.false_eq_true, or_self, if_false]
    rw [loadLoop_ok (by intro k hk; have := List.mem_range.1 hk; rw [h1]; omega), h1]
    simp [Nat.mod_one]

/-- **C130** The loads are defined if and only if there is a load, and if ID 32 is given a patch, for each point. -/
theorem C130_loads_iff (f : InFile K M F O) : (∃ l, f.pointLoads = .ok l) ↔
    (∀ p, f.points = some p → p.cols ≤ (f.loads.map Mat.cols).getD 0 ∧
      ∀ i, f.patches = some i → p.cols ≤ i.rows * i.cols) := by
  have key : ∀ (p l : Mat K) (i : Mat ℤ), (∃ x, loadLoop p l i (List.range p.cols) = .ok x) ↔
      p.cols ≤ l.cols ∧ p.cols ≤ i.rows * i.cols := by
    intro p l i
    by_cases h : ∀ k ∈ List.range p.cols, k < p.cols ∧ k < l.cols ∧ k < i.rows * i.cols
    · refine ⟨fun _ => ?_, fun _ => ⟨_, loadLoop_ok h⟩⟩
      by_cases h0 : p.cols = 0
      · omega
      · have := h (p.cols - 1) (List.mem_range.2 (by omega))
        omega
    · have h' := h
      push Not at h
      obtain ⟨k, hk, hn⟩ := h
      rw [loadLoop_error ⟨k, hk, by intro hh; exact absurd hh.2.2 (not_lt.2 (hn hh.1 hh.2.1))⟩]
      refine ⟨fun hx => ?_, fun hx => absurd (fun k hk => ?_) h'⟩
      · obtain ⟨_, hx⟩ := hx
        cases hx
      have := List.mem_range.1 hk
      exact ⟨this, by omega, by omega⟩
  unfold InFile.pointLoads
  rw [key]
  cases hp : f.points with
  | none => simp [Mat.empty]
  | some p =>
    cases hl : f.loads with
    | none =>
      simp only [Option.getD_some, Option.getD_none, Option.isNone_some, Option.isNone_none, Option.map_none,
        Option.some.injEq, forall_eq', Mat.empty, true_or, or_true, if_true]
      constructor
      · rintro ⟨h, -⟩
        exact ⟨h, fun i _ => by omega⟩
      · rintro ⟨h, -⟩
        exact ⟨h, by simp⟩
    | some l =>
      cases hi : f.patches <;> simp

/-- **C130** violated: without ID 30 the loads of ID 31 are dropped without a word; with ID 30 and without ID 31 the
program reads columns of an empty matrix. -/
theorem C130_violated_loads (f : InFile K M F O) :
    (f.points = none → f.pointLoads = .ok []) ∧
    (∀ p, f.points = some p → p.cols ≠ 0 → f.loads = none → f.pointLoads = .error .ub) := by
  refine ⟨fun h => ?_, fun p hp hc hl => ?_⟩
  · unfold InFile.pointLoads
    rw [h]
    rfl
  · unfold InFile.pointLoads
    rw [hp, hl]
    apply loadLoop_error
    refine ⟨0, List.mem_range.2 (by simp only [Option.getD_some]; omega), ?_⟩
    simp [Mat.empty]

/-! ### Reference points -/

/-- **C130** The reference points and their patches are those of ID 50 and ID 51; a program goes on if and only if both
have the same number of columns. -/
theorem C130_references (f : InFile K M F O) (p : Mat K) (i : Mat ℤ) (hp : f.refPoints = some p)
    (hi : f.refPatches = some i) :
    f.references = if i.cols = p.cols then .ok (p, i) else .error .ensure := by
  unfold InFile.references
  rw [hp, hi]
  rfl

/-- **C130** violated: while a missing ID 32 means patch 0, a missing ID 51 ends the program, also if there is one patch
only. -/
theorem C130_violated_references (f : InFile K M F O) (p : Mat K) (hp : f.refPoints = some p) (hc : p.cols ≠ 0)
    (hi : f.refPatches = none) (q : Prog) : f.references = .error .ensure ∧ ∀ s, f.setup q ≠ .ok s := by
  have h : f.references = .error .ensure := by
    unfold InFile.references
    rw [hp, hi]
    exact if_neg (Ne.symm hc)
  refine ⟨h, fun s hs => ?_⟩
  unfold InFile.setup at hs
  rw [h] at hs
  split at hs <;> cases hs

/-- **C130** violated: the reference values of ID 52 have no effect. -/
theorem C130_violated_values (f : InFile K M F O) (v : Option (Mat K)) (q : Prog) (fmt : ℤ → K → Text) (old : Text)
    (a w : Bool) (d : Surface K) (s : List (Surface K × K)) (t : List (StepRow K)) :
    ({ f with refValues := v }).setup q = f.setup q ∧
      ({ f with refValues := v }).staticTable fmt old w d = f.staticTable fmt old w d ∧
      ({ f with refValues := v }).staticMultiTable old = f.staticMultiTable old ∧
      ({ f with refValues := v }).quasiTable fmt old w s = f.quasiTable fmt old w s ∧
      ({ f with refValues := v }).quasiMultiTable a fmt old w d t = f.quasiMultiTable a fmt old w d t :=
  ⟨rfl, rfl, rfl, rfl, rfl⟩

/-! ### Materials and options -/

/-- **C130** A list of materials is used as it is; one material is used for all patches. -/
theorem C130_materials (f : InFile K M F O) (n : ℕ) :
    (∀ l, f.anyContainer = true → f.container = some l → f.materials n = .ok l) ∧
      (∀ m, f.anyContainer = false → f.material = some m → f.materials n = .ok (List.replicate n m)) ∧
      (f.anyContainer = true → f.container = none → f.materials n = .error .exc) := by
  refine ⟨fun l h1 h2 => ?_, fun m h1 h2 => ?_, fun h1 h2 => ?_⟩ <;>
    simp [InFile.materials, h1, h2]

/-- **C130** What the assembler and the solver get. -/
theorem C130_setup (f : InFile K M F O) {l : List (Load K)} (hl : f.pointLoads = .ok l) {r : Mat K × Mat ℤ}
    (hr : f.references = .ok r) (q : Prog) : ∃ s, f.setup q = .ok s ∧
      (q ≠ .modalMulti → s.loads = l ∧ s.pressure = f.pressure) ∧
      (q ≠ .quasistatic → s.assembler = f.options 92) ∧
      (q = .static ∨ q = .staticMulti → s.solver = [f.options 90, f.options 91]) ∧
      (q = .quasistatic ∨ q = .quasistaticMulti → s.solver = [f.options 93]) ∧
      (q = .buckling ∨ q = .bucklingMulti → s.solver = [f.options 94]) ∧
      (q = .modal ∨ q = .modalMulti → s.solver = [f.options 95]) := by
  have h : ∃ s, f.setup q = .ok s ∧ s.loads = (if passesLoads q then l else []) ∧
      s.pressure = (if passesLoads q then f.pressure else none) ∧
      s.assembler = (if passesAssemblerOptions q then f.options 92 else none) ∧
      s.solver = (solverIds q).map f.options := by
    rw [InFile.setup, hl, hr]
    exact ⟨_, rfl, rfl, rfl, rfl, rfl⟩
  obtain ⟨s, hs, h1, h2, h3, h4⟩ := h
  refine ⟨s, hs, ?_⟩
  rw [h1, h2, h3, h4]
  cases q <;> simp [passesLoads, passesAssemblerOptions, solverIds]

/-- **C130** violated: the quasi-static program reads the options of the assembler and drops them. -/
theorem C130_violated_options (f : InFile K M F O) (o : Option O) :
    ({ f with options := Function.update f.options 92 o }).setup .quasistatic = f.setup .quasistatic := by
  have h1 : InFile.pointLoads { f with options := Function.update f.options 92 o } = f.pointLoads := rfl
  have h2 : InFile.references { f with options := Function.update f.options 92 o } = f.references := rfl
  unfold InFile.setup
  rw [h1, h2]
  cases f.pointLoads with
  | error e => rfl
  | ok l =>
    cases f.references with
    | error e => rfl
    | ok r => simp [solverIds, passesAssemblerOptions]

/-- **C130** violated: the buckling program prints another ID than the one it reads; the others print theirs. -/
theorem C130_violated_printed (q : Prog) : printedIds q = solverIds q ↔ q ≠ .buckling := by
  cases q <;> simp [printedIds, solverIds]

/-! ### The tables -/

/-- The reference points are given by two parameters on patches that exist. -/
structure Located (n : ℕ) (p : Mat K) (i : Mat ℤ) : Prop where
  params : p.rows = 2
  row : i.rows = 1
  cols : i.cols = p.cols
  range : ∀ k < p.cols, 0 ≤ i.entry 0 k ∧ i.entry 0 k < n

/-- The three numbers of reference point `k`. -/
def Surface.at (d : Surface K) (p : Mat K) (i : Mat ℤ) (k : ℕ) : List K :=
  [(d.value (i.entry 0 k).toNat (p.entry 0 k) (p.entry 1 k)).1,
    (d.value (i.entry 0 k).toNat (p.entry 0 k) (p.entry 1 k)).2.1,
    (d.value (i.entry 0 k).toNat (p.entry 0 k) (p.entry 1 k)).2.2]

theorem Located.col {n : ℕ} {p : Mat K} {i : Mat ℤ} (h : Located n p i) {k : ℕ} (hk : k < p.cols) :
    p.col? k = some [p.entry 0 k, p.entry 1 k] := by
  rw [Mat.col?, if_pos hk, h.params]
  rfl

theorem Located.at {n : ℕ} {p : Mat K} {i : Mat ℤ} (h : Located n p i) {k : ℕ} (hk : k < p.cols) :
    i.at? k = some (i.entry 0 k) := by
  rw [Mat.at?, h.row, h.cols, if_pos (by omega)]
  simp [Nat.mod_one]

theorem Located.eval {n : ℕ} {p : Mat K} {i : Mat ℤ} (h : Located n p i) {d : Surface K} (hd : d.patches = n) {k : ℕ}
    (hk : k < p.cols) : d.eval (i.entry 0 k) [p.entry 0 k, p.entry 1 k] = .ok (d.at p i k) := by
  rw [Surface.eval, if_pos (by rw [hd]; exact h.range k hk)]
  rfl

theorem Located.probes {n : ℕ} {p : Mat K} {i : Mat ℤ} (h : Located n p i) {d : Surface K} (hd : d.patches = n)
    {ks : List ℕ} (hks : ∀ k ∈ ks, k < p.cols) : probes d p i ks = .ok (ks.map (d.at p i)) := by
  induction ks with
  | nil => rfl
  | cons k ks ih =>
    have hk := hks k (by simp)
    rw [Tools.probes, h.col hk, h.at hk]
    simp only
    rw [h.eval hd hk]
    simp only
    rw [ih fun k' hk' => hks k' (by simp [hk'])]
    rfl

theorem Located.probe {n : ℕ} {p : Mat K} {i : Mat ℤ} (h : Located n p i) {d : Surface K} (hd : d.patches = n) :
    ∃ m, probe d p i = .ok m ∧ m.rows = 3 ∧ m.cols = p.cols ∧
      m.list = (List.range p.cols).flatMap (d.at p i) := by
  have hp : Tools.probe d p i = .ok ⟨3, p.cols, fun r k =>
      ((((List.range p.cols).map (d.at p i))[k]?.getD [])[r]?).getD 0⟩ := by
    rw [Tools.probe, h.probes hd fun k hk => List.mem_range.1 hk]
  refine ⟨_, hp, rfl, rfl, ?_⟩
  unfold Mat.list
  simp only
  apply List.flatMap_congr
  intro k hk
  rw [List.getElem?_map, List.getElem?_range (List.mem_range.1 hk)]
  rfl

theorem xyz_clean : ∀ x ∈ xyz, Clean x := by simp [xyz, Clean]

/-- **C130** With `--write` the static program leaves the header and one line: the displacements of the reference
points. -/
theorem C130_static (f : InFile K M F O) {p : Mat K} {i : Mat ℤ} (hr : f.references = .ok (p, i)) {d : Surface K}
    (hloc : Located d.patches p i) (fmt : ℤ → K → Text) (hfmt : ∀ q x, Clean (fmt q x)) (old : Text) :
    ∃ t, f.staticTable fmt old true d = .ok t ∧ (linesOf t).map fieldsOf =
      [pointNames p.cols xyz, ((List.range p.cols).flatMap (d.at p i)).map (fmt 6)] := by
  obtain ⟨m, hm, h1, h2, h3⟩ := hloc.probe rfl
  have hadd : ((Out.new p.cols old).init xyz []).adds fmt [(m, [])] =
      .ok (((Out.new p.cols old).init xyz []).append fmt m []) := by
    rw [Out.adds, Out.add, if_pos ⟨h1, rfl⟩]
    rfl
  refine ⟨(((Out.new p.cols old).init xyz []).append fmt m []).file, ?_, ?_⟩
  · rw [InFile.staticTable, hr]
    simp only [if_true]
    rw [hm]
    simp only
    rw [Out.add, if_pos ⟨h1, rfl⟩]
    rfl
  · rw [(C70_records fmt hfmt xyz [] xyz_clean (by simp) _ _ _ hadd).1]
    simp [table, h3, Out.new, defaultPrecision]

/-- **C130** violated: without `--write` the static program still empties the file and writes the header. The program
for several patches does so with and without `--write`: it never writes a number. -/
theorem C130_violated_erased (f : InFile K M F O) {p : Mat K} {i : Mat ℤ} (hr : f.references = .ok (p, i))
    (d : Surface K) (fmt : ℤ → K → Text) (old : Text) :
    ∃ t, f.staticTable fmt old false d = .ok t ∧ f.staticMultiTable old = .ok t ∧
      (linesOf t).map fieldsOf = [pointNames p.cols xyz] := by
  refine ⟨((Out.new p.cols old).init xyz []).file, ?_, ?_, ?_⟩
  · rw [InFile.staticTable, hr]
    rfl
  · rw [InFile.staticMultiTable, hr]
  · have h := (C70_records (fun _ (_ : ℕ) => []) (by simp [Clean]) xyz [] xyz_clean (by simp) []
      (Out.new p.cols old) _ rfl).1
    rw [h]
    simp [table, Out.new]

/-- **C130** violated: reference points which the program announces as physical coordinates cannot be used: writing
fails. -/
theorem C130_violated_physical (f : InFile K M F O) {p : Mat K} {i : Mat ℤ} (hr : f.references = .ok (p, i))
    (ha : announced p = .physical) (hc : p.cols ≠ 0) (d : Surface K) (fmt : ℤ → K → Text) (old : Text)
    (steps : List (Surface K × K)) (lam : K) :
    (∀ t, f.staticTable fmt old true d ≠ .ok t) ∧ ∀ t, f.quasiTable fmt old true ((d, lam) :: steps) ≠ .ok t := by
  have hrows : p.rows = 3 := by
    unfold announced at ha
    split at ha
    · cases ha
    · split at ha
      · assumption
      · cases ha
  have hprobe : ∃ e, probe d p i = .error e := by
    obtain ⟨n, hn⟩ : ∃ n, p.cols = n + 1 := ⟨p.cols - 1, by omega⟩
    unfold probe
    rw [hn, List.range_succ_eq_map, probes, Mat.col?, if_pos (by omega), hrows]
    cases i.at? 0 with
    | none => exact ⟨_, rfl⟩
    | some j =>
      simp only [List.range_succ, List.range_zero, List.nil_append, List.map_cons, List.map_nil,
        List.cons_append, Surface.eval]
      by_cases hj : 0 ≤ j ∧ j < d.patches
      · rw [if_pos hj]
        exact ⟨_, rfl⟩
      · rw [if_neg hj]
        exact ⟨_, rfl⟩
  obtain ⟨e, he⟩ := hprobe
  refine ⟨fun t ht => ?_, fun t ht => ?_⟩
  · rw [InFile.staticTable, hr] at ht
    simp only [if_true] at ht
    rw [he] at ht
    cases ht
  · rw [InFile.quasiTable, hr] at ht
    simp only [if_true] at ht
    rw [quasiRows, he] at ht
    cases ht

theorem quasiRows_ok {n : ℕ} {p : Mat K} {i : Mat ℤ} (h : Located n p i) (fmt : ℤ → K → Text)
    (steps : List (Surface K × K)) (hs : ∀ s ∈ steps, s.1.patches = n) (o : Out) (ho : o.nPoint = 3)
    (ho' : o.nOther = 1) : ∃ ms : List (Mat K × List K), quasiRows fmt p i steps o = o.adds fmt ms ∧
      (∃ t, o.adds fmt ms = .ok t) ∧
      ms.map (fun r => r.1.list ++ r.2) =
        steps.map fun s => (List.range p.cols).flatMap (s.1.at p i) ++ [s.2] := by
  induction steps generalizing o with
  | nil => exact ⟨[], rfl, ⟨_, rfl⟩, rfl⟩
  | cons s steps ih =>
    obtain ⟨d, lam⟩ := s
    obtain ⟨m, hm, h1, h2, h3⟩ := h.probe (hs (d, lam) (by simp))
    obtain ⟨ms, h4, h5, h6⟩ := ih (fun s hs' => hs s (by simp [hs'])) (o.append fmt m [lam]) ho ho'
    refine ⟨(m, [lam]) :: ms, ?_, ?_, ?_⟩
    · rw [quasiRows, hm, Out.adds]
      simp only
      rw [Out.add, if_pos ⟨by rw [h1, ho], by rw [ho']; rfl⟩]
      exact h4
    · rw [Out.adds, Out.add, if_pos ⟨by rw [h1, ho], by rw [ho']; rfl⟩]
      exact h5
    · rw [List.map_cons, List.map_cons, h6, h3]

/-- **C130** With `--write` the quasi-static program leaves the header and one line for each accepted step: the
displacements of the reference points and the load factor. -/
theorem C130_quasistatic (f : InFile K M F O) {p : Mat K} {i : Mat ℤ} (hr : f.references = .ok (p, i)) {n : ℕ}
    (hloc : Located n p i) (fmt : ℤ → K → Text) (hfmt : ∀ q x, Clean (fmt q x)) (old : Text)
    (steps : List (Surface K × K)) (hs : ∀ s ∈ steps, s.1.patches = n) :
    ∃ t, f.quasiTable fmt old true steps = .ok t ∧ (linesOf t).map fieldsOf =
      (pointNames p.cols xyz ++ ["L".toList]) ::
        steps.map fun s => ((List.range p.cols).flatMap (s.1.at p i) ++ [s.2]).map (fmt 6) := by
  obtain ⟨ms, h1, ⟨t, h2⟩, h3⟩ := quasiRows_ok hloc fmt steps hs
    ((Out.new p.cols old).init xyz ["L".toList]) rfl rfl
  refine ⟨t.file, ?_, ?_⟩
  · rw [InFile.quasiTable, hr]
    simp only [if_true]
    rw [h1, h2]
    rfl
  · rw [(C70_records fmt hfmt xyz ["L".toList] xyz_clean (by simp [Clean]) _ _ _ h2).1, table]
    have h4 := congrArg (List.map (List.map (fmt 6))) h3
    rw [List.map_map, List.map_map] at h4
    exact congrArg₂ _ rfl h4

/-- **C130** Without `--write` the table of the quasi-static program has the header and no line for a step. -/
theorem C130_quasistatic_nowrite (f : InFile K M F O) {p : Mat K} {i : Mat ℤ} (hr : f.references = .ok (p, i))
    (fmt : ℤ → K → Text) (hfmt : ∀ q x, Clean (fmt q x)) (old : Text) (steps : List (Surface K × K)) :
    ∃ t, f.quasiTable fmt old false steps = .ok t ∧
      (linesOf t).map fieldsOf = [pointNames p.cols xyz ++ ["L".toList]] := by
  have h2 : Out.adds fmt [] ((Out.new p.cols old).init xyz ["L".toList]) =
    .ok ((Out.new p.cols old).init xyz ["L".toList]) := rfl
  refine ⟨_, by rw [InFile.quasiTable, hr]; rfl, ?_⟩
  exact (C70_records fmt hfmt xyz ["L".toList] xyz_clean (by simp [Clean]) _ _ _ h2).1

/-- **C130** violated: in a build with assertions the quasi-static program for several patches stops in the first step
that is to be written, if there is a reference point. -/
theorem C130_violated_assertion (f : InFile K M F O) {p : Mat K} {i : Mat ℤ} (hr : f.references = .ok (p, i))
    (hc : p.cols ≠ 0) {g : Surface K} (hloc : Located g.patches p i) (fmt : ℤ → K → Text) (old : Text)
    (s : StepRow K) (steps : List (StepRow K)) :
    f.quasiMultiTable true fmt old true g (s :: steps) = .error .assert := by
  have h : stepPoints true g p i (List.range p.cols) = .error .assert := by
    have h0 : 0 < p.cols := by omega
    obtain ⟨n, hn⟩ : ∃ n, p.cols = n + 1 := ⟨p.cols - 1, by omega⟩
    rw [hn, List.range_succ_eq_map, stepPoints, hloc.col h0]
    simp only
    rw [hloc.eval rfl h0]
    rfl
  rw [InFile.quasiMultiTable, hr]
  simp only [if_true]
  rw [stepLines, stepLine, h]

theorem stepPoints_ok {n : ℕ} {p : Mat K} {i : Mat ℤ} (h : Located n p i) {g : Surface K} (hg : g.patches = n)
    {ks : List ℕ} (hks : ∀ k ∈ ks, k < p.cols) :
    stepPoints false g p i ks = .ok (ks.flatMap fun k => (g.at p i k).take 2) := by
  induction ks with
  | nil => rfl
  | cons k ks ih =>
    have hk := hks k (by simp)
    rw [stepPoints, h.col hk]
    simp only
    rw [h.eval hg hk, ih fun k' hk' => hks k' (by simp [hk'])]
    rfl

theorem stepLines_ok {n : ℕ} {p : Mat K} {i : Mat ℤ} (h : Located n p i) {g : Surface K} (hg : g.patches = n)
    (fmt : ℤ → K → Text) (steps : List (StepRow K)) :
    stepLines false fmt g p i steps = .ok (render (steps.map fun s =>
      (s.norm :: ((List.range p.cols).flatMap (fun k => (g.at p i k).take 2) ++ [s.lam, s.indicator])).map
        (fmt 6))) := by
  induction steps with
  | nil => rfl
  | cons s steps ih =>
    rw [stepLines, stepLine, stepPoints_ok h hg fun k hk => List.mem_range.1 hk]
    simp only
    rw [ih]
    simp [render]

/-- **C130** violated: in a build without assertions this program writes, in each line, the first two coordinates of the
reference points on the undeformed geometry, between the norm, the load factor and the indicator. -/
theorem C130_violated_undeformed (f : InFile K M F O) {p : Mat K} {i : Mat ℤ} (hr : f.references = .ok (p, i))
    {g : Surface K} (hloc : Located g.patches p i) (fmt : ℤ → K → Text) (hfmt : ∀ q x, Clean (fmt q x)) (old : Text)
    (steps : List (StepRow K)) :
    ∃ t, f.quasiMultiTable false fmt old true g steps = .ok t ∧ (linesOf t).map fieldsOf =
      (pointNames p.cols xyz ++ [[]]) :: steps.map fun s =>
        (s.norm :: ((List.range p.cols).flatMap (fun k => (g.at p i k).take 2) ++ [s.lam, s.indicator])).map
          (fmt 6) := by
  refine ⟨_, by rw [InFile.quasiMultiTable, hr]; simp only [if_true]; rw [stepLines_ok hloc rfl], ?_⟩
  rw [← linesOf_render ((pointNames p.cols xyz ++ [[]]) :: steps.map fun s =>
        (s.norm :: ((List.range p.cols).flatMap (fun k => (g.at p i k).take 2) ++ [s.lam, s.indicator])).map
          (fmt 6))]
  · congr 2
    simp [render, Out.init, Out.new, cells_append]
  · intro r hr x hx
    rcases List.mem_cons.1 hr with rfl | hr
    · rcases List.mem_append.1 hx with hx | hx
      · exact pointNames_clean _ _ xyz_clean x hx
      · rw [List.mem_singleton.1 hx]
        simp [Clean]
    · obtain ⟨q, _, rfl⟩ := List.mem_map.1 hr
      obtain ⟨y, _, rfl⟩ := List.mem_map.1 hx
      exact hfmt _ _

/-- **C130**: without `--write` this program leaves the header alone in the file, with and without assertions, wherever
the reference points are. -/
theorem C130_multi_nowrite (f : InFile K M F O) {p : Mat K} {i : Mat ℤ} (hr : f.references = .ok (p, i))
    (asserts : Bool) (fmt : ℤ → K → Text) (old : Text) (g : Surface K) (steps : List (StepRow K)) :
    ∃ t, f.quasiMultiTable asserts fmt old false g steps = .ok t ∧
      (linesOf t).map fieldsOf = [pointNames p.cols xyz ++ [[]]] := by
  refine ⟨_, by rw [InFile.quasiMultiTable, hr]; rfl, ?_⟩
  rw [← linesOf_render [pointNames p.cols xyz ++ [[]]]]
  · congr 2
    simp [render, Out.init, Out.new, cells_append]
  · intro r hr x hx
    rw [List.mem_singleton.1 hr] at hx
    rcases List.mem_append.1 hx with hx | hx
    · exact pointNames_clean _ _ xyz_clean x hx
    · rw [List.mem_singleton.1 hx]
      simp [Clean]

/-- **C130** violated: the lines have as many fields as the header only if there are two reference points, and then the
fields have other meanings. -/
theorem C130_violated_columns (p : Mat K) (i : Mat ℤ) (g : Surface K) (s : StepRow K) :
    (s.norm :: ((List.range p.cols).flatMap (fun k => (g.at p i k).take 2) ++ [s.lam, s.indicator])).length =
      (pointNames p.cols xyz ++ [[]]).length ↔ p.cols = 2 := by
  have h1 : ((List.range p.cols).flatMap fun k => (g.at p i k).take 2).length = p.cols * 2 := by
    rw [List.length_flatMap]
    simp [Surface.at, List.map_const']
  rw [List.length_append, pointNames_length, List.length_cons, List.length_append, h1]
  simp only [xyz, List.length_cons, List.length_nil]
  omega

end Loads

/-! ### Perturbation -/

section Perturb

variable [Field K] [LinearOrder K] [IsStrictOrderedRing K]

/-- **C130** Option `P`: without it nothing changes; with it the first two coordinates remain and the third is at most
`P` in size. -/
theorem C130_perturb (P : K) (rnd : ℕ → ℕ → K) (hrnd : ∀ p i, |rnd p i| ≤ 1) (mp : List (List (K × K × K))) :
    perturb 0 rnd mp = mp ∧ (P ≠ 0 → ∀ (p : ℕ) (c : List (K × K × K)) (i : ℕ) (x : K × K × K),
      mp[p]? = some c → c[i]? = some x →
      ∃ c' z, (perturb P rnd mp)[p]? = some c' ∧ c'[i]? = some (x.1, x.2.1, z) ∧ |z| ≤ |P|) := by
  refine ⟨by simp [perturb], fun hP p c i x hc hx => ?_⟩
  refine ⟨c.mapIdx fun i x => (x.1, x.2.1, rnd p i * P), rnd p i * P, ?_, ?_, ?_⟩
  · rw [perturb, if_pos hP, List.getElem?_mapIdx, hc]
    rfl
  · rw [List.getElem?_mapIdx, hx]
    rfl
  · rw [abs_mul]
    calc |rnd p i| * |P| ≤ 1 * |P| := mul_le_mul_of_nonneg_right (hrnd p i) (abs_nonneg _)
      _ = |P| := one_mul _

/-- **C130** violated: the perturbation replaces the third coordinate: geometries that differ in it become the same, and
a point at height more than `2 |P|` moves by more than `|P|`. -/
theorem C130_violated_perturb {P : K} (hP : P ≠ 0) (rnd : ℕ → ℕ → K) (hrnd : ∀ p i, |rnd p i| ≤ 1)
    (mp : List (List (K × K × K))) :
    (∀ z : K × K × K → K, perturb P rnd (mp.map fun c => c.map fun x => (x.1, x.2.1, z x)) = perturb P rnd mp) ∧
    ∀ (p : ℕ) (c : List (K × K × K)) (i : ℕ) (x : K × K × K), mp[p]? = some c → c[i]? = some x → 2 * |P| < |x.2.2| →
      ∃ c', ∃ y : K × K × K, (perturb P rnd mp)[p]? = some c' ∧ c'[i]? = some y ∧ |P| < |y.2.2 - x.2.2| := by
  refine ⟨fun z => ?_, fun p c i x hc hx hz => ?_⟩
  · rw [perturb, perturb, if_pos hP, if_pos hP]
    apply List.ext_getElem?
    intro p
    rw [List.getElem?_mapIdx, List.getElem?_mapIdx, List.getElem?_map]
    cases mp[p]? with
    | none => rfl
    | some c =>
      simp only [Option.map_some, Option.some.injEq]
      apply List.ext_getElem?
      intro i
      rw [List.getElem?_mapIdx, List.getElem?_mapIdx, List.getElem?_map]
      cases c[i]? <;> rfl
  · obtain ⟨c', w, h1, h2, h3⟩ := (C130_perturb P rnd hrnd mp).2 hP p c i x hc hx
    refine ⟨c', _, h1, h2, ?_⟩
    have := abs_sub_abs_le_abs_sub x.2.2 w
    rw [abs_sub_comm] at this
    show |P| < |w - x.2.2|
    linarith

end Perturb

/-! ### Checks -/

/-- **C130** violated: the check of the smoothness for the exact method in `buckling_shell_multipatch_XML.cpp` has no
effect: the outcome of the checks is the same without it, and a smoothness above `degree - 2` passes. -/
theorem C130_violated_smoothness (method degree smoothness : ℤ) :
    (bucklingChecks true method degree smoothness = .ok () ↔
      smoothness < degree ∧ 0 ≤ smoothness ∧ (method = 2 ∨ method = 3 → 2 < degree)) ∧
    bucklingChecks true method degree smoothness = bucklingChecks false method degree smoothness ∧
    bucklingChecks true 3 3 2 = .ok () := by
  have h : ∀ b, bucklingChecks b method degree smoothness =
      if smoothness < degree ∧ 0 ≤ smoothness ∧ (method = 2 ∨ method = 3 → 2 < degree) then .ok ()
      else .error .ensure := by
    intro b
    unfold bucklingChecks ensure exactC1Check
    by_cases h1 : smoothness < degree
    · by_cases h2 : 0 ≤ smoothness
      · by_cases h3 : 2 < degree
        · have : smoothness ≥ 1 ∨ smoothness ≤ degree - 2 := by omega
          simp [h1, h2, h3, this]
          rfl
        · by_cases h4 : method = 2 ∨ method = 3
          · simp [h1, h2, h3, h4]
            split <;> rfl
          · have h5 : method ≠ 3 := fun h => h4 (Or.inr h)
            simp [h1, h2, h3, h5]
            rfl
      · simp [h1, h2]
        rfl
    · simp [h1]
      rfl
  refine ⟨?_, by rw [h, h], rfl⟩
  rw [h]
  split <;> simp_all

/-! ### Examples -/

/-- Two patches, two point loads, three reference points. -/
def twoPatches : InFile ℚ ℕ Unit ℕ where
  points := some ⟨2, 2, fun r c => r + c / 2⟩
  loads := some ⟨3, 2, fun r c => if r = 2 then 10 + c else 0⟩
  patches := some ⟨1, 2, fun _ c => 1 - c⟩
  refPoints := some ⟨2, 3, fun r c => (r + c) / 4⟩
  refPatches := some ⟨1, 3, fun _ c => if c = 1 then 1 else 0⟩
  refValues := none
  material := some 7
  container := some [4, 5]
  anyContainer := true
  pressure := none
  options := fun n => some (100 + n)

/-- A number as a row of strokes. -/
def strokes (_ : ℤ) (x : ℚ) : Text := List.replicate x.num.natAbs 'i'

theorem strokes_clean (q : ℤ) (x : ℚ) : Clean (strokes q x) := by
  unfold strokes Clean
  simp [List.mem_replicate]

/-- A surface on two patches. -/
def bentSurface (h : ℚ) : Surface ℚ := ⟨2, fun k x y => (x + k, y, h * x * y)⟩

theorem twoPatches_located : Located 2 (⟨2, 3, fun r c => (r + c) / 4⟩ : Mat ℚ)
    ⟨1, 3, fun _ c => if c = 1 then 1 else 0⟩ :=
  ⟨rfl, rfl, rfl, by decide⟩

/-- `C130_loads`, `C130_loads_iff`: the first load is on patch 1, the second on patch 0. Without ID 32 both are on patch
0. -/
example : twoPatches.pointLoads = .ok [⟨[0, 1], [0, 0, 10], 1⟩, ⟨[1 / 2, 3 / 2], [0, 0, 11], 0⟩] ∧
    ({ twoPatches with patches := none }).pointLoads =
      .ok [⟨[0, 1], [0, 0, 10], 0⟩, ⟨[1 / 2, 3 / 2], [0, 0, 11], 0⟩] ∧
    ∃ l, twoPatches.pointLoads = .ok l := by
  refine ⟨?_, ?_, (C130_loads_iff twoPatches).2 fun p hp => ?_⟩
  · rw [C130_loads twoPatches rfl rfl le_rfl (by rintro i ⟨⟩; exact ⟨rfl, le_rfl⟩)]
    decide +kernel
  · rw [C130_loads { twoPatches with patches := none } rfl rfl le_rfl (by rintro i ⟨⟩)]
    decide +kernel
  · cases hp
    exact ⟨le_rfl, by rintro i ⟨⟩; exact le_rfl⟩

/-- `C130_violated_loads`. -/
example : ({ twoPatches with points := none }).pointLoads = .ok [] ∧
    ({ twoPatches with loads := none }).pointLoads = .error .ub :=
  ⟨(C130_violated_loads _).1 rfl, (C130_violated_loads _).2 _ rfl (by decide) rfl⟩

/-- `C130_references`. -/
example : twoPatches.references = .ok (⟨2, 3, fun r c => (r + c) / 4⟩, ⟨1, 3, fun _ c => if c = 1 then 1 else 0⟩) ∧
    ({ twoPatches with refPatches := some ⟨1, 1, fun _ _ => 0⟩ }).references = .error .ensure :=
  ⟨(C130_references twoPatches _ _ rfl rfl).trans (if_pos rfl), (C130_references { twoPatches with refPatches := some ⟨1, 1, fun _ _ => 0⟩ } _ _
    rfl rfl).trans (if_neg (by decide))⟩

/-- `C130_violated_references`. -/
example : ({ twoPatches with refPatches := none }).references = .error .ensure :=
  (C130_violated_references _ _ rfl (by decide) rfl .static).1

/-- `C130_materials`: a list, and one material for three patches. -/
example : twoPatches.materials 2 = .ok [4, 5] ∧
    ({ twoPatches with anyContainer := false }).materials 3 = .ok [7, 7, 7] ∧
    ({ twoPatches with container := none }).materials 3 = .error .exc :=
  ⟨(C130_materials _ _).1 _ rfl rfl, (C130_materials _ _).2.1 _ rfl rfl, (C130_materials _ _).2.2 rfl rfl⟩

/-- `C130_setup`. -/
example : ∃ s, twoPatches.setup .static = .ok s ∧ s.loads.length = 2 ∧ s.assembler = some 192 ∧
    s.solver = [some 190, some 191] := by
  have hl : twoPatches.pointLoads = .ok _ :=
    C130_loads twoPatches rfl rfl le_rfl (by rintro i ⟨⟩; exact ⟨rfl, le_rfl⟩)
  obtain ⟨s, h1, h2, h3, h4, -⟩ := C130_setup twoPatches hl rfl .static
  refine ⟨s, h1, ?_, h3 (by decide), h4 (.inl rfl)⟩
  rw [(h2 (by decide)).1]
  rfl

/-- `C130_violated_options`, `C130_violated_printed`. -/
example : (twoPatches.setup .quasistatic).toOption.map Setup.assembler = some none ∧
    (twoPatches.setup .quasistaticMulti).toOption.map Setup.assembler = some (some 192) ∧
    printedIds .buckling = [91] ∧ solverIds .buckling = [94] := by
  decide +kernel

/-- `C130_static`: the first reference point has the displacement (0, 1/4, 0). -/
example (old : Text) : ∃ t, twoPatches.staticTable strokes old true (bentSurface 8) = .ok t ∧
    (linesOf t).map fieldsOf = [pointNames 3 xyz, [0, 1 / 4, 0, 5 / 4, 1 / 2, 1, 1 / 2, 3 / 4, 3].map (strokes 6)] := by
  obtain ⟨t, h1, h2⟩ := C130_static twoPatches rfl (d := bentSurface 8) twoPatches_located strokes strokes_clean old
  refine ⟨t, h1, h2.trans ?_⟩
  decide +kernel

/-- `C130_violated_erased`. -/
example : ∃ t, twoPatches.staticTable strokes "results of last week".toList false (bentSurface 8) = .ok t ∧
    twoPatches.staticMultiTable "results of last week".toList = .ok t ∧
    (linesOf t).map fieldsOf = [pointNames 3 xyz] :=
  C130_violated_erased twoPatches (p := ⟨2, 3, fun r c => (r + c) / 4⟩) rfl _ _ _

/-- `C130_violated_physical`: the point (0, 1, 2). -/
example (old t : Text) : ({ twoPatches with
      refPoints := some ⟨3, 1, fun r _ => r⟩, refPatches := some ⟨1, 1, fun _ _ => 0⟩ }).staticTable strokes old true
      (bentSurface 8) ≠ .ok t :=
  (C130_violated_physical { twoPatches with
      refPoints := some ⟨3, 1, fun r _ => r⟩, refPatches := some ⟨1, 1, fun _ _ => 0⟩ }
    (p := ⟨3, 1, fun r _ => r⟩) (i := ⟨1, 1, fun _ _ => 0⟩) rfl rfl (by decide) _ _ _ [] 0).1 t

/-- `C130_quasistatic`: two steps. -/
example (old : Text) : ∃ t, twoPatches.quasiTable strokes old true [(bentSurface 8, 1), (bentSurface 16, 2)] = .ok t ∧
    (linesOf t).map fieldsOf = [pointNames 3 xyz ++ ["L".toList],
      [0, 1 / 4, 0, 5 / 4, 1 / 2, 1, 1 / 2, 3 / 4, 3, 1].map (strokes 6),
      [0, 1 / 4, 0, 5 / 4, 1 / 2, 2, 1 / 2, 3 / 4, 6, 2].map (strokes 6)] := by
  obtain ⟨t, h1, h2⟩ := C130_quasistatic twoPatches rfl twoPatches_located strokes strokes_clean old
    [(bentSurface 8, 1), (bentSurface 16, 2)] (by intro s hs; fin_cases hs <;> rfl)
  refine ⟨t, h1, h2.trans ?_⟩
  decide +kernel

/-- `C130_quasistatic_nowrite`: the same without `--write`. -/
example (old : Text) : ∃ t, twoPatches.quasiTable strokes old false [(bentSurface 8, 1), (bentSurface 16, 2)] = .ok t ∧
    (linesOf t).map fieldsOf = [pointNames 3 xyz ++ ["L".toList]] :=
  C130_quasistatic_nowrite twoPatches rfl strokes strokes_clean old _

/-- `C130_violated_assertion`. -/
example (old : Text) :
    twoPatches.quasiMultiTable true strokes old true (bentSurface 0) [⟨3, 1, -1⟩] = .error .assert :=
  C130_violated_assertion _ rfl (by decide) twoPatches_located _ _ _ _

/-- `C130_multi_nowrite`: the same without `--write`. -/
example (old : Text) : ∃ t,
    twoPatches.quasiMultiTable true strokes old false (bentSurface 0) [⟨3, 1, -1⟩] = .ok t ∧
    (linesOf t).map fieldsOf = [pointNames 3 xyz ++ [[]]] :=
  C130_multi_nowrite twoPatches rfl true strokes old _ _

/-- `C130_violated_undeformed`, `C130_violated_columns`: two steps with different norms; ten names, nine numbers. -/
example (old : Text) : ∃ t,
    twoPatches.quasiMultiTable false strokes old true (bentSurface 0) [⟨3, 1, -1⟩, ⟨5, 2, 1⟩] = .ok t ∧
    (linesOf t).map fieldsOf = [pointNames 3 xyz ++ [[]],
      [3, 0, 1 / 4, 5 / 4, 1 / 2, 1 / 2, 3 / 4, 1, -1].map (strokes 6),
      [5, 0, 1 / 4, 5 / 4, 1 / 2, 1 / 2, 3 / 4, 2, 1].map (strokes 6)] := by
  obtain ⟨t, h1, h2⟩ := C130_violated_undeformed twoPatches rfl (g := bentSurface 0) twoPatches_located strokes
    strokes_clean old [⟨3, 1, -1⟩, ⟨5, 2, 1⟩]
  refine ⟨t, h1, h2.trans ?_⟩
  decide +kernel

/-- `C130_perturb`, `C130_violated_perturb`: a roof of height 5 becomes nearly flat. -/
example : perturb (1 / 10) (fun _ i => if i = 0 then (1 : ℚ) / 2 else -1) [[(0, 0, 5), (1, 2, 5)]] =
    [[(0, 0, 1 / 20), (1, 2, -1 / 10)]] := by
  decide +kernel

end GsSA.Tools
