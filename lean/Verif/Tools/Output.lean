import Mathlib.Algebra.BigOperators.Group.List.Basic
import Mathlib.Tactic.Ring
import Verif.Base.Status

/-!
# Model of the CSV output

`src/gsStructuralAnalysisTools/gsStructuralAnalysisUtils.h`. A file is the list of its characters; only the
object writes to it and opening never fails. Numbers are written by an arbitrary function `fmt` of the
precision of the stream.
-/

namespace GsSA.Tools

open GsSA

/-- The text of a file, or a part of it. -/
abbrev Text := List Char

/-- A matrix, as far as output is concerned. -/
structure Mat (K : Type) where
  rows : ℕ
  cols : ℕ
  entry : ℕ → ℕ → K

/-- The members of `gsStructuralAnalysisOutput` (`gsStructuralAnalysisUtils.h` 149-153), `m_points` by its
number of columns, and the file. -/
structure Out where
  points : ℕ
  precision : ℤ
  nPoint : ℕ
  nOther : ℕ
  file : Text

/-- Constructors, `gsStructuralAnalysisUtils.h` 24-39; `file` is what the file holds before. -/
def Out.new (points : ℕ) (file : Text) : Out := ⟨points, 5, 0, 0, file⟩

/-- `file << x << ","` for every element. -/
def cells (l : List Text) : Text := (l.map fun x => x ++ [',']).flatten

/-- `_initPointHeader`, `gsStructuralAnalysisUtils.h` 48-56: the names of the columns of the points. -/
def pointNames (points : ℕ) (h : List Text) : List Text :=
  (List.range points).flatMap fun p => h.map fun x => "point".toList ++ (Nat.repr p).toList ++ ['-'] ++ x

/-- `clean`, `gsStructuralAnalysisUtils.h` 41-46. -/
def Out.clean (s : Out) : Out := { s with file := [] }

/-- `init`, `gsStructuralAnalysisUtils.h` 99-114; the variant of 116-120 has no other headers. The file is
opened without `app`, which empties it. -/
def Out.init (ph oh : List Text) (s : Out) : Out :=
  { s with
    nPoint := ph.length, nOther := oh.length
    file := [] ++ cells (pointNames s.points ph) ++ cells oh ++ ['\n'] }

variable {K : Type}

/-- The numbers of a matrix column by column, `_writePointData`, `gsStructuralAnalysisUtils.h` 67-75. -/
def Mat.list (m : Mat K) : List K :=
  (List.range m.cols).flatMap fun p => (List.range m.rows).map fun c => m.entry c p

/-- The precision of a stream that has just been opened. -/
def defaultPrecision : ℤ := 6

/-- `add` without the assertions, `gsStructuralAnalysisUtils.h` 126-136. `setprecision` is applied to a
stream that is closed at once (127-129); the data are written by streams opened anew
(`_writePointData` 69-70, `_writeOtherData` 79-80). -/
def Out.append (fmt : ℤ → K → Text) (m : Mat K) (other : List K) (s : Out) : Out :=
  { s with
    file := s.file ++ cells (m.list.map (fmt defaultPrecision)) ++
      cells (other.map (fmt defaultPrecision)) ++ ['\n'] }

/-- `add`, `gsStructuralAnalysisUtils.h` 122-137 with the assertions of a debug build; the variant of
140-144 has no other data. -/
def Out.add (fmt : ℤ → K → Text) (m : Mat K) (other : List K) (s : Out) : Except Fail Out :=
  if m.rows = s.nPoint ∧ other.length = s.nOther then .ok (s.append fmt m other) else .error .assert

/-- `setPrecision`, `gsStructuralAnalysisUtils.h` 146. -/
def Out.setPrecision (p : ℤ) (s : Out) : Out := { s with precision := p }

/-- Several records in a debug build. -/
def Out.adds (fmt : ℤ → K → Text) : List (Mat K × List K) → Out → Except Fail Out
  | [], s => .ok s
  | (m, o) :: l, s => match s.add fmt m o with
    | .ok t => t.adds fmt l
    | .error e => .error e

/-- The pieces of a text that end with `c`; what follows the last `c` is dropped. -/
def pieces (c : Char) : Text → List Text
  | [] => []
  | x :: l =>
    if x = c then [] :: pieces c l
    else match pieces c l with
      | [] => []
      | p :: q => (x :: p) :: q

/-- The lines of a file. -/
def linesOf (t : Text) : List Text := pieces '\n' t

/-- The fields of a line. -/
def fieldsOf (t : Text) : List Text := pieces ',' t

theorem pieces_append (c : Char) (x r : Text) (h : c ∉ x) : pieces c (x ++ c :: r) = x :: pieces c r := by
  induction x with
  | nil => simp [pieces]
  | cons a x ih =>
    rw [List.mem_cons, not_or] at h
    rw [List.cons_append, pieces, if_neg (fun hh => h.1 hh.symm), ih h.2]

theorem pieces_cells (l : List Text) (h : ∀ x ∈ l, ',' ∉ x) : fieldsOf (cells l) = l := by
  induction l with
  | nil => rfl
  | cons a l ih =>
    have : cells (a :: l) = a ++ ',' :: cells l := by simp [cells]
    rw [fieldsOf, this, pieces_append _ _ _ (h a List.mem_cons_self)]
    rw [fieldsOf] at ih
    rw [ih fun x hx => h x (List.mem_cons_of_mem _ hx)]

theorem cells_append (l m : List Text) : cells (l ++ m) = cells l ++ cells m := by
  simp [cells]

theorem not_mem_cells (c : Char) (hc : c ≠ ',') (l : List Text) (h : ∀ x ∈ l, c ∉ x) : c ∉ cells l := by
  intro hm
  simp only [cells, List.mem_flatten, List.mem_map] at hm
  obtain ⟨y, ⟨x, hx, rfl⟩, hy⟩ := hm
  rcases List.mem_append.1 hy with h1 | h1
  · exact h x hx h1
  · exact hc (List.mem_singleton.1 h1)

/-- A name or number that can be a field: neither a comma nor a line end occurs in it. -/
def Clean (x : Text) : Prop := ',' ∉ x ∧ '\n' ∉ x

theorem digits_clean (p : ℕ) : Clean (Nat.repr p).toList := by
  have h : ∀ c ∈ (Nat.repr p).toList, c.isDigit = true := by
    intro c hc
    have := Nat.isDigit_of_mem_toDigits (b := 10) (by decide) (by decide)
      (n := p) (c := c) (by simpa [Nat.repr] using hc)
    exact this
  constructor
  · intro hc; exact absurd (h _ hc) (by decide)
  · intro hc; exact absurd (h _ hc) (by decide)

theorem pointNames_clean (points : ℕ) (h : List Text) (hh : ∀ x ∈ h, Clean x) :
    ∀ x ∈ pointNames points h, Clean x := by
  intro x hx
  simp only [pointNames, List.mem_flatMap, List.mem_map] at hx
  obtain ⟨p, _, y, hy, rfl⟩ := hx
  have h1 := hh y hy
  have h2 := digits_clean p
  have h3 : ',' ∉ "point".toList ∧ '\n' ∉ "point".toList := by decide
  simp only [Clean, List.mem_append, List.mem_singleton, not_or] at *
  exact ⟨⟨⟨⟨h3.1, h2.1⟩, by decide⟩, h1.1⟩, ⟨⟨⟨h3.2, h2.2⟩, by decide⟩, h1.2⟩⟩

theorem pointNames_length (points : ℕ) (h : List Text) :
    (pointNames points h).length = points * h.length := by
  simp only [pointNames, List.length_flatMap, List.length_map]
  induction points with
  | zero => simp
  | succ n ih => rw [List.range_succ, List.map_append, List.sum_append, ih]; simp; ring

theorem Mat.list_length (m : Mat K) : m.list.length = m.cols * m.rows := by
  simp only [Mat.list, List.length_flatMap, List.length_map, List.length_range]
  induction m.cols with
  | zero => simp
  | succ n ih => rw [List.range_succ, List.map_append, List.sum_append, ih]; simp; ring

/-- **C70**: the entry of component `c` of the point `p` stands at the place `p * rows + c`, that is, all the components
of a point come before the next point. -/
theorem C70_order (m : Mat K) (c p : ℕ) (hc : c < m.rows) (hp : p < m.cols) :
    m.list[p * m.rows + c]? = some (m.entry c p) := by
  have key : ∀ n, p < n →
      ((List.range n).flatMap fun p => (List.range m.rows).map fun c => m.entry c p)[p * m.rows + c]? =
        some (m.entry c p) := by
    intro n
    have hl : ∀ n, ((List.range n).flatMap fun p => (List.range m.rows).map fun c => m.entry c p).length =
        n * m.rows := by
      intro n
      simp only [List.length_flatMap, List.length_map, List.length_range]
      induction n with
      | zero => simp
      | succ n ih => rw [List.range_succ, List.map_append, List.sum_append, ih]; simp; ring
    induction n with
    | zero => intro h; omega
    | succ n ih =>
      intro h
      rw [List.range_succ, List.flatMap_append]
      rcases Nat.lt_succ_iff_lt_or_eq.mp h with h' | rfl
      · rw [List.getElem?_append_left, ih h']
        rw [hl]
        have : p * m.rows + m.rows ≤ n * m.rows := by
          rw [← Nat.succ_mul]; exact Nat.mul_le_mul_right _ h'
        omega
      · rw [List.getElem?_append_right (by rw [hl]; omega), hl]
        simp [hc]
  exact key m.cols hp

/-- The file after `init` and records, as a table. -/
def table (fmt : ℤ → K → Text) (points : ℕ) (ph oh : List Text) (l : List (Mat K × List K)) :
    List (List Text) :=
  (pointNames points ph ++ oh) ::
    l.map fun r => (r.1.list ++ r.2).map (fmt defaultPrecision)

/-- The text of a table. -/
def render (t : List (List Text)) : Text := (t.map fun r => cells r ++ ['\n']).flatten

theorem linesOf_render (t : List (List Text)) (h : ∀ r ∈ t, ∀ x ∈ r, Clean x) :
    (linesOf (render t)).map fieldsOf = t := by
  induction t with
  | nil => rfl
  | cons r t ih =>
    have h1 : render (r :: t) = cells r ++ '\n' :: render t := by simp [render]
    have h2 : '\n' ∉ cells r := not_mem_cells _ (by decide) _ fun x hx =>
      (h r List.mem_cons_self x hx).2
    rw [linesOf, h1, pieces_append _ _ _ h2, List.map_cons, pieces_cells r fun x hx =>
      (h r List.mem_cons_self x hx).1]
    rw [linesOf] at ih
    rw [ih fun r' hr' => h r' (List.mem_cons_of_mem _ hr')]

theorem adds_file (fmt : ℤ → K → Text) (l : List (Mat K × List K)) (s t : Out)
    (h : s.adds fmt l = .ok t) : t.file = s.file ++
      render (l.map fun r => (r.1.list ++ r.2).map (fmt defaultPrecision)) ∧
    ∀ r ∈ l, r.1.rows = s.nPoint ∧ r.2.length = s.nOther := by
  induction l generalizing s with
  | nil =>
    cases h
    exact ⟨by simp [render], by simp⟩
  | cons r l ih =>
    obtain ⟨m, o⟩ := r
    simp only [Out.adds, Out.add] at h
    split at h
    · rename_i u hu
      split at hu
      · rename_i hc
        cases hu
        obtain ⟨h1, h2⟩ := ih _ h
        refine ⟨?_, ?_⟩
        · rw [h1]
          simp [Out.append, render, cells_append]
        · intro r hr
          rcases List.mem_cons.1 hr with rfl | hr
          · exact hc
          · exact h2 r hr
      · cases hu
    · cases h

/-- **C70**: after `init` and `n` records, a reader of the file that splits lines and fields gets back the
header and the numbers as they were written, one line per record, whatever the file held before. If every
matrix has one column per registered point, all lines have the same number of fields. -/
theorem C70_records (fmt : ℤ → K → Text) (hfmt : ∀ p x, Clean (fmt p x)) (ph oh : List Text)
    (hp : ∀ x ∈ ph, Clean x) (ho : ∀ x ∈ oh, Clean x) (l : List (Mat K × List K)) (s t : Out)
    (h : (s.init ph oh).adds fmt l = .ok t) :
    (linesOf t.file).map fieldsOf = table fmt s.points ph oh l ∧ (linesOf t.file).length = l.length + 1 ∧
      ((∀ r ∈ l, r.1.cols = s.points) → ∀ line ∈ linesOf t.file,
        (fieldsOf line).length = s.points * ph.length + oh.length) := by
  obtain ⟨h1, h2⟩ := adds_file fmt l _ _ h
  have h3 : t.file = render (table fmt s.points ph oh l) := by
    rw [h1]
    simp [table, render, Out.init, cells_append]
  have h4 : (linesOf t.file).map fieldsOf = table fmt s.points ph oh l := by
    rw [h3]
    apply linesOf_render
    intro r hr x hx
    rcases List.mem_cons.1 hr with rfl | hr
    · rcases List.mem_append.1 hx with hx | hx
      · exact pointNames_clean _ _ hp x hx
      · exact ho x hx
    · obtain ⟨q, _, rfl⟩ := List.mem_map.1 hr
      obtain ⟨y, _, rfl⟩ := List.mem_map.1 hx
      exact hfmt _ _
  refine ⟨h4, ?_, ?_⟩
  · have := congrArg List.length h4
    simpa [table] using this
  · intro hc line hline
    have h5 : fieldsOf line ∈ table fmt s.points ph oh l := by
      rw [← h4]
      exact List.mem_map_of_mem hline
    rcases List.mem_cons.1 h5 with h6 | h6
    · rw [h6, List.length_append, pointNames_length]
    · obtain ⟨q, hq, h7⟩ := List.mem_map.1 h6
      rw [← h7, List.length_map, List.length_append, Mat.list_length, hc q hq, (h2 q hq).1, (h2 q hq).2]
      rfl

/-- **C70**: the number of columns is not checked: a record is accepted with any number of columns, and its
line then has another number of fields than the header. -/
theorem C70_violated_columns (fmt : ℤ → K → Text) (hfmt : ∀ p x, Clean (fmt p x)) (ph oh : List Text)
    (hp : ∀ x ∈ ph, Clean x) (ho : ∀ x ∈ oh, Clean x) (m : Mat K) (o : List K) (s : Out)
    (hr : m.rows = ph.length) (hne : ph ≠ []) (hol : o.length = oh.length) (hc : m.cols ≠ s.points) :
    ∃ t, (s.init ph oh).adds fmt [(m, o)] = .ok t ∧ ∃ a b, linesOf t.file = [a, b] ∧
      (fieldsOf a).length ≠ (fieldsOf b).length := by
  refine ⟨(s.init ph oh).append fmt m o, ?_, ?_⟩
  · rw [Out.adds, Out.add, if_pos ⟨hr, hol⟩]
    rfl
  · have hadd : (s.init ph oh).adds fmt [(m, o)] = .ok ((s.init ph oh).append fmt m o) := by
      rw [Out.adds, Out.add, if_pos ⟨hr, hol⟩]
      rfl
    obtain ⟨h1, h2, _⟩ := C70_records fmt hfmt ph oh hp ho _ _ _ hadd
    match hl : linesOf ((s.init ph oh).append fmt m o).file, h2 with
    | [a, b], _ =>
      refine ⟨a, b, rfl, ?_⟩
      rw [hl] at h1
      simp only [List.map_cons, List.map_nil, table, List.cons.injEq, and_true] at h1
      rw [h1.1, h1.2, List.length_append, pointNames_length, List.length_map, List.length_append,
        Mat.list_length, hr, hol]
      intro h
      exact hc (Nat.eq_of_mul_eq_mul_right (List.length_pos_iff.2 hne) (by omega))

/-- A call of the user. -/
inductive OutOp (K : Type) where
  | init (ph oh : List Text)
  | add (m : Mat K) (other : List K)
  | clean
  | setPrecision (p : ℤ)

/-- Perform a call (release build). -/
def OutOp.run (fmt : ℤ → K → Text) : OutOp K → Out → Out
  | .init ph oh, s => s.init ph oh
  | .add m o, s => s.append fmt m o
  | .clean, s => s.clean
  | .setPrecision p, s => s.setPrecision p

/-- Perform calls one after the other. -/
def outRuns (fmt : ℤ → K → Text) (l : List (OutOp K)) (s : Out) : Out :=
  l.foldl (fun s o => o.run fmt s) s

/-- The calls without those of `setPrecision`. -/
def isSetPrecision : OutOp K → Bool
  | .setPrecision _ => true
  | _ => false

/-- **C99** violated: `setPrecision` has no effect: the file is the same without these calls. -/
theorem C99_violated_precision (fmt : ℤ → K → Text) (l : List (OutOp K)) (s : Out) :
    (outRuns fmt l s).file = (outRuns fmt (l.filter fun o => !isSetPrecision o) s).file := by
  have key : ∀ (l : List (OutOp K)) (s t : Out), s.file = t.file → s.points = t.points →
      (outRuns fmt l s).file = (outRuns fmt (l.filter fun o => !isSetPrecision o) t).file := by
    intro l
    induction l with
    | nil => intro s t h _; exact h
    | cons o l ih =>
      intro s t h1 h2
      cases o with
      | init ph oh =>
        simp only [isSetPrecision, Bool.not_false, List.filter_cons_of_pos]
        exact ih _ _ (by simp [OutOp.run, Out.init, h2]) (by simpa [OutOp.run, Out.init] using h2)
      | add m o =>
        simp only [isSetPrecision, Bool.not_false, List.filter_cons_of_pos]
        exact ih _ _ (by simp [OutOp.run, Out.append, h1]) (by simpa [OutOp.run, Out.append] using h2)
      | clean =>
        simp only [isSetPrecision, Bool.not_false, List.filter_cons_of_pos]
        exact ih _ _ (by simp [OutOp.run, Out.clean]) (by simpa [OutOp.run, Out.clean] using h2)
      | setPrecision p =>
        simp only [isSetPrecision, Bool.not_true, Bool.false_eq_true, not_false_eq_true,
          List.filter_cons_of_neg]
        exact ih _ _ (by simpa [OutOp.run, Out.setPrecision] using h1)
          (by simpa [OutOp.run, Out.setPrecision] using h2)
  exact key l s s rfl rfl

/-- The last precision asked for. -/
def lastPrecision : List (OutOp K) → ℤ → ℤ
  | [], p => p
  | .setPrecision q :: l, _ => lastPrecision l q
  | _ :: l, p => lastPrecision l p

/-- **C99**: the precision that is stored is the last one given, whatever calls come between; no other call changes it. -/
theorem C99_stored (fmt : ℤ → K → Text) (l : List (OutOp K)) (s : Out) :
    (outRuns fmt l s).precision = lastPrecision l s.precision := by
  induction l generalizing s with
  | nil => rfl
  | cons o l ih => cases o <;> exact ih _

/-- **C99**: every number is written with the precision 6. -/
theorem C99_default (fmt gmt : ℤ → K → Text) (h : ∀ x, fmt 6 x = gmt 6 x) (l : List (OutOp K)) (s : Out) :
    outRuns fmt l s = outRuns gmt l s := by
  have hr : ∀ (o : OutOp K) (s : Out), o.run fmt s = o.run gmt s := by
    intro o s
    have h6 : fmt defaultPrecision = gmt defaultPrecision := funext h
    cases o <;> simp [OutOp.run, Out.append, h6]
  simp only [outRuns, hr]

/-! ### Examples -/

/-- Numbers with as many zeros as the precision says. -/
def fmt1 (p : ℤ) (x : ℕ) : Text := (Nat.repr x).toList ++ List.replicate p.toNat '0'

/-- A record for two points with three components. -/
def mat1 : Mat ℕ := ⟨3, 2, fun r c => 10 * r + c⟩

/-- `C70_records`: two points with headers x, y, z, and a load. -/
example : ((Out.new 2 "old".toList).init ["x".toList, "y".toList, "z".toList] ["L".toList]).adds fmt1
      [(mat1, [7]), (mat1, [8])] = .ok (((Out.new 2 []).init ["x".toList, "y".toList, "z".toList]
        ["L".toList]).append fmt1 mat1 [7] |>.append fmt1 mat1 [8]) ∧
    (linesOf ((Out.new 2 []).init ["x".toList, "y".toList, "z".toList] ["L".toList]).file).map
      (fun l => (fieldsOf l).map String.ofList) =
        [["point0-x", "point0-y", "point0-z", "point1-x", "point1-y", "point1-z", "L"]] := by
  constructor
  · rfl
  · decide +kernel

/-- `C70_violated_columns`: two columns for one point. -/
example : ((linesOf (((Out.new 1 []).init ["x".toList, "y".toList, "z".toList] []).append fmt1 mat1
    []).file).map fun l => (fieldsOf l).length) = [3, 6] := by
  decide +kernel

/-- `C99_violated_precision`. -/
example : (outRuns fmt1 [.setPrecision 2, .add mat1 []] (Out.new 2 [])).file =
    (outRuns fmt1 [.add mat1 []] (Out.new 2 [])).file := rfl

/-- `C99_stored`. -/
example : (outRuns fmt1 [.setPrecision 2, .add mat1 [], .setPrecision 9, .clean] (Out.new 2 [])).precision = 9 := rfl

/-- `C70_order`: two components of three points. -/
example : (⟨2, 3, fun c p => 10 * p + c⟩ : Mat ℕ).list = [0, 1, 10, 11, 20, 21] := by decide

end GsSA.Tools
