import Verif.WakeModel
import Verif.FieldModel
import Mathlib.Analysis.SpecialFunctions.Trigonometric.Basic
import Mathlib.Analysis.SpecialFunctions.Exp
import Mathlib.Analysis.SpecialFunctions.Sqrt

/-!
# Model of the transverse wake, the impedance, the on-the-fly deposition, the field monitor and the result files
-/

namespace Wakis
namespace Wake

/-! ### Transverse wake -/

section
variable {K : Type} [Field K]

/-- wakeSolver.py:586-588: the running integral of one cell of the wake map. -/
def runInt (WP : ℕ → K) (ds : K) (n : ℕ) : K := (∑ m ∈ Finset.range n, WP m) * ds

/-- A cell of `WP_3d`, an array of shape `(2*n0+1, 2*n0+1, ns)`; numpy resolves negative indices from the end. -/
def mapCell (n0 : ℕ) (W : ℕ → ℕ → ℕ → K) (i j : ℤ) : Py (ℕ → K) := do
  let a ← pyIndex (2 * n0 + 1) i
  let b ← pyIndex (2 * n0 + 1) j
  return W a b

/-- One cell size from a vector of `n` sizes. -/
def sizeAt (n : ℕ) (d : ℕ → K) (i : ℤ) : Py K := do
  let a ← pyIndex n i
  return d a

/-- wakeSolver.py:544-619 `calc_trans_WP`: `WPx` and `WPy` on an s axis of `ns ≥ 3` points (`self.s[2]`), for `n0` transverse cells. -/
def calcTransWP (n0 : ℕ) (s : List K) (W : ℕ → ℕ → ℕ → K) (nx : ℕ) (dx : ℕ → K) (ny : ℕ) (dy : ℕ → K) : Py (List K × List K) :=
  match s with
  | _ :: s1 :: s2 :: _ => do
    let ds := s2 - s1
    let xp ← mapCell n0 W (n0 + 1) n0
    let xm ← mapCell n0 W ((n0 : ℤ) - 1) n0
    let d1 ← sizeAt nx dx ((n0 : ℤ) - 1)
    let d2 ← sizeAt nx dx n0
    let yp ← mapCell n0 W n0 (n0 + 1)
    let ym ← mapCell n0 W n0 ((n0 : ℤ) - 1)
    let e1 ← sizeAt ny dy ((n0 : ℤ) - 1)
    let e2 ← sizeAt ny dy n0
    return ((List.range s.length).map fun n => -(runInt xp ds n - runInt xm ds n) / (d1 + d2),
      (List.range s.length).map fun n => -(runInt yp ds n - runInt ym ds n) / (e1 + e2))
  | _ => .error .indexError

end

/-! ### On-the-fly deposition -/

section
variable {K : Type} [Field K] [LinearOrder K] [FloorRing K]

/-- wakeSolver.py:267-287: deposit the field `e` of one cell, at fractional index `x` of the s axis of length `ns`, with cell length `dz`. -/
def deposit (ns : ℕ) (dz : K) (WP : ℕ → K) (x e : K) : ℕ → K :=
  if 0 ≤ x ∧ x ≤ (ns : K) - 1 then
    if (ns : ℤ) - 1 ≤ ⌊x⌋ then fun m => if m = ns - 1 then WP m + e * dz else WP m
    else fun m => WP m + (if m = ⌊x⌋.toNat then e * (1 - (x - ⌊x⌋)) * dz else 0) + (if m = ⌊x⌋.toNat + 1 then e * (x - ⌊x⌋) * dz else 0)
  else WP

/-- wakeSolver.py:265-268: the fractional index of a cell at time `t`. -/
def fracIndex (v ti dt zmin z t : K) : K := ((v * t - v * ti + zmin - z) - -ti * v) / (v * dt)

/-- wakeSolver.py:264-287: one step of the deposition, cell after cell (numpy sums the cells of one bin in some order; all arithmetic is exact here). -/
def depositStep (ns : ℕ) (dz : K) (cells : List (K × K)) (WP : ℕ → K) : ℕ → K := cells.foldl (fun W c => deposit ns dz W c.1 c.2) WP

end

/-! ### Impedance -/

noncomputable section

/-- numpy `fft(x, n=N)[m]`: the first `N` entries, padded with zeros. -/
def fftBin (x : List ℝ) (N m : ℕ) : ℂ :=
  ∑ j ∈ Finset.range N, (x.getD j 0 : ℂ) * Complex.exp (-2 * Real.pi * Complex.I * j * m / N)

/-- numpy `fftfreq(N, d)[m]`. -/
def fftFreq (N : ℕ) (d : ℝ) (m : ℕ) : ℝ := if m ≤ (N - 1) / 2 then m / (N * d) else ((m : ℝ) - N) / (N * d)

/-- `np.mean(s[1:] - s[:-1])`. -/
def meanStep (s : List ℝ) : ℝ := (∑ i ∈ Finset.range (s.length - 1), (s.getD (i + 1) 0 - s.getD i 0)) / ((s.length - 1 : ℕ) : ℝ)

/-- wakeSolver.py:672-675, 729-732: `int((v / ds) // fmax * samples)`. -/
def nfft (v ds fmax : ℝ) (samples : ℕ) : ℤ := ⌊v / ds / fmax⌋ * samples

/-- A result of the impedance calculation. -/
structure Imp where
  f : List ℝ
  Z : List ℂ
  lambdaf : List ℂ

open Classical in
/-- wakeSolver.py:678-684, 738-742: the bins kept. -/
def keptBins (N : ℕ) (d fmax : ℝ) : List ℕ := (List.range N).filter fun m => decide (0 ≤ fftFreq N d m ∧ fftFreq N d m < fmax)

/-- wakeSolver.py:669-691, given the charge distribution: `fac` is -1 for the longitudinal, `1j` for the transverse impedance (711-757). -/
def impedance (fac : ℂ) (v fmax : ℝ) (samples : ℕ) (s WP lambdas : List ℝ) : Py Imp :=
  if s.length < 2 then .error .valueError
  else
    let ds := meanStep s
    let N := nfft v ds fmax samples
    if N ≤ 0 then .error .valueError
    else
      let N := N.toNat
      let bins := keptBins N (ds / v) fmax
      let lf := fun m => fftBin (lambdas.map (· * v)) N m * ds
      .ok ⟨bins.map (fftFreq N (ds / v)), bins.map fun m => fac * (fftBin (WP.map (· * 10 ^ 12)) N m * ds) / lf m, bins.map lf⟩

/-- The attributes of a `WakeSolver` used by `calc_long_Z`. -/
structure WState where
  v : ℝ
  fmax : ℝ
  sigmaz : ℝ
  s : List ℝ
  WP : List ℝ
  lambdas : Option (List ℝ)
  imp : Option Imp

/-- wakeSolver.py:845-849: the analytic charge distribution on the s axis. -/
def gaussLambda (sigmaz : ℝ) (s : List ℝ) : List ℝ := s.map fun x => 1 / (sigmaz * Real.sqrt (2 * Real.pi)) * Real.exp (-(x ^ 2) / (2 * sigmaz ^ 2))

/-- wakeSolver.py:621-709 `calc_long_Z` without a given charge distribution: λ is computed only if it is not there yet. -/
def calcLongZ (w : WState) (samples : ℕ) (fmax : Option ℝ) : Py WState := do
  let lam := w.lambdas.getD (gaussLambda w.sigmaz w.s)
  let imp ← impedance (-1) w.v (fmax.getD w.fmax) samples w.s w.WP lam
  return { w with lambdas := some lam, imp := some imp }

/-- A new wake computation replaces `s` and `WP` (wakeSolver.py:390-391, 524-526) and, through `solve(**kwargs)` (217-218), may change the bunch length; λ stays. -/
def newWake (w : WState) (sigmaz : ℝ) (s WP : List ℝ) : WState := { w with sigmaz := sigmaz, s := s, WP := WP }

/-! ### Field monitor -/

/-- field_monitors.py:38-55: frequencies, number of updates so far, the time step fixed by the first update and the accumulators `[component][frequency][cell]`. -/
structure Monitor where
  freqs : List ℝ
  time_index : ℕ
  dt : Option ℝ
  acc : ℕ → ℕ → ℕ → ℕ → ℕ → ℂ

def Monitor.new (freqs : List ℝ) : Monitor := ⟨freqs, 0, none, fun _ _ _ _ _ => 0⟩

/-- field_monitors.py:57-102 `update`: `F c` is the matrix of component `c` of the field. -/
def Monitor.update (m : Monitor) (F : ℕ → ℕ → ℕ → ℕ → ℝ) (dt : ℝ) : Monitor :=
  let d := m.dt.getD dt
  let t := (m.time_index : ℝ) * d
  { m with
    dt := some d
    time_index := m.time_index + 1
    acc := fun c f i j k => m.acc c f i j k + (F c i j k : ℂ) * Complex.exp (-2 * Complex.I * Real.pi * (m.freqs.getD f 0) * t) }

end
end Wake
end Wakis
