import Verif.SourceProps

/-!
More about `wakis/sources.py`: the values the sources write, from the parameters given to their constructors.

C41: naming the component in the field (`field='Ex'`) is the same as passing it separately.
The value of a dipole; C62: the packet as a function of the parameters and its history in time; C63: how long a plane wave lasts.
-/

namespace Wakis
namespace Src

open Fld

noncomputable section

/-! ### C41: the component named in the field -/

/-- **C41 (component in the field name).** `Dipole(field='Ex', component=anything)` is `Dipole(field='E', component='x')`, and the same for each field and each component letter. -/
theorem C41_dipole_field (a c : Char) (key : CKey) (xs ys zs : Option Sel) (nodes : ℝ) (f : Option ℝ) (amplitude phase : ℝ) (key' : CKey) :
    Dipole.init (String.ofList [a, c]) key xs ys zs nodes f amplitude phase =
      { Dipole.init (String.singleton a) key' xs ys zs nodes f amplitude phase with component := .str (String.singleton c) } ∧
    (Dipole.init (String.singleton a) key' xs ys zs nodes f amplitude phase).component = key' ∧
    (Dipole.init (String.singleton a) key' xs ys zs nodes f amplitude phase).field = String.singleton a := by
  have h1 : splitField (String.singleton a) key' = (String.singleton a, key') := by
    unfold splitField; simp
  refine ⟨?_, ?_, ?_⟩
  · unfold Dipole.init
    rw [h1]
    simp [splitField]
  · unfold Dipole.init; rw [h1]
  · unfold Dipole.init; rw [h1]

/-- **C41 (component in the field name, pulse).** -/
theorem C41_pulse_field (a c : Char) (key : CKey) (xs ys zs : Option Sel) (shape : String) (L : Option ℝ) (amplitude delay : ℝ) (key' : CKey) :
    Pulse.init (String.ofList [a, c]) key xs ys zs shape L amplitude delay =
      { Pulse.init (String.singleton a) key' xs ys zs shape L amplitude delay with component := .str (String.singleton c) } ∧
    (Pulse.init (String.singleton a) key' xs ys zs shape L amplitude delay).component = key' ∧
    (Pulse.init (String.singleton a) key' xs ys zs shape L amplitude delay).field = String.singleton a := by
  have h1 : splitField (String.singleton a) key' = (String.singleton a, key') := by
    unfold splitField; simp
  refine ⟨?_, ?_, ?_⟩
  · unfold Pulse.init
    rw [h1]
    simp [splitField]
  · unfold Pulse.init; rw [h1]
  · unfold Pulse.init; rw [h1]

/-! ### C41: what a dipole writes -/

/-- `z` is the extent of the cell centres: the largest minus the smallest. -/
def Extent (n : ℕ) (z : ℕ → ℝ) (L : ℝ) : Prop := ∃ a < n, ∃ b < n, L = z b - z a ∧ ∀ i < n, z a ≤ z i ∧ z i ≤ z b

theorem minOf_spec {n : ℕ} {x : ℕ → ℝ} {m : ℝ} (h : minOf n x = .ok m) : ∃ a < n, m = x a ∧ ∀ i < n, x a ≤ x i := by
  unfold minOf at h
  split_ifs at h with h0
  cases h
  obtain ⟨q1, q2, -⟩ := argminUpTo_spec x (n - 1)
  exact ⟨_, by omega, rfl, fun m hm => q2 m (by omega)⟩

/-- **C41 (dipole, value).** The value a new dipole writes at time `t`: amplitude * sin(2π f t + phase), with `f` the frequency given, and without one `nodes` times light speed over the extent of
the cells along z: `nodes` whole periods during the time light takes along the domain. -/
theorem C41_dipole_value {field : String} {component : CKey} {xs ys zs : Option Sel} {nodes : ℝ} {f : Option ℝ} {amplitude phase : ℝ} {g : Grd} {F F' : Flds} {t : ℝ} {p' : Dipole}
    (h : (Dipole.init field component xs ys zs nodes f amplitude phase).update g F t = .ok (p', F')) :
    ∃ f₀, WritesOnly (Dipole.init field component xs ys zs nodes f amplitude phase).field (xs.getD (.int (g.Nx / 2 : ℕ))) (ys.getD (.int (g.Ny / 2 : ℕ))) (zs.getD (.int (g.Nz / 2 : ℕ)))
        (Dipole.init field component xs ys zs nodes f amplitude phase).component (amplitude * Real.sin (2 * Real.pi * f₀ * t + phase)) F F' ∧
      (∀ f', f = some f' → f₀ = f') ∧ (f = none → ∃ L, Extent g.Nz g.z L ∧ f₀ = nodes * cLight / L) ∧ p'.f = some f₀ := by
  unfold Dipole.update at h
  simp only [bind, Except.bind] at h
  split at h
  · cases h
  rename_i f₀ hf
  split at h
  · cases h
  rename_i G hG
  cases h
  refine ⟨f₀, writeTo_only hG, fun f' hf' => ?_, fun hn => ?_, rfl⟩
  · subst hf'
    have : Dipole.freq (Dipole.init field component xs ys zs nodes (some f') amplitude phase) g = .ok f' := rfl
    rw [this] at hf
    cases hf
    rfl
  · subst hn
    have e : Dipole.freq (Dipole.init field component xs ys zs nodes none amplitude phase) g =
        (do let hi ← maxOf g.Nz g.z; let lo ← minOf g.Nz g.z; return nodes / ((hi - lo) / cLight)) := rfl
    rw [e] at hf
    simp only [bind, Except.bind] at hf
    split at hf
    · cases hf
    rename_i hi hhi
    split at hf
    · cases hf
    rename_i lo hlo
    cases hf
    obtain ⟨a, ha, rfl, hmin⟩ := minOf_spec hlo
    unfold maxOf at hhi
    cases hm : minOf g.Nz fun i => -g.z i with
    | error e => rw [hm] at hhi; cases hhi
    | ok m =>
      rw [hm] at hhi
      cases hhi
      obtain ⟨b, hb, rfl, hmax⟩ := minOf_spec hm
      refine ⟨g.z b - g.z a, ⟨a, ha, b, hb, rfl, fun i hi => ⟨hmin i hi, ?_⟩⟩, ?_⟩
      · have := hmax i hi; linarith
      · beta_reduce
        rw [neg_neg, div_div_eq_mul_div]

/-! ### C62: the packet from its parameters -/

/-- **C62 (parameters).** What the constructor keeps: the frequency given, or light speed over the wavelength; the injection distance given, or six times the longitudinal width; without
a frequency or a wavelength, and without an injection distance or a longitudinal width, it raises `TypeError`. -/
theorem C62_parameters (xs ys : Option (Option ℤ × Option ℤ)) (zs : ℤ) (sigmaz sigmaxy tinj wavelength f : Option ℝ) (amplitude beta phase : ℝ) :
    (∀ p, WavePacket.init xs ys zs sigmaz sigmaxy tinj wavelength f amplitude beta phase = .ok p →
      p.xs = xs ∧ p.ys = ys ∧ p.zs = zs ∧ p.amplitude = amplitude ∧ p.beta = beta ∧ p.phase = phase ∧ p.sigmaz = sigmaz ∧ p.sigmaxy = sigmaxy ∧
      some p.f = f.orElse (fun _ => wavelength.map (cLight / ·)) ∧ some p.tinj = tinj.orElse (fun _ => sigmaz.map (6 * ·))) ∧
    ((f = none ∧ wavelength = none ∨ tinj = none ∧ sigmaz = none) ↔ WavePacket.init xs ys zs sigmaz sigmaxy tinj wavelength f amplitude beta phase = .error .typeError) := by
  unfold WavePacket.init
  cases f <;> cases wavelength <;> cases tinj <;> cases sigmaz <;>
    simp [bind, Except.bind, pure, Except.pure, throw, throwThe, MonadExceptOf.throw, eq_comm]

/-- **C62 (in time).** The packet never exceeds its amplitude, reduced by exp(-d²/(2 σz²)) where `d` is the distance of β c t from the injection distance: it rises, peaks when β c t
reaches the injection distance, and dies out. -/
theorem C62_time (amplitude f phase beta tinj sxy sz t x y : ℝ) :
    |packetAt amplitude f phase beta tinj sxy sz t x y| ≤ |amplitude| * Real.exp (-((beta * cLight * t - tinj) ^ 2) / (2 * sz ^ 2)) := by
  unfold packetAt
  rw [abs_mul, abs_mul, abs_mul, Real.abs_exp, Real.abs_exp]
  have h1 : Real.exp (-(x ^ 2 + y ^ 2) / (2 * sxy ^ 2)) ≤ 1 := Real.exp_le_one_iff.2 (div_nonpos_of_nonpos_of_nonneg (by nlinarith [sq_nonneg x, sq_nonneg y]) (by positivity))
  have h3 := Real.abs_cos_le_one (2 * Real.pi * f * t + phase)
  refine mul_le_mul_of_nonneg_right ?_ (Real.exp_pos _).le
  rw [mul_assoc]
  calc |amplitude| * _ ≤ |amplitude| * 1 := mul_le_mul_of_nonneg_left (mul_le_one₀ h3 (Real.exp_pos _).le h1) (abs_nonneg _)
    _ = |amplitude| := mul_one _

/-! ### C63: how long a plane wave lasts -/

/-- **C63 (duration).** A plane wave built with a number of nodes and a frequency `f ≠ 0` writes on its plane, in every cell, Hy = -amplitude * cos(2π f t + phase) as long as t ≤ nodes / f
(that is for `nodes` periods), and zero afterwards; without a number of nodes it never ends. -/
theorem C63_duration_partial {xs ys : Option Sel} {zs : Sel} {nodes : Option ℝ} {f amplitude beta phase : ℝ} {p p' : PlaneWave}
    (hp : PlaneWave.init xs ys zs nodes (some f) amplitude beta phase = .ok p) {g : Grd} {F F' : Flds} {t : ℝ} (h : p.update g F t = .ok (p', F')) :
    ∃ E H, F' = { F with E := E, H := H } ∧
      F.H.setitem (.tup (xs.getD (.slice (some 0) (some g.Nx))) (ys.getD (.slice (some 0) (some g.Ny))) zs (.str "y"))
        (.scalar (open Classical in if ∀ n, nodes = some n → t ≤ n / f then -amplitude * Real.cos (2 * Real.pi * f * t + phase) else 0)) = .ok H ∧
      ((∃ n, nodes = some n ∧ n / f < t) →
        F.E.setitem (.tup (xs.getD (.slice (some 0) (some g.Nx))) (ys.getD (.slice (some 0) (some g.Ny))) zs (.str "x")) (.scalar 0) = .ok E) := by
  classical
  cases hp
  have hon : (∀ T, Option.map (· / f) nodes = some T → t ≤ T) ↔ ∀ n, nodes = some n → t ≤ n / f := by
    cases nodes <;> simp
  unfold PlaneWave.update at h
  simp only [bind, Except.bind] at h
  split at h
  · cases h
  rename_i H hH
  split at h
  · cases h
  rename_i E hE
  cases h
  refine ⟨E, H, rfl, ?_, ?_⟩
  · rw [← hH]
    simp only [hon]
  · rintro ⟨n, rfl, hn⟩
    rw [← hE]
    have : ¬ ∀ T, Option.map (· / f) (some n) = some T → t ≤ T := fun hh => absurd (hh _ rfl) (not_le.2 hn)
    simp only [if_neg this]

/-! ### non-vacuity -/

example : ∃ p' F', (Dipole.init "Ex" (.str "z") none none none 10 none 1 0).update demoGrd demoFlds 1 = .ok (p', F') := ⟨_, _, rfl⟩
example : Extent 4 demoGrd.z 3 := ⟨0, by norm_num, 3, by norm_num, by simp only [demoGrd]; norm_num, fun i hi => by
  simp only [demoGrd]
  have : (i : ℝ) ≤ 3 := by exact_mod_cast (by omega : i ≤ 3)
  constructor
  · simp
  · push_cast; linarith⟩
example : ∃ p p' F', PlaneWave.init none none (.int 0) (some 3) (some 1) 1 1 0 = .ok p ∧ p.update demoGrd demoFlds 5 = .ok (p', F') := ⟨_, _, _, rfl, rfl⟩
example : ∃ p, WavePacket.init none none 1 none none (some 2) (some 3) none 1 1 0 = .ok p ∧ p.f = cLight / 3 := ⟨_, rfl, rfl⟩

end
end Src
end Wakis
