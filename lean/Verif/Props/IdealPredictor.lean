import Verif.Model.IdealMuscl
import Verif.Props.IdealGasMix
import Mathlib.Analysis.Calculus.Deriv.Add
import Mathlib.Analysis.Calculus.Deriv.Mul
import Mathlib.Analysis.Calculus.Deriv.Comp
import Mathlib.Analysis.Calculus.Deriv.Inv
import Mathlib.Tactic.LinearCombination

/-!
# C139: the predictor of the primitive MUSCL-Hancock method solves the Euler equations
-/

namespace Fub

section
variable {d : ℕ} {S : Type} [Fintype S]

/-! ## Specification -/

/-- Specification: pressure of a mixture. -/
noncomputable def mixPressure (m : Mechanism S ℝ) (ρ T : ℝ) (Y : S → ℝ) : ℝ :=
  ρ * m.gasConstant * T * ∑ i, Y i / m.molarMass i

/-- Specification: total energy of a mixture per volume. -/
noncomputable def mixEnergy (m : Mechanism S ℝ) (ρ T : ℝ) (v : Fin d → ℝ) (Y : S → ℝ) : ℝ :=
  ρ * (∑ i, Y i * ((m.thermo T).1 i - m.gasConstant / m.molarMass i * T)) +
    1 / 2 * ρ * ∑ i, v i * v i

/-- Specification: fields of time and place along `dir`, differentiable in both variables at
`(t, x)`, which satisfy there the conservation of mass, momentum, energy and of each species. -/
structure SolvesEuler (m : Mechanism S ℝ) (dir : Fin d) (ρ T : ℝ → ℝ → ℝ)
    (v : ℝ → ℝ → Fin d → ℝ) (Y : ℝ → ℝ → S → ℝ) (t x : ℝ) : Prop where
  diff_density : DifferentiableAt ℝ (fun τ => ρ τ x) t ∧ DifferentiableAt ℝ (fun ξ => ρ t ξ) x
  diff_temperature : DifferentiableAt ℝ (fun τ => T τ x) t ∧ DifferentiableAt ℝ (fun ξ => T t ξ) x
  diff_velocity : ∀ i, DifferentiableAt ℝ (fun τ => v τ x i) t ∧
    DifferentiableAt ℝ (fun ξ => v t ξ i) x
  diff_species : ∀ s, DifferentiableAt ℝ (fun τ => Y τ x s) t ∧
    DifferentiableAt ℝ (fun ξ => Y t ξ s) x
  mass : deriv (fun τ => ρ τ x) t + deriv (fun ξ => ρ t ξ * v t ξ dir) x = 0
  momentum : ∀ i, deriv (fun τ => ρ τ x * v τ x i) t +
    deriv (fun ξ => ρ t ξ * v t ξ i * v t ξ dir +
      if i = dir then mixPressure m (ρ t ξ) (T t ξ) (Y t ξ) else 0) x = 0
  energy : deriv (fun τ => mixEnergy m (ρ τ x) (T τ x) (v τ x) (Y τ x)) t +
    deriv (fun ξ => (mixEnergy m (ρ t ξ) (T t ξ) (v t ξ) (Y t ξ) +
      mixPressure m (ρ t ξ) (T t ξ) (Y t ξ)) * v t ξ dir) x = 0
  species : ∀ s, deriv (fun τ => ρ τ x * Y τ x s) t +
    deriv (fun ξ => ρ t ξ * Y t ξ s * v t ξ dir) x = 0

/-- Specification: the derivatives of pressure, velocities, temperature and mass fractions along a
line. -/
noncomputable def primDeriv (m : Mechanism S ℝ) (ρ T : ℝ → ℝ) (v : ℝ → Fin d → ℝ) (Y : ℝ → S → ℝ)
    (z : ℝ) : IgmPrim d S :=
  ⟨deriv (fun ζ => mixPressure m (ρ ζ) (T ζ) (Y ζ)) z, fun i => deriv (fun ζ => v ζ i) z,
    deriv T z, fun s => deriv (fun ζ => Y ζ s) z⟩

/-- Specification: `w + a * x + b * y`. -/
def igmPrimComb (w : IgmPrim d S) (a : ℝ) (x : IgmPrim d S) (b : ℝ) (y : IgmPrim d S) :
    IgmPrim d S :=
  ⟨w.pressure + a * x.pressure + b * y.pressure,
    fun i => w.velocity i + a * x.velocity i + b * y.velocity i,
    w.temperature + a * x.temperature + b * y.temperature,
    fun s => w.massFractions s + a * x.massFractions s + b * y.massFractions s⟩

/-- Specification: all components multiplied by `h`. -/
def igmPrimScale (h : ℝ) (x : IgmPrim d S) : IgmPrim d S :=
  ⟨h * x.pressure, fun i => h * x.velocity i, h * x.temperature, fun s => h * x.massFractions s⟩

/-! ## Proofs -/

theorem mixPressure_deriv (m : Mechanism S ℝ) {ρ T : ℝ → ℝ} {Y : ℝ → S → ℝ} {z ρ' T' : ℝ}
    {Y' : S → ℝ} (hρ : HasDerivAt ρ ρ' z) (hT : HasDerivAt T T' z)
    (hY : ∀ s, HasDerivAt (fun ζ => Y ζ s) (Y' s) z) :
    HasDerivAt (fun ζ => mixPressure m (ρ ζ) (T ζ) (Y ζ))
      (m.gasConstant * (ρ' * T z * (∑ i, Y z i / m.molarMass i) +
        ρ z * T' * (∑ i, Y z i / m.molarMass i) + ρ z * T z * ∑ i, Y' i / m.molarMass i)) z := by
  unfold mixPressure
  have hsum : HasDerivAt (fun ζ => ∑ i, Y ζ i / m.molarMass i) (∑ i, Y' i / m.molarMass i) z :=
    HasDerivAt.fun_sum fun i _ => (hY i).div_const _
  exact (((hρ.mul_const m.gasConstant).fun_mul hT).fun_mul hsum).congr_deriv (by ring)

theorem mixEnergy_deriv (m : Mechanism S ℝ) {ρ T : ℝ → ℝ} {v : ℝ → Fin d → ℝ} {Y : ℝ → S → ℝ}
    {z ρ' T' : ℝ} {v' : Fin d → ℝ} {Y' : S → ℝ} (hρ : HasDerivAt ρ ρ' z) (hT : HasDerivAt T T' z)
    (hv : ∀ i, HasDerivAt (fun ζ => v ζ i) (v' i) z)
    (hY : ∀ s, HasDerivAt (fun ζ => Y ζ s) (Y' s) z)
    (hth : ∀ s, HasDerivAt (fun θ => (m.thermo θ).1 s) ((m.thermo (T z)).2 s) (T z)) :
    HasDerivAt (fun ζ => mixEnergy m (ρ ζ) (T ζ) (v ζ) (Y ζ))
      (ρ' * (∑ i, Y z i * ((m.thermo (T z)).1 i - m.gasConstant / m.molarMass i * T z)) +
        ρ z * ((∑ i, Y' i * ((m.thermo (T z)).1 i - m.gasConstant / m.molarMass i * T z)) +
          ((∑ i, (m.thermo (T z)).2 i * Y z i) - m.gasConstant * ∑ i, Y z i / m.molarMass i) * T') +
        1 / 2 * ρ' * (∑ i, v z i * v z i) + ρ z * ∑ i, v z i * v' i) z := by
  unfold mixEnergy
  have h1 : HasDerivAt (fun ζ => ∑ i, Y ζ i * ((m.thermo (T ζ)).1 i -
      m.gasConstant / m.molarMass i * T ζ))
      (∑ i, (Y' i * ((m.thermo (T z)).1 i - m.gasConstant / m.molarMass i * T z) +
        Y z i * ((m.thermo (T z)).2 i * T' - m.gasConstant / m.molarMass i * T'))) z :=
    HasDerivAt.fun_sum fun i _ => (hY i).fun_mul (((hth i).comp z hT).fun_sub (hT.const_mul _))
  have h2 : HasDerivAt (fun ζ => ∑ i, v ζ i * v ζ i) (∑ i, (v' i * v z i + v z i * v' i)) z :=
    HasDerivAt.fun_sum fun i _ => (hv i).fun_mul (hv i)
  have e1 : (∑ i, (Y' i * ((m.thermo (T z)).1 i - m.gasConstant / m.molarMass i * T z) +
        Y z i * ((m.thermo (T z)).2 i * T' - m.gasConstant / m.molarMass i * T'))) =
      (∑ i, Y' i * ((m.thermo (T z)).1 i - m.gasConstant / m.molarMass i * T z)) +
      ((∑ i, (m.thermo (T z)).2 i * Y z i) - m.gasConstant * ∑ i, Y z i / m.molarMass i) * T' := by
    rw [Finset.sum_add_distrib, Finset.mul_sum, ← Finset.sum_sub_distrib, Finset.sum_mul]
    congr 1
    exact Finset.sum_congr rfl fun i _ => by ring
  have e2 : (∑ i, (v' i * v z i + v z i * v' i)) = 2 * ∑ i, v z i * v' i := by
    rw [Finset.mul_sum]
    exact Finset.sum_congr rfl fun i _ => by ring
  rw [e1] at h1
  rw [e2] at h2
  exact ((hρ.fun_mul h1).fun_add ((hρ.const_mul (1 / 2)).fun_mul h2)).congr_deriv (by ring)

/-- **C139** The predictor is exact to first order for every smooth flow: at a point where fields of
density, temperature, velocity and mass fractions solve the Euler equations of the mixture and where
the heat capacities of the mechanism are the derivatives of its enthalpies, the time derivatives
which the method computes from the space derivatives of pressure, velocity, temperature and mass
fractions are the time derivatives of these quantities. -/
theorem igm_predictor_euler (m : Mechanism S ℝ) (dir : Fin d) (ρ T : ℝ → ℝ → ℝ)
    (v : ℝ → ℝ → Fin d → ℝ) (Y : ℝ → ℝ → S → ℝ) (t x : ℝ)
    (h : SolvesEuler m dir ρ T v Y t x) (q : IgmComplete d S)
    (hq : IsMixture m (ρ t x) (v t x) (Y t x) (T t x) q)
    (hth : ∀ s, HasDerivAt (fun θ => (m.thermo θ).1 s) ((m.thermo (T t x)).2 s) (T t x))
    (hρ : ρ t x ≠ 0) (hT : T t x ≠ 0)
    (hR : m.gasConstant * ∑ i, Y t x i / m.molarMass i ≠ 0) (hcp : q.cp ≠ 0)
    (hcv : q.cp - m.gasConstant * ∑ i, Y t x i / m.molarMass i ≠ 0) :
    igmPrimDerivatives m q (primDeriv m (fun ξ => ρ t ξ) (fun ξ => T t ξ) (fun ξ => v t ξ)
      (fun ξ => Y t ξ) x) dir =
    primDeriv m (fun τ => ρ τ x) (fun τ => T τ x) (fun τ => v τ x) (fun τ => Y τ x) t := by
  obtain ⟨⟨dρt, dρx⟩, ⟨dTt, dTx⟩, dv, dY, hmass, hmom, hen, hsp⟩ := h
  have dρt := dρt.hasDerivAt
  have dρx := dρx.hasDerivAt
  have dTt := dTt.hasDerivAt
  have dTx := dTx.hasDerivAt
  have dvt := fun i => (dv i).1.hasDerivAt
  have dvx := fun i => (dv i).2.hasDerivAt
  have dYt := fun i => (dY i).1.hasDerivAt
  have dYx := fun i => (dY i).2.hasDerivAt
  have hpx := mixPressure_deriv m dρx dTx dYx
  have hpt := mixPressure_deriv m dρt dTt dYt
  have hEx := mixEnergy_deriv m dρx dTx dvx dYx hth
  have hEt := mixEnergy_deriv m dρt dTt dvt dYt hth
  -- the conservation laws as algebraic equations
  rw [(dρx.fun_mul (dvx dir)).deriv] at hmass
  have hmom' : ∀ i, ρ t x * (deriv (fun τ => v τ x i) t + v t x dir * deriv (fun ξ => v t ξ i) x) +
      (if i = dir then deriv (fun ξ => mixPressure m (ρ t ξ) (T t ξ) (Y t ξ)) x else 0) = 0 := by
    intro i
    have e := hmom i
    rw [(dρt.fun_mul (dvt i)).deriv] at e
    by_cases hi : i = dir
    · simp only [hi, if_true] at e ⊢
      rw [(((dρx.fun_mul (dvx dir)).fun_mul (dvx dir)).fun_add hpx.differentiableAt.hasDerivAt).deriv] at e
      linear_combination e - v t x dir * hmass
    · simp only [hi, if_false] at e ⊢
      rw [(((dρx.fun_mul (dvx i)).fun_mul (dvx dir)).fun_add (hasDerivAt_const x (0 : ℝ))).deriv] at e
      linear_combination e - v t x i * hmass
  have hsp' : ∀ s, deriv (fun τ => Y τ x s) t = -v t x dir * deriv (fun ξ => Y t ξ s) x := by
    intro s
    have e := hsp s
    rw [(dρt.fun_mul (dYt s)).deriv, ((dρx.fun_mul (dYx s)).fun_mul (dvx dir)).deriv] at e
    have e2 : ρ t x * (deriv (fun τ => Y τ x s) t + v t x dir * deriv (fun ξ => Y t ξ s) x) = 0 := by
      linear_combination e - Y t x s * hmass
    have e3 := (mul_eq_zero.1 e2).resolve_left hρ
    linear_combination e3
  rw [hEt.deriv, ((hEx.fun_add hpx.differentiableAt.hasDerivAt).fun_mul (dvx dir)).deriv] at hen
  have hsumY : ∀ g : S → ℝ, ∑ i, deriv (fun τ => Y τ x i) t * g i =
      -v t x dir * ∑ i, deriv (fun ξ => Y t ξ i) x * g i := by
    intro g
    rw [Finset.mul_sum]
    exact Finset.sum_congr rfl fun i _ => by rw [hsp' i]; ring
  have hsumX : ∑ i, deriv (fun τ => Y τ x i) t / m.molarMass i =
      -v t x dir * ∑ i, deriv (fun ξ => Y t ξ i) x / m.molarMass i := by
    have := hsumY fun i => (m.molarMass i)⁻¹
    simpa only [div_eq_mul_inv] using this
  have hsumV : ρ t x * (∑ i, v t x i * deriv (fun τ => v τ x i) t +
      v t x dir * ∑ i, v t x i * deriv (fun ξ => v t ξ i) x) +
      v t x dir * deriv (fun ξ => mixPressure m (ρ t ξ) (T t ξ) (Y t ξ)) x = 0 := by
    have e : ∑ i, v t x i * (ρ t x * (deriv (fun τ => v τ x i) t + v t x dir *
        deriv (fun ξ => v t ξ i) x) + (if i = dir then
        deriv (fun ξ => mixPressure m (ρ t ξ) (T t ξ) (Y t ξ)) x else 0)) = 0 :=
      Finset.sum_eq_zero fun i _ => by rw [hmom' i, mul_zero]
    have e2 : ∀ i, v t x i * (ρ t x * (deriv (fun τ => v τ x i) t + v t x dir *
        deriv (fun ξ => v t ξ i) x) + (if i = dir then
        deriv (fun ξ => mixPressure m (ρ t ξ) (T t ξ) (Y t ξ)) x else 0)) =
        ρ t x * (v t x i * deriv (fun τ => v τ x i) t) +
        ρ t x * (v t x dir * (v t x i * deriv (fun ξ => v t ξ i) x)) +
        (if i = dir then v t x i * deriv (fun ξ => mixPressure m (ρ t ξ) (T t ξ) (Y t ξ)) x else 0) := by
      intro i
      by_cases hi : i = dir
      · simp only [hi, if_true]; ring
      · simp only [hi, if_false]; ring
    simp only [e2, Finset.sum_add_distrib, ← Finset.mul_sum, Finset.sum_ite_eq',
      Finset.mem_univ, if_true] at e
    linear_combination e
  rw [hsumY] at hen
  -- temperature
  have hcpq := hq.cp
  have hTt : ρ t x * (q.cp - m.gasConstant * ∑ i, Y t x i / m.molarMass i) *
      (deriv (fun τ => T τ x) t + v t x dir * deriv (fun ξ => T t ξ) x) =
      -q.pressure * deriv (fun ξ => v t ξ dir) x := by
    rw [hcpq, hq.pressure]
    unfold mixEnergy at hen
    have hpp : mixPressure m (ρ t x) (T t x) (Y t x) =
      ρ t x * m.gasConstant * T t x * ∑ i, Y t x i / m.molarMass i := rfl
    rw [hpp] at hen
    linear_combination hen - (∑ i, Y t x i * ((m.thermo (T t x)).1 i -
      m.gasConstant / m.molarMass i * T t x) + 1 / 2 * ∑ i, v t x i * v t x i) * hmass - hsumV
  -- the members of the code
  have hu : q.momentum dir / q.density = v t x dir := by
    rw [hq.momentum, hq.density]; field_simp
  have hcvq : q.cp / q.gamma = q.cp - m.gasConstant * ∑ i, Y t x i / m.molarMass i := by
    rw [hq.gamma]; field_simp
  have hp := hq.pressure
  have hd := hq.density
  have htemp := hq.temperature
  have hpx' := hpx.deriv
  unfold igmPrimDerivatives primDeriv
  dsimp only
  rw [hu, hcvq, htemp, hd, hpt.deriv, hsumX]
  have hdT : (-q.pressure * deriv (fun ξ => v t ξ dir) x -
      ρ t x * v t x dir * (q.cp - m.gasConstant * ∑ i, Y t x i / m.molarMass i) *
        deriv (fun ξ => T t ξ) x) / (ρ t x * (q.cp - m.gasConstant * ∑ i, Y t x i / m.molarMass i)) =
      deriv (fun τ => T τ x) t := by
    rw [div_eq_iff (mul_ne_zero hρ hcv)]
    linear_combination -hTt
  rw [hdT]
  ext i
  · dsimp only
    rw [sub_sub_cancel, hpx', hp]
    have hmass' : deriv (fun τ => ρ τ x) t = -(deriv (fun ξ => ρ t ξ) x * v t x dir +
      ρ t x * deriv (fun ξ => v t ξ dir) x) := by linear_combination hmass
    rw [hmass']
    generalize deriv (fun ξ => ρ t ξ) x = ρx
    generalize deriv (fun ξ => T t ξ) x = Tx
    generalize deriv (fun τ => T τ x) t = Tt
    generalize deriv (fun ξ => v t ξ dir) x = ux
    generalize (∑ i, deriv (fun ξ => Y t ξ i) x / m.molarMass i) = Xx
    generalize (∑ i, Y t x i / m.molarMass i) = X at *
    generalize m.gasConstant = Rh at *
    generalize ρ t x = r at *
    generalize T t x = θ at *
    generalize v t x dir = u
    have h1 : Rh ≠ 0 := left_ne_zero_of_mul hR
    have h2 : X ≠ 0 := right_ne_zero_of_mul hR
    field_simp
    ring
  · dsimp only
    have e := hmom' i
    by_cases hi : i = dir
    · simp only [hi, if_true] at e ⊢
      field_simp
      linear_combination -e
    · simp only [hi, if_false] at e ⊢
      have e2 := (mul_eq_zero.1 (by simpa using e)).resolve_left hρ
      linear_combination -e2
  · rfl
  · dsimp only
    rw [hsp']

/-- **C139** The two states at the faces of a cell, scalar version, and all of them but one
temperature in the array versions: with exact slopes they are the first order expansion of the flow
at the face after half a time step. -/
theorem igm_face_taylor (m : Mechanism S ℝ) (dir : Fin d) (q : IgmComplete d S) (w g : IgmPrim d S)
    (dt dx : ℝ) (hdx : dx ≠ 0) :
    igmUpper (dt / dx) w (igmPrimScale dx g) (igmPrimDerivatives m q (igmPrimScale dx g) dir) =
      igmPrimComb w (dx / 2) g (dt / 2) (igmPrimDerivatives m q g dir) ∧
    igmLower (dt / dx) w (igmPrimScale dx g) (igmPrimDerivatives m q (igmPrimScale dx g) dir) =
      igmPrimComb w (-(dx / 2)) g (dt / 2) (igmPrimDerivatives m q g dir) ∧
    igmLowerLane (dt / dx) w (igmPrimScale dx g) (igmPrimDerivatives m q (igmPrimScale dx g) dir) =
      { igmPrimComb w (-(dx / 2)) g (dt / 2) (igmPrimDerivatives m q g dir) with
        temperature := (igmPrimComb w (dx / 2) g (-(dt / 2))
          (igmPrimDerivatives m q g dir)).temperature } := by
  have hlin : igmPrimDerivatives m q (igmPrimScale dx g) dir =
      igmPrimScale dx (igmPrimDerivatives m q g dir) := by
    have hs : ∑ s, dx * g.massFractions s / m.molarMass s =
        dx * ∑ s, g.massFractions s / m.molarMass s := by
      rw [Finset.mul_sum]
      exact Finset.sum_congr rfl fun i _ => by ring
    unfold igmPrimDerivatives igmPrimScale
    dsimp only
    rw [hs]
    ext i
    · dsimp only; ring
    · dsimp only
      by_cases hi : i = dir
      · simp only [hi, if_true]; ring
      · simp only [hi, if_false]; ring
    · dsimp only; ring
    · dsimp only; ring
  rw [hlin]
  generalize igmPrimDerivatives m q g dir = f
  refine ⟨?_, ?_, ?_⟩
  · ext i <;> simp only [igmUpper, igmPrimScale, igmPrimComb] <;> field_simp <;> ring
  · ext i <;> simp only [igmLower, igmPrimScale, igmPrimComb] <;> field_simp <;> ring
  · ext i <;> simp only [igmLowerLane, igmPrimScale, igmPrimComb] <;> field_simp <;> ring

/-! ## A concrete flow -/

/-- A mechanism with one species, molar mass and gas constant one and constant heat capacity. -/
noncomputable def unitGas : Mechanism Unit ℝ where
  molarMass _ := 1
  thermo T := (fun _ => 7 / 2 * T, fun _ => 7 / 2)
  production _ _ _ _ := 0
  gasConstant := 1

/-- A temperature profile which moves to the right with velocity one at constant pressure solves the
Euler equations in the sense of `SolvesEuler`. -/
theorem entropyWave_solves : SolvesEuler unitGas (0 : Fin 1) (fun t x => (2 + x - t)⁻¹)
    (fun t x => 2 + x - t) (fun _ _ _ => 1) (fun _ _ _ => 1) 0 0 := by
  have hTt : HasDerivAt (fun τ : ℝ => 2 + (0 : ℝ) - τ) (-1) 0 :=
    ((hasDerivAt_const (0 : ℝ) (2 + (0 : ℝ))).fun_sub (hasDerivAt_id' (0 : ℝ))).congr_deriv (by norm_num)
  have hTx : HasDerivAt (fun ξ : ℝ => 2 + ξ - (0 : ℝ)) 1 0 :=
    (((hasDerivAt_const (0 : ℝ) (2 : ℝ)).fun_add (hasDerivAt_id' (0 : ℝ))).fun_sub
      (hasDerivAt_const (0 : ℝ) (0 : ℝ))).congr_deriv (by norm_num)
  have hρt : HasDerivAt (fun τ : ℝ => (2 + (0 : ℝ) - τ)⁻¹) (1 / 4) 0 :=
    (hTt.fun_inv (by norm_num)).congr_deriv (by norm_num)
  have hρx : HasDerivAt (fun ξ : ℝ => (2 + ξ - (0 : ℝ))⁻¹) (-(1 / 4)) 0 :=
    (hTx.fun_inv (by norm_num)).congr_deriv (by norm_num)
  have hc : HasDerivAt (fun _ : ℝ => (1 : ℝ)) 0 0 := hasDerivAt_const _ _
  have hth : ∀ (θ : ℝ) (s : Unit), HasDerivAt (fun θ => (unitGas.thermo θ).1 s)
      ((unitGas.thermo θ).2 s) θ := fun θ _ =>
    ((hasDerivAt_id' θ).const_mul (7 / 2)).congr_deriv (by simp [unitGas])
  have hpx := mixPressure_deriv unitGas (Y := fun _ _ => 1) (Y' := fun _ => 0) hρx hTx fun _ => hc
  have hEt := mixEnergy_deriv unitGas (v := fun _ (_ : Fin 1) => 1) (v' := fun _ => 0)
    (Y := fun _ _ => 1) (Y' := fun _ => 0) hρt hTt (fun _ => hc) (fun _ => hc) (hth _)
  have hEx := mixEnergy_deriv unitGas (v := fun _ (_ : Fin 1) => 1) (v' := fun _ => 0)
    (Y := fun _ _ => 1) (Y' := fun _ => 0) hρx hTx (fun _ => hc) (fun _ => hc) (hth _)
  refine ⟨⟨hρt.differentiableAt, hρx.differentiableAt⟩, ⟨hTt.differentiableAt, hTx.differentiableAt⟩,
    fun _ => ⟨hc.differentiableAt, hc.differentiableAt⟩,
    fun _ => ⟨hc.differentiableAt, hc.differentiableAt⟩, ?_, fun i => ?_, ?_, fun s => ?_⟩
  · rw [hρt.deriv, (hρx.fun_mul hc).deriv]
    norm_num
  · simp only [Subsingleton.elim i 0, if_true]
    rw [(hρt.fun_mul hc).deriv, (((hρx.fun_mul hc).fun_mul hc).fun_add hpx).deriv]
    norm_num [unitGas]
  · rw [hEt.deriv, ((hEx.fun_add hpx).fun_mul hc).deriv]
    norm_num [unitGas]
  · rw [(hρt.fun_mul hc).deriv, ((hρx.fun_mul hc).fun_mul hc).deriv]
    norm_num

/-- The state of the entropy wave at `(0, 0)`. -/
noncomputable def entropyWaveState : IgmComplete 1 Unit :=
  ⟨⟨1 / 2, fun _ => 1 / 2, 11 / 4, fun _ => 1 / 2⟩, 1, Real.sqrt (7 / 5 * 1 / (1 / 2)), 2, 7 / 2, 7 / 5⟩

/-- The hypotheses of `igm_predictor_euler` hold for the entropy wave. -/
example : IsMixture unitGas (1 / 2) (fun _ : Fin 1 => 1) (fun _ => 1) 2 entropyWaveState ∧
    (2 + (0 : ℝ) - 0)⁻¹ = 1 / 2 ∧ (2 : ℝ) + 0 - 0 = 2 ∧
    unitGas.gasConstant * ∑ i : Unit, (1 : ℝ) / unitGas.molarMass i ≠ 0 ∧
    entropyWaveState.cp ≠ 0 ∧
    entropyWaveState.cp - unitGas.gasConstant * ∑ i : Unit, (1 : ℝ) / unitGas.molarMass i ≠ 0 := by
  refine ⟨⟨rfl, ?_, ?_, ?_, rfl, ?_, ?_, ?_, rfl⟩, ?_, ?_, ?_, ?_, ?_⟩ <;>
    norm_num [entropyWaveState, unitGas]

end

end Fub
