import Verif.Model.Diffusion
import Verif.Props.AxialTube
import Verif.Props.GasMix

/-!
C88 (diffusion source term), C89 (copies of it and its time step).
-/

namespace Fub
open Finset
variable {s t : ℕ}

/-- **C88.** Nothing diffuses between cells with the same velocity, enthalpy and composition, and never mass or passive scalars. -/
theorem diff_flux_zero (T : DiffTerm) (l r : MixCons 0 s t) (dxInv : ℝ) :
    ((diffFlux T l r dxInv).density = 0 ∧ (diffFlux T l r dxInv).scalars = 0) ∧
    (l.momentum 0 / l.density = r.momentum 0 / r.density → diffEnthalpy T.eq l (1 / l.density) = diffEnthalpy T.eq r (1 / r.density) →
      (∀ i, l.species i / l.density = r.species i / r.density) → diffFlux T l r dxInv = ⟨0, 0, 0, 0, 0⟩) := by
  refine ⟨⟨rfl, rfl⟩, fun hu hh hY => ?_⟩
  have hu' : l.momentum 0 * (1 / l.density) = r.momentum 0 * (1 / r.density) := by rw [mul_one_div, mul_one_div, hu]
  have hY' : ∀ i, l.species i * (1 / l.density) = r.species i * (1 / r.density) := fun i => by rw [mul_one_div, mul_one_div, hY]
  ext i
  · rfl
  · simp only [diffFlux, hu']; simp
  · simp only [diffFlux, hu', hh]; simp
  · simp only [diffFlux, hY']; simp
  · rfl

/-- **C88.** The fluxes go against the gradients: momentum from fast to slow, species from high to low mass fraction, and without a velocity difference energy from high to low enthalpy. -/
theorem diff_flux_down (T : DiffTerm) (h1 : 0 ≤ T.constants.fourThirdMu) (h2 : 0 ≤ T.constants.muPr) (h3 : 0 ≤ T.constants.muSc) (l r : MixCons 0 s t) {dxInv : ℝ} (hdx : 0 ≤ dxInv) :
    (diffFlux T l r dxInv).momentum 0 * (r.momentum 0 / r.density - l.momentum 0 / l.density) ≤ 0 ∧
    (∀ i, (diffFlux T l r dxInv).species i * (r.species i / r.density - l.species i / l.density) ≤ 0) ∧
    (l.momentum 0 / l.density = r.momentum 0 / r.density →
      (diffFlux T l r dxInv).energy * (diffEnthalpy T.eq r (1 / r.density) - diffEnthalpy T.eq l (1 / l.density)) ≤ 0) := by
  have sq : ∀ {a x : ℝ}, 0 ≤ a → -a * (x * dxInv) * x ≤ 0 := by
    intro a x ha
    have := mul_nonneg (mul_nonneg ha hdx) (mul_self_nonneg x)
    nlinarith
  refine ⟨?_, fun i => ?_, fun hu => ?_⟩
  · simp only [diffFlux, mul_one_div]; exact sq h1
  · simp only [diffFlux, mul_one_div]; exact sq h3
  · have hu' : l.momentum 0 * (1 / l.density) = r.momentum 0 * (1 / r.density) := by rw [mul_one_div, mul_one_div, hu]
    simp only [diffFlux, hu', sub_self, zero_mul, mul_zero, zero_add, ← neg_mul]
    exact sq h2

/-- **C88.** The coefficients: the viscous stress is `4/3 μ/Re ∂u/∂x`, species diffuse with `μ/(Re Sc)` and, without a velocity difference,
energy with `μ/(Re Pr)`, for the numbers of the options. -/
theorem diff_coefficients (eq : MixEq) (o : DiffOptions) (l r : MixCons 0 s t) (dx : ℝ) :
    (diffFlux (DiffTerm.new eq o) l r (1 / dx)).momentum 0 =
      -(4 / 3 * (o.mul / o.reynolds)) * ((r.momentum 0 / r.density - l.momentum 0 / l.density) / dx) ∧
    (∀ i, (diffFlux (DiffTerm.new eq o) l r (1 / dx)).species i =
      -(o.mul / (o.reynolds * o.schmidt)) * ((r.species i / r.density - l.species i / l.density) / dx)) ∧
    (l.momentum 0 / l.density = r.momentum 0 / r.density → (diffFlux (DiffTerm.new eq o) l r (1 / dx)).energy =
      -(o.mul / (o.reynolds * o.prandtl)) * ((diffEnthalpy eq r (1 / r.density) - diffEnthalpy eq l (1 / l.density)) / dx)) := by
  refine ⟨?_, fun i => ?_, fun hu => ?_⟩
  · simp only [diffFlux, DiffTerm.new, diffConstants]; ring
  · simp only [diffFlux, DiffTerm.new, diffConstants, one_div, div_eq_mul_inv, mul_inv]; ring
  · have hu' : l.momentum 0 * (1 / l.density) = r.momentum 0 * (1 / r.density) := by rw [mul_one_div, mul_one_div, hu]
    simp only [diffFlux, DiffTerm.new, diffConstants, hu', sub_self, zero_mul, mul_zero, zero_add]
    simp only [div_eq_mul_inv, mul_inv]
    ring

/-- **C88.** The enthalpy whose gradient drives the heat flux is the specific enthalpy `e + p / ρ` of the gas. -/
theorem diff_enthalpy (Rspec gamma : ℝ) (hR : 0 < Rspec) (hg : 1 < gamma) {u : MixCons 0 s t} {q : MixComplete 0 s t} (hq : mixComplete (computeConstants Rspec gamma) u = some q) :
    diffEnthalpy (computeConstants Rspec gamma) u (1 / u.density) = mixInternalEnergy (computeConstants Rspec gamma) q.toMixCons + q.pressure / q.density := by
  have hg' : gamma - 1 ≠ 0 := by linarith
  have hM : (computeConstants Rspec gamma).Msq = 1 := by
    simp only [computeConstants]
    have hx : (0:ℝ) ≤ Rspec * 300 := by positivity
    rw [Real.mul_self_sqrt hx]
    exact div_self (by positivity)
  simp only [mixComplete, hM, one_mul] at hq
  split at hq
  · split at hq
    · rename_i h1 h2
      cases hq
      have hρ : u.density ≠ 0 := h2.2.ne'
      simp only [diffEnthalpy, mixInternalEnergy, hM, one_mul, computeConstants, gasKinetic]
      have e : ∑ i : Fin (0 + 1), u.momentum i * u.momentum i = u.momentum 0 * u.momentum 0 := Fin.sum_univ_one _
      rw [e]
      have hx : Real.sqrt (Rspec * 300) ^ 2 = Rspec * 300 := Real.sq_sqrt (by positivity)
      field_simp
      rw [hx]
      ring
    · cases hq
  · cases hq

section Step
variable (T : DiffTerm) (bc : (ℤ → MixCons 0 s t) → ℤ → MixCons 0 s t) (g n : ℤ) (dt dx : ℝ) (u : ℤ → MixCons 0 s t)

/-- **C88.** A step changes neither density nor passive scalars in any cell, whatever the boundary condition. -/
theorem diff_step_mass (c : ℤ) : (diffStep T bc g n dt dx u c).density = (u c).density ∧ (diffStep T bc g n dt dx u c).scalars = (u c).scalars := by
  simp only [diffStep]
  split
  · constructor
    · simp [mixUpdate, diffFlux]
    · funext i; simp [mixUpdate, diffFlux]
  · exact ⟨rfl, rfl⟩

theorem mix_telescope (F : ℤ → MixCons 0 s t) (v : ℤ → MixCons 0 s t) (k : ℝ) (get : MixCons 0 s t → ℝ)
    (hget : ∀ a b c, get (mixUpdate k a b c) = get a + k * (get b - get c)) {lo hi : ℤ} (h : lo ≤ hi) :
    ∑ c ∈ Ico lo hi, get (mixUpdate k (v c) (F c) (F (c + 1))) = ∑ c ∈ Ico lo hi, get (v c) + k * (get (F lo) - get (F hi)) := by
  simp only [hget]
  rw [sum_add_distrib, ← mul_sum, sum_Ico_int_telescope (fun c => get (F c)) h]

/-- **C88.** A step conserves: there are fluxes at the ends of the patch, computed from the half time step state with the boundary condition, that account for the whole change of momentum, energy and
species in the patch. -/
theorem diff_step_conserves (hg : 2 ≤ g) (hn : 0 ≤ n) :
    let aux := bc (diffHalf T g n dt dx u)
    let F := fun i => diffFlux T (aux (i - 1)) (aux i) (1 / dx)
    ∑ c ∈ Ico 0 n, (diffStep T bc g n dt dx u c).momentum 0 = ∑ c ∈ Ico 0 n, (u c).momentum 0 + dt / dx * ((F 0).momentum 0 - (F n).momentum 0) ∧
    ∑ c ∈ Ico 0 n, (diffStep T bc g n dt dx u c).energy = ∑ c ∈ Ico 0 n, (u c).energy + dt / dx * ((F 0).energy - (F n).energy) ∧
    ∀ i, ∑ c ∈ Ico 0 n, (diffStep T bc g n dt dx u c).species i = ∑ c ∈ Ico 0 n, (u c).species i + dt / dx * ((F 0).species i - (F n).species i) := by
  intro aux F
  have hc : ∀ c ∈ Ico 0 n, diffStep T bc g n dt dx u c = mixUpdate (dt / dx) (u c) (F c) (F (c + 1)) := by
    intro c hc
    rw [mem_Ico] at hc
    simp only [diffStep]
    rw [if_pos ⟨by omega, by omega⟩]
  refine ⟨?_, ?_, fun i => ?_⟩
  · rw [← mix_telescope F u (dt / dx) (fun q => q.momentum 0) (fun _ _ _ => rfl) hn]
    exact sum_congr rfl fun c h => by rw [hc c h]
  · rw [← mix_telescope F u (dt / dx) (fun q => q.energy) (fun _ _ _ => rfl) hn]
    exact sum_congr rfl fun c h => by rw [hc c h]
  · rw [← mix_telescope F u (dt / dx) (fun q => q.species i) (fun _ _ _ => rfl) hn]
    exact sum_congr rfl fun c h => by rw [hc c h]

end Step

/-- One diffusion stage in terms of the mass fraction. -/
theorem diff_stage_fraction (T : DiffTerm) (w : ℤ → MixCons 0 s t) (v : MixCons 0 s t) {dx : ℝ} (hdx : 0 < dx) (τ : ℝ) (c : ℤ) (i : Fin s) (hρ : v.density = (w c).density) (h0 : 0 < (w c).density) :
    (mixUpdate (τ / dx) v (diffFlux T (w (c - 1)) (w c) (1 / dx)) (diffFlux T (w (c + 1 - 1)) (w (c + 1)) (1 / dx))).species i / (w c).density
      = v.species i / v.density + T.constants.muSc * τ / ((w c).density * dx ^ 2) *
        ((w (c - 1)).species i / (w (c - 1)).density - 2 * ((w c).species i / (w c).density) + (w (c + 1)).species i / (w (c + 1)).density) := by
  have e : c + 1 - 1 = c := by ring
  simp only [mixUpdate, diffFlux, e, mul_one_div]
  rw [hρ]
  generalize (w (c - 1)).species i / (w (c - 1)).density = a
  generalize (w (c + 1)).species i / (w (c + 1)).density = b
  field_simp
  ring

theorem diff_max_lemma {k0 k1 k2 y0 y1 y2 y3 y4 m : ℝ} (h0 : 0 ≤ k0) (h1 : 0 ≤ k1) (h2 : 0 ≤ k2) (b0 : k0 ≤ 1 / 2) (b1 : k1 ≤ 1 / 2) (b2 : k2 ≤ 1 / 2)
    (m0 : m ≤ y0) (m1 : m ≤ y1) (m2 : m ≤ y2) (m3 : m ≤ y3) (m4 : m ≤ y4) :
    m ≤ y2 + k1 * ((y1 + k0 / 2 * (y0 - 2 * y1 + y2)) - 2 * (y2 + k1 / 2 * (y1 - 2 * y2 + y3)) + (y3 + k2 / 2 * (y2 - 2 * y3 + y4))) := by
  have c0 : 0 ≤ k1 * (k0 / 2) := by positivity
  have c4 : 0 ≤ k1 * (k2 / 2) := by positivity
  have c1 : 0 ≤ k1 * (1 - k0 - k1) := mul_nonneg h1 (by linarith)
  have c3 : 0 ≤ k1 * (1 - k2 - k1) := mul_nonneg h1 (by linarith)
  have c2 : 0 ≤ 1 - 2 * k1 + 2 * k1 * k1 + k1 * (k0 / 2) + k1 * (k2 / 2) := by nlinarith [mul_self_nonneg (k1 - 1 / 2)]
  have t0 := mul_nonneg c0 (sub_nonneg.2 m0)
  have t1 := mul_nonneg c1 (sub_nonneg.2 m1)
  have t2 := mul_nonneg c2 (sub_nonneg.2 m2)
  have t3 := mul_nonneg c3 (sub_nonneg.2 m3)
  have t4 := mul_nonneg c4 (sub_nonneg.2 m4)
  nlinarith

/-- The hypotheses of the maximum principle for the cell `c`: a region of the patch where the boundary condition does not act, positive densities and steps with `muSc dt ≤ ρ dx² / 2`. -/
structure DiffInterior (T : DiffTerm) (bc : (ℤ → MixCons 0 s t) → ℤ → MixCons 0 s t) (g n : ℤ) (dt dx : ℝ) (u : ℤ → MixCons 0 s t) (c : ℤ) : Prop where
  dx_pos : 0 < dx
  dt_nonneg : 0 ≤ dt
  mu_nonneg : 0 ≤ T.constants.muSc
  range : -(g - 2) ≤ c ∧ c < n + (g - 2)
  bc_id : ∀ j, j = c - 1 ∨ j = c ∨ j = c + 1 → bc (diffHalf T g n dt dx u) j = diffHalf T g n dt dx u j
  pos : ∀ j, 0 < (u j).density
  small : ∀ j, j = c - 1 ∨ j = c ∨ j = c + 1 → T.constants.muSc * dt ≤ 1 / 2 * ((u j).density * dx ^ 2)

theorem diff_half_density (T : DiffTerm) (g n : ℤ) (dt dx : ℝ) (u : ℤ → MixCons 0 s t) (c : ℤ) : (diffHalf T g n dt dx u c).density = (u c).density := by
  simp only [diffHalf]; split
  · simp [mixUpdate, diffFlux]
  · rfl

/-- The new mass fraction as a function of the five old ones. -/
theorem diff_step_fraction {T : DiffTerm} {bc : (ℤ → MixCons 0 s t) → ℤ → MixCons 0 s t} {g n : ℤ} {dt dx : ℝ} {u : ℤ → MixCons 0 s t} {c : ℤ}
    (h : DiffInterior T bc g n dt dx u c) (i : Fin s) :
    let y := fun j => (u j).species i / (u j).density
    let k := fun j => T.constants.muSc * dt / ((u j).density * dx ^ 2)
    (diffStep T bc g n dt dx u c).species i / (u c).density = y c + k c * ((y (c - 1) + k (c - 1) / 2 * (y (c - 1 - 1) - 2 * y (c - 1) + y (c - 1 + 1)))
      - 2 * (y c + k c / 2 * (y (c - 1) - 2 * y c + y (c + 1))) + (y (c + 1) + k (c + 1) / 2 * (y (c + 1 - 1) - 2 * y (c + 1) + y (c + 1 + 1)))) := by
  intro y k
  obtain ⟨r1, r2⟩ := h.range
  have half : ∀ j, j = c - 1 ∨ j = c ∨ j = c + 1 → (diffHalf T g n dt dx u j).species i / (u j).density = y j + k j / 2 * (y (j - 1) - 2 * y j + y (j + 1)) := by
    intro j hj
    simp only [diffHalf]
    rw [if_pos ⟨by omega, by omega⟩]
    have e : (1 / 2 * dt / dx) = (dt / 2) / dx := by ring
    rw [e, diff_stage_fraction T u (u j) h.dx_pos (dt / 2) j i rfl (h.pos j)]
    have : T.constants.muSc * (dt / 2) / ((u j).density * dx ^ 2) = k j / 2 := by simp only [k]; ring
    rw [this]
  simp only [diffStep]
  rw [if_pos ⟨r1, r2⟩]
  have hb := h.bc_id
  have hden : (bc (diffHalf T g n dt dx u) c).density = (u c).density := by rw [hb c (by simp), diff_half_density]
  have := diff_stage_fraction T (bc (diffHalf T g n dt dx u)) (u c) h.dx_pos dt c i hden.symm (by rw [hden]; exact h.pos c)
  rw [hden] at this
  rw [this, hb c (by simp), hb (c - 1) (by simp), hb (c + 1) (by simp), diff_half_density, diff_half_density, half (c - 1) (by simp), half (c + 1) (by simp), half c (by simp)]

/-- **C88.** Maximum principle: away from the boundary the new mass fractions lie between the smallest and the largest mass fraction nearby, if the time step is at most `ρ dx² / (2 muSc)`. -/
theorem diff_species_maximum_partial {T : DiffTerm} {bc : (ℤ → MixCons 0 s t) → ℤ → MixCons 0 s t} {g n : ℤ} {dt dx : ℝ} {u : ℤ → MixCons 0 s t} {c : ℤ}
    (h : DiffInterior T bc g n dt dx u c) (i : Fin s) {m M : ℝ}
    (hm : ∀ j, c - 2 ≤ j → j ≤ c + 2 → m ≤ (u j).species i / (u j).density ∧ (u j).species i / (u j).density ≤ M) :
    m ≤ (diffStep T bc g n dt dx u c).species i / (diffStep T bc g n dt dx u c).density ∧
      (diffStep T bc g n dt dx u c).species i / (diffStep T bc g n dt dx u c).density ≤ M := by
  have hstep := diff_step_fraction h i
  have hk : ∀ j, j = c - 1 ∨ j = c ∨ j = c + 1 → 0 ≤ T.constants.muSc * dt / ((u j).density * dx ^ 2) ∧ T.constants.muSc * dt / ((u j).density * dx ^ 2) ≤ 1 / 2 := by
    intro j hj
    have hp : 0 < (u j).density * dx ^ 2 := mul_pos (h.pos j) (pow_pos h.dx_pos 2)
    refine ⟨div_nonneg (mul_nonneg h.mu_nonneg h.dt_nonneg) hp.le, ?_⟩
    rw [div_le_iff₀ hp]; exact h.small j hj
  rw [(diff_step_mass T bc g n dt dx u c).1]
  simp only at hstep
  rw [hstep]
  have e1 : c - 1 + 1 = c := by ring
  have e2 : c + 1 - 1 = c := by ring
  rw [e1, e2]
  obtain ⟨a1, b1⟩ := hk (c - 1) (by simp)
  obtain ⟨a2, b2⟩ := hk c (by simp)
  obtain ⟨a3, b3⟩ := hk (c + 1) (by simp)
  have w0 := hm (c - 1 - 1) (by omega) (by omega)
  have w1 := hm (c - 1) (by omega) (by omega)
  have w2 := hm c (by omega) (by omega)
  have w3 := hm (c + 1) (by omega) (by omega)
  have w4 := hm (c + 1 + 1) (by omega) (by omega)
  refine ⟨diff_max_lemma a1 a2 a3 b1 b2 b3 w0.1 w1.1 w2.1 w3.1 w4.1, ?_⟩
  have := diff_max_lemma a1 a2 a3 b1 b2 b3 (neg_le_neg w0.2) (neg_le_neg w1.2) (neg_le_neg w2.2) (neg_le_neg w3.2) (neg_le_neg w4.2)
  linarith

/-- **C88.** The fluxes of the species add up to zero between cells whose mass fractions have the same sum. -/
theorem diff_flux_sum (T : DiffTerm) (l r : MixCons 0 s t) (dxInv : ℝ) (h : ∑ i, l.species i / l.density = ∑ i, r.species i / r.density) :
    ∑ i, (diffFlux T l r dxInv).species i = 0 := by
  simp only [diffFlux, mul_one_div]
  rw [← mul_sum, ← sum_mul, sum_sub_distrib, h, sub_self, zero_mul, mul_zero]

/-- Two cells of a mixture of two species. -/
example : ∑ i, (fun i : Fin 2 => if i = 0 then (1 : ℝ) / 4 else 3 / 4) i / 1 = ∑ i, (fun _ : Fin 2 => (1 : ℝ)) i / 2 := by
  norm_num [Fin.sum_univ_two]

/-! ### A tube with insulating ends -/

/-- Boundary conditions through which nothing diffuses: they keep the cells of the tube and give the ghost cells next to it density and species of the first and the last cell. -/
structure InsulatingBc (bc : (ℤ → MixCons 0 s t) → ℤ → MixCons 0 s t) (n : ℤ) : Prop where
  keeps : ∀ w c, 0 ≤ c → c < n → bc w c = w c
  low : ∀ w, (bc w (-1)).density = (w 0).density ∧ (bc w (-1)).species = (w 0).species
  high : ∀ w, (bc w n).density = (w (n - 1)).density ∧ (bc w n).species = (w (n - 1)).species

/-- The copy of the nearest cell (C38) and the mirror image with reversed momentum (C37) are insulating. -/
theorem insulating_cases {n : ℤ} (hn : 1 ≤ n) :
    InsulatingBc (s := s) (t := t) (fun w c => if c < 0 then w 0 else if n ≤ c then w (n - 1) else w c) n ∧
    InsulatingBc (s := s) (t := t) (fun w c => if c < 0 then { w (-1 - c) with momentum := fun i => -(w (-1 - c)).momentum i }
      else if n ≤ c then { w (2 * n - 1 - c) with momentum := fun i => -(w (2 * n - 1 - c)).momentum i } else w c) n := by
  have e : 2 * n - 1 - n = n - 1 := by ring
  constructor
  · refine ⟨fun w c h0 h1 => ?_, fun w => ?_, fun w => ?_⟩
    · simp only [not_lt.2 h0, not_le.2 h1, if_false]
    · simp
    · simp [show ¬ n < 0 by omega]
  · refine ⟨fun w c h0 h1 => ?_, fun w => ?_, fun w => ?_⟩
    · simp only [not_lt.2 h0, not_le.2 h1, if_false]
    · simp
    · simp [show ¬ n < 0 by omega, e]

/-- Boundary conditions that keep the cells of the tube and, at each end, either copy density and species of the last cell or prescribe the mass fractions of the ghost cell. -/
structure TubeBc (bc : (ℤ → MixCons 0 s t) → ℤ → MixCons 0 s t) (n : ℤ) : Prop where
  keeps : ∀ w c, 0 ≤ c → c < n → bc w c = w c
  low : (∀ w, (bc w (-1)).density = (w 0).density ∧ (bc w (-1)).species = (w 0).species) ∨ ∃ b : Fin s → ℝ, ∀ w i, (bc w (-1)).species i / (bc w (-1)).density = b i
  high : (∀ w, (bc w n).density = (w (n - 1)).density ∧ (bc w n).species = (w (n - 1)).species) ∨ ∃ b : Fin s → ℝ, ∀ w i, (bc w n).species i / (bc w n).density = b i

theorem InsulatingBc.tube {bc : (ℤ → MixCons 0 s t) → ℤ → MixCons 0 s t} {n : ℤ} (h : InsulatingBc bc n) : TubeBc bc n := ⟨h.keeps, Or.inl h.low, Or.inl h.high⟩

/-- What a side of a cell contributes: a neighbour in the tube, a copied or a prescribed ghost cell. -/
theorem diff_side {k kl y yl yr L A m : ℝ} (h0 : 0 ≤ k) (hk : k ≤ 1 / 2) (hy : m ≤ y) (hl : m ≤ yl) (hr : m ≤ yr) (hA : A = y + k / 2 * (yl - 2 * y + yr))
    (h : (∃ yll, m ≤ yll ∧ 0 ≤ kl ∧ kl ≤ 1 / 2 ∧ L = yl + kl / 2 * (yll - 2 * yl + y)) ∨ (yl = y ∧ L = A) ∨ L = yl) :
    -(k * (1 - k)) * (y - m) ≤ k * (L - y) - k * k * (yl - y) := by
  have hk1 : 0 ≤ 1 - k := by linarith
  rcases h with ⟨yll, hll, kl0, kl1, rfl⟩ | ⟨rfl, rfl⟩ | rfl
  · have t1 : 0 ≤ k * (1 - kl - k) * (yl - m) := mul_nonneg (mul_nonneg h0 (by linarith)) (by linarith)
    have t2 : 0 ≤ k * (kl / 2) * (yll - m) := mul_nonneg (mul_nonneg h0 (by linarith)) (by linarith)
    have t3 : 0 ≤ k * (kl / 2) * (y - m) := mul_nonneg (mul_nonneg h0 (by linarith)) (by linarith)
    nlinarith
  · rw [hA]
    have t1 : 0 ≤ k * (k / 2) * (yr - m) := mul_nonneg (mul_nonneg h0 (by linarith)) (by linarith)
    have t2 : 0 ≤ k * (1 - k - k / 2) * (yl - m) := mul_nonneg (mul_nonneg h0 (by linarith)) (by linarith)
    nlinarith
  · have t1 : 0 ≤ k * (1 - k) * (L - m) := mul_nonneg (mul_nonneg h0 hk1) (by linarith)
    nlinarith

/-- The data of a tube: boundary condition, positive densities and a bound on the step size. -/
structure DiffTube (T : DiffTerm) (bc : (ℤ → MixCons 0 s t) → ℤ → MixCons 0 s t) (g n : ℤ) (dt dx : ℝ) (u : ℤ → MixCons 0 s t) : Prop where
  dx_pos : 0 < dx
  dt_nonneg : 0 ≤ dt
  mu_nonneg : 0 ≤ T.constants.muSc
  ghosts : 2 ≤ g
  cells : 1 ≤ n
  filled : ∃ w, u = bc w
  pos : ∀ c, 0 ≤ c → c < n → 0 < (u c).density
  small : ∀ c, 0 ≤ c → c < n → T.constants.muSc * dt ≤ 1 / 2 * ((u c).density * dx ^ 2)

/-- The mass fractions of the half time step and of the new state in any cell of the tube. -/
theorem diff_tube_fraction {T : DiffTerm} {bc : (ℤ → MixCons 0 s t) → ℤ → MixCons 0 s t} {g n : ℤ} {dt dx : ℝ} {u : ℤ → MixCons 0 s t} (h : DiffTube T bc g n dt dx u)
    (hb : TubeBc bc n) (i : Fin s) :
    ∃ A : ℤ → ℝ, ((A (-1) = A 0 ∧ (u (-1)).species i / (u (-1)).density = (u 0).species i / (u 0).density) ∨ A (-1) = (u (-1)).species i / (u (-1)).density) ∧
      ((A n = A (n - 1) ∧ (u n).species i / (u n).density = (u (n - 1)).species i / (u (n - 1)).density) ∨ A n = (u n).species i / (u n).density) ∧
      (∀ j, 0 ≤ j → j < n → A j = (u j).species i / (u j).density + T.constants.muSc * dt / ((u j).density * dx ^ 2) / 2 *
        ((u (j - 1)).species i / (u (j - 1)).density - 2 * ((u j).species i / (u j).density) + (u (j + 1)).species i / (u (j + 1)).density)) ∧
      ∀ c, 0 ≤ c → c < n → (diffStep T bc g n dt dx u c).species i / (diffStep T bc g n dt dx u c).density =
        (u c).species i / (u c).density + T.constants.muSc * dt / ((u c).density * dx ^ 2) * (A (c - 1) - 2 * A c + A (c + 1)) := by
  have hn := h.cells
  have hg := h.ghosts
  obtain ⟨w, hw⟩ := h.filled
  refine ⟨fun j => (bc (diffHalf T g n dt dx u) j).species i / (bc (diffHalf T g n dt dx u) j).density, ?_, ?_, ?_, ?_⟩
  · simp only
    rcases hb.low with hl | ⟨b, hl⟩
    · left
      constructor
      · rw [(hl _).1, (hl _).2, hb.keeps _ 0 le_rfl (by omega)]
      · rw [hw, (hl w).1, (hl w).2, hb.keeps _ 0 le_rfl (by omega)]
    · right; rw [hl, hw, hl]
  · simp only
    rcases hb.high with hl | ⟨b, hl⟩
    · left
      constructor
      · rw [(hl _).1, (hl _).2, hb.keeps _ (n - 1) (by omega) (by omega)]
      · rw [hw, (hl w).1, (hl w).2, hb.keeps _ (n - 1) (by omega) (by omega)]
    · right; rw [hl, hw, hl]
  · intro j j0 j1
    simp only
    rw [hb.keeps _ j j0 j1, diff_half_density]
    simp only [diffHalf]
    rw [if_pos ⟨by omega, by omega⟩]
    have e : (1 / 2 * dt / dx) = (dt / 2) / dx := by ring
    rw [e, diff_stage_fraction T u (u j) h.dx_pos (dt / 2) j i rfl (h.pos j j0 j1)]
    ring
  · intro c c0 c1
    rw [(diff_step_mass T bc g n dt dx u c).1]
    simp only [diffStep]
    rw [if_pos ⟨by omega, by omega⟩]
    have hden : (bc (diffHalf T g n dt dx u) c).density = (u c).density := by rw [hb.keeps _ c c0 c1, diff_half_density]
    have := diff_stage_fraction T (bc (diffHalf T g n dt dx u)) (u c) h.dx_pos dt c i hden.symm (by rw [hden]; exact h.pos c c0 c1)
    rw [hden] at this
    rw [this, hden]

/-- One bound of the maximum principle for a step; `sg` is a sign. -/
theorem diff_tube_lower {T : DiffTerm} {bc : (ℤ → MixCons 0 s t) → ℤ → MixCons 0 s t} {g n : ℤ} {dt dx : ℝ} {u : ℤ → MixCons 0 s t} (h : DiffTube T bc g n dt dx u)
    (hb : TubeBc bc n) (i : Fin s) (sg m : ℝ) (hm : ∀ c, -1 ≤ c → c ≤ n → m ≤ sg * ((u c).species i / (u c).density)) (c : ℤ) (c0 : 0 ≤ c) (c1 : c < n) :
    m ≤ sg * ((diffStep T bc g n dt dx u c).species i / (diffStep T bc g n dt dx u c).density) := by
  obtain ⟨A, aL, aR, aj, hc⟩ := diff_tube_fraction h hb i
  rw [hc c c0 c1]
  have hk : ∀ j, 0 ≤ j → j < n → 0 ≤ T.constants.muSc * dt / ((u j).density * dx ^ 2) ∧ T.constants.muSc * dt / ((u j).density * dx ^ 2) ≤ 1 / 2 := by
    intro j j0 j1
    have hp : 0 < (u j).density * dx ^ 2 := mul_pos (h.pos j j0 j1) (pow_pos h.dx_pos 2)
    refine ⟨div_nonneg (mul_nonneg h.mu_nonneg h.dt_nonneg) hp.le, ?_⟩
    rw [div_le_iff₀ hp]; exact h.small j j0 j1
  generalize hY : (fun j => (u j).species i / (u j).density) = Y at *
  have hY' : ∀ j, (u j).species i / (u j).density = Y j := fun j => by rw [← hY]
  generalize hK : (fun j => T.constants.muSc * dt / ((u j).density * dx ^ 2)) = k at *
  have hK' : ∀ j, T.constants.muSc * dt / ((u j).density * dx ^ 2) = k j := fun j => by rw [← hK]
  simp only [hY', hK'] at *
  obtain ⟨k0, k1⟩ := hk c c0 c1
  have a0 := aj c c0 c1
  have hA : sg * A c = sg * Y c + k c / 2 * (sg * Y (c - 1) - 2 * (sg * Y c) + sg * Y (c + 1)) := by rw [a0]; ring
  have hA' : sg * A c = sg * Y c + k c / 2 * (sg * Y (c + 1) - 2 * (sg * Y c) + sg * Y (c - 1)) := by rw [a0]; ring
  have left := diff_side (kl := k (c - 1)) (L := sg * A (c - 1)) k0 k1 (hm c (by omega) (by omega)) (hm (c - 1) (by omega) (by omega)) (hm (c + 1) (by omega) (by omega)) hA (by
    by_cases hl : c = 0
    · subst hl
      rw [zero_sub]
      rcases aL with ⟨e1, e2⟩ | e1
      · exact Or.inr (Or.inl ⟨by rw [e2], by rw [e1]⟩)
      · exact Or.inr (Or.inr (by rw [e1]))
    · left
      have e := aj (c - 1) (by omega) (by omega)
      have e1 : c - 1 + 1 = c := by ring
      rw [e1] at e
      exact ⟨sg * Y (c - 1 - 1), hm _ (by omega) (by omega), (hk (c - 1) (by omega) (by omega)).1, (hk (c - 1) (by omega) (by omega)).2, by rw [e]; ring⟩)
  have right := diff_side (kl := k (c + 1)) (L := sg * A (c + 1)) k0 k1 (hm c (by omega) (by omega)) (hm (c + 1) (by omega) (by omega)) (hm (c - 1) (by omega) (by omega)) hA' (by
    by_cases hl : c = n - 1
    · subst hl
      have e0 : n - 1 + 1 = n := by ring
      rw [e0]
      rcases aR with ⟨e1, e2⟩ | e1
      · exact Or.inr (Or.inl ⟨by rw [e2], by rw [e1]⟩)
      · exact Or.inr (Or.inr (by rw [e1]))
    · left
      have e := aj (c + 1) (by omega) (by omega)
      have e1 : c + 1 - 1 = c := by ring
      rw [e1] at e
      exact ⟨sg * Y (c + 1 + 1), hm _ (by omega) (by omega), (hk (c + 1) (by omega) (by omega)).1, (hk (c + 1) (by omega) (by omega)).2, by rw [e]; ring⟩)
  have key : sg * (Y c + k c * (A (c - 1) - 2 * A c + A (c + 1))) = sg * Y c + (k c * (sg * A (c - 1) - sg * Y c) - k c * k c * (sg * Y (c - 1) - sg * Y c))
      + (k c * (sg * A (c + 1) - sg * Y c) - k c * k c * (sg * Y (c + 1) - sg * Y c)) := by rw [a0]; ring
  rw [key]
  have hy := hm c (by omega) (by omega)
  have : 0 ≤ (1 - 2 * (k c * (1 - k c))) * (sg * Y c - m) := mul_nonneg (by nlinarith [mul_self_nonneg (1 - 2 * k c)]) (by linarith)
  linarith

/-- The boundary condition keeps the bounds of the mass fractions. -/
theorem diff_ghost_bounds {bc : (ℤ → MixCons 0 s t) → ℤ → MixCons 0 s t} {n : ℤ} (hn : 1 ≤ n) (hb : TubeBc bc n) (i : Fin s) (P : ℝ → Prop) (v w : ℤ → MixCons 0 s t)
    (hv : ∀ c, 0 ≤ c → c < n → P ((v c).species i / (v c).density)) (hw : ∀ c, -1 ≤ c → c ≤ n → P ((bc w c).species i / (bc w c).density)) (c : ℤ) (c0 : -1 ≤ c) (c1 : c ≤ n) :
    P ((bc v c).species i / (bc v c).density) := by
  by_cases hl : c = -1
  · subst hl
    rcases hb.low with e | ⟨b, e⟩
    · rw [(e v).1, (e v).2]; exact hv 0 le_rfl (by omega)
    · rw [e v i, ← e w i]; exact hw (-1) le_rfl (by omega)
  · by_cases hr : c = n
    · subst hr
      rcases hb.high with e | ⟨b, e⟩
      · rw [(e v).1, (e v).2]; exact hv (c - 1) (by omega) (by omega)
      · rw [e v i, ← e w i]; exact hw c (by omega) le_rfl
    · rw [hb.keeps v c (by omega) (by omega)]; exact hv c (by omega) (by omega)

/-- **C88.** Maximum principle: in a tube whose ends are walls, copied cells or prescribed mass fractions, every sequence of steps, each at most `ρ dx² / (2 muSc)` in every cell, keeps the mass fractions in
all cells between the smallest and the largest initial one (those prescribed at the ends included) and keeps the density of every cell. -/
theorem diff_species_maximum (T : DiffTerm) (bc : (ℤ → MixCons 0 s t) → ℤ → MixCons 0 s t) (g n : ℤ) (dx : ℝ) (hb : TubeBc bc n) (i : Fin s) (m M : ℝ) :
    ∀ (dts : List ℝ) (u : ℤ → MixCons 0 s t), (∀ dt ∈ dts, DiffTube T bc g n dt dx u) →
    (∀ c, -1 ≤ c → c ≤ n → m ≤ (u c).species i / (u c).density ∧ (u c).species i / (u c).density ≤ M) →
    ∀ c, 0 ≤ c → c < n → m ≤ (diffRun T bc g n dx dts u c).species i / (diffRun T bc g n dx dts u c).density ∧
      (diffRun T bc g n dx dts u c).species i / (diffRun T bc g n dx dts u c).density ≤ M ∧ (diffRun T bc g n dx dts u c).density = (u c).density := by
  intro dts
  induction dts with
  | nil => intro u _ hm c c0 c1; exact ⟨(hm c (by omega) (by omega)).1, (hm c (by omega) (by omega)).2, rfl⟩
  | cons dt rest ih =>
    intro u h hm c c0 c1
    have h0 := h dt (by simp)
    have hn := h0.cells
    obtain ⟨w, hw⟩ := h0.filled
    have hden : ∀ c, 0 ≤ c → c < n → (bc (diffStep T bc g n dt dx u) c).density = (u c).density := fun c c0 c1 => by
      rw [hb.keeps _ c c0 c1, (diff_step_mass T bc g n dt dx u c).1]
    obtain ⟨a, b, d⟩ := ih (bc (diffStep T bc g n dt dx u)) (fun d hd => by
        have hd' := h d (by simp [hd])
        exact ⟨hd'.dx_pos, hd'.dt_nonneg, hd'.mu_nonneg, hd'.ghosts, hd'.cells, ⟨_, rfl⟩, fun c c0 c1 => by rw [hden c c0 c1]; exact hd'.pos c c0 c1,
          fun c c0 c1 => by rw [hden c c0 c1]; exact hd'.small c c0 c1⟩)
      (diff_ghost_bounds hn hb i (fun y => m ≤ y ∧ y ≤ M) (diffStep T bc g n dt dx u) w (fun c c0 c1 => by
        have lo := diff_tube_lower h0 hb i 1 m (fun c c0 c1 => by rw [one_mul]; exact (hm c c0 c1).1) c c0 c1
        have hi := diff_tube_lower h0 hb i (-1) (-M) (fun c c0 c1 => by rw [neg_one_mul]; exact neg_le_neg (hm c c0 c1).2) c c0 c1
        rw [one_mul] at lo
        rw [neg_one_mul] at hi
        exact ⟨lo, neg_le_neg_iff.1 hi⟩) (by rw [← hw]; exact hm)) c c0 c1
    exact ⟨a, b, d.trans (hden c c0 c1)⟩

/-- **C88.** With insulating ends (walls or copied cells) any sequence of steps of any size keeps the amount of every species in the tube. -/
theorem diff_tube_conserves (T : DiffTerm) (bc : (ℤ → MixCons 0 s t) → ℤ → MixCons 0 s t) (g n : ℤ) (dx : ℝ) (hg : 2 ≤ g) (hn : 1 ≤ n) (hb : InsulatingBc bc n) (i : Fin s) :
    ∀ (dts : List ℝ) (u : ℤ → MixCons 0 s t), ∑ c ∈ Ico 0 n, (diffRun T bc g n dx dts u c).species i = ∑ c ∈ Ico 0 n, (u c).species i := by
  intro dts
  induction dts with
  | nil => intro u; rfl
  | cons dt rest ih =>
    intro u
    have e1 : diffRun T bc g n dx (dt :: rest) u = diffRun T bc g n dx rest (bc (diffStep T bc g n dt dx u)) := rfl
    rw [e1, ih]
    have es : ∑ c ∈ Ico 0 n, (bc (diffStep T bc g n dt dx u) c).species i = ∑ c ∈ Ico 0 n, (diffStep T bc g n dt dx u c).species i :=
      sum_congr rfl (fun c hc => by rw [mem_Ico] at hc; rw [hb.keeps _ c hc.1 hc.2])
    rw [es, (diff_step_conserves T bc g n dt dx u hg (by omega)).2.2 i]
    have f0 : (diffFlux T (bc (diffHalf T g n dt dx u) (0 - 1)) (bc (diffHalf T g n dt dx u) 0) (1 / dx)).species i = 0 := by
      have l1 := hb.low (diffHalf T g n dt dx u)
      rw [zero_sub]
      simp only [diffFlux]
      rw [l1.1, l1.2, hb.keeps _ 0 le_rfl (by omega)]
      ring
    have fn : (diffFlux T (bc (diffHalf T g n dt dx u) (n - 1)) (bc (diffHalf T g n dt dx u) n) (1 / dx)).species i = 0 := by
      have l1 := hb.high (diffHalf T g n dt dx u)
      simp only [diffFlux]
      rw [l1.1, l1.2, hb.keeps _ (n - 1) (by omega) (by omega)]
      ring
    rw [f0, fn]
    ring

/-! ### Copies and time steps -/

/-- **C89, disagreement.** A copy of a diffusion term does not have the options of the original but the default ones: as soon as the viscosity `mul / reynolds` differs from the default, copy and original
compute different momentum fluxes for any two cells with different velocities. Assignment keeps the old options of its target. -/
theorem diff_copy_loses_options (eq : MixEq) (o : DiffOptions) (l r : MixCons 0 s t) {dxInv : ℝ} (hdx : dxInv ≠ 0)
    (hu : l.momentum 0 / l.density ≠ r.momentum 0 / r.density) (ho : o.mul / o.reynolds ≠ 3 * 0.003) :
    (diffFlux (DiffTerm.new eq o).copy l r dxInv).momentum 0 ≠ (diffFlux (DiffTerm.new eq o) l r dxInv).momentum 0 ∧
    ∀ self : DiffTerm, (self.assign (DiffTerm.new eq o)).constants = self.constants := by
  refine ⟨?_, fun self => rfl⟩
  simp only [diffFlux, DiffTerm.copy, DiffTerm.new, diffConstants, DiffOptions.default, mul_one_div]
  intro h
  have h1 : (r.momentum 0 / r.density - l.momentum 0 / l.density) * dxInv ≠ 0 := mul_ne_zero (sub_ne_zero.2 (Ne.symm hu)) hdx
  have h2 := mul_right_cancel₀ h1 h
  apply ho
  have h3 : (4:ℝ) / 3 * 3 / (1 / 0.003) = 4 / 3 * (3 * 0.003) := by norm_num
  have h4 : 4 / 3 * o.mul / o.reynolds = 4 / 3 * (o.mul / o.reynolds) := by ring
  rw [h3, h4] at h2
  linarith

/-- **C89.** A term that was constructed with the default options is copied faithfully. -/
theorem diff_copy_partial (eq : MixEq) : (DiffTerm.new eq .default).copy = DiffTerm.new eq .default := rfl

/-- The field that alternates between the mass fractions 0 and 1, at rest with density and energy 1. -/
noncomputable def alternating (c : ℤ) : MixCons 0 1 0 := ⟨1, fun _ => 0, 1, fun _ => if c % 2 = 0 then 0 else 1, fun _ => 0⟩

/-- **C89, disagreement.** `ComputeStableDt` imposes no restriction, but the scheme is unstable for large time steps: in the alternating field the mass fraction becomes negative as soon as
`muSc dt > dx² / 2`, which the largest floating point number exceeds. -/
theorem diff_unstable (T : DiffTerm) (dx maxDouble : ℝ) (hdx : 0 < dx) (hbig : dx ^ 2 / 2 < T.constants.muSc * maxDouble) :
    (diffStep T id 2 2 (diffStableDt maxDouble) dx alternating 0).species 0 < 0 := by
  set k := T.constants.muSc * maxDouble / dx ^ 2 with hk
  have hk2 : 1 / 2 < k := by rw [hk, lt_div_iff₀ (by positivity)]; linarith
  have key : (diffStep T id 2 2 (diffStableDt maxDouble) dx alternating 0).species 0 = 2 * k - 4 * k ^ 2 := by
    simp [diffStep, diffHalf, diffStableDt, mixUpdate, diffFlux, alternating]
    rw [hk]
    field_simp
    ring
  rw [key]
  nlinarith

/-! ### Concrete cases -/

/-- The premises of the maximum principle are met for two cells of a jump. -/
example : DiffInterior (s := 1) (t := 0) (DiffTerm.new (computeConstants 287 (7 / 5)) ⟨1, 1, 1, 1⟩) id 2 4 (1 / 8) (1 / 2)
    (fun c => ⟨1, fun _ => 0, 2, fun _ => if c < 2 then 0 else 1, fun _ => 0⟩) 1 := by
  constructor <;> intros <;> first | norm_num [DiffTerm.new, diffConstants] | skip
  all_goals simp

/-- The boundary conditions of a tube with a copied end and a prescribed one. -/
example : TubeBc (s := 1) (t := 0) (fun w c => if c < 0 then w 0 else if 4 ≤ c then ⟨1, fun _ => 0, 2, fun _ => 1, fun _ => 0⟩ else w c) 4 := by
  refine ⟨fun w c h0 h1 => ?_, Or.inl fun w => ?_, Or.inr ⟨fun _ => 1, fun w i => ?_⟩⟩
  · simp only [not_lt.2 h0, not_le.2 h1, if_false]
  · simp
  · simp

/-- A tube of four cells with these ends and a jump of the mass fraction, and two steps. -/
example : ∀ dt ∈ ([1 / 8, 1 / 16] : List ℝ), DiffTube (s := 1) (t := 0) (DiffTerm.new (computeConstants 287 (7 / 5)) ⟨1, 1, 1, 1⟩)
    (fun w c => if c < 0 then w 0 else if 4 ≤ c then ⟨1, fun _ => 0, 2, fun _ => 1, fun _ => 0⟩ else w c) 2 4 dt (1 / 2)
    (fun c => ⟨1, fun _ => 0, 2, fun _ => if c < 2 then 0 else 1, fun _ => 0⟩) := by
  intro dt hdt
  refine ⟨by norm_num, ?_, by norm_num [DiffTerm.new, diffConstants], le_rfl, by norm_num, ?_, fun _ _ _ => by norm_num, fun _ _ _ => ?_⟩
  · rcases List.mem_cons.1 hdt with rfl | h
    · norm_num
    · rw [List.mem_singleton.1 h]; norm_num
  · refine ⟨fun c => ⟨1, fun _ => 0, 2, fun _ => if c < 2 then 0 else 1, fun _ => 0⟩, ?_⟩
    funext c
    by_cases h0 : c < 0
    · simp [h0, show c < 2 by omega]
    · by_cases h4 : 4 ≤ c
      · simp [h0, h4, show ¬ c < 2 by omega]
      · simp [h0, h4]
  · rcases List.mem_cons.1 hdt with rfl | h
    · norm_num [DiffTerm.new, diffConstants]
    · rw [List.mem_singleton.1 h]; norm_num [DiffTerm.new, diffConstants]

/-- Options that differ from the default. -/
example : (⟨3, 100, 1, 1⟩ : DiffOptions).mul / (⟨3, 100, 1, 1⟩ : DiffOptions).reynolds ≠ 3 * 0.003 := by norm_num

end Fub
