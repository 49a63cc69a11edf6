import Verif.Model.Hllem
import Verif.Spec.Gas
import Verif.Props.Gas
import Verif.Props.GasHll
import Mathlib.Tactic.FieldSimp
import Mathlib.Tactic.LinearCombination
import Mathlib.Tactic.Positivity

/-!
# C54: the HLLEM flux and Riemann solver
-/

namespace Fub
open Finset
variable {d : ℕ}

theorem roeMeanArray_eq (rhoL rhoR xL xR : ℝ) : roeMeanArray rhoL rhoR xL xR = roeMean rhoL rhoR xL xR := by
  unfold roeMeanArray roeMean; ring

theorem roeMean_self {rhoL rhoR : ℝ} (hL : 0 < rhoL) (hR : 0 < rhoR) (x : ℝ) : roeMean rhoL rhoR x x = x := by
  have h1 := Real.sqrt_pos.2 hL
  have h2 := Real.sqrt_pos.2 hR
  unfold roeMean
  field_simp

/-- Removing the transversal momentum of a gas state leaves a gas state. -/
theorem stripTrans_state {eq : GasEq} {q : GasComplete d} (dir : Fin d) (h : IsGasState eq q) : IsGasState eq (stripTrans dir q) := by
  have hρ := h.density_pos
  refine ⟨h.density_pos, h.pressure_pos, ?_, h.sound_pos, h.sound_sq⟩
  simp only [stripTrans, transKin]
  rw [h.energy_eq]
  have : (∑ i, q.momentum i ^ 2) / (2 * q.density)
      = q.density * (1 / 2 * ∑ i, (if i = dir then 0 else q.momentum i / q.density * (q.momentum i / q.density)))
        + (∑ i, (if i = dir then q.momentum i else 0) ^ 2) / (2 * q.density) := by
    rw [Finset.sum_div, Finset.sum_div, ← mul_assoc, Finset.mul_sum, ← Finset.sum_add_distrib]
    refine Finset.sum_congr rfl fun i _ => ?_
    by_cases hi : i = dir
    · simp [hi]
    · simp only [hi, if_false]; field_simp; ring
  rw [this]; ring

/-- The squared Roe sound speed of two gas states. -/
theorem hllem_roeA2_eq {eq : GasEq} (hv : eq.Valid) {l r : GasComplete d} (hl : IsGasState eq l) (hr : IsGasState eq r) (dir : Fin d) :
    (hllemData (roeMean l.density r.density) eq.gamma eq.gamma dir l r).roeA2
      = (eq.gamma - 1) * ((Real.sqrt l.density * (eq.gamma / (eq.gamma - 1) * l.pressure / l.density)
          + Real.sqrt r.density * (eq.gamma / (eq.gamma - 1) * r.pressure / r.density)) / (Real.sqrt l.density + Real.sqrt r.density)
        + ∑ i, 1 / 2 * (Real.sqrt l.density * Real.sqrt r.density / (Real.sqrt l.density + Real.sqrt r.density) ^ 2)
            * (l.momentum i / l.density - r.momentum i / r.density) ^ 2) := by
  simp only [hllemData]
  rw [roeMean_self hl.density_pos hr.density_pos]
  have hg : 0 < eq.gamma - 1 := by linarith [hv.one_lt]
  congr 1
  set wL := Real.sqrt l.density with hwL
  set wR := Real.sqrt r.density with hwR
  have h1 : 0 < wL := Real.sqrt_pos.2 hl.density_pos
  have h2 : 0 < wR := Real.sqrt_pos.2 hr.density_pos
  have hsum : ∀ i, roeMean l.density r.density (l.momentum i / l.density) (r.momentum i / r.density)
        * roeMean l.density r.density (l.momentum i / l.density) (r.momentum i / r.density)
      = (wL * (l.momentum i / l.density) ^ 2 + wR * (r.momentum i / r.density) ^ 2) / (wL + wR)
        - wL * wR / (wL + wR) ^ 2 * (l.momentum i / l.density - r.momentum i / r.density) ^ 2 := by
    intro i
    unfold roeMean
    rw [← hwL, ← hwR]
    generalize l.momentum i / l.density = x
    generalize r.momentum i / r.density = y
    field_simp; ring
  simp only [hsum]
  rw [Finset.sum_sub_distrib, ← Finset.sum_div, Finset.sum_add_distrib, ← Finset.mul_sum, ← Finset.mul_sum, ← Finset.mul_sum]
  have hEl : l.energy = l.pressure / (eq.gamma - 1) + l.density / 2 * ∑ i, (l.momentum i / l.density) ^ 2 := by
    rw [hl.energy_eq, Finset.mul_sum, Finset.sum_div]
    congr 1
    refine Finset.sum_congr rfl fun i _ => ?_
    have := hl.density_pos.ne'
    field_simp
  have hEr : r.energy = r.pressure / (eq.gamma - 1) + r.density / 2 * ∑ i, (r.momentum i / r.density) ^ 2 := by
    rw [hr.energy_eq, Finset.mul_sum, Finset.sum_div]
    congr 1
    refine Finset.sum_congr rfl fun i _ => ?_
    have := hr.density_pos.ne'
    field_simp
  rw [hEl, hEr]
  unfold roeMean
  rw [← hwL, ← hwR, ← Finset.mul_sum]
  generalize (∑ i, (l.momentum i / l.density) ^ 2) = X
  generalize (∑ i, (r.momentum i / r.density) ^ 2) = Y
  generalize (∑ i, (l.momentum i / l.density - r.momentum i / r.density) ^ 2) = Z
  have := hl.density_pos.ne'
  have := hr.density_pos.ne'
  field_simp; ring

theorem hllem_roeA2_pos {eq : GasEq} (hv : eq.Valid) {l r : GasComplete d} (hl : IsGasState eq l) (hr : IsGasState eq r) (dir : Fin d) :
    0 < (hllemData (roeMean l.density r.density) eq.gamma eq.gamma dir l r).roeA2 := by
  rw [hllem_roeA2_eq hv hl hr dir]
  have hg : 0 < eq.gamma - 1 := by linarith [hv.one_lt]
  have h1 := Real.sqrt_pos.2 hl.density_pos
  have h2 := Real.sqrt_pos.2 hr.density_pos
  have hpl := hl.pressure_pos
  have hpr := hr.pressure_pos
  have hdl := hl.density_pos
  have hdr := hr.density_pos
  have hγ : 0 < eq.gamma := by linarith
  refine mul_pos hg (add_pos_of_pos_of_nonneg (by positivity) (Finset.sum_nonneg fun i _ => by positivity))

/-- Facts about the local variables for gas states: positive Roe sound speed, ordered signals, positive denominator. -/
theorem hllem_data_facts {eq : GasEq} (hv : eq.Valid) {l r : GasComplete d} (hl : IsGasState eq l) (hr : IsGasState eq r) (dir : Fin d) :
    let D := hllemData (roeMean l.density r.density) eq.gamma eq.gamma dir l r
    0 < D.roeA ∧ D.sL < D.sR ∧ D.bL < D.bR ∧ D.db = D.bR - D.bL ∧ D.bL ≤ 0 ∧ 0 ≤ D.bR ∧ D.bL ≤ D.sL ∧ D.sR ≤ D.bR := by
  have h2 := hllem_roeA2_pos hv hl hr dir
  intro D
  have hA : 0 < D.roeA := Real.sqrt_pos.2 h2
  have hs : D.sL < D.sR := by
    have a : D.sL ≤ D.roeU dir - D.roeA := min_le_right _ _
    have b : D.roeU dir + D.roeA ≤ D.sR := le_max_left _ _
    linarith
  have hb : D.bL < D.bR := by
    have e1 : D.bL = min D.sL 0 := rfl
    have e2 : D.bR = max D.sR 0 := rfl
    rw [e1, e2]
    rcases le_or_gt 0 D.sL with h | h
    · rw [min_eq_right h, max_eq_left (by linarith)]; linarith
    · exact lt_of_lt_of_le (lt_of_le_of_lt (min_le_left _ _) h) (le_max_right _ _)
  have hdb : D.db = D.bR - D.bL := if_pos (sub_pos.2 hb)
  exact ⟨hA, hs, hb, hdb, min_le_right _ _, le_max_right _ _, min_le_left _ _, le_max_left _ _⟩

theorem hllem_hlle_same (D : HllemData d) (h : D.bL < D.bR) (hdb : D.db = D.bR - D.bL) (f q : ℝ) : D.hlle f f q q = f := by
  unfold HllemData.hlle
  have : D.bR - D.bL ≠ 0 := by linarith
  rw [hdb]; field_simp; ring

theorem hllem_pstar_same (D : HllemData d) (h : D.bL < D.bR) (hdb : D.db = D.bR - D.bL) (p : ℝ) : (D.bR * p - D.bL * p) / D.db = p := by
  have := sub_pos.2 h
  rw [hdb]; field_simp

theorem hllem_alpha2_same (mean : ℝ → ℝ → ℝ) (gL gR : ℝ) (dir : Fin d) (q : GasComplete d) : (hllemData mean gL gR dir q q).alpha2 = 0 := by
  simp [hllemData]

theorem hllem_alphaShear_same (D : HllemData d) (q : GasComplete d) (i : Fin d) : D.alphaShear q q i = 0 := by
  simp [HllemData.alphaShear]

/-! ### Consistency -/

/-- Scalar HLLEM flux without the Larrouturou splitting, in one and two space dimensions: between two equal states it is the Euler flux, and the
returned pressure is the pressure of the state. -/
theorem hllem_consistent_partial {eq : GasEq} (hv : eq.Valid) {q : GasComplete d} (hq : IsGasState eq q) (hd : d ≠ 3) (dir : Fin d) (old : GasCons d) :
    ∃ f, gasFlux q dir = some f ∧ hllemFlux eq false dir old q q = some (f, q.pressure) := by
  obtain ⟨hA, hs, hb, hdb, -⟩ := hllem_data_facts hv hq hq dir
  refine ⟨gasFluxArray q dir, by simp [gasFlux, gasFluxArray, hq.density_pos], ?_⟩
  have hp := hq.density_pos
  simp only [hllemFlux, hp, if_true, Bool.false_eq_true, if_false, and_self, hd, hllem_alpha2_same, hllem_alphaShear_same, hllem_hlle_same _ hb hdb]
  have hp : ((hllemData (roeMean q.density q.density) eq.gamma eq.gamma dir q q).bR * q.pressure
      - (hllemData (roeMean q.density q.density) eq.gamma eq.gamma dir q q).bL * q.pressure)
      / (hllemData (roeMean q.density q.density) eq.gamma eq.gamma dir q q).db = q.pressure := by
    rw [hdb]
    have := sub_pos.2 hb
    field_simp
  rw [hp]
  congr 2
  ext i
  · simp
  · by_cases hi : i = dir <;> simp [hi]
  · simp

theorem roeMeanArray_fun (a b : ℝ) : roeMeanArray a b = roeMean a b := by
  funext x y; exact roeMeanArray_eq a b x y

/-- The scalar and the array version of the HLLEM flux agree in one and two space dimensions, without the Larrouturou splitting always, with the
Larrouturou splitting where the mass flux is positive. -/
theorem hllem_scalar_eq_array_partial {eq : GasEq} (hv : eq.Valid) {l r : GasComplete d} (hl : 0 < l.density) (hr : 0 < r.density) (hd : d ≠ 3)
    (larr : Bool) (dir : Fin d) (old : GasCons d) (h : larr = false ∨ 0 < (hllemFluxArray eq larr dir l r).1.density) :
    hllemFlux eq larr dir old l r = some (hllemFluxArray eq larr dir l r) := by
  rcases h with rfl | h
  · simp only [hllemFlux, hllemFluxArray, roeMeanArray_fun, hv.arr, Bool.false_eq_true, if_false, hl, hr, and_self, if_true, hd]
  · cases larr
    · simp only [hllemFlux, hllemFluxArray, roeMeanArray_fun, hv.arr, Bool.false_eq_true, if_false, hl, hr, and_self, if_true, hd]
    · simp only [hllemFluxArray, roeMeanArray_fun, hv.arr, if_true, hd, if_false] at h
      have e1 : ∀ q : GasComplete d, (stripTrans dir q).density = q.density := fun _ => rfl
      simp only [hllemFlux, hllemFluxArray, roeMeanArray_fun, hv.arr, if_true, e1, hl, hr, and_self, hd, if_false]
      simp only [e1] at h
      simp only [larrScalar, larrArray, h, if_true]

/-- Array HLLEM flux, with and without the Larrouturou splitting, in every space dimension: between two equal states it is the Euler flux. -/
theorem hllem_array_consistent {eq : GasEq} (hv : eq.Valid) {q : GasComplete d} (hq : IsGasState eq q) (larr : Bool) (dir : Fin d) :
    gasFlux q dir = some (hllemFluxArray eq larr dir q q).1 ∧ (hllemFluxArray eq larr dir q q).2 = q.pressure := by
  have hp := hq.density_pos
  have key : hllemFluxArray eq larr dir q q = (gasFluxArray q dir, q.pressure) := by
    cases larr
    · obtain ⟨hA, hs, hb, hdb, -⟩ := hllem_data_facts hv hq hq dir
      simp only [hllemFluxArray, roeMeanArray_fun, hv.arr, Bool.false_eq_true, if_false, hllem_alpha2_same, hllem_alphaShear_same,
        hllem_hlle_same _ hb hdb]
      have hp : ((hllemData (roeMean q.density q.density) eq.gamma eq.gamma dir q q).bR * q.pressure
          - (hllemData (roeMean q.density q.density) eq.gamma eq.gamma dir q q).bL * q.pressure)
          / (hllemData (roeMean q.density q.density) eq.gamma eq.gamma dir q q).db = q.pressure := by
        rw [hdb]
        have := sub_pos.2 hb
        field_simp
      rw [hp]
      congr 1
      ext i
      · simp
      · by_cases hi : i = dir <;> simp [hi]
      · simp
    · have hq' := stripTrans_state dir hq
      obtain ⟨hA, hs, hb, hdb, -⟩ := hllem_data_facts hv hq' hq' dir
      have hc := hllem_hlle_same _ hb hdb
      simp only [hllemFluxArray, roeMeanArray_fun, hv.arr, if_true, hllem_alpha2_same, hc, hllem_pstar_same _ hb hdb]
      change (_, q.pressure) = _
      congr 1
      ext i
      · simp [gasFluxArray, stripTrans]
      · by_cases hi : i = dir
        · simp [hi, gasFluxArray, stripTrans]
        · simp only [hi, if_false, larrArray, ite_self, gasFluxArray, stripTrans, if_true]
          field_simp
          ring
      · simp only [larrArray, ite_self, gasFluxArray, stripTrans, if_true]
        field_simp
        ring
  rw [key]
  exact ⟨by simp [gasFlux, gasFluxArray, hp], rfl⟩

/-! ### Stationary contact and shear waves -/

/-- Roe's identities for one velocity component. -/
theorem roe_identity {a b : ℝ} (ha : 0 < a) (hb : 0 < b) (mL mR : ℝ) :
    roeMean a b (mL / a) (mR / b) * (mR - mL) - 1 / 2 * (mR ^ 2 / b - mL ^ 2 / a)
      = 1 / 2 * (roeMean a b (mL / a) (mR / b) * roeMean a b (mL / a) (mR / b)) * (b - a) := by
  have h1 := Real.sqrt_pos.2 ha
  have h2 := Real.sqrt_pos.2 hb
  have e1 := Real.sq_sqrt ha.le
  have e2 := Real.sq_sqrt hb.le
  unfold roeMean
  generalize Real.sqrt a = x at *
  generalize Real.sqrt b = y at *
  subst e1 e2
  field_simp
  ring

theorem hllem_hlle_eq (D : HllemData d) (h : D.bL < D.bR) (hdb : D.db = D.bR - D.bL) (hbb : D.b = D.bL * D.bR / D.db) (f qL qR : ℝ) :
    D.hlle f f qL qR = f + D.b * (qR - qL) := by
  have := sub_pos.2 h
  unfold HllemData.hlle
  rw [hbb, hdb]
  field_simp

/-- The local variables at a stationary contact: the middle wave has speed zero and strength `Δρ`. -/
theorem hllem_contact_data {eq : GasEq} (hv : eq.Valid) {l r : GasComplete d} (hl : IsGasState eq l) (hr : IsGasState eq r) (dir : Fin d)
    (hml : l.momentum dir = 0) (hmr : r.momentum dir = 0) (hp : l.pressure = r.pressure) :
    let D := hllemData (roeMean l.density r.density) eq.gamma eq.gamma dir l r
    D.roeU dir = 0 ∧ D.delta = 1 ∧ D.alpha2 = r.density - l.density ∧
      (∑ i, D.roeU i * (r.momentum i - l.momentum i)) - (r.energy - l.energy) = 1 / 2 * (∑ i, D.roeU i * D.roeU i) * (r.density - l.density) := by
  obtain ⟨hA, -⟩ := hllem_data_facts hv hl hr dir
  have hA2 := hllem_roeA2_pos hv hl hr dir
  intro D
  have hU : D.roeU dir = 0 := by
    change roeMean _ _ (l.momentum dir / l.density) (r.momentum dir / r.density) = 0
    simp [hml, hmr, roeMean]
  have hid : (∑ i, D.roeU i * (r.momentum i - l.momentum i)) - (r.energy - l.energy)
      = 1 / 2 * (∑ i, D.roeU i * D.roeU i) * (r.density - l.density) := by
    have hE : r.energy - l.energy = ∑ i, 1 / 2 * (r.momentum i ^ 2 / r.density - l.momentum i ^ 2 / l.density) := by
      rw [hl.energy_eq, hr.energy_eq, hp, ← Finset.mul_sum, Finset.sum_sub_distrib, ← Finset.sum_div, ← Finset.sum_div]
      have := hl.density_pos.ne'
      have := hr.density_pos.ne'
      field_simp
      ring
    rw [hE, ← Finset.sum_sub_distrib, Finset.mul_sum, Finset.sum_mul]
    exact Finset.sum_congr rfl fun i _ => roe_identity hl.density_pos hr.density_pos _ _
  have hs : D.uBar = 0 := by
    change 1 / 2 * (max (D.roeU dir + D.roeA) (r.momentum dir / r.density + max l.speedOfSound r.speedOfSound)
      + min (l.momentum dir / l.density - max l.speedOfSound r.speedOfSound) (D.roeU dir - D.roeA)) = 0
    rw [hU, hml, hmr]
    have h1 : min (0 / l.density - max l.speedOfSound r.speedOfSound) (0 - D.roeA) = - max (D.roeA) (max l.speedOfSound r.speedOfSound) := by
      rw [zero_div, zero_sub, zero_sub, min_comm, min_neg_neg]
    rw [h1]; simp
  have hδ : D.delta = 1 := by
    change D.roeA / (D.roeA + |D.uBar|) = 1
    rw [hs, abs_zero, add_zero]
    exact div_self hA.ne'
  refine ⟨hU, hδ, ?_, hid⟩
  change D.gm1 / D.roeA2 * (D.roeH - ∑ i, D.roeU i * D.roeU i) * (r.density - l.density)
    + (∑ i, D.gm1 / D.roeA2 * D.roeU i * (r.momentum i - l.momentum i)) + D.gm1 / D.roeA2 * (-1) * (r.energy - l.energy) = _
  have e : ∑ i, D.gm1 / D.roeA2 * D.roeU i * (r.momentum i - l.momentum i)
      = D.gm1 / D.roeA2 * ∑ i, D.roeU i * (r.momentum i - l.momentum i) := by
    rw [Finset.mul_sum]; exact Finset.sum_congr rfl fun i _ => by ring
  have hA2e : D.roeA2 = D.gm1 * (D.roeH - 1 / 2 * ∑ i, D.roeU i * D.roeU i) := rfl
  have hA2' : D.roeA2 ≠ 0 := hA2.ne'
  rw [e]
  have : D.gm1 / D.roeA2 * (D.roeH - ∑ i, D.roeU i * D.roeU i) * (r.density - l.density)
      + D.gm1 / D.roeA2 * (∑ i, D.roeU i * (r.momentum i - l.momentum i)) + D.gm1 / D.roeA2 * (-1) * (r.energy - l.energy)
      = D.gm1 * (D.roeH - 1 / 2 * ∑ i, D.roeU i * D.roeU i) / D.roeA2 * (r.density - l.density) := by
    linear_combination (D.gm1 / D.roeA2) * hid
  rw [this, ← hA2e, div_self hA2', one_mul]

theorem hllem_contact_flux (l r : GasComplete d) (dir : Fin d) (hml : l.momentum dir = 0) (hmr : r.momentum dir = 0)
    (hp : l.pressure = r.pressure) : gasFluxArray l dir = ⟨0, fun i => if i = dir then l.pressure else 0, 0⟩ ∧
      gasFluxArray r dir = ⟨0, fun i => if i = dir then l.pressure else 0, 0⟩ := by
  constructor <;> ext <;> simp [gasFluxArray, hml, hmr, hp]

theorem stripTrans_roeU (l r : GasComplete d) (dir : Fin d) (gL gR : ℝ) (mean : ℝ → ℝ → ℝ) (h0 : mean 0 0 = 0) (i : Fin d) (hi : i ≠ dir) :
    (hllemData mean gL gR dir (stripTrans dir l) (stripTrans dir r)).roeU i = 0 := by
  simp [hllemData, stripTrans, hi, h0]

/-- Array HLLEM flux at a stationary contact or shear wave (no normal velocity, equal pressures, arbitrary densities and transversal velocities):
there is no mass, no transversal momentum and no energy flux, and the normal momentum flux is the pressure. Without the Larrouturou splitting in
one and two space dimensions, with the splitting in every dimension. -/
theorem hllem_array_contact_partial {eq : GasEq} (hv : eq.Valid) {l r : GasComplete d} (hl : IsGasState eq l) (hr : IsGasState eq r) (dir : Fin d)
    (hml : l.momentum dir = 0) (hmr : r.momentum dir = 0) (hp : l.pressure = r.pressure) (larr : Bool) (hd : larr = true ∨ d ≠ 3) :
    (hllemFluxArray eq larr dir l r).1 = ⟨0, fun i => if i = dir then l.pressure else 0, 0⟩ := by
  cases larr
  · obtain ⟨hA, hs, hb, hdb, -⟩ := hllem_data_facts hv hl hr dir
    obtain ⟨hU, hδ, hα, hid⟩ := hllem_contact_data hv hl hr dir hml hmr hp
    obtain ⟨f1, f2⟩ := hllem_contact_flux l r dir hml hmr hp
    have hd : d ≠ 3 := by simpa using hd
    have hbb : (hllemData (roeMean l.density r.density) eq.gamma eq.gamma dir l r).b
      = (hllemData (roeMean l.density r.density) eq.gamma eq.gamma dir l r).bL
        * (hllemData (roeMean l.density r.density) eq.gamma eq.gamma dir l r).bR
        / (hllemData (roeMean l.density r.density) eq.gamma eq.gamma dir l r).db := rfl
    simp only [hllemFluxArray, roeMeanArray_fun, hv.arr, Bool.false_eq_true, if_false, hd, f1, f2]
    generalize hllemData (roeMean l.density r.density) eq.gamma eq.gamma dir l r = D at *
    simp only [hllem_hlle_eq D hb hdb hbb, hδ, hα, HllemData.alphaShear, hU]
    ext i
    · ring
    · by_cases hi : i = dir
      · simp only [hi, if_true, hml, hmr]; ring
      · simp only [hi, if_false]; ring
    · have : ∑ i, (if i = dir then 0 else D.b * 1 * (-D.roeU i * (r.density - l.density) + (r.momentum i - l.momentum i)) * D.roeU i)
          = D.b * ((∑ i, D.roeU i * (r.momentum i - l.momentum i)) - (∑ i, D.roeU i * D.roeU i) * (r.density - l.density)) := by
        rw [Finset.sum_mul, ← Finset.sum_sub_distrib, Finset.mul_sum]
        refine Finset.sum_congr rfl fun i _ => ?_
        by_cases hi : i = dir
        · simp [hi, hU]
        · simp only [hi, if_false]; ring
      simp only [this]
      linear_combination (-D.b) * hid
  · have hl' := stripTrans_state dir hl
    have hr' := stripTrans_state dir hr
    have hml' : (stripTrans dir l).momentum dir = 0 := by simp [stripTrans, hml]
    have hmr' : (stripTrans dir r).momentum dir = 0 := by simp [stripTrans, hmr]
    have hp' : (stripTrans dir l).pressure = (stripTrans dir r).pressure := hp
    obtain ⟨hA, hs, hb, hdb, -⟩ := hllem_data_facts hv hl' hr' dir
    obtain ⟨hU, hδ, hα, hid⟩ := hllem_contact_data hv hl' hr' dir hml' hmr' hp'
    obtain ⟨f1, f2⟩ := hllem_contact_flux (stripTrans dir l) (stripTrans dir r) dir hml' hmr' hp'
    have hU0 : ∀ i, (hllemData (roeMean (stripTrans dir l).density (stripTrans dir r).density) eq.gamma eq.gamma dir (stripTrans dir l) (stripTrans dir r)).roeU i = 0 := by
      intro i
      by_cases hi : i = dir
      · rw [hi]; exact hU
      · exact stripTrans_roeU l r dir _ _ _ (by simp [roeMean]) i hi
    have hbb : (hllemData (roeMean (stripTrans dir l).density (stripTrans dir r).density) eq.gamma eq.gamma dir (stripTrans dir l) (stripTrans dir r)).b
      = (hllemData (roeMean (stripTrans dir l).density (stripTrans dir r).density) eq.gamma eq.gamma dir (stripTrans dir l) (stripTrans dir r)).bL
        * (hllemData (roeMean (stripTrans dir l).density (stripTrans dir r).density) eq.gamma eq.gamma dir (stripTrans dir l) (stripTrans dir r)).bR
        / (hllemData (roeMean (stripTrans dir l).density (stripTrans dir r).density) eq.gamma eq.gamma dir (stripTrans dir l) (stripTrans dir r)).db := rfl
    simp only [hllemFluxArray, roeMeanArray_fun, hv.arr, if_true, f1, f2]
    generalize hllemData (roeMean (stripTrans dir l).density (stripTrans dir r).density) eq.gamma eq.gamma dir (stripTrans dir l) (stripTrans dir r) = D at *
    simp only [hllem_hlle_eq D hb hdb hbb, hδ, hα, hU0]
    simp only [hU0, zero_mul, Finset.sum_const_zero, mul_zero, zero_sub] at hid
    have hE : (stripTrans dir r).energy - (stripTrans dir l).energy = 0 := by linarith
    have hρ : 0 + D.b * ((stripTrans dir r).density - (stripTrans dir l).density) - D.b * 1 * ((stripTrans dir r).density - (stripTrans dir l).density) = 0 := by ring
    simp only [hρ, hE]
    ext i
    · rfl
    · by_cases hi : i = dir
      · simp only [hi, if_true, hml', hmr']; change _ = l.pressure; simp [stripTrans]
      · simp [hi]
    · simp

/-- The scalar HLLEM flux keeps stationary contact and shear waves in one and two space dimensions, with and without the Larrouturou splitting. -/
theorem hllem_contact_partial {eq : GasEq} (hv : eq.Valid) {l r : GasComplete d} (hl : IsGasState eq l) (hr : IsGasState eq r) (dir : Fin d)
    (hml : l.momentum dir = 0) (hmr : r.momentum dir = 0) (hp : l.pressure = r.pressure) (larr : Bool) (hd : d ≠ 3) (old : GasCons d) :
    ∃ p, hllemFlux eq larr dir old l r = some (⟨0, fun i => if i = dir then l.pressure else 0, 0⟩, p) := by
  have ha := hllem_array_contact_partial hv hl hr dir hml hmr hp larr (Or.inr hd)
  cases larr
  · have h := hllem_scalar_eq_array_partial hv hl.density_pos hr.density_pos hd false dir old (Or.inl rfl)
    exact ⟨_, by rw [h, ← ha]⟩
  · have hρl : 0 < (stripTrans dir l).density := hl.density_pos
    have hρr : 0 < (stripTrans dir r).density := hr.density_pos
    simp only [hllemFluxArray, roeMeanArray_fun, hv.arr, if_true, hd, if_false] at ha
    simp only [hllemFlux, if_true, hρl, hρr, and_self, hd, if_false]
    have h0 := congrArg GasCons.density ha
    simp only at h0
    refine ⟨(hllemFluxArray eq true dir l r).2, ?_⟩
    rw [← ha]
    simp only [hllemFluxArray, roeMeanArray_fun, hv.arr, if_true, h0, zero_mul, add_zero]

/-! ### Upwinding and the returned pressure -/

/-- If all signals of the HLLEM flux go to the right, its flux is the Euler flux of the left state; if they go to the left, of the right state. -/
theorem hllem_upwind {eq : GasEq} (hv : eq.Valid) {l r : GasComplete d} (hl : IsGasState eq l) (hr : IsGasState eq r) (dir : Fin d) :
    let D := hllemData (roeMean l.density r.density) eq.gamma eq.gamma dir l r
    (0 ≤ D.sL → (hllemFluxArray eq false dir l r).1 = gasFluxArray l dir) ∧
      (D.sR ≤ 0 → (hllemFluxArray eq false dir l r).1 = gasFluxArray r dir) := by
  obtain ⟨hA, hs, hb, hdb, -⟩ := hllem_data_facts hv hl hr dir
  intro D
  have e1 : D.bL = min D.sL 0 := rfl
  have e2 : D.bR = max D.sR 0 := rfl
  have e3 : D.b = D.bL * D.bR / D.db := rfl
  have hD : hllemData (roeMean l.density r.density) eq.gamma eq.gamma dir l r = D := rfl
  have hne : D.bR - D.bL ≠ 0 := (sub_pos.2 hb).ne'
  have hdb : D.db = D.bR - D.bL := hdb
  simp only [hllemFluxArray, roeMeanArray_fun, hv.arr, Bool.false_eq_true, if_false, hD]
  constructor
  · intro h
    have hL : D.bL = 0 := by rw [e1, min_eq_right h]
    have hb0 : D.b = 0 := by rw [e3, hL]; simp
    have hh : ∀ fL fR qL qR, D.hlle fL fR qL qR = fL := by
      intro fL fR qL qR
      have h' : D.bR ≠ 0 := by simpa [hL] using hne
      unfold HllemData.hlle; rw [hdb, hL]; field_simp; ring
    simp only [hb0, hh]
    ext i
    · simp
    · by_cases hi : i = dir <;> simp [hi]
    · simp
  · intro h
    have hR : D.bR = 0 := by rw [e2, max_eq_right h]
    have hb0 : D.b = 0 := by rw [e3, hR]; simp
    have hh : ∀ fL fR qL qR, D.hlle fL fR qL qR = fR := by
      intro fL fR qL qR
      have h' : D.bL ≠ 0 := by simpa [hR] using hne
      unfold HllemData.hlle; rw [hdb, hR]; field_simp; ring
    simp only [hb0, hh]
    ext i
    · simp
    · by_cases hi : i = dir <;> simp [hi]
    · simp

/-- The pressure that the HLLEM flux returns lies between the pressures of the two states. -/
theorem hllem_pstar {eq : GasEq} (hv : eq.Valid) {l r : GasComplete d} (hl : IsGasState eq l) (hr : IsGasState eq r) (larr : Bool) (dir : Fin d) :
    min l.pressure r.pressure ≤ (hllemFluxArray eq larr dir l r).2 ∧ (hllemFluxArray eq larr dir l r).2 ≤ max l.pressure r.pressure := by
  have key : ∀ l' r' : GasComplete d, IsGasState eq l' → IsGasState eq r' →
      let D := hllemData (roeMean l'.density r'.density) eq.gamma eq.gamma dir l' r'
      min l'.pressure r'.pressure ≤ (D.bR * l'.pressure - D.bL * r'.pressure) / D.db ∧
        (D.bR * l'.pressure - D.bL * r'.pressure) / D.db ≤ max l'.pressure r'.pressure := by
    intro l' r' hl' hr'
    obtain ⟨hA, hs, hb, hdb, hL, hR, -⟩ := hllem_data_facts hv hl' hr' dir
    intro D
    have hpos := sub_pos.2 hb
    have m1 := min_le_left l'.pressure r'.pressure
    have m2 := min_le_right l'.pressure r'.pressure
    have M1 := le_max_left l'.pressure r'.pressure
    have M2 := le_max_right l'.pressure r'.pressure
    rw [hdb]
    constructor
    · rw [le_div_iff₀ hpos]; nlinarith
    · rw [div_le_iff₀ hpos]; nlinarith
  simp only [hllemFluxArray, roeMeanArray_fun, hv.arr]
  cases larr
  · exact key l r hl hr
  · exact key _ _ (stripTrans_state dir hl) (stripTrans_state dir hr)

/-! ### Mirror symmetry -/

/-- The state seen in a mirror perpendicular to `dir`. -/
def mirrorGas (dir : Fin d) (q : GasComplete d) : GasComplete d :=
  { q with momentum := fun i => if i = dir then -q.momentum i else q.momentum i }

/-- The flux through a face seen in a mirror perpendicular to `dir`, where the face normal points in the other direction. -/
def mirrorFlux (dir : Fin d) (f : GasCons d) : GasCons d :=
  ⟨-f.density, fun i => if i = dir then f.momentum i else -f.momentum i, -f.energy⟩

theorem roeMean_swap (a b x y : ℝ) : roeMean b a y x = roeMean a b x y := by unfold roeMean; ring_nf

theorem roeMean_neg (a b x y : ℝ) : roeMean a b (-x) (-y) = -roeMean a b x y := by unfold roeMean; ring

theorem hllem_data_mirror (g : ℝ) (dir : Fin d) (l r : GasComplete d) :
    let D := hllemData (roeMean l.density r.density) g g dir l r
    hllemData (roeMean r.density l.density) g g dir (mirrorGas dir r) (mirrorGas dir l)
      = ⟨fun i => if i = dir then -D.roeU i else D.roeU i, D.roeH, D.gm1, D.roeA2, D.roeA, -D.sR, -D.sL, -D.bR, -D.bL, D.db, -D.uBar, D.delta, D.b,
          -D.alpha2⟩ := by
  intro D
  set D' := hllemData (roeMean r.density l.density) g g dir (mirrorGas dir r) (mirrorGas dir l) with hD'
  have hU : ∀ i, D'.roeU i = if i = dir then -D.roeU i else D.roeU i := by
    intro i
    change roeMean r.density l.density ((mirrorGas dir r).momentum i / r.density) ((mirrorGas dir l).momentum i / l.density) = _
    rw [roeMean_swap]
    by_cases hi : i = dir
    · simp only [hi, mirrorGas, if_true, neg_div, roeMean_neg]; rfl
    · simp only [hi, mirrorGas, if_false]; rfl
  have hU2 : ∑ i, D'.roeU i * D'.roeU i = ∑ i, D.roeU i * D.roeU i := by
    refine Finset.sum_congr rfl fun i _ => ?_
    rw [hU]; by_cases hi : i = dir <;> simp [hi]
  have hH : D'.roeH = D.roeH := roeMean_swap _ _ _ _
  have hg : D'.gm1 = D.gm1 := by
    change roeMean _ _ _ _ - 1 = roeMean _ _ _ _ - 1
    rw [roeMean_swap]
  have hA2 : D'.roeA2 = D.roeA2 := by
    change D'.gm1 * (D'.roeH - 1 / 2 * ∑ i, D'.roeU i * D'.roeU i) = D.gm1 * (D.roeH - 1 / 2 * ∑ i, D.roeU i * D.roeU i)
    rw [hg, hH, hU2]
  have hA : D'.roeA = D.roeA := by change Real.sqrt D'.roeA2 = Real.sqrt D.roeA2; rw [hA2]
  have hUd : D'.roeU dir = -D.roeU dir := by rw [hU]; simp
  have hsL : D'.sL = -D.sR := by
    change min ((mirrorGas dir r).momentum dir / r.density - max r.speedOfSound l.speedOfSound) (D'.roeU dir - D'.roeA)
      = -max (D.roeU dir + D.roeA) (r.momentum dir / r.density + max l.speedOfSound r.speedOfSound)
    rw [hUd, hA, max_comm (D.roeU dir + D.roeA), ← min_neg_neg]
    congr 1
    · simp only [mirrorGas, if_true]; rw [max_comm r.speedOfSound]; ring
    · ring
  have hsR : D'.sR = -D.sL := by
    change max (D'.roeU dir + D'.roeA) ((mirrorGas dir l).momentum dir / l.density + max r.speedOfSound l.speedOfSound)
      = -min (l.momentum dir / l.density - max l.speedOfSound r.speedOfSound) (D.roeU dir - D.roeA)
    rw [hUd, hA, min_comm (l.momentum dir / l.density - max l.speedOfSound r.speedOfSound), ← max_neg_neg]
    congr 1
    · ring
    · simp only [mirrorGas, if_true]; rw [max_comm r.speedOfSound]; ring
  have hbL : D'.bL = -D.bR := by
    change min D'.sL 0 = -max D.sR 0
    rw [hsL, ← min_neg_neg, neg_zero]
  have hbR : D'.bR = -D.bL := by
    change max D'.sR 0 = -min D.sL 0
    rw [hsR, ← max_neg_neg, neg_zero]
  have hdb : D'.db = D.db := by
    change (if 0 < D'.bR - D'.bL then D'.bR - D'.bL else 1) = if 0 < D.bR - D.bL then D.bR - D.bL else 1
    have : D'.bR - D'.bL = D.bR - D.bL := by rw [hbL, hbR]; ring
    rw [this]
  have hu : D'.uBar = -D.uBar := by
    change 1 / 2 * (D'.sR + D'.sL) = -(1 / 2 * (D.sR + D.sL)); rw [hsL, hsR]; ring
  have hδ : D'.delta = D.delta := by
    change D'.roeA / (D'.roeA + |D'.uBar|) = D.roeA / (D.roeA + |D.uBar|); rw [hA, hu, abs_neg]
  have hb : D'.b = D.b := by
    change D'.bL * D'.bR / D'.db = D.bL * D.bR / D.db; rw [hbL, hbR, hdb]; ring
  have hα : D'.alpha2 = -D.alpha2 := by
    change D'.gm1 / D'.roeA2 * (D'.roeH - ∑ i, D'.roeU i * D'.roeU i) * (l.density - r.density)
        + (∑ i, D'.gm1 / D'.roeA2 * D'.roeU i * ((mirrorGas dir l).momentum i - (mirrorGas dir r).momentum i))
        + D'.gm1 / D'.roeA2 * (-1) * (l.energy - r.energy)
      = -(D.gm1 / D.roeA2 * (D.roeH - ∑ i, D.roeU i * D.roeU i) * (r.density - l.density)
        + (∑ i, D.gm1 / D.roeA2 * D.roeU i * (r.momentum i - l.momentum i))
        + D.gm1 / D.roeA2 * (-1) * (r.energy - l.energy))
    have e : ∑ i, D'.gm1 / D'.roeA2 * D'.roeU i * ((mirrorGas dir l).momentum i - (mirrorGas dir r).momentum i)
        = -∑ i, D.gm1 / D.roeA2 * D.roeU i * (r.momentum i - l.momentum i) := by
      rw [← Finset.sum_neg_distrib]
      refine Finset.sum_congr rfl fun i _ => ?_
      rw [hU, hg, hA2]
      by_cases hi : i = dir
      · simp only [hi, mirrorGas, if_true]; ring
      · simp only [hi, mirrorGas, if_false]; ring
    rw [e, hg, hA2, hH, hU2]; ring
  have hU' : D'.roeU = fun i => if i = dir then -D.roeU i else D.roeU i := funext hU
  clear_value D'
  cases D'
  simp only at hU' hH hg hA2 hA hsL hsR hbL hbR hdb hu hδ hb hα
  subst hU' hH hg hA2 hA hsL hsR hbL hbR hdb hu hδ hb hα
  rfl

theorem stripTrans_mirror (dir : Fin d) (q : GasComplete d) : stripTrans dir (mirrorGas dir q) = mirrorGas dir (stripTrans dir q) := by
  have hk : transKin dir (mirrorGas dir q) = transKin dir q := by
    simp only [transKin, mirrorGas]
    congr 1
    refine Finset.sum_congr rfl fun i _ => ?_
    by_cases hi : i = dir <;> simp [hi]
  ext i
  · rfl
  · by_cases hi : i = dir <;> simp [stripTrans, mirrorGas, hi]
  · simp only [stripTrans, hk]; rfl
  · rfl
  · rfl

theorem larrArray_mirror (f x y : ℝ) : -f * larrArray (-f) y x = -(f * larrArray f x y) := by
  unfold larrArray
  rcases lt_trichotomy f 0 with h | h | h
  · rw [if_pos (by linarith), if_neg (by linarith)]; ring
  · simp [h]
  · rw [if_neg (by linarith), if_pos h]; ring

/-- Mirror symmetry of the array HLLEM flux in one and two space dimensions, with and without the Larrouturou splitting: exchanging the states
and reversing the normal velocities reverses the fluxes of mass, transversal momentum and energy and keeps the flux of normal momentum. -/
theorem hllem_mirror_partial (eq : GasEq) (larr : Bool) (hd : d ≠ 3) (dir : Fin d) (l r : GasComplete d) :
    (hllemFluxArray eq larr dir (mirrorGas dir r) (mirrorGas dir l)).1 = mirrorFlux dir (hllemFluxArray eq larr dir l r).1 := by
  have hf : ∀ q : GasComplete d, gasFluxArray (mirrorGas dir q) dir = mirrorFlux dir (gasFluxArray q dir) := by
    intro q
    ext i
    · simp [gasFluxArray, mirrorGas, mirrorFlux]
    · by_cases hi : i = dir
      · simp [gasFluxArray, mirrorGas, mirrorFlux, hi]; ring
      · simp [gasFluxArray, mirrorGas, mirrorFlux, hi]; ring
    · simp [gasFluxArray, mirrorGas, mirrorFlux]; ring
  have hde : ∀ q : GasComplete d, (mirrorGas dir q).density = q.density := fun _ => rfl
  have hen : ∀ q : GasComplete d, (mirrorGas dir q).energy = q.energy := fun _ => rfl
  have hk : ∀ q : GasComplete d, transKin dir (mirrorGas dir q) = transKin dir q := by
    intro q
    simp only [transKin, mirrorGas]
    congr 1
    refine Finset.sum_congr rfl fun i _ => ?_
    by_cases hi : i = dir <;> simp [hi]
  have key : ∀ D : HllemData d, ∀ fL fR qL qR : ℝ,
      HllemData.hlle ⟨fun i => if i = dir then -D.roeU i else D.roeU i, D.roeH, D.gm1, D.roeA2, D.roeA, -D.sR, -D.sL, -D.bR, -D.bL, D.db, -D.uBar,
        D.delta, D.b, -D.alpha2⟩ fR fL qR qL = -D.hlle (-fL) (-fR) qL qR := by
    intro D fL fR qL qR; simp only [HllemData.hlle]; ring
  have key2 : ∀ D : HllemData d, ∀ fL fR qL qR : ℝ, D.hlle (-fL) (-fR) (-qL) (-qR) = -D.hlle fL fR qL qR := by
    intro D fL fR qL qR; simp only [HllemData.hlle]; ring
  have sq : ∀ D : HllemData d, ∑ i, (if i = dir then -D.roeU i else D.roeU i) * (if i = dir then -D.roeU i else D.roeU i)
      = ∑ i, D.roeU i * D.roeU i := by
    intro D
    refine Finset.sum_congr rfl fun i _ => ?_
    by_cases hi : i = dir <;> simp [hi]
  cases larr
  · simp only [hllemFluxArray, Bool.false_eq_true, if_false, hd, roeMeanArray_fun, hf, hde, hen, hllem_data_mirror, key, sq]
    generalize hllemData (roeMean l.density r.density) eq.gammaArray eq.gammaArray dir l r = D
    ext i
    · simp only [mirrorFlux, neg_neg]; ring
    · by_cases hi : i = dir
      · simp only [hi, mirrorFlux, if_true, mirrorGas]
        rw [← key2]; ring_nf
      · simp only [hi, mirrorFlux, if_false, mirrorGas, HllemData.alphaShear, neg_neg]
        ring
    · simp only [mirrorFlux, neg_neg]
      have : ∑ i, (if i = dir then 0 else D.b * D.delta * HllemData.alphaShear ⟨fun i => if i = dir then -D.roeU i else D.roeU i, D.roeH, D.gm1,
            D.roeA2, D.roeA, -D.sR, -D.sL, -D.bR, -D.bL, D.db, -D.uBar, D.delta, D.b, -D.alpha2⟩ (mirrorGas dir r) (mirrorGas dir l) i
              * (if i = dir then -D.roeU i else D.roeU i))
          = -∑ i, (if i = dir then 0 else D.b * D.delta * D.alphaShear l r i * D.roeU i) := by
        rw [← Finset.sum_neg_distrib]
        refine Finset.sum_congr rfl fun i _ => ?_
        by_cases hi : i = dir
        · simp [hi]
        · simp only [hi, if_false, HllemData.alphaShear, mirrorGas]; ring
      rw [this]; ring
  · simp only [hllemFluxArray, if_true, hd, if_false, roeMeanArray_fun, stripTrans_mirror, hf, hde, hen, hllem_data_mirror, key, sq, hk]
    generalize hllemData (roeMean (stripTrans dir l).density (stripTrans dir r).density) eq.gammaArray eq.gammaArray dir (stripTrans dir l) (stripTrans dir r) = D
    have hρ : -D.hlle (-(mirrorFlux dir (gasFluxArray (stripTrans dir l) dir)).density) (-(mirrorFlux dir (gasFluxArray (stripTrans dir r) dir)).density)
          (stripTrans dir l).density (stripTrans dir r).density - D.b * D.delta * -D.alpha2
        = -(D.hlle (gasFluxArray (stripTrans dir l) dir).density (gasFluxArray (stripTrans dir r) dir).density (stripTrans dir l).density
          (stripTrans dir r).density - D.b * D.delta * D.alpha2) := by
      simp only [mirrorFlux, neg_neg]; ring
    simp only [hρ, larrArray_mirror]
    ext i
    · rfl
    · by_cases hi : i = dir
      · simp only [hi, mirrorFlux, if_true, mirrorGas]
        rw [← key2]; ring_nf
      · have e : ∀ q : GasComplete d, (mirrorGas dir q).momentum i = q.momentum i := fun q => by simp [mirrorGas, hi]
        simp only [hi, mirrorFlux, if_false, e, larrArray_mirror]
    · simp only [mirrorFlux, neg_neg]; ring

/-! ### Stable time step -/

/-- The HLLEM time step: it is positive and finite, and with a time step below it none of the signals of the flux with or without the Larrouturou
splitting crosses more than one cell; neither do the left going acoustic wave of the left state and the right going one of the right state. -/
theorem hllem_stable_dt {eq : GasEq} (hv : eq.Valid) {l r : GasComplete d} (hl : IsGasState eq l) (hr : IsGasState eq r) (dir : Fin d) {dx : ℝ}
    (hdx : 0 < dx) :
    ∃ t : ℝ, 0 < t ∧ hllemStableDt eq dir dx l r = some (t : WithTop ℝ) ∧ ∀ dt, 0 ≤ dt → dt ≤ t →
      (∀ D, D = hllemData (roeMean l.density r.density) eq.gamma eq.gamma dir l r ∨
          D = hllemData (roeMean l.density r.density) eq.gamma eq.gamma dir (stripTrans dir l) (stripTrans dir r) →
        -dx ≤ D.sL * dt ∧ D.sR * dt ≤ dx) ∧
      -dx ≤ (l.momentum dir / l.density - l.speedOfSound) * dt ∧ (r.momentum dir / r.density + r.speedOfSound) * dt ≤ dx := by
  obtain ⟨hA, hs, -⟩ := hllem_data_facts hv hl hr dir
  have hA2 := hllem_roeA2_eq hv hl hr dir
  have hA2' := hllem_roeA2_eq hv (stripTrans_state dir hl) (stripTrans_state dir hr) dir
  set D := hllemData (roeMean l.density r.density) eq.gamma eq.gamma dir l r with hD
  set D' := hllemData (roeMean (stripTrans dir l).density (stripTrans dir r).density) eq.gamma eq.gamma dir (stripTrans dir l) (stripTrans dir r) with hD'
  have hm : 0 < max |D.sL| |D.sR| := by
    by_contra h
    have h1 : |D.sL| ≤ 0 := le_trans (le_max_left _ _) (not_lt.1 h)
    have h2 : |D.sR| ≤ 0 := le_trans (le_max_right _ _) (not_lt.1 h)
    have h1 := abs_eq_zero.1 (le_antisymm h1 (abs_nonneg _))
    have h2 := abs_eq_zero.1 (le_antisymm h2 (abs_nonneg _))
    linarith
  have hsq : 0 < Real.sqrt l.density + Real.sqrt r.density := add_pos (Real.sqrt_pos.2 hl.density_pos) (Real.sqrt_pos.2 hr.density_pos)
  refine ⟨dx / max |D.sL| |D.sR|, div_pos hdx hm, ?_, ?_⟩
  · simp only [hllemStableDt, hsq, if_true]
    rw [← hD, if_neg hm.ne']
  · intro dt h0 hdt
    have hdt := (le_div_iff₀ hm).1 hdt
    have hL : -dx ≤ D.sL * dt := by
      have := le_max_left |D.sL| |D.sR|
      have := neg_abs_le D.sL
      nlinarith
    have hR : D.sR * dt ≤ dx := by
      have := le_max_right |D.sL| |D.sR|
      have := le_abs_self D.sR
      nlinarith
    have hAA : D'.roeA ≤ D.roeA := by
      refine Real.sqrt_le_sqrt ?_
      change D'.roeA2 ≤ D.roeA2
      rw [hA2, hA2']
      have hg : 0 < eq.gamma - 1 := by linarith [hv.one_lt]
      refine mul_le_mul_of_nonneg_left (add_le_add le_rfl (Finset.sum_le_sum fun i _ => ?_)) hg.le
      by_cases hi : i = dir
      · simp [stripTrans, hi]
      · simp only [stripTrans, hi, if_false]
        have := hl.density_pos
        have := hr.density_pos
        simp only [zero_div, sub_self, ne_eq, OfNat.ofNat_ne_zero, not_false_eq_true, zero_pow, mul_zero]
        positivity
    have hU : D'.roeU dir = D.roeU dir := by
      change roeMean _ _ ((stripTrans dir l).momentum dir / _) ((stripTrans dir r).momentum dir / _) = roeMean _ _ _ _
      simp [stripTrans]
    have hu1 : (stripTrans dir l).momentum dir / (stripTrans dir l).density = l.momentum dir / l.density := by simp [stripTrans]
    have hu2 : (stripTrans dir r).momentum dir / (stripTrans dir r).density = r.momentum dir / r.density := by simp [stripTrans]
    have hsL : D.sL ≤ D'.sL := by
      change min (l.momentum dir / l.density - max l.speedOfSound r.speedOfSound) (D.roeU dir - D.roeA)
        ≤ min ((stripTrans dir l).momentum dir / (stripTrans dir l).density - max l.speedOfSound r.speedOfSound) (D'.roeU dir - D'.roeA)
      rw [hU, hu1]
      exact min_le_min le_rfl (by linarith)
    have hsR : D'.sR ≤ D.sR := by
      change max (D'.roeU dir + D'.roeA) ((stripTrans dir r).momentum dir / (stripTrans dir r).density + max l.speedOfSound r.speedOfSound)
        ≤ max (D.roeU dir + D.roeA) (r.momentum dir / r.density + max l.speedOfSound r.speedOfSound)
      rw [hU, hu2]
      exact max_le_max (by linarith) le_rfl
    refine ⟨?_, ?_, ?_⟩
    · rintro E (rfl | rfl)
      · exact ⟨hL, hR⟩
      · constructor
        · change -dx ≤ D'.sL * dt; nlinarith
        · change D'.sR * dt ≤ dx; nlinarith
    · have : D.sL ≤ l.momentum dir / l.density - l.speedOfSound :=
        le_trans (min_le_left _ _) (by linarith [le_max_left l.speedOfSound r.speedOfSound])
      nlinarith
    · have : r.momentum dir / r.density + r.speedOfSound ≤ D.sR :=
        le_trans (by linarith [le_max_right l.speedOfSound r.speedOfSound]) (le_max_right _ _)
      nlinarith

/-- Closed faces have flux zero, open faces the flux of the array version. -/
theorem hllem_masked (eq : GasEq) (larr : Bool) (dir : Fin d) (l r : GasComplete d) (a : ℝ) :
    (a ≤ 0 → hllemFluxMasked eq larr dir a l r = ⟨0, fun _ => 0, 0⟩) ∧
      (0 < a → hllemFluxMasked eq larr dir a l r = (hllemFluxArray eq larr dir l r).1) :=
  ⟨fun h => if_neg (not_lt.2 h), fun h => if_pos h⟩

/-! ### The Riemann solver -/

/-- Without the Larrouturou splitting the HLLEM solver returns the state itself between equal states. -/
theorem hllem_solve_same_partial {eq : GasEq} (hv : eq.Valid) {q : GasComplete d} (hq : IsGasState eq q) (dir : Fin d) :
    hllemSolve eq false dir q q = some q := by
  obtain ⟨hA, hs, hb, hdb, -⟩ := hllem_data_facts hv hq hq dir
  have hp := hq.density_pos
  simp only [hllemSolve, hp, Bool.false_eq_true, if_false, and_self, if_true, hllem_alpha2_same, hllem_alphaShear_same]
  generalize hllemData (roeMean q.density q.density) eq.gamma eq.gamma dir q q = D at *
  have hne := (sub_pos.2 hb).ne'
  have hh : ∀ f x : ℝ, (D.bR * x - D.bL * x + f - f) / D.db = x := by
    intro f x; rw [hdb]; field_simp; ring
  simp only [hh]
  have hw : (⟨q.density - D.uBar * D.delta * 0, fun i => if i = dir ∨ True then q.momentum i - D.uBar * D.delta * 0 * D.roeU i
      - (if i = dir then 0 else D.uBar * D.delta * 0) else (q.density - D.uBar * D.delta * 0) * (if 0 < D.uBar then q.momentum i / q.density else q.momentum i / q.density),
      q.energy - D.uBar * D.delta * 0 * (1 / 2 * ∑ i, D.roeU i * D.roeU i) + -∑ i, (if i = dir then 0 else D.uBar * D.delta * 0 * D.roeU i)⟩ : GasCons d)
      = q.cons := by
    ext i <;> simp [GasComplete.cons]
  rw [hw, (gas_cons_roundtrip eq hv q hq).1]
  split_ifs <;> rfl

/-- With the Larrouturou splitting the HLLEM solver loses the transversal momentum in supersonic flow: the returned state is the left state without it. -/
theorem hllem_solve_larr_loses_momentum (eq : GasEq) {l r : GasComplete d} (hl : 0 < l.density) (hr : 0 < r.density) (dir : Fin d)
    (h : 0 < (hllemData (roeMean l.density r.density) eq.gamma eq.gamma dir (stripTrans dir l) (stripTrans dir r)).sL) :
    ∃ q, hllemSolve eq true dir l r = some q ∧ ∀ i, i ≠ dir → q.momentum i = 0 := by
  have hl' : 0 < (stripTrans dir l).density := hl
  have hr' : 0 < (stripTrans dir r).density := hr
  refine ⟨stripTrans dir l, ?_, fun i hi => by simp [stripTrans, hi]⟩
  simp only [hllemSolve, if_true, hl', hr', and_self]
  exact if_pos h

/-! ### Where the code deviates -/

/-- The scalar flux in three space dimensions does not compute the fluxes of mass and normal momentum: it leaves the old content of the output. -/
theorem hllem_scalar_3d_stale (eq : GasEq) (larr : Bool) (dir : Fin 3) (old : GasCons 3) {l r : GasComplete 3} (hl : 0 < l.density) (hr : 0 < r.density) :
    ∃ f p, hllemFlux eq larr dir old l r = some (f, p) ∧ f.density = old.density ∧ f.momentum dir = old.momentum dir := by
  have hl' : 0 < (stripTrans dir l).density := hl
  have hr' : 0 < (stripTrans dir r).density := hr
  cases larr
  · simp only [hllemFlux, Bool.false_eq_true, if_false, hl, hr, and_self, if_true]
    exact ⟨_, _, rfl, rfl, if_pos rfl⟩
  · simp only [hllemFlux, if_true, hl', hr', and_self]
    exact ⟨_, _, rfl, rfl, if_pos rfl⟩

/-- The scalar Larrouturou flux has the wrong sign where the mass flux is negative: between equal states that move in negative direction, the flux
of transversal momentum is the negative of the Euler flux. -/
theorem hllem_larr_scalar_sign {eq : GasEq} (hv : eq.Valid) {q : GasComplete d} (hq : IsGasState eq q) (hd : d ≠ 3) (dir : Fin d)
    (hm : q.momentum dir < 0) (old : GasCons d) :
    ∃ f p, hllemFlux eq true dir old q q = some (f, p) ∧ ∀ i, i ≠ dir → f.momentum i = -(gasFluxArray q dir).momentum i := by
  have hq' := stripTrans_state dir hq
  have hp : 0 < (stripTrans dir q).density := hq.density_pos
  obtain ⟨hA, hs, hb, hdb, -⟩ := hllem_data_facts hv hq' hq' dir
  have hc := hllem_hlle_same _ hb hdb
  simp only [hllemFlux, if_true, hp, and_self, hd, if_false, hllem_alpha2_same, hc]
  refine ⟨_, _, rfl, fun i hi => ?_⟩
  have hρ : (gasFluxArray (stripTrans dir q) dir).density = q.momentum dir := by simp [gasFluxArray, stripTrans]
  simp only [hi, if_false, mul_zero, sub_zero, hρ, larrScalar, if_neg (not_lt.2 hm.le)]
  simp only [gasFluxArray, hi, if_false]
  ring

/-- The array flux in three space dimensions without the Larrouturou splitting does not keep stationary contacts: the density jump changes the normal
momentum flux as soon as the gas slides along the contact in the next direction. -/
theorem hllem_array_3d_contact_false {eq : GasEq} (hv : eq.Valid) {l r : GasComplete 3} (hl : IsGasState eq l) (hr : IsGasState eq r) (dir : Fin 3)
    (hml : l.momentum dir = 0) (hmr : r.momentum dir = 0) (hp : l.pressure = r.pressure) (v : ℝ) (hv0 : v ≠ 0)
    (hvl : l.momentum (nextDir dir) = l.density * v) (hvr : r.momentum (nextDir dir) = r.density * v) (hρ : l.density ≠ r.density) :
    (hllemFluxArray eq false dir l r).1.momentum dir ≠ l.pressure := by
  obtain ⟨hA, hs, hb, hdb, -⟩ := hllem_data_facts hv hl hr dir
  obtain ⟨hU, hδ, hα, hid⟩ := hllem_contact_data hv hl hr dir hml hmr hp
  obtain ⟨f1, f2⟩ := hllem_contact_flux l r dir hml hmr hp
  have hUn : (hllemData (roeMean l.density r.density) eq.gamma eq.gamma dir l r).roeU (nextDir dir) = v := by
    change roeMean _ _ (l.momentum (nextDir dir) / l.density) (r.momentum (nextDir dir) / r.density) = v
    rw [hvl, hvr, mul_div_cancel_left₀ _ hl.density_pos.ne', mul_div_cancel_left₀ _ hr.density_pos.ne']
    exact roeMean_self hl.density_pos hr.density_pos v
  have hbneg : (hllemData (roeMean l.density r.density) eq.gamma eq.gamma dir l r).b < 0 := by
    set D := hllemData (roeMean l.density r.density) eq.gamma eq.gamma dir l r with hD
    have h1 : D.bL < 0 := by
      refine lt_of_le_of_lt (min_le_left _ _) (lt_of_le_of_lt (min_le_right _ _) ?_)
      change D.roeU dir - D.roeA < 0
      rw [hU]; linarith
    have h2 : 0 < D.bR := by
      refine lt_of_lt_of_le (lt_of_lt_of_le ?_ (le_max_left _ _)) (le_max_left _ _)
      change 0 < D.roeU dir + D.roeA
      rw [hU]; linarith
    change D.bL * D.bR / D.db < 0
    rw [hdb]
    exact div_neg_of_neg_of_pos (mul_neg_of_neg_of_pos h1 h2) (by linarith)
  have hbb : (hllemData (roeMean l.density r.density) eq.gamma eq.gamma dir l r).b
      = (hllemData (roeMean l.density r.density) eq.gamma eq.gamma dir l r).bL
        * (hllemData (roeMean l.density r.density) eq.gamma eq.gamma dir l r).bR
        / (hllemData (roeMean l.density r.density) eq.gamma eq.gamma dir l r).db := rfl
  simp only [hllemFluxArray, roeMeanArray_fun, hv.arr, Bool.false_eq_true, if_false, if_true, f1, f2]
  generalize hllemData (roeMean l.density r.density) eq.gamma eq.gamma dir l r = D at *
  simp only [hllem_hlle_eq D hb hdb hbb, hδ, hα, hUn, hml, hmr, sub_self, mul_zero, add_zero, mul_one]
  intro h
  have : D.b * (r.density - l.density) * v = 0 := by linarith
  rcases mul_eq_zero.1 this with h | h
  · rcases mul_eq_zero.1 h with h | h
    · linarith
    · exact hρ (by linarith)
  · exact hv0 h

/-- Two gas states in one dimension, a moving contact, for which the HLLEM solver produces a negative density, which `CompleteFromCons` rejects:
the correction of the middle state lacks a factor `2 / (bR - bL)`. -/
theorem hllem_solve_negative_density :
    ∃ l r : GasComplete 1, IsGasState (GasEq.new 1 2) l ∧ IsGasState (GasEq.new 1 2) r ∧ hllemSolve (GasEq.new 1 2) false 0 l r = none := by
  refine ⟨⟨1, fun _ => 2, 10, 8, 4⟩, ⟨16, fun _ => 32, 40, 8, 1⟩, ⟨by norm_num, by norm_num, ?_, by norm_num, ?_⟩, ⟨by norm_num, by norm_num, ?_, by norm_num, ?_⟩, ?_⟩
  · norm_num [GasEq.new]
  · norm_num [GasEq.new]
  · norm_num [GasEq.new]
  · norm_num [GasEq.new]
  · have h16 : Real.sqrt 16 = 4 := by rw [show (16 : ℝ) = 4 ^ 2 by norm_num]; exact Real.sqrt_sq (by norm_num)
    have h4 : Real.sqrt 4 = 2 := by rw [show (4 : ℝ) = 2 ^ 2 by norm_num]; exact Real.sqrt_sq (by norm_num)
    have hD : hllemData (d := 1) (roeMean 1 16) 2 2 0 ⟨1, fun _ => 2, 10, 8, 4⟩ ⟨16, fun _ => 32, 40, 8, 1⟩
        = ⟨fun _ => 2, 6, 1, 4, 2, -2, 6, -2, 6, 8, 2, 1 / 2, -3 / 2, 15⟩ := by
      have hU : roeMean 1 16 (2 / 1) (32 / 16) = 2 := by norm_num [roeMean, h16]
      have hH : roeMean 1 16 ((10 + 8) / 1) ((40 + 8) / 16) = 6 := by norm_num [roeMean, h16]
      have hg : roeMean 1 16 2 2 - 1 = 1 := by norm_num [roeMean, h16]
      simp only [hllemData, hU, hH, hg, Finset.univ_unique, Finset.sum_singleton]
      norm_num [h4, abs_of_pos]
    simp only [hllemSolve, Bool.false_eq_true, if_false, GasEq.new, hD]
    norm_num [gasComplete, gasFluxArray, gasKinetic]

/-! ### Non-vacuity -/

/-- A gas in two dimensions next to a denser one that slides along it: the contact theorem applies, and the equal-state theorems to each of them. -/
example : ∃ l r : GasComplete 2, (GasEq.new 1 2).Valid ∧ IsGasState (GasEq.new 1 2) l ∧ IsGasState (GasEq.new 1 2) r ∧ l.momentum 0 = 0 ∧
    r.momentum 0 = 0 ∧ l.pressure = r.pressure ∧ l.density ≠ r.density ∧ l.momentum 1 ≠ r.momentum 1 := by
  refine ⟨⟨1, ![0, 1], 17 / 2, 8, 4⟩, ⟨16, ![0, 48], 80, 8, 1⟩, gasEq_new_valid _ _ (by norm_num), ⟨?_, ?_, ?_, ?_, ?_⟩, ⟨?_, ?_, ?_, ?_, ?_⟩, ?_, ?_, ?_, ?_, ?_⟩ <;>
    norm_num [GasEq.new, Fin.sum_univ_two]

/-- A gas in two dimensions that moves in negative direction and sideways. -/
example : ∃ q : GasComplete 2, IsGasState (GasEq.new 1 2) q ∧ q.momentum 0 < 0 ∧ q.momentum 1 ≠ 0 := by
  refine ⟨⟨1, ![-1, 1], 9, 8, 4⟩, ⟨?_, ?_, ?_, ?_, ?_⟩, ?_, ?_⟩ <;> norm_num [GasEq.new, Fin.sum_univ_two]

/-- The three-dimensional counterexample is met. -/
example : ∃ l r : GasComplete 3, IsGasState (GasEq.new 1 2) l ∧ IsGasState (GasEq.new 1 2) r ∧ l.momentum 0 = 0 ∧ r.momentum 0 = 0 ∧ l.pressure = r.pressure ∧
    l.momentum (nextDir 0) = l.density * 1 ∧ r.momentum (nextDir 0) = r.density * 1 ∧ l.density ≠ r.density := by
  have e : (nextDir (0 : Fin 3)) = 1 := rfl
  refine ⟨⟨1, ![0, 1, 0], 17 / 2, 8, 4⟩, ⟨16, ![0, 16, 0], 16, 8, 1⟩, ⟨?_, ?_, ?_, ?_, ?_⟩, ⟨?_, ?_, ?_, ?_, ?_⟩, ?_, ?_, ?_, ?_, ?_, ?_⟩ <;>
    norm_num [GasEq.new, Fin.sum_univ_three, e, show ![(0 : ℝ), 1, 0] 2 = 0 from rfl, show ![(0 : ℝ), 16, 0] 2 = 0 from rfl]

/-- Supersonic flow to the right: the premises of the upwind theorem and of the lost momentum are met. -/
example : ∃ q : GasComplete 2, IsGasState (GasEq.new 1 2) q ∧ q.momentum 1 ≠ 0 ∧
    0 < (hllemData (roeMean q.density q.density) 2 2 0 (stripTrans 0 q) (stripTrans 0 q)).sL := by
  have h16 : Real.sqrt 16 = 4 := by rw [show (16 : ℝ) = 4 ^ 2 by norm_num]; exact Real.sqrt_sq (by norm_num)
  refine ⟨⟨1, ![5, 1], 21, 8, 4⟩, ⟨?_, ?_, ?_, ?_, ?_⟩, ?_, ?_⟩
  · norm_num
  · norm_num
  · norm_num [GasEq.new, Fin.sum_univ_two]
  · norm_num
  · norm_num [GasEq.new]
  · norm_num
  · norm_num [hllemData, stripTrans, transKin, roeMean_self, Fin.sum_univ_two, h16]

end Fub
