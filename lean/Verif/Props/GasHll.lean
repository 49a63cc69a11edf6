import Verif.Props.Gas
import Verif.Props.Flux

/-! C51: with Einfeldt's signal velocities the HLL flux keeps density and pressure of a perfect gas positive. -/

namespace Fub
open Finset
variable {d : ℕ}

/-! ### The cone of admissible states -/

/-- Admissibility of a vector of conserved quantities. -/
def Adm (f : GasVar d → ℝ) : Prop := 0 < f .density ∧ (∑ i, f (.momentum i) ^ 2) < 2 * f .density * f .energy

theorem adm_smul {f : GasVar d → ℝ} (h : Adm f) {c : ℝ} (hc : 0 < c) : Adm fun v => c * f v := by
  refine ⟨mul_pos hc h.1, ?_⟩
  simp only [mul_pow, ← mul_sum]
  have := mul_lt_mul_of_pos_left h.2 (pow_pos hc 2)
  linarith

theorem adm_add {f g : GasVar d → ℝ} (hf : Adm f) (hg : Adm g) : Adm fun v => f v + g v := by
  refine ⟨add_pos hf.1 hg.1, ?_⟩
  set r := f .density with hr
  set s := g .density with hs
  have r0 : 0 < r := hf.1
  have s0 : 0 < s := hg.1
  have key : r * s * ∑ i, (f (.momentum i) + g (.momentum i)) ^ 2 ≤ (r + s) * (s * ∑ i, f (.momentum i) ^ 2 + r * ∑ i, g (.momentum i) ^ 2) := by
    simp only [mul_sum, ← sum_add_distrib]
    refine sum_le_sum fun i _ => ?_
    nlinarith [sq_nonneg (s * f (.momentum i) - r * g (.momentum i))]
  have h1 : (r + s) * (s * ∑ i, f (.momentum i) ^ 2 + r * ∑ i, g (.momentum i) ^ 2) < (r + s) * (s * (2 * r * f .energy) + r * (2 * s * g .energy)) := by
    refine mul_lt_mul_of_pos_left ?_ (by linarith)
    have := mul_lt_mul_of_pos_left hf.2 s0
    have := mul_lt_mul_of_pos_left hg.2 r0
    linarith
  have h2 : r * s * ∑ i, (f (.momentum i) + g (.momentum i)) ^ 2 < r * s * (2 * (r + s) * (f .energy + g .energy)) := by
    calc _ ≤ _ := key
      _ < _ := h1
      _ = _ := by ring
  exact lt_of_mul_lt_mul_left h2 (by positivity)

/-- A combination with nonnegative coefficients of which the first is positive. -/
theorem adm_comb {f g h : GasVar d → ℝ} (hf : Adm f) (hg : Adm g) (hh : Adm h) {a b c : ℝ} (ha : 0 ≤ a) (hb : 0 ≤ b) (hc : 0 ≤ c)
    (hp : 0 < a + b + c) : Adm fun v => a * f v + b * g v + c * h v := by
  rcases ha.eq_or_lt with rfl | ha
  · rcases hb.eq_or_lt with rfl | hb
    · have : 0 < c := by linarith
      simpa using adm_smul hh this
    · rcases hc.eq_or_lt with rfl | hc
      · simpa using adm_smul hg hb
      · simpa using adm_add (adm_smul hg hb) (adm_smul hh hc)
  · rcases hb.eq_or_lt with rfl | hb
    · rcases hc.eq_or_lt with rfl | hc
      · simpa using adm_smul hf ha
      · simpa using adm_add (adm_smul hf ha) (adm_smul hh hc)
    · rcases hc.eq_or_lt with rfl | hc
      · simpa using adm_add (adm_smul hf ha) (adm_smul hg hb)
      · exact adm_add (adm_add (adm_smul hf ha) (adm_smul hg hb)) (adm_smul hh hc)

theorem adm_state {eq : GasEq} (hv : eq.Valid) {q : GasComplete d} (hq : IsGasState eq q) : Adm q.cons.get := by
  refine ⟨hq.density_pos, ?_⟩
  show ∑ i, q.momentum i ^ 2 < 2 * q.density * q.energy
  have hr := hq.density_pos
  rw [hq.energy_eq, mul_add, mul_div_cancel₀ _ (by linarith)]
  have := hv.one_lt
  have : 0 < 2 * q.density * (q.pressure / (eq.gamma - 1)) := mul_pos (by linarith) (div_pos hq.pressure_pos (by linarith))
  linarith

/-- `b U - F(U)` for a signal `b` at least one sound speed faster than the flow, and `F(U) - b U` for a signal at least one sound speed slower. -/
theorem adm_side {eq : GasEq} (hv : eq.Valid) {q : GasComplete d} (hq : IsGasState eq q) (dir : Fin d) {b : ℝ} :
    (q.momentum dir / q.density + q.speedOfSound ≤ b → Adm fun v => b * q.cons.get v - (gasFluxArray q dir).get v) ∧
    (b ≤ q.momentum dir / q.density - q.speedOfSound → Adm fun v => (gasFluxArray q dir).get v - b * q.cons.get v) := by
  have hg := hv.one_lt
  have hr := hq.density_pos
  have hp := hq.pressure_pos
  have hc := hq.sound_pos
  obtain ⟨u, hu⟩ : ∃ u, u = q.momentum dir / q.density := ⟨_, rfl⟩
  have hm : q.momentum dir = u * q.density := by rw [hu]; field_simp
  -- the common estimate with `l = |b - u|` and a sign
  have est : ∀ l s : ℝ, q.speedOfSound ≤ l → s ^ 2 = 1 →
      ∑ i, (l * q.momentum i - s * (if i = dir then q.pressure else 0)) ^ 2 < 2 * (l * q.density) * (l * q.energy - s * (u * q.pressure)) := by
    intro l s hl hs
    have e : ∑ i, (l * q.momentum i - s * (if i = dir then q.pressure else 0)) ^ 2 =
        l ^ 2 * ∑ i, q.momentum i ^ 2 - 2 * s * l * q.pressure * q.momentum dir + q.pressure ^ 2 := by
      have : ∀ i, (l * q.momentum i - s * (if i = dir then q.pressure else 0)) ^ 2 =
          l ^ 2 * q.momentum i ^ 2 - (if i = dir then 2 * s * l * q.pressure * q.momentum i else 0) + (if i = dir then s ^ 2 * q.pressure ^ 2 else 0) := by
        intro i; split <;> ring
      simp only [this, sum_add_distrib, sum_sub_distrib, ← mul_sum]
      simp [hs]
    rw [e, hq.energy_eq, hm]
    have l2 : q.speedOfSound ^ 2 ≤ l ^ 2 := by nlinarith
    have l3 : eq.gamma * q.pressure ≤ l ^ 2 * q.density := by rw [← hq.sound_sq]; exact mul_le_mul_of_nonneg_right l2 hr.le
    have l4 : q.pressure ^ 2 < 2 * l ^ 2 * q.density * (q.pressure / (eq.gamma - 1)) := by
      rw [mul_div_assoc', lt_div_iff₀ (by linarith)]
      have := mul_le_mul_of_nonneg_right l3 hp.le
      nlinarith [sq_nonneg q.pressure, mul_pos hp hp]
    have l5 : 2 * (l * q.density) * (l * (q.pressure / (eq.gamma - 1) + (∑ i, q.momentum i ^ 2) / (2 * q.density)) - s * (u * q.pressure)) =
        2 * l ^ 2 * q.density * (q.pressure / (eq.gamma - 1)) + l ^ 2 * ∑ i, q.momentum i ^ 2 - 2 * s * l * q.pressure * (u * q.density) := by
      field_simp
    rw [l5]; linarith
  rw [← hu]
  refine ⟨fun hb => ⟨?_, ?_⟩, fun hb => ⟨?_, ?_⟩⟩
  · show 0 < b * q.density - q.momentum dir
    rw [hm]; nlinarith
  · have := est (b - u) 1 (by linarith) (by norm_num)
    have e1 : ∀ i, b * q.cons.get (.momentum i) - (gasFluxArray q dir).get (.momentum i) =
        (b - u) * q.momentum i - 1 * (if i = dir then q.pressure else 0) := fun i => by
      show b * q.momentum i - (q.momentum dir / q.density * q.momentum i + _) = _
      rw [← hu]; ring
    simp only [e1]
    show _ < 2 * (b * q.density - q.momentum dir) * (b * q.energy - q.momentum dir / q.density * (q.energy + q.pressure))
    rw [← hu, hm]
    calc _ < _ := this
      _ = _ := by ring
  · show 0 < q.momentum dir - b * q.density
    rw [hm]; nlinarith
  · have := est (u - b) (-1) (by linarith) (by norm_num)
    have e1 : ∀ i, (gasFluxArray q dir).get (.momentum i) - b * q.cons.get (.momentum i) =
        (u - b) * q.momentum i - (-1) * (if i = dir then q.pressure else 0) := fun i => by
      show (q.momentum dir / q.density * q.momentum i + _) - b * q.momentum i = _
      rw [← hu]; ring
    simp only [e1]
    show _ < 2 * (q.momentum dir - b * q.density) * (q.momentum dir / q.density * (q.energy + q.pressure) - b * q.energy)
    rw [← hu, hm]
    calc _ < _ := this
      _ = _ := by ring

/-! ### Signal velocities -/

/-- **C51 (signals).** For two thermodynamic states the quantity under the square root of the Roe sound speed is positive, the left signal is at most
`u_L - c_L`, the right one at least `u_R + c_R`, and the left signal is smaller than the right one. -/
theorem einfeldt_bounds (eq : GasEq) (hv : eq.Valid) (dir : Fin d) (l r : GasComplete d) (hl : IsGasState eq l) (hr : IsGasState eq r) :
    let roeU := roeAvg l.density r.density (l.momentum dir / l.density) (r.momentum dir / r.density)
    let roeH := roeAvg l.density r.density ((l.energy + l.pressure) / l.density) ((r.energy + r.pressure) / r.density)
    0 < (eq.gamma - 1) * (roeH - 1 / 2 * roeU * roeU) ∧
    (einfeldt eq.gamma dir l r).1 ≤ l.momentum dir / l.density - l.speedOfSound ∧
    r.momentum dir / r.density + r.speedOfSound ≤ (einfeldt eq.gamma dir l r).2 ∧
    (einfeldt eq.gamma dir l r).1 < (einfeldt eq.gamma dir l r).2 := by
  intro roeU roeH
  have hg := hv.one_lt
  have a0 : 0 < Real.sqrt l.density := Real.sqrt_pos.2 hl.density_pos
  have b0 : 0 < Real.sqrt r.density := Real.sqrt_pos.2 hr.density_pos
  have H : ∀ q : GasComplete d, IsGasState eq q → 1 / 2 * (q.momentum dir / q.density) ^ 2 < (q.energy + q.pressure) / q.density := by
    intro q hq
    have q0 := hq.density_pos
    have hs : q.momentum dir ^ 2 ≤ ∑ i, q.momentum i ^ 2 := single_le_sum (f := fun i => q.momentum i ^ 2) (fun i _ => sq_nonneg _) (mem_univ dir)
    have hp : 0 < q.pressure / (eq.gamma - 1) := div_pos hq.pressure_pos (by linarith)
    rw [lt_div_iff₀ q0, hq.energy_eq]
    have : 1 / 2 * (q.momentum dir / q.density) ^ 2 * q.density = q.momentum dir ^ 2 / (2 * q.density) := by field_simp
    rw [this]
    have := div_le_div_of_nonneg_right hs (show 0 ≤ 2 * q.density by linarith)
    linarith [hq.pressure_pos]
  have hA : 0 < roeH - 1 / 2 * roeU * roeU := by
    have h1 := H l hl
    have h2 := H r hr
    simp only [roeH, roeU, roeAvg]
    generalize Real.sqrt l.density = a at a0 ⊢
    generalize Real.sqrt r.density = b at b0 ⊢
    generalize l.momentum dir / l.density = x at h1 ⊢
    generalize r.momentum dir / r.density = y at h2 ⊢
    generalize (l.energy + l.pressure) / l.density = X at h1 ⊢
    generalize (r.energy + r.pressure) / r.density = Y at h2 ⊢
    have hab : 0 < a + b := by linarith
    have : (X * a + Y * b) * (1 / (a + b)) - 1 / 2 * ((x * a + y * b) * (1 / (a + b))) * ((x * a + y * b) * (1 / (a + b))) =
        ((X * a + Y * b) * (a + b) - 1 / 2 * (x * a + y * b) ^ 2) / (a + b) ^ 2 := by
      field_simp
    rw [this]
    apply div_pos _ (by positivity)
    have e1 : 0 < (X - 1 / 2 * x ^ 2) * a * (a + b) := mul_pos (mul_pos (by linarith) a0) hab
    have e2 : 0 < (Y - 1 / 2 * y ^ 2) * b * (a + b) := mul_pos (mul_pos (by linarith) b0) hab
    nlinarith [mul_nonneg (mul_nonneg a0.le b0.le) (sq_nonneg (x - y))]
  have hA2 : 0 < (eq.gamma - 1) * (roeH - 1 / 2 * roeU * roeU) := mul_pos (by linarith) hA
  have hs := Real.sqrt_pos.2 hA2
  refine ⟨hA2, min_le_left _ _, le_max_right _ _, ?_⟩
  calc (einfeldt eq.gamma dir l r).1 ≤ roeU - Real.sqrt ((eq.gamma - 1) * (roeH - 1 / 2 * roeU * roeU)) := min_le_right _ _
    _ < roeU + Real.sqrt ((eq.gamma - 1) * (roeH - 1 / 2 * roeU * roeU)) := by linarith
    _ ≤ _ := le_max_left _ _

/-- The clipped signals `min(0, s_L)` and `max(0, s_R)` of a pair of states. -/
noncomputable def clipL (eq : GasEq) (dir : Fin d) (l r : GasComplete d) : ℝ := min 0 (einfeldt eq.gamma dir l r).1
/-- See `clipL`. -/
noncomputable def clipR (eq : GasEq) (dir : Fin d) (l r : GasComplete d) : ℝ := max 0 (einfeldt eq.gamma dir l r).2

/-- The HLL flux never fails its assertion, and can be written with an admissible intermediate state in two ways. -/
theorem hll_gas_middle (eq : GasEq) (hv : eq.Valid) (dir : Fin d) (l r : GasComplete d) (hl : IsGasState eq l) (hr : IsGasState eq r) :
    ∃ f m, hllFlux (gasEqn eq dir) (einfeldt eq.gamma dir) l r = some f ∧ Adm m ∧
      (∀ v, f v = (gasFluxArray l dir).get v + clipL eq dir l r * (m v - l.cons.get v)) ∧
      (∀ v, f v = (gasFluxArray r dir).get v + clipR eq dir l r * (m v - r.cons.get v)) := by
  obtain ⟨-, h1, h2, h3⟩ := einfeldt_bounds eq hv dir l r hl hr
  have hbL : clipL eq dir l r ≤ l.momentum dir / l.density - l.speedOfSound := (min_le_right _ _).trans h1
  have hbR : r.momentum dir / r.density + r.speedOfSound ≤ clipR eq dir l r := h2.trans (le_max_right _ _)
  have hd : 0 < clipR eq dir l r - clipL eq dir l r := by
    have := min_le_right 0 (einfeldt eq.gamma dir l r).1
    have := le_max_right 0 (einfeldt eq.gamma dir l r).2
    simp only [clipR, clipL]; linarith
  have hA := adm_add ((adm_side hv hr dir).1 hbR) ((adm_side hv hl dir).2 hbL)
  refine ⟨_, fun v => 1 / (clipR eq dir l r - clipL eq dir l r) *
    ((clipR eq dir l r * r.cons.get v - (gasFluxArray r dir).get v) + ((gasFluxArray l dir).get v - clipL eq dir l r * l.cons.get v)),
    by simp only [hllFlux]; exact if_pos hd, adm_smul hA (by positivity), fun v => ?_, fun v => ?_⟩ <;>
  · show (clipR eq dir l r * (gasFluxArray l dir).get v - clipL eq dir l r * (gasFluxArray r dir).get v +
      clipL eq dir l r * clipR eq dir l r * (r.cons.get v - l.cons.get v)) / (clipR eq dir l r - clipL eq dir l r) = _
    have := hd.ne'
    field_simp
    ring

/-- **C51 (Riemann solver).** Between two thermodynamic states the approximate Riemann solver of the HLL method returns a thermodynamic state, and its
conservative part is accepted by the scalar `CompleteFromCons`. -/
theorem hll_gas_solver_positive (eq : GasEq) (hv : eq.Valid) (dir : Fin d) (l r : GasComplete d) (hl : IsGasState eq l) (hr : IsGasState eq r) :
    IsGasState eq (hllSolve (gasEqn eq dir) (einfeldt eq.gamma dir) l r) := by
  obtain ⟨-, h1, h2, h3⟩ := einfeldt_bounds eq hv dir l r hl hr
  simp only [hllSolve]
  split
  · exact hl
  split
  · exact hr
  · rw [if_pos h3.ne]
    have hA := adm_smul (adm_add ((adm_side hv hr dir).1 h2) ((adm_side hv hl dir).2 h1)) (one_div_pos.2 (sub_pos.2 h3))
    set m : GasVar d → ℝ := fun v => ((einfeldt eq.gamma dir l r).2 * (gasEqn eq dir).cons r v - (einfeldt eq.gamma dir l r).1 * (gasEqn eq dir).cons l v +
      (gasEqn eq dir).flux l v - (gasEqn eq dir).flux r v) / ((einfeldt eq.gamma dir l r).2 - (einfeldt eq.gamma dir l r).1) with hm
    have hAm : Adm m := by
      have : m = fun v => 1 / ((einfeldt eq.gamma dir l r).2 - (einfeldt eq.gamma dir l r).1) * (((einfeldt eq.gamma dir l r).2 * r.cons.get v -
          (gasFluxArray r dir).get v) + ((gasFluxArray l dir).get v - (einfeldt eq.gamma dir l r).1 * l.cons.get v)) := by
        funext v
        show ((einfeldt eq.gamma dir l r).2 * r.cons.get v - (einfeldt eq.gamma dir l r).1 * l.cons.get v + (gasFluxArray l dir).get v -
          (gasFluxArray r dir).get v) / _ = _
        ring
      rw [this]; exact hA
    have hadm : (GasCons.ofFn m).Admissible := hAm
    obtain ⟨q, hq⟩ := ((gas_complete_iff eq hv _ hAm.1).1).1 hadm
    have hst := (gas_complete_iff eq hv _ hAm.1).2 q hq
    have := (gas_cons_roundtrip eq hv q hst.1).2.1
    rw [hst.2] at this
    show IsGasState eq (gasCompleteArray eq (GasCons.ofFn m))
    rw [this]; exact hst.1

/-- The largest signal bounds the clipped signals. -/
theorem clip_le (eq : GasEq) (dir : Fin d) (l r : GasComplete d) :
    clipR eq dir l r ≤ maxSignal [(einfeldt eq.gamma dir l r).1, (einfeldt eq.gamma dir l r).2] ∧
    -clipL eq dir l r ≤ maxSignal [(einfeldt eq.gamma dir l r).1, (einfeldt eq.gamma dir l r).2] := by
  simp only [maxSignal, List.foldl_cons, List.foldl_nil, clipR, clipL]
  refine ⟨?_, ?_⟩
  · refine max_le (le_max_of_le_left (le_max_left _ _)) (le_max_of_le_right (le_abs_self _))
  · rw [← max_neg_neg, neg_zero]
    exact max_le (le_max_of_le_left (le_max_left _ _)) (le_max_of_le_left (le_max_of_le_right (neg_le_abs _)))

theorem dt_of_face {s : List ℝ} {dt dx : ℝ} (h : ((2 * dt : ℝ) : WithTop ℝ) ≤ signalDt s dx) (hs : 0 ≤ maxSignal s) (hx : 0 < dx) :
    2 * dt * maxSignal s ≤ dx := by
  simp only [signalDt] at h
  split at h
  · rename_i h0; rw [h0, mul_zero]; exact hx.le
  · rename_i h0
    exact (le_div_iff₀ (lt_of_le_of_ne hs (Ne.symm h0))).1 (WithTop.coe_le_coe.1 h)

theorem maxSignal_two_nonneg (a b : ℝ) : 0 ≤ maxSignal [a, b] := by
  simp only [maxSignal, List.foldl_cons, List.foldl_nil]
  exact le_max_of_le_left (le_max_left _ _)

/-- **C51 (one step).** For every rank, direction and line of thermodynamic states: if the time step is nonnegative and at most half of the stable time step
that the HLL method reports at every face, no assertion fails in the first order update, and all cells are thermodynamic states (positive density and
pressure) afterwards. -/
theorem hll_gas_step_positive (eq : GasEq) (hv : eq.Valid) (dir : Fin d) (dt dx : ℝ) (hdx : 0 < dx) (hdt : 0 ≤ dt) (u : ℤ → GasComplete d)
    (hu : ∀ i, IsGasState eq (u i)) (hcfl : ∀ i, ((2 * dt : ℝ) : WithTop ℝ) ≤ hllGasFaceDt eq dir dx u i) (i : ℤ) :
    ∃ q, hllGasStep eq dir dt dx u i = some q ∧ IsGasState eq q := by
  obtain ⟨fL, mL, e1, a1, -, k1⟩ := hll_gas_middle eq hv dir (u (i - 1)) (u i) (hu _) (hu _)
  obtain ⟨fR, mR, e2, a2, k2, -⟩ := hll_gas_middle eq hv dir (u i) (u (i + 1)) (hu _) (hu _)
  have c1 := dt_of_face (hcfl i) (maxSignal_two_nonneg _ _) hdx
  have c2 := dt_of_face (hcfl (i + 1)) (maxSignal_two_nonneg _ _) hdx
  rw [add_sub_cancel_right] at c2
  have b1 := (clip_le eq dir (u (i - 1)) (u i)).1
  have b2 := (clip_le eq dir (u i) (u (i + 1))).2
  set R := clipR eq dir (u (i - 1)) (u i) with hR
  set L := clipL eq dir (u i) (u (i + 1)) with hL
  have R0 : 0 ≤ R := le_max_left _ _
  have L0 : L ≤ 0 := min_le_left _ _
  have lam : 0 ≤ dt / dx := div_nonneg hdt hdx.le
  have hsum : dt / dx * (R + -L) ≤ 1 := by
    rw [div_mul_eq_mul_div, div_le_one hdx]
    nlinarith [mul_le_mul_of_nonneg_left b1 hdt, mul_le_mul_of_nonneg_left b2 hdt]
  have hA := adm_comb (adm_state hv (hu i)) a1 a2 (a := 1 - dt / dx * (R + -L)) (b := dt / dx * R) (c := dt / dx * -L) (by linarith)
    (mul_nonneg lam R0) (mul_nonneg lam (by linarith)) (by ring_nf; norm_num)
  have heq : (fun v => (u i).cons.get v + dt / dx * (fL v - fR v)) =
      fun v => (1 - dt / dx * (R + -L)) * (u i).cons.get v + dt / dx * R * mL v + dt / dx * -L * mR v := by
    funext v
    rw [k1 v, k2 v]; ring
  have hadm : (GasCons.ofFn fun v => (u i).cons.get v + dt / dx * (fL v - fR v)).Admissible := by rw [heq]; exact hA
  obtain ⟨q, hq⟩ := ((gas_complete_iff eq hv _ hadm.1).1).1 hadm
  refine ⟨q, ?_, ((gas_complete_iff eq hv _ hadm.1).2 q hq).1⟩
  simp only [hllGasStep, e1, e2]
  exact hq

/-- **C51 (all steps).** Starting from thermodynamic states, with any rule for the time step that obeys the bound above, the first order scheme can take
arbitrarily many steps: there is a trajectory in which every step succeeds in every cell and every state is a thermodynamic state. -/
theorem hll_gas_run_positive (eq : GasEq) (hv : eq.Valid) (dir : Fin d) (dx : ℝ) (hdx : 0 < dx) (dt : (ℤ → GasComplete d) → ℝ)
    (hdt : ∀ u, (∀ i, IsGasState eq (u i)) → 0 ≤ dt u ∧ ∀ i, ((2 * dt u : ℝ) : WithTop ℝ) ≤ hllGasFaceDt eq dir dx u i)
    (u0 : ℤ → GasComplete d) (h0 : ∀ i, IsGasState eq (u0 i)) :
    ∃ U : ℕ → ℤ → GasComplete d, U 0 = u0 ∧ (∀ n i, hllGasStep eq dir (dt (U n)) dx (U n) i = some (U (n + 1) i)) ∧ ∀ n i, IsGasState eq (U n i) := by
  classical
  have step : ∀ u : {u : ℤ → GasComplete d // ∀ i, IsGasState eq (u i)}, ∃ w : {u : ℤ → GasComplete d // ∀ i, IsGasState eq (u i)},
      ∀ i, hllGasStep eq dir (dt u.1) dx u.1 i = some (w.1 i) := by
    intro u
    have h := fun i => hll_gas_step_positive eq hv dir (dt u.1) dx hdx (hdt u.1 u.2).1 u.1 u.2 (hdt u.1 u.2).2 i
    choose w hw using h
    exact ⟨⟨w, fun i => (hw i).2⟩, fun i => (hw i).1⟩
  choose nxt hn using step
  let V : ℕ → {u : ℤ → GasComplete d // ∀ i, IsGasState eq (u i)} := fun n => Nat.rec ⟨u0, h0⟩ (fun _ v => nxt v) n
  exact ⟨fun n => (V n).1, rfl, fun n i => hn (V n) i, fun n => (V n).2⟩

/-! ### Consistency of the gas instance -/

/-- **C29 (HLL, perfect gas).** For every thermodynamic state, the scalar, array and open-face versions of the HLL flux of two equal states return the
physical flux: the hypothesis on the signal interval is always met. On a closed face the flux is zero provided both densities are nonzero. -/
theorem hll_gas_consistent (eq : GasEq) (hv : eq.Valid) (dir : Fin d) (q : GasComplete d) (hq : IsGasState eq q) :
    hllFlux (gasEqn eq dir) (einfeldt eq.gamma dir) q q = some (gasFluxArray q dir).get ∧
    hllFluxArray (gasEqn eq dir) (einfeldt eq.gamma dir) q q = (gasFluxArray q dir).get ∧
    ∀ sigM : Bool → GasComplete d → GasComplete d → ℝ × ℝ,
      (∀ m l r s, einfeldtMasked eq.gamma m dir l r = some s → sigM m l r = s) →
      ∀ ff : ℝ,
        (0 < ff → hllFluxMasked (gasEqn eq dir) sigM (fun m c => (gasFluxMasked c m dir).get) ff q q = some (gasFluxArray q dir).get) ∧
        (ff ≤ 0 → ∀ l r : GasComplete d, l.density ≠ 0 → r.density ≠ 0 →
          hllFluxMasked (gasEqn eq dir) sigM (fun m c => (gasFluxMasked c m dir).get) ff l r = some fun _ => 0) := by
  obtain ⟨-, h1, h2, h3⟩ := einfeldt_bounds eq hv dir q q hq hq
  have hsig : (einfeldt eq.gamma dir q q).1 < 0 ∨ 0 < (einfeldt eq.gamma dir q q).2 := by
    by_contra h; push Not at h; linarith
  obtain ⟨k1, k2, k3⟩ := hll_consistent (gasEqn eq dir) (einfeldt eq.gamma dir) q hsig
  refine ⟨k1, k2, fun sigM hs ff => ⟨fun hf => ?_, fun hf l r hl hr => ?_⟩⟩
  · refine (k3 sigM _ ff).1 hf (hs _ _ _ _ ?_) ?_
    · simp only [einfeldtMasked, hq.density_pos.ne', or_self, if_false, if_true, einfeldt, roeAvg]
      congr 1
      have : ∀ a b : ℝ, a * (Real.sqrt q.density / (Real.sqrt q.density + Real.sqrt q.density)) + b * (Real.sqrt q.density / (Real.sqrt q.density + Real.sqrt q.density)) =
        (a * Real.sqrt q.density + b * Real.sqrt q.density) * (1 / (Real.sqrt q.density + Real.sqrt q.density)) := by intro a b; ring
      simp only [this]
    · exact congrArg GasCons.get (gas_flux_versions q dir hq.density_pos).2.1
  · refine (k3 sigM _ ff).2 hf l r (hs _ _ _ _ ?_)
    simp [einfeldtMasked, hl, hr]

/-- **C29 fails for closed faces next to empty cells.** The signal velocities of a masked-out lane with density zero are not a number, although the
lane is masked out. -/
theorem einfeldt_masked_nan (gamma : ℝ) (dir : Fin d) (l r : GasComplete d) (h : l.density = 0 ∨ r.density = 0) :
    einfeldtMasked gamma false dir l r = none := by simp [einfeldtMasked, h]

/-- Signals of two states at rest whose speeds of sound and specific enthalpies are bounded. -/
theorem rest_signals (eq : GasEq) (dir : Fin d) (l r : GasComplete d) (hl : 0 < l.density) (hr : 0 < r.density) (hml : l.momentum dir = 0) (hmr : r.momentum dir = 0)
    (B : ℝ) (hB : 0 ≤ B) (cl : |l.speedOfSound| ≤ B) (cr : |r.speedOfSound| ≤ B) (g : 1 ≤ eq.gamma)
    (el : (eq.gamma - 1) * ((l.energy + l.pressure) / l.density) ≤ B ^ 2) (er : (eq.gamma - 1) * ((r.energy + r.pressure) / r.density) ≤ B ^ 2) :
    maxSignal [(einfeldt eq.gamma dir l r).1, (einfeldt eq.gamma dir l r).2] ≤ B := by
  have a0 : 0 < Real.sqrt l.density := Real.sqrt_pos.2 hl
  have b0 : 0 < Real.sqrt r.density := Real.sqrt_pos.2 hr
  have key : Real.sqrt ((eq.gamma - 1) * (roeAvg l.density r.density ((l.energy + l.pressure) / l.density) ((r.energy + r.pressure) / r.density))) ≤ B := by
    rw [Real.sqrt_le_left hB]
    simp only [roeAvg]
    generalize Real.sqrt l.density = a at a0 ⊢
    generalize Real.sqrt r.density = b at b0 ⊢
    rw [mul_one_div, mul_div_assoc', div_le_iff₀ (by linarith)]
    nlinarith [mul_le_mul_of_nonneg_right el a0.le, mul_le_mul_of_nonneg_right er b0.le]
  have u0 : roeAvg l.density r.density 0 0 = 0 := by simp [roeAvg]
  have s0 := Real.sqrt_nonneg ((eq.gamma - 1) * (roeAvg l.density r.density ((l.energy + l.pressure) / l.density) ((r.energy + r.pressure) / r.density)))
  have cl' := abs_le.1 cl
  have cr' := abs_le.1 cr
  simp only [maxSignal, List.foldl_cons, List.foldl_nil, einfeldt, hml, hmr, zero_div, u0, mul_zero, sub_zero, zero_sub, zero_add]
  refine max_le (max_le hB (abs_le.2 ⟨le_min (by linarith) (by linarith), min_le_of_left_le (by linarith)⟩))
    (abs_le.2 ⟨le_max_of_le_right (by linarith), max_le key (by linarith)⟩)

/-- A shock tube in two dimensions: density and pressure one on the left, density 1/8 and pressure 1/10 on the right, at rest. The time step `1/4` with
`dx = 1` obeys the bound at all faces, so all hypotheses of the step theorem are met. -/
example : let eq := GasEq.new 287 (7 / 5)
    let u : ℤ → GasComplete 2 := fun i => if i < 0 then gasFromPrim eq ⟨1, fun _ => 0, 1⟩ else gasFromPrim eq ⟨1 / 8, fun _ => 0, 1 / 10⟩
    eq.Valid ∧ (∀ i, IsGasState eq (u i)) ∧ ∀ i, ((2 * (1 / 4) : ℝ) : WithTop ℝ) ≤ hllGasFaceDt eq 0 1 u i := by
  intro eq u
  have hv : eq.Valid := gasEq_new_valid _ _ (by norm_num)
  have g1 : (gasFromPrim eq ⟨1, fun _ : Fin 2 => 0, 1⟩).speedOfSound = Real.sqrt (7 / 5) := by simp [gasFromPrim, eq, GasEq.new]
  have g2 : (gasFromPrim eq ⟨1 / 8, fun _ : Fin 2 => 0, 1 / 10⟩).speedOfSound = Real.sqrt (28 / 25) := by
    simp only [gasFromPrim, eq, GasEq.new]; congr 1; norm_num
  have hst : ∀ i, IsGasState eq (u i) := by
    intro i
    by_cases h : i < 0
    · simp only [u, if_pos h]; exact (gas_prim_roundtrip _ hv _ (by norm_num) (by norm_num)).1
    · simp only [u, if_neg h]; exact (gas_prim_roundtrip _ hv _ (by norm_num) (by norm_num)).1
  have hm : ∀ i, (u i).momentum 0 = 0 := by
    intro i; by_cases h : i < 0 <;> simp [u, h, gasFromPrim]
  have hc : ∀ i, |(u i).speedOfSound| ≤ 2 := by
    intro i
    by_cases h : i < 0
    · simp only [u, if_pos h, g1, abs_of_nonneg (Real.sqrt_nonneg _)]; rw [Real.sqrt_le_left (by norm_num)]; norm_num
    · simp only [u, if_neg h, g2, abs_of_nonneg (Real.sqrt_nonneg _)]; rw [Real.sqrt_le_left (by norm_num)]; norm_num
  have he : ∀ i, (eq.gamma - 1) * (((u i).energy + (u i).pressure) / (u i).density) ≤ 2 ^ 2 := by
    intro i
    by_cases h : i < 0
    · simp only [u, if_pos h, gasFromPrim, gasKinetic, eq, GasEq.new]; norm_num
    · simp only [u, if_neg h, gasFromPrim, gasKinetic, eq, GasEq.new]; norm_num
  refine ⟨hv, hst, fun i => ?_⟩
  have hb := rest_signals eq 0 (u (i - 1)) (u i) (hst _).density_pos (hst _).density_pos (hm _) (hm _) 2 (by norm_num) (hc _) (hc _) (by simp only [eq, GasEq.new]; norm_num) (he _) (he _)
  simp only [hllGasFaceDt, signalDt]
  split
  · exact le_top
  · rename_i h0
    have hp : 0 < maxSignal [(einfeldt eq.gamma 0 (u (i - 1)) (u i)).1, (einfeldt eq.gamma 0 (u (i - 1)) (u i)).2] :=
      lt_of_le_of_ne (maxSignal_two_nonneg _ _) (Ne.symm h0)
    rw [WithTop.coe_le_coe, le_div_iff₀ hp]
    linarith

end Fub
