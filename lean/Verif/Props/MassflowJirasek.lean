import Verif.Model.Massflow
import Verif.Props.GasMix
import Verif.Props.Util

/-! Properties of the boundary condition that requires a mass flow by an isentropic change of state (C81). -/

namespace Fub
open Finset
variable {d s t : ℕ}

/-! ### The required mass flow -/

/-- **C81 (correlation).** For a gas without Mach number scaling that moves in the direction of the boundary the required mass flow is the correlation factor times stagnation pressure by the root of the stagnation temperature. -/
theorem requiredMassflow_spec (eq : MixEq) (h : eq.Valid) (hM : eq.Msq = 1) (corr : ℝ) (dir : Fin (d + 1)) (q : MixComplete d s t) (hq : IsMixState eq q) (ht : ∀ i, i ≠ dir → q.momentum i = 0) :
    requiredMassflow eq corr dir q = corr * stagnationPressure eq q / Real.sqrt ((eq.gamma - 1) / eq.gamma * q.totalEnthalpy) := by
  obtain ⟨g0, g1, g2⟩ := h.pos
  have hs : ∑ i, (q.momentum i / q.density) ^ 2 = (q.momentum dir / q.density) ^ 2 :=
    Finset.sum_eq_single dir (fun i _ hi => by rw [ht i hi]; simp) (fun hn => absurd (mem_univ _) hn)
  obtain ⟨-, hst⟩ := stag_factor h.one_lt hq
  have hH := totalEnthalpy_eq h.one_lt hM hq
  unfold requiredMassflow stagnationPressure
  simp only [mixVelocity, mixTemperature]
  rw [hs] at *
  have e : 1 + 1 / 2 * (q.momentum dir / q.density * (q.momentum dir / q.density) / (q.speedOfSound * q.speedOfSound)) * (eq.gamma - 1) =
      1 + (eq.gamma - 1) / 2 * ((q.momentum dir / q.density) ^ 2 / q.speedOfSound ^ 2) := by ring
  rw [e, hst, hH, mul_one_div]
  congr 2
  field_simp

/-- The hypotheses are met: air moving with speed 1 in the direction of the boundary. -/
example : ∃ q : MixComplete 1 1 1, requiredMassflow (computeConstants 287 (7 / 5)) 3 0 q = 3 * stagnationPressure (computeConstants 287 (7 / 5)) q / Real.sqrt ((7 / 5 - 1) / (7 / 5) * q.totalEnthalpy) := by
  obtain ⟨hv, hM⟩ := computeConstants_valid 287 (7 / 5) (by norm_num) (by norm_num)
  exact ⟨mixFromPrim (computeConstants 287 (7 / 5)) ⟨7, fun i => if i = 0 then 1 else 0, 5, fun _ => 1 / 2, fun _ => 1⟩,
    requiredMassflow_spec _ hv hM 3 0 _ (mix_prim_roundtrip _ hv _ (by norm_num) (by norm_num)).1 (fun i hi => by simp [mixFromPrim, hi])⟩

/-! ### Isentropic change of state -/

/-- What the operator computes, with the ratio `A` of stagnation to static temperature and the ratio `X` for the new state. -/
theorem jirasek_eq (eq : MixEq) (h : eq.Valid) (tol : ℝ) (limit : Int) (required area : ℝ) (dir : Fin (d + 1)) (q : MixComplete d s t) (hq : IsMixState eq q) :
    let u := q.momentum dir / q.density
    let v := q.momentum (tangentDir dir) / q.density
    let A := 1 + (eq.gamma - 1) / 2 * ((u ^ 2 + v ^ 2) / q.speedOfSound ^ 2)
    let c02 := q.speedOfSound ^ 2 * A
    let rho0 := q.density * A ^ (1 / (eq.gamma - 1))
    let p0 := q.pressure * A ^ (eq.gamma / (eq.gamma - 1))
    let alpha := (eq.gamma - 1) / 2 / c02
    let X := fun un : ℝ => 1 - (eq.gamma - 1) / (eq.gamma + 1) * min ((un ^ 2 + v ^ 2) / (2 * c02 / (eq.gamma + 1))) 1
    1 ≤ A ∧ 0 < c02 ∧ (∀ un, 2 / (eq.gamma + 1) ≤ X un) ∧
    (∀ un, un ^ 2 + v ^ 2 ≤ 2 * c02 / (eq.gamma + 1) → X un = 1 - alpha * (un ^ 2 + v ^ 2)) ∧ (∀ un, 2 * c02 / (eq.gamma + 1) < un ^ 2 + v ^ 2 → X un = 2 / (eq.gamma + 1)) ∧
    jirasek eq tol limit required area dir q =
      (newtonIteration (jirasekF alpha (required / (area * rho0)) (1 / (eq.gamma - 1)) (v * v)) (jirasekDf alpha (1 / (eq.gamma - 1)) (v * v)) u tol limit).map fun un =>
        mixFromPrim eq { mixPrim q with
          density := rho0 * X un ^ (1 / (eq.gamma - 1))
          pressure := p0 * X un ^ (eq.gamma / (eq.gamma - 1))
          velocity := fun i => if i = dir then un else q.momentum i / q.density } := by
  intro u v A c02 rho0 p0 alpha X
  obtain ⟨g0, g1, g2⟩ := h.pos
  have hc := hq.sound_pos
  have gp : 0 < eq.gamma + 1 := by linarith
  have hA : 1 ≤ A := by
    have : 0 ≤ (eq.gamma - 1) / 2 * ((u ^ 2 + v ^ 2) / q.speedOfSound ^ 2) := by positivity
    simp only [A]; linarith
  have hc0 : 0 < c02 := mul_pos (by positivity) (by linarith)
  have hcrit : 0 < 2 * c02 / (eq.gamma + 1) := by positivity
  refine ⟨hA, hc0, fun un => ?_, fun un hle => ?_, fun un hlt => ?_, ?_⟩
  · have h1 : min ((un ^ 2 + v ^ 2) / (2 * c02 / (eq.gamma + 1))) 1 ≤ 1 := min_le_right _ _
    have h2 : 2 / (eq.gamma + 1) = 1 - (eq.gamma - 1) / (eq.gamma + 1) * 1 := by field_simp; ring
    rw [h2]
    have := mul_le_mul_of_nonneg_left h1 (div_pos g1 gp).le
    simp only [X]; linarith
  · simp only [X, alpha]
    rw [min_eq_left ((div_le_one hcrit).2 hle)]
    field_simp
  · simp only [X]
    rw [min_eq_right ((one_le_div hcrit).2 hlt.le)]
    field_simp
    ring
  · have e1 : 1 + (u * u + v * v) / (q.speedOfSound * q.speedOfSound) * ((eq.gamma - 1) / 2) = A := by simp only [A]; ring
    have e2 : q.speedOfSound * q.speedOfSound + (eq.gamma - 1) / 2 * (u * u + v * v) = c02 := by simp only [c02, A]; field_simp
    have e3 : 1 / 2 * (eq.gamma - 1) = (eq.gamma - 1) / 2 := by ring
    have e4 : eq.gamma * (1 / (eq.gamma - 1)) = eq.gamma / (eq.gamma - 1) := by ring
    have e5 : ∀ un : ℝ, 1 - (eq.gamma - 1) / (eq.gamma + 1) * min ((un * un + v * v) / (2 * c02 / (eq.gamma + 1))) 1 = X un := fun un => by simp only [X, sq]
    unfold jirasek
    simp only
    change (match newtonIteration (jirasekF (1 / 2 * (eq.gamma - 1) / (q.speedOfSound * q.speedOfSound + 1 / 2 * (eq.gamma - 1) * (u * u + v * v)))
      (required / (area * (q.density * (1 + (u * u + v * v) / (q.speedOfSound * q.speedOfSound) * (1 / 2 * (eq.gamma - 1))) ^ (1 / (eq.gamma - 1)))))
      (1 / (eq.gamma - 1)) (v * v)) (jirasekDf (1 / 2 * (eq.gamma - 1) / (q.speedOfSound * q.speedOfSound + 1 / 2 * (eq.gamma - 1) * (u * u + v * v))) (1 / (eq.gamma - 1)) (v * v)) u tol limit with
      | none => none
      | some un => some (mixFromPrim eq { mixPrim q with
          density := q.density * (1 + (u * u + v * v) / (q.speedOfSound * q.speedOfSound) * (1 / 2 * (eq.gamma - 1))) ^ (1 / (eq.gamma - 1)) *
            (1 - (eq.gamma - 1) / (eq.gamma + 1) * min ((un * un + v * v) / (2 * (q.speedOfSound * q.speedOfSound + 1 / 2 * (eq.gamma - 1) * (u * u + v * v)) / (eq.gamma + 1))) 1) ^ (1 / (eq.gamma - 1))
          pressure := q.pressure * (1 + (u * u + v * v) / (q.speedOfSound * q.speedOfSound) * (1 / 2 * (eq.gamma - 1))) ^ (eq.gamma * (1 / (eq.gamma - 1))) *
            (1 - (eq.gamma - 1) / (eq.gamma + 1) * min ((un * un + v * v) / (2 * (q.speedOfSound * q.speedOfSound + 1 / 2 * (eq.gamma - 1) * (u * u + v * v)) / (eq.gamma + 1))) 1) ^ (eq.gamma * (1 / (eq.gamma - 1)))
          velocity := fun i => if i = dir then un else q.momentum i / q.density })) = _
    simp only [e3, e4, e1, e2, e5]
    cases newtonIteration (jirasekF alpha (required / (area * rho0)) (1 / (eq.gamma - 1)) (v * v)) (jirasekDf alpha (1 / (eq.gamma - 1)) (v * v)) u tol limit <;> rfl

/-- **C81 (isentropic change).** For every gas and state in at least two dimensions: a returned state is a state of the gas with the same entropy, composition and tangential velocities. If its velocity is not supersonic, the total enthalpy is kept
in a gas without Mach number scaling, the mass flow exceeds the required one at most by the tolerance, and it agrees with the required one up to the tolerance unless the Newton iteration reached its limit. -/
theorem jirasek_partial (eq : MixEq) (h : eq.Valid) (tol : ℝ) (limit : Int) (hlim : 0 ≤ limit) (required area : ℝ) (ha : 0 < area) (dir : Fin (d + 1)) (hd : tangentDir dir ≠ dir) (q q' : MixComplete d s t)
    (hq : IsMixState eq q) (hq' : jirasek eq tol limit required area dir q = some q') :
    let u := q.momentum dir / q.density
    let v := q.momentum (tangentDir dir) / q.density
    let u' := q'.momentum dir / q'.density
    let A := 1 + (eq.gamma - 1) / 2 * ((u ^ 2 + v ^ 2) / q.speedOfSound ^ 2)
    let rho0 := q.density * A ^ (1 / (eq.gamma - 1))
    let alpha := (eq.gamma - 1) / 2 / (q.speedOfSound ^ 2 * A)
    IsMixState eq q' ∧ q'.pressure * q.density ^ eq.gamma = q.pressure * q'.density ^ eq.gamma ∧
    (∀ i, i ≠ dir → q'.momentum i / q'.density = q.momentum i / q.density) ∧ (∀ i, q'.species i / q'.density = q.species i / q.density) ∧ (∀ i, q'.scalars i / q'.density = q.scalars i / q.density) ∧
    (u' ^ 2 + v ^ 2 ≤ q'.speedOfSound ^ 2 → (eq.Msq = 1 → q'.totalEnthalpy = q.totalEnthalpy) ∧
      area * q'.momentum dir ≤ required + area * rho0 * tol ∧
      (|area * q'.momentum dir - required| ≤ area * rho0 * tol ∨
        u' = newtonIterate (jirasekF alpha (required / (area * rho0)) (1 / (eq.gamma - 1)) (v * v)) (jirasekDf alpha (1 / (eq.gamma - 1)) (v * v)) u limit.toNat)) := by
  intro u v u' A rho0 alpha
  obtain ⟨g0, g1, g2⟩ := h.pos
  have hr := hq.density_pos
  have hp := hq.pressure_pos
  have hc := hq.sound_pos
  have hcs := hq.sound_sq
  have gp : 0 < eq.gamma + 1 := by linarith
  obtain ⟨hA, hc0, hXl, hX1, hX2, hE⟩ := jirasek_eq eq h tol limit required area dir q hq
  rw [hE, Option.map_eq_some_iff] at hq'
  obtain ⟨un, hN, hq'⟩ := hq'
  replace hXl := hXl un
  replace hX1 := hX1 un
  replace hX2 := hX2 un
  change newtonIteration (jirasekF alpha (required / (area * rho0)) (1 / (eq.gamma - 1)) (v * v)) (jirasekDf alpha (1 / (eq.gamma - 1)) (v * v)) u tol limit = some un at hN
  change 1 ≤ A at hA
  change 0 < q.speedOfSound ^ 2 * A at hc0
  change _ → _ = 1 - alpha * (un ^ 2 + v ^ 2) at hX1
  change 2 * (q.speedOfSound ^ 2 * A) / (eq.gamma + 1) < un ^ 2 + v ^ 2 → _ at hX2
  change un ^ 2 + v ^ 2 ≤ 2 * (q.speedOfSound ^ 2 * A) / (eq.gamma + 1) → _ at hX1
  simp only at hq' hXl hX1 hX2
  generalize hX : (1 - (eq.gamma - 1) / (eq.gamma + 1) * min ((un ^ 2 + (q.momentum (tangentDir dir) / q.density) ^ 2) / (2 * (q.speedOfSound ^ 2 *
    (1 + (eq.gamma - 1) / 2 * (((q.momentum dir / q.density) ^ 2 + (q.momentum (tangentDir dir) / q.density) ^ 2) / q.speedOfSound ^ 2))) / (eq.gamma + 1))) 1) = X at *
  change mixFromPrim eq { mixPrim q with
          density := rho0 * X ^ (1 / (eq.gamma - 1))
          pressure := q.pressure * A ^ (eq.gamma / (eq.gamma - 1)) * X ^ (eq.gamma / (eq.gamma - 1))
          velocity := fun i => if i = dir then un else q.momentum i / q.density } = q' at hq'
  have hX0 : 0 < X := lt_of_lt_of_le (by positivity) hXl
  have hA0 : 0 < A := by linarith
  have a1 := Real.rpow_pos_of_pos hA0 (1 / (eq.gamma - 1))
  have a2 := Real.rpow_pos_of_pos hA0 (eq.gamma / (eq.gamma - 1))
  have x1 := Real.rpow_pos_of_pos hX0 (1 / (eq.gamma - 1))
  have x2 := Real.rpow_pos_of_pos hX0 (eq.gamma / (eq.gamma - 1))
  have hrho0 : 0 < rho0 := mul_pos hr a1
  have hro : 0 < rho0 * X ^ (1 / (eq.gamma - 1)) := mul_pos hrho0 x1
  have hpo : 0 < q.pressure * A ^ (eq.gamma / (eq.gamma - 1)) * X ^ (eq.gamma / (eq.gamma - 1)) := by positivity
  obtain ⟨hs, -⟩ := mix_prim_roundtrip eq h { mixPrim q with
          density := rho0 * X ^ (1 / (eq.gamma - 1))
          pressure := q.pressure * A ^ (eq.gamma / (eq.gamma - 1)) * X ^ (eq.gamma / (eq.gamma - 1))
          velocity := fun i => if i = dir then un else q.momentum i / q.density } hro hpo
  rw [hq'] at hs
  have hcancel : ∀ x : ℝ, rho0 * X ^ (1 / (eq.gamma - 1)) * x / (rho0 * X ^ (1 / (eq.gamma - 1))) = x := fun x => by
    rw [mul_comm, mul_div_assoc, div_self hro.ne', mul_one]
  have fd : q'.density = rho0 * X ^ (1 / (eq.gamma - 1)) := by rw [← hq']; rfl
  have fp : q'.pressure = q.pressure * A ^ (eq.gamma / (eq.gamma - 1)) * X ^ (eq.gamma / (eq.gamma - 1)) := by rw [← hq']; rfl
  have fm : q'.momentum dir = rho0 * X ^ (1 / (eq.gamma - 1)) * un := by rw [← hq']; simp [mixFromPrim]
  have fu : u' = un := by simp only [u']; rw [fm, fd]; exact hcancel _
  have ft : ∀ i, i ≠ dir → q'.momentum i / q'.density = q.momentum i / q.density := fun i hi => by rw [← hq']; simp only [mixFromPrim, if_neg hi]; exact hcancel _
  have eAg : ∀ B : ℝ, 0 < B → B ^ (eq.gamma / (eq.gamma - 1)) = (B ^ (1 / (eq.gamma - 1))) ^ eq.gamma := fun B hB => by
    rw [← Real.rpow_mul hB.le, one_div_mul_eq_div]
  have eA1 : ∀ B : ℝ, 0 < B → B ^ (eq.gamma / (eq.gamma - 1)) = B ^ (1 / (eq.gamma - 1)) * B := fun B hB => by
    rw [show eq.gamma / (eq.gamma - 1) = 1 / (eq.gamma - 1) + 1 by field_simp; ring, Real.rpow_add hB, Real.rpow_one]
  have fc : q'.speedOfSound ^ 2 = q.speedOfSound ^ 2 * A * X := by
    have k := hs.sound_sq
    rw [fd, fp, eA1 A hA0, eA1 X hX0] at k
    have : q'.speedOfSound ^ 2 * (rho0 * X ^ (1 / (eq.gamma - 1))) = q.speedOfSound ^ 2 * A * X * (rho0 * X ^ (1 / (eq.gamma - 1))) := by
      rw [k]
      simp only [rho0]
      linear_combination -(A ^ (1 / (eq.gamma - 1)) * A * (X ^ (1 / (eq.gamma - 1)) * X)) * hcs
    exact mul_right_cancel₀ hro.ne' this
  refine ⟨hs, ?_, ft, fun i => by rw [← hq']; exact hcancel _, fun i => by rw [← hq']; exact hcancel _, fun hsub => ?_⟩
  · rw [fp, fd, eAg A hA0, eAg X hX0]
    simp only [rho0]
    rw [Real.mul_rpow (by positivity) x1.le, Real.mul_rpow hr.le a1.le]
    ring
  · rw [fu, fc] at hsub
    have hle : un ^ 2 + v ^ 2 ≤ 2 * (q.speedOfSound ^ 2 * A) / (eq.gamma + 1) := by
      by_contra hn
      push Not at hn
      rw [hX2 hn] at hsub
      have : q.speedOfSound ^ 2 * A * (2 / (eq.gamma + 1)) = 2 * (q.speedOfSound ^ 2 * A) / (eq.gamma + 1) := by ring
      linarith
    have hXe := hX1 hle
    have hF : jirasekF alpha (required / (area * rho0)) (1 / (eq.gamma - 1)) (v * v) un * (area * rho0) = area * q'.momentum dir - required := by
      rw [fm, jirasekF, ← sq, ← sq, ← hXe]
      field_simp
    have har : 0 < area * rho0 := mul_pos ha hrho0
    obtain ⟨n1, n2, -⟩ := (newton_converged_partial _ _ u tol limit hlim).1 un hN
    refine ⟨fun hM => ?_, ?_, ?_⟩
    · rw [totalEnthalpy_eq h.one_lt hM hq, totalEnthalpy_eq h.one_lt hM hs]
      have hsum : ∀ f : Fin (d + 1) → ℝ, ∑ i, f i = f dir + (f (tangentDir dir) + ∑ i ∈ univ.erase dir |>.erase (tangentDir dir), f i) := fun f => by
        rw [← Finset.add_sum_erase _ _ (mem_univ dir), ← Finset.add_sum_erase (univ.erase dir) _ (mem_erase.2 ⟨hd, mem_univ _⟩)]
      have hq1 : q'.pressure / q'.density = q'.speedOfSound ^ 2 / eq.gamma := by
        have := hs.sound_sq; have := hs.density_pos; field_simp; linarith
      have hq2 : q.pressure / q.density = q.speedOfSound ^ 2 / eq.gamma := by
        field_simp; linarith
      have hrest : ∑ i ∈ (univ.erase dir).erase (tangentDir dir), (q'.momentum i / q'.density) ^ 2 = ∑ i ∈ (univ.erase dir).erase (tangentDir dir), (q.momentum i / q.density) ^ 2 :=
        Finset.sum_congr rfl fun i hi => by rw [ft i (mem_erase.1 (mem_erase.1 hi).2).1]
      rw [hsum, hsum (fun i => (q.momentum i / q.density) ^ 2), ft _ hd, hrest, hq1, hq2, fc, hXe]
      change _ + (u' ^ 2 + (v ^ 2 + _)) / 2 = _ + (u ^ 2 + (v ^ 2 + _)) / 2
      rw [fu]
      have e1 : q.speedOfSound ^ 2 * A * (1 - alpha * (un ^ 2 + v ^ 2)) = q.speedOfSound ^ 2 + (eq.gamma - 1) / 2 * (u ^ 2 + v ^ 2) - (eq.gamma - 1) / 2 * (un ^ 2 + v ^ 2) := by
        have e2 : q.speedOfSound ^ 2 * A = q.speedOfSound ^ 2 + (eq.gamma - 1) / 2 * (u ^ 2 + v ^ 2) := by simp only [A]; field_simp
        have e3 : q.speedOfSound ^ 2 * A * alpha = (eq.gamma - 1) / 2 := by simp only [alpha]; field_simp
        linear_combination e2 - (un ^ 2 + v ^ 2) * e3
      rw [e1]
      field_simp
      ring
    · have := mul_le_mul_of_nonneg_right n1 har.le
      rw [hF] at this
      linarith
    · rcases n2 with n2 | n2
      · left
        rw [← hF, abs_mul, abs_of_pos har, mul_comm (area * rho0) tol]
        exact mul_le_mul_of_nonneg_right n2 har.le
      · right; rw [fu]; exact n2

/-- **C81 (consistency).** A state that is not supersonic and already has the required mass flow is kept. -/
theorem jirasek_consistent (eq : MixEq) (h : eq.Valid) (tol : ℝ) (htol : 0 ≤ tol) (limit : Int) (area : ℝ) (ha : 0 < area) (dir : Fin (d + 1)) (q : MixComplete d s t) (hq : IsMixState eq q)
    (hsub : (q.momentum dir / q.density) ^ 2 + (q.momentum (tangentDir dir) / q.density) ^ 2 ≤ q.speedOfSound ^ 2) :
    ∃ q', jirasek eq tol limit (area * q.momentum dir) area dir q = some q' ∧ q'.density = q.density ∧ q'.momentum = q.momentum ∧ q'.pressure = q.pressure ∧ q'.species = q.species ∧ q'.scalars = q.scalars := by
  obtain ⟨g0, g1, g2⟩ := h.pos
  have hr := hq.density_pos
  have hc := hq.sound_pos
  have gp : 0 < eq.gamma + 1 := by linarith
  obtain ⟨hA, hc0, hXl, hX1, -, hE⟩ := jirasek_eq eq h tol limit (area * q.momentum dir) area dir q hq
  rw [hE]
  simp only at hA hc0 hX1 ⊢
  replace hX1 := hX1 (q.momentum dir / q.density)
  generalize hu : q.momentum dir / q.density = u at *
  generalize q.momentum (tangentDir dir) / q.density = v at *
  generalize hAd : 1 + (eq.gamma - 1) / 2 * ((u ^ 2 + v ^ 2) / q.speedOfSound ^ 2) = A at *
  have hcA : q.speedOfSound ^ 2 * A = q.speedOfSound ^ 2 + (eq.gamma - 1) / 2 * (u ^ 2 + v ^ 2) := by rw [← hAd]; field_simp
  have hA0 : 0 < A := by linarith
  have a1 := Real.rpow_pos_of_pos hA0 (1 / (eq.gamma - 1))
  have a2 := Real.rpow_pos_of_pos hA0 (eq.gamma / (eq.gamma - 1))
  have hbase : 1 - (eq.gamma - 1) / 2 / (q.speedOfSound ^ 2 * A) * (u ^ 2 + v ^ 2) = 1 / A := by
    have : 1 - (eq.gamma - 1) / 2 / (q.speedOfSound ^ 2 * A) * (u ^ 2 + v ^ 2) = (q.speedOfSound ^ 2 * A - (eq.gamma - 1) / 2 * (u ^ 2 + v ^ 2)) / (q.speedOfSound ^ 2 * A) := by field_simp
    rw [this, hcA, add_sub_cancel_right, ← hcA]; field_simp
  have hle : u ^ 2 + v ^ 2 ≤ 2 * (q.speedOfSound ^ 2 * A) / (eq.gamma + 1) := by
    rw [hcA, le_div_iff₀ gp]; nlinarith
  have hf : jirasekF ((eq.gamma - 1) / 2 / (q.speedOfSound ^ 2 * A)) (area * q.momentum dir / (area * (q.density * A ^ (1 / (eq.gamma - 1))))) (1 / (eq.gamma - 1)) (v * v) u = 0 := by
    rw [jirasekF, ← sq, ← sq, hbase, Real.div_rpow zero_le_one hA0.le, Real.one_rpow, ← hu]
    field_simp
    ring
  rw [newton_fixed _ _ u tol limit htol hf, Option.map_some, hX1 hle, hbase, Real.div_rpow zero_le_one hA0.le, Real.one_rpow, Real.div_rpow zero_le_one hA0.le, Real.one_rpow]
  have ed : q.density * A ^ (1 / (eq.gamma - 1)) * (1 / A ^ (1 / (eq.gamma - 1))) = q.density := by field_simp
  refine ⟨_, rfl, ed, funext fun i => ?_, ?_, funext fun i => ?_, funext fun i => ?_⟩
  · simp only [mixFromPrim, ed]
    split_ifs with hi
    · rw [hi, ← hu]; field_simp
    · field_simp
  · simp only [mixFromPrim]; field_simp
  · simp only [mixFromPrim, mixPrim, ed]; field_simp
  · simp only [mixFromPrim, mixPrim, ed]; field_simp

/-- Two-dimensional flow with velocity `(u, 0)` and pressure 7 at density 5. -/
noncomputable def exJirasek (u : ℝ) : MixComplete 1 1 1 := mixFromPrim (computeConstants 287 (7 / 5)) ⟨7, fun i => if i = 0 then u else 0, 5, fun _ => 1 / 2, fun _ => 1⟩

theorem exJirasek_state (u : ℝ) : IsMixState (computeConstants 287 (7 / 5)) (exJirasek u) :=
  (mix_prim_roundtrip _ (computeConstants_valid 287 (7 / 5) (by norm_num) (by norm_num)).1 _ (by norm_num) (by norm_num)).1

theorem exJirasek_sound (u : ℝ) : (exJirasek u).speedOfSound ^ 2 = 1 := by
  have := (exJirasek_state u).sound_sq
  simp only [exJirasek, mixFromPrim, computeConstants] at this ⊢
  linarith

/-- The hypotheses are met: a subsonic flow with the required mass flow is kept and satisfies all claims. -/
example : ∃ q', jirasek (computeConstants 287 (7 / 5)) (1 / 10) 5 ((exJirasek (1 / 2)).momentum 0 * 2) 2 0 (exJirasek (1 / 2)) = some q' ∧ q'.totalEnthalpy = (exJirasek (1 / 2)).totalEnthalpy ∧
    2 * q'.momentum 0 ≤ (exJirasek (1 / 2)).momentum 0 * 2 + 2 * (7 * (1 + (7 / 5 - 1) / 2 * (((1 / 2 : ℝ) ^ 2 + 0 ^ 2) / 1)) ^ ((1 : ℝ) / (7 / 5 - 1))) * (1 / 10) := by
  obtain ⟨hv, hM⟩ := computeConstants_valid 287 (7 / 5) (by norm_num) (by norm_num)
  have e0 : (exJirasek (1 / 2)).momentum 0 / (exJirasek (1 / 2)).density = 1 / 2 := by norm_num [exJirasek, mixFromPrim]
  have e1 : (exJirasek (1 / 2)).momentum (tangentDir 0) / (exJirasek (1 / 2)).density = 0 := by norm_num [exJirasek, mixFromPrim, tangentDir]
  have hs := exJirasek_sound (1 / 2)
  obtain ⟨q', h1, h2, h3, h4, -⟩ := jirasek_consistent _ hv (1 / 10) (by norm_num) 5 2 (by norm_num) 0 (exJirasek (1 / 2)) (exJirasek_state _) (by rw [e0, e1, hs]; norm_num)
  rw [mul_comm] at h1
  obtain ⟨k1, -, -, -, -, k2⟩ := jirasek_partial _ hv (1 / 10) 5 (by norm_num) _ 2 (by norm_num) 0 (by decide) (exJirasek (1 / 2)) q' (exJirasek_state _) h1
  have hs' : q'.speedOfSound ^ 2 = 1 := by
    have a := k1.sound_sq
    have b := (exJirasek_state (1 / 2)).sound_sq
    rw [h2, h4, ← b, hs] at a
    exact mul_right_cancel₀ (exJirasek_state (1 / 2)).density_pos.ne' a
  obtain ⟨c1, c2, -⟩ := k2 (by rw [h2, h3, e0, e1, hs']; norm_num)
  rw [e0, e1, hs] at c2
  exact ⟨q', h1, c1 hM, c2⟩

/-- **C81 is false for supersonic outflow.** The velocity is not limited when the density is: a supersonic flow in the direction of the boundary that already has the required mass flow is replaced by a denser state with the same velocity, so that its
mass flow exceeds the required one and its total enthalpy is not kept. -/
theorem jirasek_wrong (eq : MixEq) (h : eq.Valid) (hM : eq.Msq = 1) (tol : ℝ) (htol : 0 ≤ tol) (limit : Int) (area : ℝ) (ha : 0 < area) (dir : Fin (d + 1)) (hd : tangentDir dir ≠ dir) (q : MixComplete d s t)
    (hq : IsMixState eq q) (ht : ∀ i, i ≠ dir → q.momentum i = 0) (hsup : q.speedOfSound < q.momentum dir / q.density) :
    ∃ q', jirasek eq tol limit (area * q.momentum dir) area dir q = some q' ∧ area * q.momentum dir < area * q'.momentum dir ∧ q'.momentum dir / q'.density = q.momentum dir / q.density ∧
      q.totalEnthalpy < q'.totalEnthalpy := by
  obtain ⟨g0, g1, g2⟩ := h.pos
  have hr := hq.density_pos
  have hp := hq.pressure_pos
  have hc := hq.sound_pos
  have hcs := hq.sound_sq
  have gp : 0 < eq.gamma + 1 := by linarith
  obtain ⟨hA, hc0, hXl, hX1, hX2, hE⟩ := jirasek_eq eq h tol limit (area * q.momentum dir) area dir q hq
  have hv : q.momentum (tangentDir dir) / q.density = 0 := by rw [ht _ hd, zero_div]
  simp only [hv] at hA hc0 hX2 hE hXl
  rw [hE]
  generalize hu : q.momentum dir / q.density = u at *
  have hu0 : 0 < u := hc.trans hsup
  have hcu : q.speedOfSound ^ 2 < u ^ 2 := by nlinarith
  generalize hAd : 1 + (eq.gamma - 1) / 2 * ((u ^ 2 + 0 ^ 2) / q.speedOfSound ^ 2) = A at *
  have hcA : q.speedOfSound ^ 2 * A = q.speedOfSound ^ 2 + (eq.gamma - 1) / 2 * u ^ 2 := by rw [← hAd]; field_simp; ring
  have hA0 : 0 < A := by linarith
  have a1 := Real.rpow_pos_of_pos hA0 (1 / (eq.gamma - 1))
  have hlt : 2 * (q.speedOfSound ^ 2 * A) / (eq.gamma + 1) < u ^ 2 + 0 ^ 2 := by
    rw [hcA, div_lt_iff₀ gp]; nlinarith
  have hAX : 1 / A < 2 / (eq.gamma + 1) := by
    rw [div_lt_div_iff₀ hA0 gp]
    have : q.speedOfSound ^ 2 * (1 * (eq.gamma + 1)) < q.speedOfSound ^ 2 * (2 * A) := by nlinarith
    exact lt_of_mul_lt_mul_left this (by positivity)
  have hbase : 1 - (eq.gamma - 1) / 2 / (q.speedOfSound ^ 2 * A) * (u * u + 0 * 0) = 1 / A := by
    have : 1 - (eq.gamma - 1) / 2 / (q.speedOfSound ^ 2 * A) * (u * u + 0 * 0) = (q.speedOfSound ^ 2 * A - (eq.gamma - 1) / 2 * u ^ 2) / (q.speedOfSound ^ 2 * A) := by field_simp; ring
    rw [this, hcA, add_sub_cancel_right, ← hcA]; field_simp
  have hf : jirasekF ((eq.gamma - 1) / 2 / (q.speedOfSound ^ 2 * A)) (area * q.momentum dir / (area * (q.density * A ^ (1 / (eq.gamma - 1))))) (1 / (eq.gamma - 1)) (0 * 0) u = 0 := by
    rw [jirasekF, hbase, Real.div_rpow zero_le_one hA0.le, Real.one_rpow, ← hu]
    field_simp
    ring
  rw [newton_fixed _ _ u tol limit htol hf, Option.map_some]
  have hXu := hX2 u hlt
  rw [hXu]
  have x1 : (1 / A) ^ (1 / (eq.gamma - 1)) < (2 / (eq.gamma + 1)) ^ (1 / (eq.gamma - 1)) := Real.rpow_lt_rpow (by positivity) hAX (by positivity)
  have hone : A ^ (1 / (eq.gamma - 1)) * (1 / A) ^ (1 / (eq.gamma - 1)) = 1 := by rw [← Real.mul_rpow hA0.le (by positivity), mul_one_div_cancel hA0.ne', Real.one_rpow]
  have hX0 : 0 < 2 / (eq.gamma + 1) := by positivity
  have eA1 : ∀ B : ℝ, 0 < B → B ^ (eq.gamma / (eq.gamma - 1)) = B ^ (1 / (eq.gamma - 1)) * B := fun B hB => by
    rw [show eq.gamma / (eq.gamma - 1) = 1 / (eq.gamma - 1) + 1 by field_simp; ring, Real.rpow_add hB, Real.rpow_one]
  have x0 := Real.rpow_pos_of_pos hX0 (1 / (eq.gamma - 1))
  have hro : 0 < q.density * A ^ (1 / (eq.gamma - 1)) * (2 / (eq.gamma + 1)) ^ (1 / (eq.gamma - 1)) := by positivity
  have hpo : 0 < q.pressure * A ^ (eq.gamma / (eq.gamma - 1)) * (2 / (eq.gamma + 1)) ^ (eq.gamma / (eq.gamma - 1)) := by
    have := Real.rpow_pos_of_pos hA0 (eq.gamma / (eq.gamma - 1))
    have := Real.rpow_pos_of_pos hX0 (eq.gamma / (eq.gamma - 1))
    positivity
  have hden : q.density < q.density * A ^ (1 / (eq.gamma - 1)) * (2 / (eq.gamma + 1)) ^ (1 / (eq.gamma - 1)) := by
    have := mul_lt_mul_of_pos_left x1 a1
    rw [hone] at this
    rw [mul_assoc]
    exact lt_mul_of_one_lt_right hr this
  obtain ⟨hs, -⟩ := mix_prim_roundtrip eq h { mixPrim q with
          density := q.density * A ^ (1 / (eq.gamma - 1)) * (2 / (eq.gamma + 1)) ^ (1 / (eq.gamma - 1))
          pressure := q.pressure * A ^ (eq.gamma / (eq.gamma - 1)) * (2 / (eq.gamma + 1)) ^ (eq.gamma / (eq.gamma - 1))
          velocity := fun i => if i = dir then u else q.momentum i / q.density } hro hpo
  refine ⟨_, rfl, ?_, ?_, ?_⟩
  · simp only [mixFromPrim, if_true]
    refine mul_lt_mul_of_pos_left ?_ ha
    have : q.momentum dir = q.density * u := by rw [← hu]; field_simp
    rw [this]
    exact mul_lt_mul_of_pos_right hden hu0
  · simp only [mixFromPrim, if_true]
    rw [mul_comm, mul_div_assoc, div_self hro.ne', mul_one]
  · rw [totalEnthalpy_eq h.one_lt hM hq, totalEnthalpy_eq h.one_lt hM hs]
    have hsum : ∀ i, (mixFromPrim eq { mixPrim q with
          density := q.density * A ^ (1 / (eq.gamma - 1)) * (2 / (eq.gamma + 1)) ^ (1 / (eq.gamma - 1))
          pressure := q.pressure * A ^ (eq.gamma / (eq.gamma - 1)) * (2 / (eq.gamma + 1)) ^ (eq.gamma / (eq.gamma - 1))
          velocity := fun i => if i = dir then u else q.momentum i / q.density }).momentum i / (q.density * A ^ (1 / (eq.gamma - 1)) * (2 / (eq.gamma + 1)) ^ (1 / (eq.gamma - 1))) = q.momentum i / q.density := by
      intro i
      simp only [mixFromPrim]
      rw [mul_comm, mul_div_assoc, div_self hro.ne', mul_one]
      split_ifs with hi
      · rw [hi, hu]
      · rfl
    have hT : q.pressure / q.density < q.pressure * A ^ (eq.gamma / (eq.gamma - 1)) * (2 / (eq.gamma + 1)) ^ (eq.gamma / (eq.gamma - 1)) /
        (q.density * A ^ (1 / (eq.gamma - 1)) * (2 / (eq.gamma + 1)) ^ (1 / (eq.gamma - 1))) := by
      rw [eA1 A hA0, eA1 _ hX0]
      generalize A ^ (1 / (eq.gamma - 1)) = a at *
      generalize (2 / (eq.gamma + 1)) ^ (1 / (eq.gamma - 1)) = x at *
      have e : q.pressure * (a * A) * (x * (2 / (eq.gamma + 1))) / (q.density * a * x) = q.pressure / q.density * (A * (2 / (eq.gamma + 1))) := by field_simp
      rw [e]
      refine lt_mul_of_one_lt_right (by positivity) ?_
      have := mul_lt_mul_of_pos_left hAX hA0
      rwa [mul_one_div_cancel hA0.ne'] at this
    have hg : 0 < eq.gamma / (eq.gamma - 1) := by positivity
    have := mul_lt_mul_of_pos_left hT hg
    refine add_lt_add_of_lt_of_le this (le_of_eq ?_)
    congr 1
    exact Finset.sum_congr rfl fun i _ => by rw [← hsum i]; rfl

/-- The hypotheses are met: at twice the speed of sound. -/
example : ∃ q', jirasek (computeConstants 287 (7 / 5)) 0 5 (3 * (exJirasek 2).momentum 0) 3 0 (exJirasek 2) = some q' ∧ 3 * (exJirasek 2).momentum 0 < 3 * q'.momentum 0 := by
  obtain ⟨hv, hM⟩ := computeConstants_valid 287 (7 / 5) (by norm_num) (by norm_num)
  obtain ⟨q', h1, h2, -⟩ := jirasek_wrong _ hv hM 0 le_rfl 5 3 (by norm_num) 0 (by decide) (exJirasek 2) (exJirasek_state 2) (fun i hi => by simp [exJirasek, mixFromPrim, hi]) (by
    rw [show (exJirasek 2).momentum 0 / (exJirasek 2).density = 2 by norm_num [exJirasek, mixFromPrim]]
    have := exJirasek_sound 2
    nlinarith [(exJirasek_state 2).sound_pos])
  exact ⟨q', h1, h2⟩

end Fub
