import Verif.Model.IdealMuscl
import Verif.Props.IdealGasMixFlux
import Mathlib.Tactic.LinearCombination

/-!
# C138: signal velocities of the ideal gas mixture
-/

namespace Fub

section
variable {d : ℕ} {S : Type}

/-! ## Specification -/

/-- Specification: the state seen in a mirror perpendicular to `dir`. -/
def mirrorIgm (dir : Fin d) (q : IgmComplete d S) : IgmComplete d S :=
  { q with momentum := fun i => if i = dir then -q.momentum i else q.momentum i }

/-- Specification: the convex combination with weights proportional to the square roots of the
densities. -/
noncomputable def roeMix (l r : IgmComplete d S) (x y : ℝ) : ℝ :=
  (Real.sqrt l.density * x + Real.sqrt r.density * y) /
    (Real.sqrt l.density + Real.sqrt r.density)

/-! ## Proofs -/

theorem igmRoe_nonneg (dir : Fin d) (l r : IgmComplete d S) : 0 ≤ (igmRoe dir l r).2 := Real.sqrt_nonneg _

theorem igmRoe_pos (dir : Fin d) (l r : IgmComplete d S) (hl : 0 < l.density) (hr : 0 < r.density)
    (ha : 0 < l.speedOfSound ∨ 0 < r.speedOfSound) : 0 < (igmRoe dir l r).2 := by
  unfold igmRoe
  dsimp only
  have h1 := Real.sqrt_pos.2 hl
  have h2 := Real.sqrt_pos.2 hr
  generalize Real.sqrt l.density = a at *
  generalize Real.sqrt r.density = b at *
  generalize r.momentum dir / r.density - l.momentum dir / l.density = w
  apply Real.sqrt_pos.2
  have h3 : 0 < a * l.speedOfSound * l.speedOfSound + b * r.speedOfSound * r.speedOfSound := by
    have e1 : a * l.speedOfSound * l.speedOfSound = a * (l.speedOfSound * l.speedOfSound) := by ring
    have e2 : b * r.speedOfSound * r.speedOfSound = b * (r.speedOfSound * r.speedOfSound) := by ring
    rw [e1, e2]
    rcases ha with ha | ha
    · have := mul_pos h1 (mul_pos ha ha)
      have := mul_nonneg h2.le (mul_self_nonneg r.speedOfSound)
      linarith
    · have := mul_pos h2 (mul_pos ha ha)
      have := mul_nonneg h1.le (mul_self_nonneg l.speedOfSound)
      linarith
  have h4 := div_pos h3 (add_pos h1 h2)
  have h5 : 0 ≤ 1 / 2 * (a * b) / ((a + b) * (a + b)) * w * w := by
    rw [mul_assoc]
    exact mul_nonneg (by positivity) (mul_self_nonneg w)
  linarith

/-- **C138** The mean velocity is the Roe average, and the square of the mean speed of sound is the
average of the squares plus a term with the jump of the velocity. -/
theorem igm_roe_spec (dir : Fin d) (l r : IgmComplete d S) (hl : 0 < l.density) (hr : 0 < r.density) :
    (igmRoe dir l r).1 = roeMix l r (l.momentum dir / l.density) (r.momentum dir / r.density) ∧
    (igmRoe dir l r).2 ^ 2 = roeMix l r (l.speedOfSound ^ 2) (r.speedOfSound ^ 2) +
      1 / 2 * Real.sqrt (l.density * r.density) / (Real.sqrt l.density + Real.sqrt r.density) ^ 2 *
        (r.momentum dir / r.density - l.momentum dir / l.density) ^ 2 := by
  refine ⟨rfl, ?_⟩
  unfold igmRoe roeMix
  dsimp only
  rw [Real.sqrt_mul hl.le]
  have h1 := Real.sqrt_pos.2 hl
  have h2 := Real.sqrt_pos.2 hr
  generalize Real.sqrt l.density = a at *
  generalize Real.sqrt r.density = b at *
  generalize r.momentum dir / r.density - l.momentum dir / l.density = w
  rw [Real.sq_sqrt]
  · ring
  · have h3 : 0 ≤ (a * l.speedOfSound * l.speedOfSound + b * r.speedOfSound * r.speedOfSound) / (a + b) := by
      apply div_nonneg _ (by positivity)
      have := mul_nonneg h1.le (mul_self_nonneg l.speedOfSound)
      have := mul_nonneg h2.le (mul_self_nonneg r.speedOfSound)
      linarith
    have h5 : 0 ≤ 1 / 2 * (a * b) / ((a + b) * (a + b)) * w * w := by
      rw [mul_assoc]
      exact mul_nonneg (by positivity) (mul_self_nonneg w)
    linarith

/-- **C138** For any two states with positive density and positive speed of sound, both unmasked
versions return an interval with interior which contains the slowest wave of the left state and the
fastest wave of the right state, and the interval of the array version contains that of the scalar
version. -/
theorem igm_einfeldt_bounds (dir : Fin d) (l r : IgmComplete d S) (hl : 0 < l.density)
    (hr : 0 < r.density) (ha : 0 < l.speedOfSound ∨ 0 < r.speedOfSound) :
    (∀ s ∈ [igmEinfeldt dir l r, igmEinfeldtLane dir l r],
      s.1 ≤ l.momentum dir / l.density - l.speedOfSound ∧
      r.momentum dir / r.density + r.speedOfSound ≤ s.2 ∧ s.1 < s.2) ∧
    (igmEinfeldtLane dir l r).1 ≤ (igmEinfeldt dir l r).1 ∧
    (igmEinfeldt dir l r).2 ≤ (igmEinfeldtLane dir l r).2 := by
  have h := igmRoe_pos dir l r hl hr ha
  refine ⟨?_, ?_, ?_⟩
  · intro s hs
    simp only [List.mem_cons, List.not_mem_nil, or_false] at hs
    rcases hs with rfl | rfl
    · refine ⟨min_le_left _ _, le_max_right _ _, ?_⟩
      refine lt_of_le_of_lt (min_le_right _ _) (lt_of_lt_of_le ?_ (le_max_left _ _))
      linarith
    · refine ⟨min_le_left _ _, le_max_right _ _, ?_⟩
      refine lt_of_le_of_lt (min_le_right _ _) (lt_of_lt_of_le ?_ (le_max_left _ _))
      linarith
  · exact min_le_min le_rfl (by linarith)
  · exact max_le_max (by linarith) le_rfl

theorem igmRoe_same (dir : Fin d) (q : IgmComplete d S) (hq : 0 < q.density)
    (ha : 0 ≤ q.speedOfSound) : igmRoe dir q q = (q.momentum dir / q.density, q.speedOfSound) := by
  unfold igmRoe
  dsimp only
  have h1 := Real.sqrt_pos.2 hq
  generalize Real.sqrt q.density = a at *
  rw [sub_self, mul_zero, add_zero]
  congr 1
  · field_simp
  · rw [show (a * q.speedOfSound * q.speedOfSound + a * q.speedOfSound * q.speedOfSound) / (a + a) =
      q.speedOfSound * q.speedOfSound by field_simp]
    exact Real.sqrt_mul_self ha

/-- **C138** Between two equal states all versions return the slowest and the fastest wave. -/
theorem igm_einfeldt_same (dir : Fin d) (q : IgmComplete d S) (hq : 0 < q.density)
    (ha : 0 ≤ q.speedOfSound) :
    igmEinfeldt dir q q = (q.momentum dir / q.density - q.speedOfSound,
      q.momentum dir / q.density + q.speedOfSound) ∧
    igmEinfeldtLane dir q q = (q.momentum dir / q.density - q.speedOfSound,
      q.momentum dir / q.density + q.speedOfSound) := by
  unfold igmEinfeldt igmEinfeldtLane
  rw [igmRoe_same dir q hq ha]
  dsimp only
  rw [min_self, max_self, min_eq_left (by linarith), max_eq_right (by linarith)]
  exact ⟨rfl, rfl⟩

theorem igmRoe_mirror (dir : Fin d) (l r : IgmComplete d S) :
    igmRoe dir (mirrorIgm dir r) (mirrorIgm dir l) = (-(igmRoe dir l r).1, (igmRoe dir l r).2) := by
  unfold igmRoe mirrorIgm
  simp only [if_true]
  generalize Real.sqrt l.density = a
  generalize Real.sqrt r.density = b
  congr 1
  · rw [neg_div, neg_div, ← neg_div]
    congr 1
    · ring
  · congr 1
    rw [neg_div, neg_div, add_comm b a, mul_comm b a]
    ring

/-- **C138** The mirrored problem has the mirrored signals. -/
theorem igm_einfeldt_mirror (dir : Fin d) (l r : IgmComplete d S) :
    igmEinfeldt dir (mirrorIgm dir r) (mirrorIgm dir l) =
      (-(igmEinfeldt dir l r).2, -(igmEinfeldt dir l r).1) ∧
    igmEinfeldtLane dir (mirrorIgm dir r) (mirrorIgm dir l) =
      (-(igmEinfeldtLane dir l r).2, -(igmEinfeldtLane dir l r).1) := by
  unfold igmEinfeldt igmEinfeldtLane
  rw [igmRoe_mirror]
  have e : ∀ q : IgmComplete d S, (mirrorIgm dir q).momentum dir / (mirrorIgm dir q).density =
      -(q.momentum dir / q.density) ∧ (mirrorIgm dir q).speedOfSound = q.speedOfSound := by
    intro q
    simp [mirrorIgm, neg_div]
  have e1 := (e l).1
  have e2 := (e r).1
  have e3 := (e l).2
  have e4 := (e r).2
  simp only [e1, e2, e3, e4]
  generalize (igmRoe dir l r).1 = u
  generalize (igmRoe dir l r).2 = a
  generalize l.momentum dir / l.density = x
  generalize r.momentum dir / r.density = y
  constructor <;>
  · rw [← min_neg_neg, ← max_neg_neg, min_comm, max_comm]
    congr 2 <;> ring

/-- **C138** A masked lane has the signals of the scalar version, the other lanes are zero, whatever
they hold. -/
theorem igm_einfeldt_masked (dir : Fin d) (l r : IgmComplete d S) :
    (0 < l.density → 0 < r.density →
      igmEinfeldtMasked dir true l r = igmEinfeldt dir l r) ∧
    igmEinfeldtMasked dir false l r = (0, 0) := by
  constructor
  · intro hl hr
    unfold igmEinfeldtMasked igmEinfeldt igmRoe
    simp only [if_true]
    have h1 := Real.sqrt_pos.2 hl
    have h2 := Real.sqrt_pos.2 hr
    generalize Real.sqrt l.density = a at *
    generalize Real.sqrt r.density = b at *
    generalize l.momentum dir / l.density = x
    generalize r.momentum dir / r.density = y
    have hab : a + b ≠ 0 := (add_pos h1 h2).ne'
    have e1 : a / (a + b) * x + b / (a + b) * y = (a * x + b * y) / (a + b) := by field_simp
    have e2 : a / (a + b) * l.speedOfSound * l.speedOfSound +
        b / (a + b) * r.speedOfSound * r.speedOfSound +
        1 / 2 * (a / (a + b)) * (b / (a + b)) * (y - x) * (y - x) =
        (a * l.speedOfSound * l.speedOfSound + b * r.speedOfSound * r.speedOfSound) / (a + b) +
        1 / 2 * (a * b) / ((a + b) * (a + b)) * (y - x) * (y - x) := by field_simp
    rw [e1, e2]
  · simp [igmEinfeldtMasked]

/-- A gas without species at rest, with density one. -/
noncomputable def restGas (a : ℝ) : IgmComplete 1 Empty :=
  ⟨⟨1, fun _ => 0, 1, fun _ => 0⟩, 1, a, 300, 1, 7 / 5⟩

/-- **C138** The scalar and the array version differ: between a cold and a hot gas at rest the scalar
version returns `-2.5` on the left where the array version returns `-5`, the speed of the Roe
average. -/
theorem igm_einfeldt_versions_differ :
    igmRoe 0 (restGas 1) (restGas 7) = (0, 5) ∧
    igmEinfeldt 0 (restGas 1) (restGas 7) = (-(5 / 2), 7) ∧
    igmEinfeldtLane 0 (restGas 1) (restGas 7) = (-5, 7) := by
  have h : igmRoe 0 (restGas 1) (restGas 7) = (0, 5) := by
    unfold igmRoe restGas
    simp only [Real.sqrt_one]
    rw [show ((1 : ℝ) * 1 * 1 + 1 * 7 * 7) / (1 + 1) + 1 / 2 * (1 * 1) / ((1 + 1) * (1 + 1)) *
      (0 / 1 - 0 / 1) * (0 / 1 - 0 / 1) = 5 * 5 by norm_num]
    rw [Real.sqrt_mul_self (by norm_num)]
    norm_num
  refine ⟨h, ?_, ?_⟩
  · unfold igmEinfeldt
    rw [h]
    simp only [restGas]
    norm_num
  · unfold igmEinfeldtLane
    rw [h]
    simp only [restGas]
    norm_num

/-- The hypotheses of the theorems above hold for these states. -/
example : 0 < (restGas 1).density ∧ 0 < (restGas 1).speedOfSound ∧
    mirrorIgm 0 (restGas 1) = restGas 1 := by
  refine ⟨by simp [restGas], by simp [restGas], ?_⟩
  simp [mirrorIgm, restGas]

end

end Fub
