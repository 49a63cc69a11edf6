import Verif.Model.OdeDriver
import Mathlib.Tactic.Ring
import Mathlib.Tactic.Linarith
import Mathlib.Tactic.NormNum
import Mathlib.Data.Rat.Defs

/-!
# Properties of the driver of the ODE solver and of the copies of a reactor
-/

namespace Fub

variable {K Y : Type*} [Field K]

/-- Specification: an integrator which solves the equations exactly. `flow a b` maps the solution at
time `a` to the solution at time `b`. -/
structure IsFlow (flow : K → K → Y → Y) : Prop where
  refl : ∀ a y, flow a a y = y
  trans : ∀ a b c y, flow b c (flow a b y) = flow a c y

/-- **C131** `Integrate` returns without an exception only what the kernel computed with success on
the whole interval from `t0` to `t0 + dt`, unless the kernel gave up with the return code -3; each
other negative return code throws its own exception. -/
theorem radau_integrate_partial (kernel : RadauKernel K Y) (t0 dt : K) (y y1 : Y) (idid : ℤ)
    (h : kernel .userData t0 (t0 + dt) y = some (idid, y1)) (h3 : idid ≠ -3) :
    (∀ r, radauIntegrate kernel t0 dt y = .returned r ↔ (idid = 1 ∨ idid = 2) ∧ r = y1) ∧
    (radauIntegrate kernel t0 dt y = .thrown .inputIsNotConsistent y1 ↔ idid = -1) ∧
    (radauIntegrate kernel t0 dt y = .thrown .largerNMaxIsNeeded y1 ↔ idid = -2) ∧
    (radauIntegrate kernel t0 dt y = .thrown .matrixIsRepeatedlySingular y1 ↔ idid = -4) ∧
    (radauIntegrate kernel t0 dt y = .thrown .rhsEvaluatesToNaN y1 ↔ idid = -42) ∧
    radauIntegrate kernel t0 dt y ≠ .undefined := by
  unfold radauIntegrate
  dsimp only
  rw [h]
  dsimp only
  by_cases a : idid = 1 ∨ idid = 2
  · simp only [a, if_true, true_and, RadauOutcome.returned.injEq]
    refine ⟨fun r => eq_comm, ?_, ?_, ?_, ?_, by simp⟩ <;>
    · constructor
      · intro h; cases h
      · intro h; exfalso; omega
  · simp only [a, if_false, false_and]
    by_cases b : idid = -1
    · subst b; simp
    · by_cases c : idid = -2
      · subst c; simp
      · by_cases e : idid = -4
        · subst e; simp
        · by_cases f : idid = -42
          · subst f; simp
          · simp [b, c, h3, e, f]

/-- Non-vacuity: a kernel which solves `y' = 1` and reports success. -/
example : radauIntegrate (fun _ a b (y : ℚ) => some (1, y + (b - a))) 3 2 10 = .returned 12 := by
  decide +kernel

/-- **C131** After the return code -3 the callbacks get the address of another object than the one
they read: whenever following that pointer is undefined, so is the call. In particular no exception
reports the failure of the integration. -/
theorem radau_retry_undefined (kernel : RadauKernel K Y) (t0 dt : K) (y y1 : Y)
    (h : kernel .userData t0 (t0 + dt) y = some (-3, y1))
    (hbad : ∀ a b z, kernel .systemAddress a b z = none) :
    radauIntegrate kernel t0 dt y = .undefined := by
  unfold radauIntegrate
  dsimp only
  rw [h]
  simp [radauRetry, hbad]

/-- **C131** Even if the pointer were right and the kernel solved the equations exactly: the two
halves both start at `t0` and end at `(t0 + dt) / 2`, and they start from what the failed attempt
left behind. For autonomous equations (`flow a b` depends on `b - a` only) the retry returns the
solution after the time `dt - t0`, not `dt`. -/
theorem radau_retry_duration [CharZero K] (flow : K → Y → Y)
    (hadd : ∀ a b y, flow a (flow b y) = flow (a + b) y) (t0 dt : K) (y y1 : Y)
    (kernel : RadauKernel K Y) (h : kernel .userData t0 (t0 + dt) y = some (-3, y1))
    (hexact : ∀ a b z, kernel .systemAddress a b z = some (1, flow (b - a) z)) :
    radauIntegrate kernel t0 dt y = .returned (flow (dt - t0) y1) := by
  unfold radauIntegrate
  dsimp only
  rw [h]
  simp only [radauRetry, hexact, hadd]
  have e : (t0 + dt) / 2 - t0 + ((t0 + dt) / 2 - t0) = dt - t0 := by ring
  rw [e]
  simp

/-- **C131** The retry is right for autonomous equations if the integration starts at time zero, as
`Advance` does, and the failed attempt left the vector unchanged. -/
theorem radau_retry_partial [CharZero K] (flow : K → Y → Y)
    (hadd : ∀ a b y, flow a (flow b y) = flow (a + b) y) (dt : K) (y : Y)
    (kernel : RadauKernel K Y) (h : kernel .userData 0 (0 + dt) y = some (-3, y))
    (hexact : ∀ a b z, kernel .systemAddress a b z = some (1, flow (b - a) z)) :
    radauIntegrate kernel 0 dt y = .returned (flow dt y) := by
  rw [radau_retry_duration flow hadd 0 dt y y kernel h hexact, sub_zero]

/-- **C131** A failed integration which did not leave the vector unchanged: the call returns without
an exception although a part of the interval was integrated twice. -/
theorem radau_retry_twice :
    let kernel : RadauKernel ℚ ℚ := fun p a b y =>
      match p with
      | .userData => some (-3, y + 3 / 4 * (b - a))
      | .systemAddress => some (1, y + (b - a))
    radauIntegrate kernel 0 4 10 = .returned 17 := by
  decide +kernel

/-! ## Copies -/

variable {M Sc Ar : Type*}

/-- **C132** A copy of a reactor has the mechanism, the scalar and the array state of the original,
and is independent of it (values); so does a moved reactor. -/
theorem reactor_copy_partial (r : ReactorObject M Sc Ar K) :
    (reactorCopy r).mechanism = r.mechanism ∧ (reactorCopy r).scalar = r.scalar ∧
    (reactorCopy r).array = r.array ∧ reactorMove r = r ∧
    (r.solver = radauDefaults → reactorCopy r = r) := by
  refine ⟨rfl, rfl, rfl, rfl, fun h => ?_⟩
  unfold reactorCopy radauClone
  rw [← h]

/-- **C132** The tolerances of the ODE solver are lost in a copy. -/
theorem reactor_copy_tolerances (r : ReactorObject M Sc Ar K) (h : r.solver ≠ radauDefaults) :
    reactorCopy r ≠ r := fun e => h (by rw [← e]; rfl)

/-- **C132** After an assignment, by copy or by move, the array state is still that of the target. -/
theorem reactor_assign_array (a b : ReactorObject M Sc Ar K) :
    (reactorAssign a b).array = a.array ∧ (reactorMoveAssign a b).array = a.array ∧
    (reactorAssign a b).scalar = b.scalar ∧ (reactorAssign a b).mechanism = b.mechanism ∧
    (reactorMoveAssign a b).solver = b.solver ∧ (reactorAssign a b).solver = radauDefaults :=
  ⟨rfl, rfl, rfl, rfl, rfl, rfl⟩

/-- **C132** Observable effect: assign a reactor with another mechanism and set the temperature of
the lanes to the temperature the target had before; the lanes keep the enthalpies of the old
mechanism, while a copied reactor has those of its own. -/
theorem reactor_assign_wrong_tables [DecidableEq K] (a b : ReactorObject (K → K) Sc (LaneTables K) K) (T : K)
    (ha : a.array = ⟨T, T, a.mechanism T⟩) (hb : b.array.thermoTemp ≠ T) :
    (setLaneTemperature (reactorAssign a b) T).array.enthalpy = a.mechanism T ∧
    (setLaneTemperature (reactorCopy b) T).array.enthalpy = b.mechanism T := by
  constructor
  · unfold setLaneTemperature
    rw [if_pos (by show a.array.thermoTemp = T; rw [ha])]
    show a.array.enthalpy = _
    rw [ha]
  · unfold setLaneTemperature
    rw [if_neg (by exact hb)]
    rfl

/-- Non-vacuity: two mechanisms, the target at 300 K. -/
example : let a : ReactorObject (ℚ → ℚ) Unit (LaneTables ℚ) ℚ :=
      ⟨fun T => 10 * T, (), ⟨300, 300, 3000⟩, radauDefaults⟩
    let b : ReactorObject (ℚ → ℚ) Unit (LaneTables ℚ) ℚ :=
      ⟨fun T => 20 * T, (), ⟨400, 400, 8000⟩, radauDefaults⟩
    (setLaneTemperature (reactorAssign a b) 300).array.enthalpy = 3000 ∧
    (setLaneTemperature (reactorCopy b) 300).array.enthalpy = 6000 := by
  constructor <;> decide +kernel

end Fub
