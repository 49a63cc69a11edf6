import Mathlib.Algebra.Order.Field.Basic
import Mathlib.Algebra.Order.AbsoluteValue.Basic
import Mathlib.Data.Fintype.Basic

/-!
# The Newton iteration for the temperature

Model of `setEnergiesHOrU`, `/repo/src/equations/ideal_gas_mix/FlameMasterReactor.cpp:184-272`, and of its two array versions, `/repo/src/equations/ideal_gas_mix/FlameMasterReactor.cpp:601-680` and `/repo/src/equations/ideal_gas_mix/FlameMasterReactor.cpp:682-763`. The
reactor is seen through two functions of the temperature at fixed composition: `U`, the energy (or
enthalpy) it reports after `SetTemperature`, and `C`, the heat capacity it reports. Numbers are
elements of an ordered field; a division by a heat capacity zero (infinity or not a number in the
code) is zero here.
-/

namespace Fub

variable {K : Type*} [Field K] [LinearOrder K]

/-- The local variables of the iteration, `/repo/src/equations/ideal_gas_mix/FlameMasterReactor.cpp:187-199`. -/
structure NewtonState (K : Type*) where
  T : K
  U : K
  C : K
  Utop : K
  Ubot : K
  Ttop : K
  Tbot : K
  dT : K
  unstable : Bool

/-- The initial values, `/repo/src/equations/ideal_gas_mix/FlameMasterReactor.cpp:187-199`, at the reactor's temperature. -/
def newtonInit (U C : K → K) (T0 : K) : NewtonState K :=
  { T := T0, U := U T0, C := C T0, Utop := U T0, Ubot := U T0, Ttop := T0, Tbot := T0, dT := 0
    unstable := false }

/-- The step before the stabilisation, `/repo/src/equations/ideal_gas_mix/FlameMasterReactor.cpp:208-225`: clipped to 100 K and limited by the
bracket. -/
def newtonStepSize (target : K) (s : NewtonState K) (unstable : Bool) : K :=
  let dT := max (-100) (min 100 ((target - s.U) / s.C))
  let Tnew := s.T + dT
  if (dT > 0 ∧ unstable = true) ∨ (dT ≤ 0 ∧ unstable = false) then
    if s.Ubot < target ∧ Tnew < (3 / 4) * s.Tbot + (1 / 4) * s.T then (3 / 4) * (s.Tbot - s.T) else dT
  else if s.Utop > target ∧ Tnew > (3 / 4) * s.Ttop + (1 / 4) * s.T then (3 / 4) * (s.Ttop - s.T)
  else dT

/-- The loop which quarters the step while the heat capacity is negative, `/repo/src/equations/ideal_gas_mix/FlameMasterReactor.cpp:229-241`:
returns the last temperature that was set and the step. -/
def newtonBackoff (C : K → K) (Told : K) : ℕ → K → K → K × K
  | 0, Tn, dT => (Tn, dT)
  | n + 1, _, dT =>
    let Tn := Told + dT
    if C Tn < 0 then newtonBackoff C Told n Tn (dT * (1 / 4)) else (Tn, dT)

/-- One pass of the loop up to the test for convergence, `/repo/src/equations/ideal_gas_mix/FlameMasterReactor.cpp:205-251`. `sticky` is true for
the scalar version, which never clears `unstablePhase` (`/repo/src/equations/ideal_gas_mix/FlameMasterReactor.cpp:209-211`), and false for the array
versions (`/repo/src/equations/ideal_gas_mix/FlameMasterReactor.cpp:624`, `/repo/src/equations/ideal_gas_mix/FlameMasterReactor.cpp:707`). The bracket is not updated when the target is met exactly,
which is the test `/repo/src/equations/ideal_gas_mix/FlameMasterReactor.cpp:243`. -/
def energyStep (sticky : Bool) (U C : K → K) (target : K) (s : NewtonState K) : NewtonState K :=
  let unstable := (sticky && s.unstable) || decide (s.C < 0)
  let dT0 := newtonStepSize target s unstable
  let r := newtonBackoff C s.T 10 (s.T + dT0) dT0
  let Tn := r.1
  let Un := U Tn
  let top := Un > target ∧ (s.Utop < target ∨ Un < s.Utop)
  let bot := Un < target ∧ (s.Ubot > target ∨ Un > s.Ubot)
  { T := Tn, U := Un, C := C Tn
    Utop := if top then Un else s.Utop, Ttop := if top then Tn else s.Ttop
    Ubot := if bot then Un else s.Ubot, Tbot := if bot then Tn else s.Tbot
    dT := r.2, unstable := unstable }

/-- The test for convergence after the pass from `s` to `s'`, `/repo/src/equations/ideal_gas_mix/FlameMasterReactor.cpp:243-244` and
`/repo/src/equations/ideal_gas_mix/FlameMasterReactor.cpp:254-260`; the heat capacity in the denominator is that of the old temperature. -/
def newtonDone (target tol : K) (s s' : NewtonState K) : Prop :=
  s'.U = target ∨
  |(target - s'.U) / max |target| (max |s.C| (1 / 100000) * tol)| < (1 / 100000) * tol ∨ |s'.dT| < tol

instance (target tol : K) (s s' : NewtonState K) : Decidable (newtonDone target tol s s') := by
  unfold newtonDone
  infer_instance

/-- The loop of the scalar version; `none` is the exception `/repo/src/equations/ideal_gas_mix/FlameMasterReactor.cpp:263-271`. The temperature of
the reactor is that of the returned state. -/
def energyLoop (U C : K → K) (target tol : K) : ℕ → NewtonState K → Option K
  | 0, _ => none
  | n + 1, s =>
    let s' := energyStep true U C target s
    if newtonDone target tol s s' then some s'.T else energyLoop U C target tol n s'

/-- `SetInternalEnergy(target, dTtol)` and `SetEnthalpy(target, dTtol)` at the temperature `T0`,
`/repo/src/equations/ideal_gas_mix/FlameMasterReactor.cpp:184-272`: the temperature of the reactor afterwards, or an exception. -/
def setEnergy (U C : K → K) (target tol T0 : K) : Option K :=
  energyLoop U C target tol 1000 (newtonInit U C T0)

/-- The test for convergence of one lane of the array versions, `/repo/src/equations/ideal_gas_mix/FlameMasterReactor.cpp:662-667` and
`/repo/src/equations/ideal_gas_mix/FlameMasterReactor.cpp:745-750` (without division). -/
def laneDone (target tol : K) (s s' : NewtonState K) : Prop :=
  |target - s'.U| < max |target| (max |s.C| (1 / 100000) * tol) * ((1 / 100000) * tol) ∨ |s'.dT| < tol

instance (target tol : K) (s s' : NewtonState K) : Decidable (laneDone target tol s s') := by
  unfold laneDone
  infer_instance

/-- The loop of the array versions over the lanes of the mask, `/repo/src/equations/ideal_gas_mix/FlameMasterReactor.cpp:619-670` and
`/repo/src/equations/ideal_gas_mix/FlameMasterReactor.cpp:702-753`: the loop ends when all lanes meet their targets exactly or all lanes have
converged. The collective quartering of the steps (`/repo/src/equations/ideal_gas_mix/FlameMasterReactor.cpp:636-646`) repeats the evaluation of
lanes which are already stable and is the same as quartering lane by lane. Lanes outside of the
mask do not take part: their target, energy and steps are zero and their temperature is 300. -/
def newtonLanes {ι : Type*} [Fintype ι] (mask : ι → Bool) (U C : ι → K → K) (target : ι → K)
    (tol : K) : ℕ → (ι → NewtonState K) → Option (ι → K)
  | 0, _ => none
  | n + 1, s =>
    let s' := fun i => energyStep false (U i) (C i) (target i) (s i)
    if (∀ i, mask i = true → (s' i).U = target i) ∨
        (∀ i, mask i = true → laneDone (target i) tol (s i) (s' i)) then
      some (fun i => if mask i then (s' i).T else 300)
    else newtonLanes mask U C target tol n s'

/-- `SetInternalEnergyArray`, `/repo/src/equations/ideal_gas_mix/FlameMasterReactor.cpp:601-763`; without mask all lanes take part. -/
def setEnergyLanes {ι : Type*} [Fintype ι] (mask : ι → Bool) (U C : ι → K → K) (target : ι → K)
    (tol : K) (T0 : ι → K) : Option (ι → K) :=
  newtonLanes mask U C target tol 1000 (fun i => newtonInit (U i) (C i) (T0 i))

end Fub
