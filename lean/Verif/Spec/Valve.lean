import Verif.Model.Valve

/-!
# What the pressure valves should do
-/

namespace Fub
variable {K : Type*} [Field K] [LinearOrder K] [IsStrictOrderedRing K]

/-- How often a valve changes from air to fuel in a sequence of states. -/
def fuelStarts : List ValveState → Nat
  | [] => 0
  | [_] => 0
  | s :: s' :: r => (if s = .openAir ∧ s' = .openFuel then 1 else 0) + fuelStarts (s' :: r)

/-- The scheduled time of the fuel phase with number `k = 0, 1, 2, …`. -/
def scheduledFuel (o : ValveOptions K) (k : Nat) : K := o.offset + k * o.interval

/-- The inner pressure is at most the compressor pressure. -/
def ValveEvent.low (e : ValveEvent K) : Prop := ∃ p, e.inner = some p ∧ p ≤ e.plenum.pressure

/-- The inner pressure is at most 1.1 times the compressor pressure. -/
def ValveEvent.moderate (e : ValveEvent K) : Prop := ∃ p, e.inner = some p ∧ p ≤ 11 / 10 * e.plenum.pressure

/-- `t` is the time of the first evaluation of the current low pressure phase: the history ends with a run of low pressures, which begins with an
evaluation at time `t` and is preceded by no evaluation or one with a higher pressure. -/
def LowSince (h : List (ValveEvent K)) (t : K) : Prop :=
  ∃ h₁ e h₂, h = h₁ ++ e :: h₂ ∧ e.time = t ∧ e.low ∧ (∀ x ∈ h₂, x.low) ∧ ∀ x, h₁.getLast? = some x → ¬x.low

/-- The same with hysteresis: `t` is the time of the first evaluation with low pressure after the last evaluation with a pressure above 1.1 times the
compressor pressure. -/
def LowSinceHysteresis (h : List (ValveEvent K)) (t : K) : Prop :=
  ∃ h₀ h₁ e h₂, h = h₀ ++ h₁ ++ e :: h₂ ∧ e.time = t ∧ e.low ∧ (∀ x ∈ h₂, x.moderate) ∧ (∀ x ∈ h₁, x.moderate ∧ ¬x.low) ∧
    ∀ x, h₀.getLast? = some x → ¬x.moderate

/-- The configuration of the kind allows the evaluation: the pressure is a number, and for the valve with hysteresis the compressor pressure is not negative. -/
def ValveEvent.Ok (k : ValveKind) (e : ValveEvent K) : Prop :=
  e.inner.isSome ∧ (k = .reducedModelDemo → 0 ≤ e.plenum.pressure)

/-- The valve is blocked at this evaluation. -/
def ValveEvent.Blocked (k : ValveKind) (e : ValveEvent K) : Prop :=
  match k with
  | .reducedModelDemo | .klein => ¬e.low
  | .deflagration => False
  | .switchToSec => e.plenum.sec = true ∧ ¬e.low

end Fub
