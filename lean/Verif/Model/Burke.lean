import Mathlib.Analysis.SpecialFunctions.Exp
import Mathlib.Analysis.SpecialFunctions.Log.Basic
import Mathlib.Analysis.SpecialFunctions.Pow.Real
import Mathlib.Algebra.BigOperators.Group.Finset.Basic
import Mathlib.Data.Fintype.Defs
import Mathlib.Data.Finset.Insert

/-!
# The hydrogen mechanism `Burke2012`

Model of `/repo/src/equations/ideal_gas_mix/mechanism/Burke2012.cpp` (the only mechanism which the
project compiles, `/repo/CMakeLists.txt:351`) and of its header. The right-hand sides are a literal
transcription of the source: one Lean equation per assignment. Floating point numbers are real
numbers (or elements of a field `K`) and the decimal literals are exact.
-/

namespace Fub

/-- Species labels, `/repo/include/fub/equations/ideal_gas_mix/mechanism/Burke2012.hpp:35-51`, in the order of the C++ enumeration. -/
inductive BSp
  | N2
  | AR
  | H
  | O2
  | O
  | OH
  | H2
  | H2O
  | HE
  | HO2
  | H2O2
  deriving DecidableEq

/-- The complete list of species. -/
instance : Fintype BSp where
  elems := {.N2, .AR, .H, .O2, .O, .OH, .H2, .H2O, .HE, .HO2, .H2O2}
  complete := by intro x; cases x <;> simp

/-- Reaction labels `/repo/include/fub/equations/ideal_gas_mix/mechanism/Burke2012.hpp:53-111`, forward `f` and backward `b` direction. -/
inductive BRx
  | r1f | r1b | r2f | r2b | r3f | r3b
  | r4f | r4b | r5f | r5b | r6f | r6b
  | r7f | r7b | r8f | r8b | r9f | r9b
  | r10f | r10b | r11f | r11b | r12f | r12b
  | r13f | r13b | r14f | r14b | r15f | r15b
  | r16f | r16b | r17f | r17b | r18f | r18b
  | r19f | r19b | r20f | r20b | r21f | r21b
  | r22f | r22b | r23f | r23b | r24f | r24b
  | r25f | r25b | r26f | r26b | r27f | r27b
  deriving DecidableEq

/-- Third body labels `/repo/include/fub/equations/ideal_gas_mix/mechanism/Burke2012.hpp:113-122`. -/
inductive BTb
  | M1 | M2 | M3 | M4 | M5 | M6
  deriving DecidableEq

section
variable {K : Type*} [Field K]

/-- `Burke2012::getMolarMass`, `/repo/include/fub/equations/ideal_gas_mix/mechanism/Burke2012.hpp:147-160`, in kg/kmol. -/
def burkeMolarMass : BSp → K
  | .N2 => 2.802e1
  | .AR => 3.9948e1
  | .H => 1.008
  | .O2 => 3.2e1
  | .O => 1.6e1
  | .OH => 1.7008e1
  | .H2 => 2.016
  | .H2O => 1.8016e1
  | .HE => 4
  | .HO2 => 3.3008e1
  | .H2O2 => 3.4016e1

/-- `Burke2012::getSpeciesNames`, `/repo/include/fub/equations/ideal_gas_mix/mechanism/Burke2012.hpp:162-165`: names in enumeration order. -/
def burkeName : BSp → String
  | .N2 => "N2"
  | .AR => "AR"
  | .H => "H"
  | .O2 => "O2"
  | .O => "O"
  | .OH => "OH"
  | .H2 => "H2"
  | .H2O => "H2O"
  | .HE => "HE"
  | .HO2 => "HO2"
  | .H2O2 => "H2O2"

/-- Third body concentrations, `/repo/src/equations/ideal_gas_mix/mechanism/Burke2012.cpp:39-56`. -/
def burkeThirdBody (c : BSp → K) : BTb → K
  | .M1 => c .N2 + c .H + c .O2 + c .O + c .OH + 2.5 * c .H2 + 12 * c .H2O + c .HO2 + c .H2O2
  | .M2 => c .N2 + c .H + c .O2 + c .O + c .OH + 2.5 * c .H2 + 12 * c .H2O + c .HO2 + c .H2O2
  | .M3 => c .N2 + 0.75 * c .AR + c .H + c .O2 + c .O + c .OH + 2.5 * c .H2 + 12 * c .H2O + 0.75 *
      c .HE + c .HO2 + c .H2O2
  | .M4 => 2 * c .N2 + c .AR + c .H + 1.5 * c .O2 + c .O + c .OH + 3 * c .H2 + 1.1 * c .HE +
      c .HO2 + c .H2O2
  | .M5 => c .N2 + 0.67 * c .AR + c .H + 0.78 * c .O2 + c .O + c .OH + 2 * c .H2 + 14 * c .H2O +
      0.8 * c .HE + c .HO2 + c .H2O2
  | .M6 => 1.5 * c .N2 + c .AR + c .H + 1.2 * c .O2 + c .O + c .OH + 3.7 * c .H2 + 7.5 * c .H2O +
      0.65 * c .HE + c .HO2 + 7.7 * c .H2O2

/-- Reaction rates, `/repo/src/equations/ideal_gas_mix/mechanism/Burke2012.cpp:123-176`. -/
def burkeRates (k : BRx → K) (M : BTb → K) (c : BSp → K) : BRx → K
  | .r1f => k .r1f * c .H * c .O2
  | .r1b => k .r1b * c .OH * c .O
  | .r2f => k .r2f * c .O * c .H2
  | .r2b => k .r2b * c .OH * c .H
  | .r3f => k .r3f * c .O * c .H2
  | .r3b => k .r3b * c .OH * c .H
  | .r4f => k .r4f * c .H2 * c .OH
  | .r4b => k .r4b * c .H * c .H2O
  | .r5f => k .r5f * c .OH * c .OH
  | .r5b => k .r5b * c .H2O * c .O
  | .r6f => k .r6f * c .H2 * M .M1
  | .r6b => k .r6b * c .H * c .H * M .M1
  | .r7f => k .r7f * c .H2 * c .AR
  | .r7b => k .r7b * c .AR * c .H * c .H
  | .r8f => k .r8f * c .H2 * c .HE
  | .r8b => k .r8b * c .HE * c .H * c .H
  | .r9f => k .r9f * c .O * c .O * M .M2
  | .r9b => k .r9b * c .O2 * M .M2
  | .r10f => k .r10f * c .O * c .O * c .AR
  | .r10b => k .r10b * c .AR * c .O2
  | .r11f => k .r11f * c .O * c .O * c .HE
  | .r11b => k .r11b * c .HE * c .O2
  | .r12f => k .r12f * c .O * c .H * M .M3
  | .r12b => k .r12b * c .OH * M .M3
  | .r13f => k .r13f * c .H2O * M .M4
  | .r13b => k .r13b * c .OH * c .H * M .M4
  | .r14f => k .r14f * c .H2O * c .H2O
  | .r14b => k .r14b * c .H2O * c .OH * c .H
  | .r15f => k .r15f * c .H * c .O2
  | .r15b => k .r15b * c .HO2
  | .r16f => k .r16f * c .HO2 * c .H
  | .r16b => k .r16b * c .O2 * c .H2
  | .r17f => k .r17f * c .HO2 * c .H
  | .r17b => k .r17b * c .OH * c .OH
  | .r18f => k .r18f * c .HO2 * c .O
  | .r18b => k .r18b * c .OH * c .O2
  | .r19f => k .r19f * c .HO2 * c .OH
  | .r19b => k .r19b * c .O2 * c .H2O
  | .r20f => k .r20f * c .HO2 * c .HO2
  | .r20b => k .r20b * c .O2 * c .H2O2
  | .r21f => k .r21f * c .HO2 * c .HO2
  | .r21b => k .r21b * c .O2 * c .H2O2
  | .r22f => k .r22f * c .H2O2
  | .r22b => k .r22b * c .OH * c .OH
  | .r23f => k .r23f * c .H2O2 * c .H
  | .r23b => k .r23b * c .OH * c .H2O
  | .r24f => k .r24f * c .H2O2 * c .H
  | .r24b => k .r24b * c .H2 * c .HO2
  | .r25f => k .r25f * c .H2O2 * c .O
  | .r25b => k .r25b * c .HO2 * c .OH
  | .r26f => k .r26f * c .H2O2 * c .OH
  | .r26b => k .r26b * c .H2O * c .HO2
  | .r27f => k .r27f * c .H2O2 * c .OH
  | .r27b => k .r27b * c .H2O * c .HO2

/-- Production rates from the reaction rates, `/repo/src/equations/ideal_gas_mix/mechanism/Burke2012.cpp:178-225`. -/
def burkeCdot (w : BRx → K) : BSp → K
  | .N2 => 0
  | .AR => -w .r7f + w .r7f - w .r7b + w .r7b - w .r10f + w .r10f - w .r10b + w .r10b
  | .H => -w .r1f + w .r1b + w .r2f - w .r2b + w .r3f - w .r3b + w .r4f - w .r4b + 2 * w .r6f - 2
      * w .r6b + 2 * w .r7f - 2 * w .r7b + 2 * w .r8f - 2 * w .r8b - w .r12f + w .r12b + w .r13f -
      w .r13b + w .r14f - w .r14b - w .r15f + w .r15b - w .r16f + w .r16b - w .r17f + w .r17b -
      w .r23f + w .r23b - w .r24f + w .r24b
  | .O2 => -w .r1f + w .r1b + w .r9f - w .r9b + w .r10f - w .r10b + w .r11f - w .r11b - w .r15f +
      w .r15b + w .r16f - w .r16b + w .r18f - w .r18b + w .r19f - w .r19b + w .r20f - w .r20b +
      w .r21f - w .r21b
  | .O => w .r1f - w .r1b - w .r2f + w .r2b - w .r3f + w .r3b + w .r5f - w .r5b - 2 * w .r9f + 2 *
      w .r9b - 2 * w .r10f + 2 * w .r10b - 2 * w .r11f + 2 * w .r11b - w .r12f + w .r12b - w .r18f
      + w .r18b - w .r25f + w .r25b
  | .OH => w .r1f - w .r1b + w .r2f - w .r2b + w .r3f - w .r3b - w .r4f + w .r4b - 2 * w .r5f + 2
      * w .r5b + w .r12f - w .r12b + w .r13f - w .r13b + w .r14f - w .r14b + 2 * w .r17f - 2 *
      w .r17b + w .r18f - w .r18b - w .r19f + w .r19b + 2 * w .r22f - 2 * w .r22b + w .r23f -
      w .r23b + w .r25f - w .r25b - w .r26f + w .r26b - w .r27f + w .r27b
  | .H2 => -w .r2f + w .r2b - w .r3f + w .r3b - w .r4f + w .r4b - w .r6f + w .r6b - w .r7f +
      w .r7b - w .r8f + w .r8b + w .r16f - w .r16b + w .r24f - w .r24b
  | .H2O => w .r4f - w .r4b + w .r5f - w .r5b - w .r13f + w .r13b - 2 * w .r14f + w .r14f -
      w .r14b + 2 * w .r14b + w .r19f - w .r19b + w .r23f - w .r23b + w .r26f - w .r26b + w .r27f
      - w .r27b
  | .HE => -w .r8f + w .r8f - w .r8b + w .r8b - w .r11f + w .r11f - w .r11b + w .r11b
  | .HO2 => w .r15f - w .r15b - w .r16f + w .r16b - w .r17f + w .r17b - w .r18f + w .r18b -
      w .r19f + w .r19b - 2 * w .r20f + 2 * w .r20b - 2 * w .r21f + 2 * w .r21b + w .r24f -
      w .r24b + w .r25f - w .r25b + w .r26f - w .r26b + w .r27f - w .r27b
  | .H2O2 => w .r20f - w .r20b + w .r21f - w .r21b - w .r22f + w .r22b - w .r23f + w .r23b -
      w .r24f + w .r24b - w .r25f + w .r25b - w .r26f + w .r26b - w .r27f + w .r27b

end

/-- `log10`. Serves the model of /repo/src/equations/ideal_gas_mix/mechanism/Burke2012.cpp:792-823. -/
noncomputable def log10 (x : ℝ) : ℝ := Real.log x / Real.log 10

/-- `getLindRateCoeff`, `/repo/src/equations/ideal_gas_mix/mechanism/Burke2012.cpp:792-823` (`iTroe` is the constant 1): fall-off rate
coefficient with the Troe broadening factor. When the denominator of `f` vanishes the C++ quotient
is infinite and `pow (fc, 1 / (f * f + 1))` is one, which is what the model returns there. -/
noncomputable def getLindRateCoeff (temp pressure k0 kInf fc conc : ℝ) : ℝ :=
  let conc' := if conc ≤ 0 then pressure / (8314.34 * temp) else conc
  let ntmp := 0.75 - 1.27 * log10 fc
  let cCoeff := -0.4 - 0.67 * log10 fc
  let k0' := k0 * (conc' / max kInf 1e-60)
  let den := ntmp - 0.14 * (log10 k0' + cCoeff)
  let f := (log10 k0' + cCoeff) / den
  let broad := if den = 0 then 1 else fc ^ (1 / (f * f + 1))
  kInf * (broad * k0' / (1 + k0'))

/-- Rate coefficients, `/repo/src/equations/ideal_gas_mix/mechanism/Burke2012.cpp:58-121`; `lgt` is `log(temp)` and `rt` is `RGAS * temp`,
`/repo/src/equations/ideal_gas_mix/mechanism/Burke2012.cpp:34-36`. -/
noncomputable def burkeK (temp pressure : ℝ) (M : BTb → ℝ) : BRx → ℝ :=
  let lgt := Real.log temp
  let rt := 8314.34 * temp
  fun r => match r with
    | .r1f => 1.04e11 * Real.exp (-63957000 / rt)
    | .r1b => 2.0679845118e8 * Real.exp (0.434958 * lgt + 6605168.02 / rt)
    | .r2f => 3.818e9 * Real.exp (-33254000 / rt)
    | .r2b => 2.2393817467e9 * Real.exp (-0.0350345 * lgt - 27487825.08 / rt)
    | .r3f => 8.792e11 * Real.exp (-80207000 / rt)
    | .r3b => 5.1567952637e11 * Real.exp (-0.0350345 * lgt - 74440825.08 / rt)
    | .r4f => 2.16e5 * Real.exp (1.51 * lgt - 14351000 / rt)
    | .r4b => 2.2182689717e6 * Real.exp (1.41638 * lgt - 77060225.89 / rt)
    | .r5f => 3.34e1 * Real.exp (2.42 * lgt + 8075000 / rt)
    | .r5b => 5.8480989232e2 * Real.exp (2.36141 * lgt - 60400400.81 / rt)
    | .r6f => 4.577e16 * Real.exp (-1.4 * lgt - 436726000 / rt)
    | .r6b => 1.9619373578e14 * Real.exp (-1.7488 * lgt - 3646272.681 / rt)
    | .r7f => 5.84e15 * Real.exp (-1.1 * lgt - 436726000 / rt)
    | .r7b => 2.5033240484e13 * Real.exp (-1.4488 * lgt - 3646272.681 / rt)
    | .r8f => 5.84e15 * Real.exp (-1.1 * lgt - 436726000 / rt)
    | .r8b => 2.5033240484e13 * Real.exp (-1.4488 * lgt - 3646272.681 / rt)
    | .r9f => 6.165e9 * Real.exp (-0.5 * lgt)
    | .r9b => 4.2423561386e14 * Real.exp (-0.621192 * lgt - 497875720.4 / rt)
    | .r10f => 1.886e7 * Real.exp (7481000 / rt)
    | .r10b => 1.2978237919e12 * Real.exp (-0.121192 * lgt - 490394720.4 / rt)
    | .r11f => 1.886e7 * Real.exp (7481000 / rt)
    | .r11b => 1.2978237919e12 * Real.exp (-0.121192 * lgt - 490394720.4 / rt)
    | .r12f => 4.714e12 * Real.exp (-1 * lgt)
    | .r12b => 6.4502650942e14 * Real.exp (-0.686234 * lgt - 427313552.4 / rt)
    | .r13f => 6.064e24 * Real.exp (-3.322 * lgt - 505385000 / rt)
    | .r13b => 2.5310630492e21 * Real.exp (-3.57718 * lgt - 9596046.787 / rt)
    | .r14f => 1.006e23 * Real.exp (-2.44 * lgt - 502833000 / rt)
    | .r14b => 4.1989601376e19 * Real.exp (-2.69518 * lgt - 7044046.787 / rt)
    | .r15f => getLindRateCoeff temp pressure
      (6.366e14 * Real.exp (-1.72 * lgt - 2196000 / rt))
      (4.651e9 * Real.exp (0.44 * lgt))
      (0.5 * Real.exp (-temp / 1e-30) + 0.5 * Real.exp (-temp / 1e30)) (M .M5)
    | .r15b => getLindRateCoeff temp pressure
      (9.0292117899e17 * Real.exp (-1.73291 * lgt - 206862356.2 / rt))
      (6.596742701e12 * Real.exp (0.427093 * lgt - 204666356.2 / rt))
      (0.5 * Real.exp (-temp / 1e-30) + 0.5 * Real.exp (-temp / 1e30)) (M .M5)
    | .r16f => 2.75e3 * Real.exp (2.09 * lgt + 6071000 / rt)
    | .r16b => 4.5231945076e2 * Real.exp (2.45171 * lgt - 222342371.2 / rt)
    | .r17f => 7.079e10 * Real.exp (-1234000 / rt)
    | .r17b => 1.357971435e7 * Real.exp (0.761631 * lgt - 153319028.2 / rt)
    | .r18f => 2.85e7 * Real.exp (1 * lgt + 3029000 / rt)
    | .r18b => 2.7494741434e6 * Real.exp (1.32667 * lgt - 219618196.2 / rt)
    | .r19f => 2.89e10 * Real.exp (2079000 / rt)
    | .r19b => 4.8816975193e10 * Real.exp (0.268083 * lgt - 289043597.1 / rt)
    | .r20f => 4.2e11 * Real.exp (-50133000 / rt)
    | .r20b => 6.357461636e13 * Real.exp (-0.389273 * lgt - 212211053.7 / rt)
    | .r21f => 1.3e8 * Real.exp (6817000 / rt)
    | .r21b => 1.9677857445e10 * Real.exp (-0.389273 * lgt - 155261053.7 / rt)
    | .r22f => getLindRateCoeff temp pressure
      (2.49e21 * Real.exp (-2.3 * lgt - 203970000 / rt))
      (2e12 * Real.exp (0.9 * lgt - 203966000 / rt))
      (0.57 * Real.exp (-temp / 1e-30) + 0.43 * Real.exp (-temp / 1e30)) (M .M6)
    | .r22b => getLindRateCoeff temp pressure
      (2.2248483092e12 * Real.exp (-1.13619 * lgt + 10689381.66 / rt))
      (1.7870267543e3 * Real.exp (2.06381 * lgt + 10693381.66 / rt))
      (0.57 * Real.exp (-temp / 1e-30) + 0.43 * Real.exp (-temp / 1e30)) (M .M6)
    | .r23f => 2.41e10 * Real.exp (-16610000 / rt)
    | .r23b => 5.1591045676e4 * Real.exp (1.41899 * lgt - 297739571.6 / rt)
    | .r24f => 4.82e10 * Real.exp (-33263000 / rt)
    | .r24b => 5.2375134409e7 * Real.exp (0.75098 * lgt - 99598317.44 / rt)
    | .r25f => 9.55e3 * Real.exp (2 * lgt - 16610000 / rt)
    | .r25b => 6.0865850326 * Real.exp (2.71595 * lgt - 77179142.52 / rt)
    | .r26f => 1.74e9 * Real.exp (-1331000 / rt)
    | .r26b => 1.9417254097e7 * Real.exp (0.657356 * lgt - 130375543.3 / rt)
    | .r27f => 7.59e10 * Real.exp (-30418000 / rt)
    | .r27b => 8.4699401492e8 * Real.exp (0.657356 * lgt - 159462543.3 / rt)

/-- `Burke2012::ComputeProductionRates`, `/repo/src/equations/ideal_gas_mix/mechanism/Burke2012.cpp:28-226`. -/
noncomputable def burkeProduction (c : BSp → ℝ) (temp pressure : ℝ) : BSp → ℝ :=
  burkeCdot (burkeRates (burkeK temp pressure (burkeThirdBody c)) (burkeThirdBody c) c)

section
variable {K : Type*} [Field K]

/-- Enthalpies above 1000 K, scalar version, `/repo/src/equations/ideal_gas_mix/mechanism/Burke2012.cpp:540-661`. -/
def burkeHHigh (T : K) : BSp → K
  | .N2 => 2.96733125e2 * (T * (2.92664 + T * (7.439885e-4 + T * (-1.89492033e-7 + T *
      (2.52426e-11 + T * -1.3506702e-15)))) - 9.227977e2)
  | .AR => 2.08132126e2 * (T * (2.5 + T * (0 + T * (0 + T * (0 + T * 0)))) - 7.45375e2)
  | .H => 8.24847438e3 * (T * (2.5 + T * (0 + T * (0 + T * (0 + T * 0)))) + 2.547163e4)
  | .O2 => 2.59826943e2 * (T * (3.697578 + T * (3.0675985e-4 + T * (-4.19614e-8 + T *
      (4.4382025e-12 + T * -2.27287e-16)))) - 1.23393e3)
  | .O => 5.19653886e2 * (T * (2.54206 + T * (-1.377531e-5 + T * (-1.03426767e-9 + T *
      (1.13776675e-12 + T * -8.736104e-17)))) + 2.92308e4)
  | .OH => 4.8885596e2 * (T * (2.86472886 + T * (5.2825224e-4 + T * (-8.63609193e-8 + T *
      (7.63046685e-12 + T * -2.66391752e-16)))) + 3.68362875e3)
  | .H2 => 4.12423719e3 * (T * (2.991423 + T * (3.500322e-4 + T * (-1.877943e-8 + T *
      (-2.3078945e-12 + T * 3.165504e-16)))) - 8.35034e2)
  | .H2O => 4.61504339e2 * (T * (2.672146 + T * (1.5281465e-3 + T * (-2.91008667e-7 + T *
      (3.00249e-11 + T * -1.2783236e-15)))) - 2.989921e4)
  | .HE => 2.07861554e3 * (T * (2.5 + T * (0 + T * (0 + T * (0 + T * 0)))) - 7.45375e2)
  | .HO2 => 2.51892334e2 * (T * (4.0172109 + T * (1.11991006e-3 + T * (-2.11219383e-7 + T *
      (2.85615925e-11 + T * -2.1581707e-15)))) + 1.11856713e2)
  | .H2O2 => 2.4442798e2 * (T * (4.573167 + T * (2.168068e-3 + T * (-4.91563e-7 + T * (5.87226e-11
      + T * -2.863308e-15)))) - 1.800696e4)

/-- Heat capacities above 1000 K, scalar version, `/repo/src/equations/ideal_gas_mix/mechanism/Burke2012.cpp:540-661`. -/
def burkeCpHigh (T : K) : BSp → K
  | .N2 => 2.96733125e2 * (2.92664 + T * (1.487977e-3 + T * (-5.684761e-7 + T * (1.009704e-10 + T
      * -6.753351e-15))))
  | .AR => 2.08132126e2 * (2.5 + T * (0 + T * (0 + T * (0 + T * 0))))
  | .H => 8.24847438e3 * (2.5 + T * (0 + T * (0 + T * (0 + T * 0))))
  | .O2 => 2.59826943e2 * (3.697578 + T * (6.135197e-4 + T * (-1.258842e-7 + T * (1.775281e-11 + T
      * -1.136435e-15))))
  | .O => 5.19653886e2 * (2.54206 + T * (-2.755062e-5 + T * (-3.102803e-9 + T * (4.551067e-12 + T
      * -4.368052e-16))))
  | .OH => 4.8885596e2 * (2.86472886 + T * (1.05650448e-3 + T * (-2.59082758e-7 + T *
      (3.05218674e-11 + T * -1.33195876e-15))))
  | .H2 => 4.12423719e3 * (2.991423 + T * (7.000644e-4 + T * (-5.633829e-8 + T * (-9.231578e-12 +
      T * 1.582752e-15))))
  | .H2O => 4.61504339e2 * (2.672146 + T * (3.056293e-3 + T * (-8.73026e-7 + T * (1.200996e-10 + T
      * -6.391618e-15))))
  | .HE => 2.07861554e3 * (2.5 + T * (0 + T * (0 + T * (0 + T * 0))))
  | .HO2 => 2.51892334e2 * (4.0172109 + T * (2.23982013e-3 + T * (-6.3365815e-7 + T *
      (1.1424637e-10 + T * -1.07908535e-14))))
  | .H2O2 => 2.4442798e2 * (4.573167 + T * (4.336136e-3 + T * (-1.474689e-6 + T * (2.348904e-10 +
      T * -1.431654e-14))))

/-- Enthalpies up to 1000 K, scalar version, `/repo/src/equations/ideal_gas_mix/mechanism/Burke2012.cpp:663-783`. -/
def burkeHLow (T : K) : BSp → K
  | .N2 => 2.96733125e2 * (T * (3.298677 + T * (7.0412e-4 + T * (-1.321074e-6 + T * (1.41037875e-9
      + T * -4.88971e-13)))) - 1.0209e3)
  | .AR => 2.08132126e2 * (T * (2.5 + T * (0 + T * (0 + T * (0 + T * 0)))) - 7.45375e2)
  | .H => 8.24847438e3 * (T * (2.5 + T * (0 + T * (0 + T * (0 + T * 0)))) + 2.547163e4)
  | .O2 => 2.59826943e2 * (T * (3.212936 + T * (5.63743e-4 + T * (-1.91871667e-7 + T *
      (3.2846925e-10 + T * -1.7537108e-13)))) - 1.005249e3)
  | .O => 5.19653886e2 * (T * (2.946429 + T * (-8.19083e-4 + T * (8.07010667e-7 + T *
      (-4.0071075e-10 + T * 7.781392e-14)))) + 2.914764e4)
  | .OH => 4.8885596e2 * (T * (4.12530561 + T * (-1.6127247e-3 + T * (2.1758823e-6 + T *
      (-1.44963411e-9 + T * 4.12474758e-13)))) + 3.34630913e3)
  | .H2 => 4.12423719e3 * (T * (3.298124 + T * (4.124721e-4 + T * (-2.71433833e-7 + T *
      (-2.3688585e-11 + T * 8.269744e-14)))) - 1.012521e3)
  | .H2O => 4.61504339e2 * (T * (3.386842 + T * (1.737491e-3 + T * (-2.118232e-6 + T *
      (1.74214525e-9 + T * -5.013176e-13)))) - 3.020811e4)
  | .HE => 2.07861554e3 * (T * (2.5 + T * (0 + T * (0 + T * (0 + T * 0)))) - 7.45375e2)
  | .HO2 => 2.51892334e2 * (T * (4.30179801 + T * (-2.37456025e-3 + T * (7.05276303e-6 + T *
      (-6.06909735e-9 + T * 1.85845025e-12)))) + 2.9480804e2)
  | .H2O2 => 2.4442798e2 * (T * (3.388754 + T * (3.284613e-3 + T * (-4.95004333e-8 + T *
      (-1.1564515e-9 + T * 4.94303e-13)))) - 1.766315e4)

/-- Heat capacities up to 1000 K, scalar version, `/repo/src/equations/ideal_gas_mix/mechanism/Burke2012.cpp:663-783`. -/
def burkeCpLow (T : K) : BSp → K
  | .N2 => 2.96733125e2 * (3.298677 + T * (1.40824e-3 + T * (-3.963222e-6 + T * (5.641515e-9 + T *
      -2.444855e-12))))
  | .AR => 2.08132126e2 * (2.5 + T * (0 + T * (0 + T * (0 + T * 0))))
  | .H => 8.24847438e3 * (2.5 + T * (0 + T * (0 + T * (0 + T * 0))))
  | .O2 => 2.59826943e2 * (3.212936 + T * (1.127486e-3 + T * (-5.75615e-7 + T * (1.313877e-9 + T *
      -8.768554e-13))))
  | .O => 5.19653886e2 * (2.946429 + T * (-1.638166e-3 + T * (2.421032e-6 + T * (-1.602843e-9 + T
      * 3.890696e-13))))
  | .OH => 4.8885596e2 * (4.12530561 + T * (-3.22544939e-3 + T * (6.52764691e-6 + T *
      (-5.79853643e-9 + T * 2.06237379e-12))))
  | .H2 => 4.12423719e3 * (3.298124 + T * (8.249442e-4 + T * (-8.143015e-7 + T * (-9.475434e-11 +
      T * 4.134872e-13))))
  | .H2O => 4.61504339e2 * (3.386842 + T * (3.474982e-3 + T * (-6.354696e-6 + T * (6.968581e-9 + T
      * -2.506588e-12))))
  | .HE => 2.07861554e3 * (2.5 + T * (0 + T * (0 + T * (0 + T * 0))))
  | .HO2 => 2.51892334e2 * (4.30179801 + T * (-4.74912051e-3 + T * (2.11582891e-5 + T *
      (-2.42763894e-8 + T * 9.29225124e-12))))
  | .H2O2 => 2.4442798e2 * (3.388754 + T * (6.569226e-3 + T * (-1.485013e-7 + T * (-4.625806e-9 +
      T * 2.471515e-12))))

/-- Enthalpies up to 1000 K, array version, `/repo/src/equations/ideal_gas_mix/mechanism/Burke2012.cpp:238-360`. -/
def burkeHLowArr (T : K) : BSp → K
  | .N2 => 2.96733125e2 * (T * (3.298677 + T * (7.0412e-4 + T * (-1.321074e-6 + T * (1.41037875e-9
      + T * -4.88971e-13)))) - 1.0209e3)
  | .AR => 2.08132126e2 * (T * (2.5 + T * (0 + T * (0 + T * (0 + T * 0)))) - 7.45375e2)
  | .H => 8.24847438e3 * (T * (2.5 + T * (0 + T * (0 + T * (0 + T * 0)))) + 2.547163e4)
  | .O2 => 2.59826943e2 * (T * (3.212936 + T * (5.63743e-4 + T * (-1.91871667e-7 + T *
      (3.2846925e-10 + T * -1.7537108e-13)))) - 1.005249e3)
  | .O => 5.19653886e2 * (T * (2.946429 + T * (-8.19083e-4 + T * (8.07010667e-7 + T *
      (-4.0071075e-10 + T * 7.781392e-14)))) + 2.914764e4)
  | .OH => 4.8885596e2 * (T * (4.12530561 + T * (-1.6127247e-3 + T * (2.1758823e-6 + T *
      (-1.44963411e-9 + T * 4.12474758e-13)))) + 3.34630913e3)
  | .H2 => 4.12423719e3 * (T * (3.298124 + T * (4.124721e-4 + T * (-2.71433833e-7 + T *
      (-2.3688585e-11 + T * 8.269744e-14)))) - 1.012521e3)
  | .H2O => 4.61504339e2 * (T * (3.386842 + T * (1.737491e-3 + T * (-2.118232e-6 + T *
      (1.74214525e-9 + T * -5.013176e-13)))) - 3.020811e4)
  | .HE => 2.07861554e3 * (T * (2.5 + T * (0 + T * (0 + T * (0 + T * 0)))) - 7.45375e2)
  | .HO2 => 2.51892334e2 * (T * (4.30179801 + T * (-2.37456025e-3 + T * (7.05276303e-6 + T *
      (-6.06909735e-9 + T * 1.85845025e-12)))) + 2.9480804e2)
  | .H2O2 => 2.4442798e2 * (T * (3.388754 + T * (3.284613e-3 + T * (-4.95004333e-8 + T *
      (-1.1564515e-9 + T * 4.94303e-13)))) - 1.766315e4)

/-- Heat capacities up to 1000 K, array version, `/repo/src/equations/ideal_gas_mix/mechanism/Burke2012.cpp:238-360`. -/
def burkeCpLowArr (T : K) : BSp → K
  | .N2 => 2.96733125e2 * (3.298677 + T * (1.40824e-3 + T * (-3.963222e-6 + T * (5.641515e-9 + T *
      -2.444855e-12))))
  | .AR => 2.08132126e2 * (2.5 + T * (0 + T * (0 + T * (0 + T * 0))))
  | .H => 8.24847438e3 * (2.5 + T * (0 + T * (0 + T * (0 + T * 0))))
  | .O2 => 2.59826943e2 * (3.212936 + T * (1.127486e-3 + T * (-5.75615e-7 + T * (1.313877e-9 + T *
      -8.768554e-13))))
  | .O => 5.19653886e2 * (2.946429 + T * (-1.638166e-3 + T * (2.421032e-6 + T * (-1.602843e-9 + T
      * 3.890696e-13))))
  | .OH => 4.8885596e2 * (4.12530561 + T * (-3.22544939e-3 + T * (6.52764691e-6 + T *
      (-5.79853643e-9 + T * 2.06237379e-12))))
  | .H2 => 4.12423719e3 * (3.298124 + T * (8.249442e-4 + T * (-8.143015e-7 + T * (-9.475434e-11 +
      T * 4.134872e-13))))
  | .H2O => 4.61504339e2 * (3.386842 + T * (3.474982e-3 + T * (-6.354696e-6 + T * (6.968581e-9 + T
      * -2.506588e-12))))
  | .HE => 2.07861554e3 * (2.5 + T * (0 + T * (0 + T * (0 + T * 0))))
  | .HO2 => 2.51892334e2 * (4.30179801 + T * (-4.74912051e-3 + T * (2.11582891e-5 + T *
      (-2.42763894e-8 + T * 9.29225124e-12))))
  | .H2O2 => 2.4442798e2 * (3.388754 + T * (6.569226e-3 + T * (-1.485013e-7 + T * (-4.625806e-9 +
      T * 2.471515e-12))))

/-- Enthalpies above 1000 K, array version (first argument of `select`),
`/repo/src/equations/ideal_gas_mix/mechanism/Burke2012.cpp:361-528`. -/
def burkeHHighArr (T : K) : BSp → K
  | .N2 => 2.96733125e2 * (T * (2.92664 + T * (7.439885e-4 + T * (-1.89492033e-7 + T *
      (2.52426e-11 + T * -1.3506702e-15)))) - 9.227977e2)
  | .AR => 2.08132126e2 * (T * (2.5 + T * (0 + T * (0 + T * (0 + T * 0)))) - 7.45375e2)
  | .H => 8.24847438e3 * (T * (2.5 + T * (0 + T * (0 + T * (0 + T * 0)))) + 2.547163e4)
  | .O2 => 2.59826943e2 * (T * (3.697578 + T * (3.0675985e-4 + T * (-4.19614e-8 + T *
      (4.4382025e-12 + T * -2.27287e-16)))) - 1.23393e3)
  | .O => 5.19653886e2 * (T * (2.54206 + T * (-1.377531e-5 + T * (-1.03426767e-9 + T *
      (1.13776675e-12 + T * -8.736104e-17)))) + 2.92308e4)
  | .OH => 4.8885596e2 * (T * (2.86472886 + T * (5.2825224e-4 + T * (-8.63609193e-8 + T *
      (7.63046685e-12 + T * -2.66391752e-16)))) + 3.68362875e3)
  | .H2 => 4.12423719e3 * (T * (2.991423 + T * (3.500322e-4 + T * (-1.877943e-8 + T *
      (-2.3078945e-12 + T * 3.165504e-16)))) - 8.35034e2)
  | .H2O => 4.61504339e2 * (T * (2.672146 + T * (1.5281465e-3 + T * (-2.91008667e-7 + T *
      (3.00249e-11 + T * -1.2783236e-15)))) - 2.989921e4)
  | .HE => 2.07861554e3 * (T * (2.5 + T * (0 + T * (0 + T * (0 + T * 0)))) - 7.45375e2)
  | .HO2 => 2.51892334e2 * (T * (4.0172109 + T * (1.11991006e-3 + T * (-2.11219383e-7 + T *
      (2.85615925e-11 + T * -2.1581707e-15)))) + 1.11856713e2)
  | .H2O2 => 2.4442798e2 * (T * (4.573167 + T * (2.168068e-3 + T * (-4.91563e-7 + T * (5.87226e-11
      + T * -2.863308e-15)))) - 1.800696e4)

/-- Heat capacities above 1000 K, array version (first argument of `select`),
`/repo/src/equations/ideal_gas_mix/mechanism/Burke2012.cpp:361-528`. -/
def burkeCpHighArr (T : K) : BSp → K
  | .N2 => 2.96733125e2 * (2.92664 + T * (1.487977e-3 + T * (-5.684761e-7 + T * (1.009704e-10 + T
      * -6.753351e-15))))
  | .AR => 2.08132126e2 * (2.5 + T * (0 + T * (0 + T * (0 + T * 0))))
  | .H => 8.24847438e3 * (2.5 + T * (0 + T * (0 + T * (0 + T * 0))))
  | .O2 => 2.59826943e2 * (3.697578 + T * (6.135197e-4 + T * (-1.258842e-7 + T * (1.775281e-11 + T
      * -1.136435e-15))))
  | .O => 5.19653886e2 * (2.54206 + T * (-2.755062e-5 + T * (-3.102803e-9 + T * (4.551067e-12 + T
      * -4.368052e-16))))
  | .OH => 4.8885596e2 * (2.86472886 + T * (1.05650448e-3 + T * (-2.59082758e-7 + T *
      (3.05218674e-11 + T * -1.33195876e-15))))
  | .H2 => 4.12423719e3 * (2.991423 + T * (7.000644e-4 + T * (-5.633829e-8 + T * (-9.231578e-12 +
      T * 1.582752e-15))))
  | .H2O => 4.61504339e2 * (2.672146 + T * (3.056293e-3 + T * (-8.73026e-7 + T * (1.200996e-10 + T
      * -6.391618e-15))))
  | .HE => 2.07861554e3 * (2.5 + T * (0 + T * (0 + T * (0 + T * 0))))
  | .HO2 => 2.51892334e2 * (4.0172109 + T * (2.23982013e-3 + T * (-6.3365815e-7 + T *
      (1.1424637e-10 + T * -1.07908535e-14))))
  | .H2O2 => 2.4442798e2 * (4.573167 + T * (4.336136e-3 + T * (-1.474689e-6 + T * (2.348904e-10 +
      T * -1.431654e-14))))

variable [LinearOrder K]

/-- `Burke2012::ComputeThermoData` for one temperature, `/repo/src/equations/ideal_gas_mix/mechanism/Burke2012.cpp:537-790`: the pair
`(h, cp)`. Below 299.999999 the function calls itself with 300 and extrapolates linearly. -/
def burkeThermo (T : K) : (BSp → K) × (BSp → K) :=
  if T > 1000 then (burkeHHigh T, burkeCpHigh T)
  else if T ≥ 299.999999 then (burkeHLow T, burkeCpLow T)
  else
    (fun i => (T - 300) * burkeCpLow 300 i + burkeHLow 300 i, burkeCpLow 300)

/-- One lane of the array version of `ComputeThermoData`, `/repo/src/equations/ideal_gas_mix/mechanism/Burke2012.cpp:232-535`. The `if
(greater_1000.any())` around the second table only skips `select`s without effect. -/
def burkeThermoLane (T_old : K) : (BSp → K) × (BSp → K) :=
  let T := max T_old 300
  let h : BSp → K := fun i => if T_old > 1000 then burkeHHighArr T i else burkeHLowArr T i
  let cp : BSp → K := fun i => if T_old > 1000 then burkeCpHighArr T i else burkeCpLowArr T i
  (fun i => if ¬ T_old ≥ 299.999999 then (T_old - 300) * cp i + h i else h i, cp)

end

end Fub
