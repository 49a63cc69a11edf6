import Verif.Spec.Chemistry
import Mathlib.Tactic.FieldSimp
import Mathlib.Tactic.Ring
import Mathlib.Tactic.Linarith
import Mathlib.Tactic.NormNum
import Mathlib.Tactic.Positivity
import Mathlib.Algebra.Order.Field.Basic

/-!
# Gain and loss form of the production rates of `Burke2012`
-/

namespace Fub

section
variable {K : Type*} [Field K]

/-- A sum over all species, written out. -/
theorem sum_species (f : BSp → K) : ∑ i, f i = f .N2 + f .AR + f .H + f .O2 + f .O + f .OH +
    f .H2 + f .H2O + f .HE + f .HO2 + f .H2O2 := by
  have h : (Finset.univ : Finset BSp) =
    {.N2, .AR, .H, .O2, .O, .OH, .H2, .H2O, .HE, .HO2, .H2O2} := rfl
  rw [h]
  repeat rw [Finset.sum_insert (by decide)]
  rw [Finset.sum_singleton]
  ring

/-- Gain of species `i` from the reactions which produce it. -/
def burkeGain (k : BRx → K) (M : BTb → K) (c : BSp → K) : BSp → K
  | .N2 =>
      0
  | .AR =>
      0
  | .H =>
      2 * k .r7f * c .H2 * c .AR + k .r1b * c .OH * c .O + k .r2f * c .O * c .H2 + k .r3f *
        c .O * c .H2 + k .r4f * c .H2 * c .OH + 2 * k .r6f * c .H2 * M .M1 + 2 * k .r8f *
        c .H2 * c .HE + k .r12b * c .OH * M .M3 + k .r13f * c .H2O * M .M4 + k .r14f *
        c .H2O * c .H2O + k .r15b * c .HO2 + k .r16b * c .O2 * c .H2 + k .r17b * c .OH *
        c .OH + k .r23b * c .OH * c .H2O + k .r24b * c .H2 * c .HO2
  | .O2 =>
      k .r10f * c .O * c .O * c .AR + k .r1b * c .OH * c .O + k .r15b * c .HO2 + k .r16f *
        c .HO2 * c .H + k .r9f * c .O * c .O * M .M2 + k .r11f * c .O * c .O * c .HE +
        k .r18f * c .HO2 * c .O + k .r19f * c .HO2 * c .OH + k .r20f * c .HO2 * c .HO2 +
        k .r21f * c .HO2 * c .HO2
  | .O =>
      2 * k .r10b * c .AR * c .O2 + k .r1f * c .H * c .O2 + k .r2b * c .OH * c .H + k .r3b *
        c .OH * c .H + k .r12b * c .OH * M .M3 + 2 * k .r9b * c .O2 * M .M2 + 2 * k .r11b *
        c .HE * c .O2 + k .r18b * c .OH * c .O2 + k .r5f * c .OH * c .OH + k .r25b * c .HO2
        * c .OH
  | .OH =>
      k .r1f * c .H * c .O2 + k .r2f * c .O * c .H2 + k .r3f * c .O * c .H2 + k .r4b * c .H
        * c .H2O + k .r12f * c .O * c .H * M .M3 + k .r13f * c .H2O * M .M4 + k .r14f *
        c .H2O * c .H2O + 2 * k .r17f * c .HO2 * c .H + k .r23f * c .H2O2 * c .H + k .r18f *
        c .HO2 * c .O + k .r19b * c .O2 * c .H2O + 2 * k .r5b * c .H2O * c .O + k .r25f *
        c .H2O2 * c .O + 2 * k .r22f * c .H2O2 + k .r26b * c .H2O * c .HO2 + k .r27b *
        c .H2O * c .HO2
  | .H2 =>
      k .r7b * c .AR * c .H * c .H + k .r2b * c .OH * c .H + k .r3b * c .OH * c .H + k .r4b
        * c .H * c .H2O + k .r6b * c .H * c .H * M .M1 + k .r8b * c .HE * c .H * c .H +
        k .r16f * c .HO2 * c .H + k .r24f * c .H2O2 * c .H
  | .H2O =>
      k .r4f * c .H2 * c .OH + k .r13b * c .OH * c .H * M .M4 + k .r14b * c .H2O * c .OH *
        c .H + k .r23f * c .H2O2 * c .H + k .r19f * c .HO2 * c .OH + k .r5f * c .OH * c .OH
        + k .r26f * c .H2O2 * c .OH + k .r27f * c .H2O2 * c .OH
  | .HE =>
      0
  | .HO2 =>
      k .r15f * c .H * c .O2 + k .r16b * c .O2 * c .H2 + k .r17b * c .OH * c .OH + k .r24f *
        c .H2O2 * c .H + k .r18b * c .OH * c .O2 + k .r19b * c .O2 * c .H2O + 2 * k .r20b *
        c .O2 * c .H2O2 + 2 * k .r21b * c .O2 * c .H2O2 + k .r25f * c .H2O2 * c .O + k .r26f
        * c .H2O2 * c .OH + k .r27f * c .H2O2 * c .OH
  | .H2O2 =>
      k .r23b * c .OH * c .H2O + k .r24b * c .H2 * c .HO2 + k .r20f * c .HO2 * c .HO2 +
        k .r21f * c .HO2 * c .HO2 + k .r25b * c .HO2 * c .OH + k .r22b * c .OH * c .OH +
        k .r26b * c .H2O * c .HO2 + k .r27b * c .H2O * c .HO2

/-- Loss coefficient of species `i`: the reactions which consume it, divided by its
concentration. -/
def burkeLoss (k : BRx → K) (M : BTb → K) (c : BSp → K) : BSp → K
  | .N2 =>
      0
  | .AR =>
      0
  | .H =>
      2 * k .r7b * c .AR * c .H + k .r1f * c .O2 + k .r2b * c .OH + k .r3b * c .OH + k .r4b
        * c .H2O + 2 * k .r6b * c .H * M .M1 + 2 * k .r8b * c .HE * c .H + k .r12f * c .O *
        M .M3 + k .r13b * c .OH * M .M4 + k .r14b * c .H2O * c .OH + k .r15f * c .O2 +
        k .r16f * c .HO2 + k .r17f * c .HO2 + k .r23f * c .H2O2 + k .r24f * c .H2O2
  | .O2 =>
      k .r10b * c .AR + k .r1f * c .H + k .r15f * c .H + k .r16b * c .H2 + k .r9b * M .M2 +
        k .r11b * c .HE + k .r18b * c .OH + k .r19b * c .H2O + k .r20b * c .H2O2 + k .r21b *
        c .H2O2
  | .O =>
      2 * k .r10f * c .O * c .AR + k .r1b * c .OH + k .r2f * c .H2 + k .r3f * c .H2 +
        k .r12f * c .H * M .M3 + 2 * k .r9f * c .O * M .M2 + 2 * k .r11f * c .O * c .HE +
        k .r18f * c .HO2 + k .r5b * c .H2O + k .r25f * c .H2O2
  | .OH =>
      k .r1b * c .O + k .r2b * c .H + k .r3b * c .H + k .r4f * c .H2 + k .r12b * M .M3 +
        k .r13b * c .H * M .M4 + k .r14b * c .H2O * c .H + 2 * k .r17b * c .OH + k .r23b *
        c .H2O + k .r18b * c .O2 + k .r19f * c .HO2 + 2 * k .r5f * c .OH + k .r25b * c .HO2
        + 2 * k .r22b * c .OH + k .r26f * c .H2O2 + k .r27f * c .H2O2
  | .H2 =>
      k .r7f * c .AR + k .r2f * c .O + k .r3f * c .O + k .r4f * c .OH + k .r6f * M .M1 +
        k .r8f * c .HE + k .r16b * c .O2 + k .r24b * c .HO2
  | .H2O =>
      k .r4b * c .H + k .r13f * M .M4 + k .r14f * c .H2O + k .r23b * c .OH + k .r19b * c .O2
        + k .r5b * c .O + k .r26b * c .HO2 + k .r27b * c .HO2
  | .HE =>
      0
  | .HO2 =>
      k .r15b + k .r16f * c .H + k .r17f * c .H + k .r24b * c .H2 + k .r18f * c .O + k .r19f
        * c .OH + 2 * k .r20f * c .HO2 + 2 * k .r21f * c .HO2 + k .r25b * c .OH + k .r26b *
        c .H2O + k .r27b * c .H2O
  | .H2O2 =>
      k .r23f * c .H + k .r24f * c .H + k .r20b * c .O2 + k .r21b * c .O2 + k .r25f * c .O +
        k .r22f + k .r26f * c .OH + k .r27f * c .OH

/-- The production rate is gain minus concentration times loss coefficient. -/
theorem burkeCdot_gain_loss (k : BRx → K) (M : BTb → K) (c : BSp → K) (i : BSp) :
    burkeCdot (burkeRates k M c) i = burkeGain k M c i - c i * burkeLoss k M c i := by
  cases i <;> simp only [burkeCdot, burkeRates, burkeGain, burkeLoss] <;> ring

end

section
variable {K : Type*} [Field K] [LinearOrder K] [IsStrictOrderedRing K]

theorem burkeGain_nonneg (k : BRx → K) (M : BTb → K) (c : BSp → K) (hk : ∀ r, 0 ≤ k r)
    (hM : ∀ m, 0 ≤ M m) (hc : ∀ i, 0 ≤ c i) (i : BSp) : 0 ≤ burkeGain k M c i := by
  cases i <;> simp only [burkeGain] <;>
    (repeat' apply add_nonneg) <;> (repeat' apply mul_nonneg) <;>
    first | exact hk _ | exact hM _ | exact hc _ | exact le_refl _ | norm_num

theorem burkeLoss_nonneg (k : BRx → K) (M : BTb → K) (c : BSp → K) (hk : ∀ r, 0 ≤ k r)
    (hM : ∀ m, 0 ≤ M m) (hc : ∀ i, 0 ≤ c i) (i : BSp) : 0 ≤ burkeLoss k M c i := by
  cases i <;> simp only [burkeLoss] <;>
    (repeat' apply add_nonneg) <;> (repeat' apply mul_nonneg) <;>
    first | exact hk _ | exact hM _ | exact hc _ | exact le_refl _ | norm_num

theorem burkeThirdBody_nonneg (c : BSp → K) (hc : ∀ i, 0 ≤ c i) (m : BTb) :
    0 ≤ burkeThirdBody c m := by
  cases m <;> simp only [burkeThirdBody] <;>
    (repeat' apply add_nonneg) <;> (repeat' apply mul_nonneg) <;>
    first | exact hc _ | norm_num

end

end Fub
