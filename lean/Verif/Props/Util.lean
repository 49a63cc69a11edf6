import Verif.Model.Util
import Mathlib.Algebra.Order.Group.Unbundled.Abs
import Mathlib.Algebra.Order.Group.Abs
import Mathlib.Algebra.Order.Ring.Int
import Mathlib.Data.Rat.Cast.Order
import Mathlib.Tactic.Ring
import Mathlib.Tactic.Linarith
import Mathlib.Tactic.NormNum
import Mathlib.Tactic.Positivity

/-!
# C27, C49, C50: Newton iteration, clamp, integer power, assertions
-/

namespace Fub

/-! ### C49 -/

/-- **C49 (clamp).** For `lo ≤ hi` the result is in `[lo, hi]`, is `v` itself if `v` is in the interval, and no other point of the
interval is closer to `v`. -/
theorem clamp_spec {T : Type} [AddCommGroup T] [LinearOrder T] [IsOrderedAddMonoid T] (v lo hi : T) (h : lo ≤ hi) :
    ∃ r, clamp v lo hi = some r ∧ lo ≤ r ∧ r ≤ hi ∧ (lo ≤ v → v ≤ hi → r = v) ∧ ∀ y, lo ≤ y → y ≤ hi → |v - r| ≤ |v - y| := by
  unfold clamp
  rw [if_neg (not_lt.2 h)]
  split
  · rename_i h1
    refine ⟨lo, rfl, le_rfl, h, fun h2 => absurd h1 (not_lt.2 h2), fun y hy _ => ?_⟩
    rw [abs_of_nonpos (by simpa using h1.le), abs_of_nonpos (by simpa using h1.le.trans hy)]
    simpa using hy
  · split
    · rename_i h1 h2
      refine ⟨hi, rfl, h, le_rfl, fun _ h3 => absurd h2 (not_lt.2 h3), fun y _ hy => ?_⟩
      rw [abs_of_nonneg (by simpa using h2.le), abs_of_nonneg (by simpa using hy.trans h2.le)]
      exact sub_le_sub_left hy v
    · rename_i h1 h2
      exact ⟨v, rfl, not_lt.1 h1, not_lt.1 h2, fun _ _ => rfl, fun y _ _ => by simp⟩

example : clamp (7 : Int) 2 5 = some 5 := by decide

/-- The assertion in `clamp` fires exactly for an empty interval. -/
theorem clamp_rejects {T : Type} [LinearOrder T] (v lo hi : T) : clamp v lo hi = none ↔ hi < lo := by
  unfold clamp
  split
  · rename_i h; simpa using h
  · rename_i h
    split
    · simpa using h
    · split <;> simpa using h

theorem ipowLoop_eq (b : Int) (e : Nat) (p : Int) : ipowLoop b e p = p * b ^ e := by
  induction e generalizing p with
  | zero => simp [ipowLoop]
  | succ e ih => rw [ipowLoop, ih, pow_succ]; ring

/-- **C49 (ipow).** `ipow(b, e)` is `b` to the `e` for every non-negative exponent; for a negative exponent it is `1`. -/
theorem ipow_spec (b e : Int) : ipow b e = if 0 ≤ e then b ^ e.toNat else 1 := by
  unfold ipow
  rw [ipowLoop_eq, one_mul]
  split
  · rfl
  · rename_i h
    have : e.toNat = 0 := by omega
    simp [this]

example : ipow (-3) 3 = -27 := by decide

/-! ### C50 -/

/-- **C50 (partial).** With plain assertions the macro stops the program exactly when the condition is false, and without assertions never.
Missing: the throwing mode, see `assert_throws_inverted`. -/
theorem assert_plain_partial (x : Bool) : (fubAssert .plain x ≠ .pass ↔ x = false) ∧ fubAssert .off x = .pass := by
  cases x <;> decide

/-- **C50 fails** in throwing mode: the macro throws exactly when the condition is *true* and lets violated conditions pass. -/
theorem assert_throws_inverted (x : Bool) : (fubAssert .throwing x = .throws ↔ x = true) ∧ (fubAssert .throwing x = .pass ↔ x = false) := by
  cases x <;> decide

/-! ### C27 -/

section
variable {K : Type} [Field K] [LinearOrder K]

theorem newtonLoop_converged (f Df : K → K) (tol : K) (k : Nat) (x : K) (h : (newtonLoop f Df tol k x).2 = false) :
    |f (newtonLoop f Df tol k x).1| ≤ tol := by
  induction k generalizing x with
  | zero => simp [newtonLoop] at h
  | succ k ih =>
    rw [newtonLoop] at h ⊢
    split
    · rename_i hx; rw [if_pos hx] at h; exact ih _ h
    · rename_i hx; exact not_lt.1 hx

/-- The iterates: the `k`-th point visited by the iteration. -/
def newtonIterate (f Df : K → K) (x0 : K) : Nat → K
  | 0 => x0
  | k + 1 => newtonStep f Df (newtonIterate f Df x0 k)

theorem newtonLoop_iterate (f Df : K → K) (tol : K) (k : Nat) (x : K) :
    ∃ j ≤ k, (newtonLoop f Df tol k x).1 = newtonIterate f Df x j ∧ ((newtonLoop f Df tol k x).2 = true → j = k) ∧
      ∀ i < j, tol < |f (newtonIterate f Df x i)| := by
  induction k generalizing x with
  | zero => exact ⟨0, le_rfl, rfl, fun _ => rfl, fun i hi => absurd hi (Nat.not_lt_zero _)⟩
  | succ k ih =>
    rw [newtonLoop]
    split
    · rename_i hx
      obtain ⟨j, hj, h1, h2, h3⟩ := ih (newtonStep f Df x)
      have hshift : ∀ i, newtonIterate f Df (newtonStep f Df x) i = newtonIterate f Df x (i + 1) := by
        intro i
        induction i with
        | zero => rfl
        | succ i ih => rw [newtonIterate, ih]; rfl
      refine ⟨j + 1, by omega, by rw [h1, hshift], fun h => by have := h2 h; omega, fun i hi => ?_⟩
      cases i with
      | zero => exact hx
      | succ i => rw [← hshift]; exact h3 i (by omega)
    · exact ⟨0, by omega, rfl, by simp, fun i hi => absurd hi (Nat.not_lt_zero _)⟩

/-- **C27 (partial).** If the iteration limit is not negative and the iteration returns `x`, then `f x ≤ tolerance`, and `|f x| ≤ tolerance`
unless the limit was used up. If it throws, the function value after `max_iterations` steps is above the tolerance.
Missing: the lower bound `-tolerance ≤ f x`, see `newton_negative_residual`; negative limits, see `newton_negative_limit`. -/
theorem newton_converged_partial (f Df : K → K) (x0 tol : K) (maxIter : Int) (hm : 0 ≤ maxIter) :
    (∀ x, newtonIteration f Df x0 tol maxIter = some x → f x ≤ tol ∧
      (|f x| ≤ tol ∨ x = newtonIterate f Df x0 maxIter.toNat) ∧ ∃ j : Nat, (j : Int) ≤ maxIter ∧ x = newtonIterate f Df x0 j) ∧
    (newtonIteration f Df x0 tol maxIter = none → tol < f (newtonIterate f Df x0 maxIter.toNat)) := by
  obtain ⟨j, hj, h1, h2, -⟩ := newtonLoop_iterate f Df tol maxIter.toNat x0
  unfold newtonIteration
  rw [if_neg (not_lt.2 hm)]
  simp only
  constructor
  · intro x hx
    split at hx
    · cases hx
    · rename_i hc
      simp only [Option.some.injEq] at hx
      subst hx
      by_cases hb : (newtonLoop f Df tol maxIter.toNat x0).2 = true
      · refine ⟨not_lt.1 fun hlt => hc ⟨hb, hlt⟩, Or.inr (by rw [h1, h2 hb]), j, by omega, h1⟩
      · have := newtonLoop_converged f Df tol _ x0 (by simpa using hb)
        exact ⟨(le_abs_self _).trans this, Or.inl this, j, by omega, h1⟩
  · intro h
    split at h
    · rename_i hc
      rw [h1, h2 hc.1] at hc
      exact hc.2
    · cases h

/-- **C27** holds for functions that are bounded below by `-tolerance`, in particular for non-negative ones. -/
theorem newton_converged_of_lower [IsStrictOrderedRing K] (f Df : K → K) (x0 tol x : K) (maxIter : Int) (hm : 0 ≤ maxIter)
    (hf : ∀ x, -tol ≤ f x) (h : newtonIteration f Df x0 tol maxIter = some x) : |f x| ≤ tol :=
  abs_le.2 ⟨hf x, ((newton_converged_partial f Df x0 tol maxIter hm).1 x h).1⟩

/-- The hypotheses are met: Newton for `x ↦ x ^ 2` reaches the tolerance. -/
example : newtonIteration (fun x : ℚ => x ^ 2) (fun x => 2 * x) 1 (1 / 10) 5 = some (1 / 4) ∧ ∀ x : ℚ, -(1 / 10) ≤ x ^ 2 :=
  ⟨by decide +kernel, fun x => by nlinarith [sq_nonneg x]⟩

/-- **C27 fails**: for `f x = -1` with derivative `1` and `100` iterations the result is returned although `|f x| = 1`. -/
theorem newton_negative_residual :
    newtonIteration (fun _ : ℚ => -1) (fun _ => 1) 0 (1 / 10) 100 = some 100 ∧ ¬ |(-1 : ℚ)| ≤ 1 / 10 :=
  ⟨by decide +kernel, by norm_num⟩

/-- **C27 fails** for a negative iteration limit: the start value is returned unchecked. -/
theorem newton_negative_limit (f Df : K → K) (x0 tol : K) (maxIter : Int) (hm : maxIter < 0) :
    newtonIteration f Df x0 tol maxIter = some x0 := if_pos hm

/-- Non-negative start values give non-negative iterates (the guard against negative pressures and heights). -/
theorem newton_nonneg [IsStrictOrderedRing K] (f Df : K → K) (x0 tol x : K) (maxIter : Int) (h0 : 0 ≤ x0)
    (h : newtonIteration f Df x0 tol maxIter = some x) : 0 ≤ x := by
  by_cases hm : maxIter < 0
  · rw [newton_negative_limit f Df x0 tol maxIter hm] at h
    simp only [Option.some.injEq] at h; exact h ▸ h0
  · obtain ⟨-, -, j, -, rfl⟩ := (newton_converged_partial f Df x0 tol maxIter (not_lt.1 hm)).1 x h
    clear h
    induction j with
    | zero => exact h0
    | succ j ih =>
      rw [newtonIterate, newtonStep]
      split
      · positivity
      · simp only
        split
        · positivity
        · rename_i h2; exact not_lt.1 h2

/-- A zero of `f` reached with a non-zero derivative is a fixed point: a converged iteration stays where it is. -/
theorem newton_fixed [IsStrictOrderedRing K] (f Df : K → K) (x tol : K) (maxIter : Int) (htol : 0 ≤ tol) (h : f x = 0) :
    newtonIteration f Df x tol maxIter = some x := by
  unfold newtonIteration
  split
  · rfl
  · have : newtonLoop f Df tol maxIter.toNat x = (x, decide (maxIter.toNat = 0)) := by
      cases hk : maxIter.toNat with
      | zero => rfl
      | succ k => rw [newtonLoop, if_neg (by rw [h, abs_zero]; exact not_lt.2 htol)]; simp
    simp only [this]
    rw [if_neg]
    rintro ⟨-, h2⟩
    rw [h] at h2
    exact absurd h2 (not_lt.2 htol)

end

end Fub
