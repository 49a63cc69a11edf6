import Verif.Props.Util
import Mathlib.Data.Real.Archimedean
import Mathlib.Algebra.Order.Archimedean.Basic
import Mathlib.Tactic.Linarith
import Mathlib.Tactic.FieldSimp
import Mathlib.Tactic.Positivity

/-! Convergence of the guarded Newton iteration for increasing functions that lie below their tangents. -/

namespace Fub

variable {F D : ℝ → ℝ}

theorem newtonIterate_shift (F D : ℝ → ℝ) (x : ℝ) (k j : ℕ) : newtonIterate F D (newtonIterate F D x k) j = newtonIterate F D x (k + j) := by
  induction j with
  | zero => rfl
  | succ j ih => rw [newtonIterate, ih]; rfl

/-- First phase: the iteration gets below the zero, or hits zero exactly. -/
theorem newton_phase1 (hD : ∀ x, 0 < x → 0 < D x) (ht : ∀ x y, 0 < x → 0 < y → F y ≤ F x + D x * (y - x)) {r : ℝ} (hr : 0 < r) (hF : F r = 0)
    {x0 : ℝ} (h0 : 0 < x0) : ∃ k, newtonIterate F D x0 k = 0 ∨ (0 < newtonIterate F D x0 k ∧ F (newtonIterate F D x0 k) ≤ 0) := by
  have step : ∀ n, (∃ k ≤ n, newtonIterate F D x0 k = 0 ∨ (0 < newtonIterate F D x0 k ∧ F (newtonIterate F D x0 k) ≤ 0)) ∨
      newtonIterate F D x0 n = x0 * (1 / 2) ^ n := by
    intro n
    induction n with
    | zero => right; simp [newtonIterate]
    | succ n ih =>
      rcases ih with ⟨k, hk, h⟩ | h
      · exact Or.inl ⟨k, by omega, h⟩
      · have hx : 0 < newtonIterate F D x0 n := by rw [h]; positivity
        have hd := hD _ hx
        by_cases hf : F (newtonIterate F D x0 n) ≤ 0
        · exact Or.inl ⟨n, by omega, Or.inr ⟨hx, hf⟩⟩
        have e : newtonIterate F D x0 (n + 1) = if newtonIterate F D x0 n - F (newtonIterate F D x0 n) / D (newtonIterate F D x0 n) < 0 then
            1 / 2 * newtonIterate F D x0 n else newtonIterate F D x0 n - F (newtonIterate F D x0 n) / D (newtonIterate F D x0 n) := by
          rw [newtonIterate, newtonStep, if_neg hd.ne']
        by_cases hn : newtonIterate F D x0 n - F (newtonIterate F D x0 n) / D (newtonIterate F D x0 n) < 0
        · right; rw [e, if_pos hn, h]; ring
        · rw [if_neg hn] at e
          left
          refine ⟨n + 1, le_rfl, ?_⟩
          rcases (not_lt.1 hn).eq_or_lt with hz | hz
          · left; rw [e]; exact hz.symm
          · right
            refine ⟨by rw [e]; exact hz, ?_⟩
            have := ht _ _ hx hz
            rw [e]
            have h2 : D (newtonIterate F D x0 n) * (newtonIterate F D x0 n - F (newtonIterate F D x0 n) / D (newtonIterate F D x0 n) - newtonIterate F D x0 n) =
                -F (newtonIterate F D x0 n) := by field_simp; ring
            rw [h2] at this
            linarith
  obtain ⟨n, hn⟩ := exists_pow_lt_of_lt_one (div_pos hr h0) (show (1 / 2 : ℝ) < 1 by norm_num)
  rcases step n with ⟨k, -, h⟩ | h
  · exact ⟨k, h⟩
  · refine ⟨n, Or.inr ⟨by rw [h]; positivity, ?_⟩⟩
    have hlt : newtonIterate F D x0 n < r := by
      rw [h, mul_comm]; exact (lt_div_iff₀ h0).1 hn
    have := ht r (newtonIterate F D x0 n) hr (by rw [h]; positivity)
    rw [hF] at this
    have := mul_pos (hD r hr) (sub_pos.2 hlt)
    linarith

/-- Second phase: from a point below the zero the iteration increases and reaches the tolerance after finitely many steps. -/
theorem newton_phase2 (hD : ∀ x, 0 < x → 0 < D x) (ht : ∀ x y, 0 < x → 0 < y → F y ≤ F x + D x * (y - x))
    (ha : ∀ x y, 0 < x → x ≤ y → D y ≤ D x) {r : ℝ} (hr : 0 < r) (hF : F r = 0) {x0 tol : ℝ} (htol : 0 < tol) (h0 : 0 < x0) (hx0 : F x0 ≤ 0) :
    ∃ k, |F (newtonIterate F D x0 k)| ≤ tol := by
  have hM := hD x0 h0
  have step : ∀ n : ℕ, (∃ k ≤ n, |F (newtonIterate F D x0 k)| ≤ tol) ∨
      (F (newtonIterate F D x0 n) ≤ 0 ∧ newtonIterate F D x0 n ≤ r ∧ x0 + n * (tol / D x0) ≤ newtonIterate F D x0 n) := by
    intro n
    induction n with
    | zero =>
      right
      refine ⟨hx0, ?_, by simp [newtonIterate]⟩
      by_contra h
      have h : r < x0 := not_le.1 h
      have := ht x0 r h0 hr
      rw [hF] at this
      have := mul_pos hM (sub_pos.2 h)
      show False
      nlinarith
    | succ n ih =>
      rcases ih with ⟨k, hk, h⟩ | ⟨h1, h2, h3⟩
      · exact Or.inl ⟨k, by omega, h⟩
      generalize hx : newtonIterate F D x0 n = x at h1 h2 h3
      by_cases hc : |F x| ≤ tol
      · exact Or.inl ⟨n, by omega, by rw [hx]; exact hc⟩
      rw [abs_of_nonpos h1, not_le] at hc
      have hxx : x0 ≤ x := by
        have : 0 ≤ n * (tol / D x0) := by positivity
        linarith
      have hx0' : 0 < x := by linarith
      have hd := hD x hx0'
      have hpos : 0 ≤ -F x / D x := div_nonneg (by linarith) hd.le
      have hnn : ¬ x - F x / D x < 0 := by rw [not_lt]; rw [neg_div] at hpos; linarith
      have e : newtonIterate F D x0 (n + 1) = x - F x / D x := by
        rw [newtonIterate, hx, newtonStep, if_neg hd.ne']; simp only [if_neg hnn]
      right
      rw [e]
      have hy : 0 < x - F x / D x := by rw [neg_div] at hpos; linarith
      refine ⟨?_, ?_, ?_⟩
      · have := ht x _ hx0' hy
        have h4 : D x * (x - F x / D x - x) = -F x := by field_simp; ring
        rw [h4] at this; linarith
      · have := ht x r hx0' hr
        rw [hF] at this
        have : -F x / D x ≤ r - x := by rw [div_le_iff₀ hd]; linarith
        rw [neg_div] at this; linarith
      · have h5 : tol / D x0 ≤ -F x / D x := by
          rw [div_le_div_iff₀ hM hd]
          have := ha x0 x h0 hxx
          calc tol * D x ≤ tol * D x0 := mul_le_mul_of_nonneg_left this htol.le
            _ ≤ -F x * D x0 := mul_le_mul_of_nonneg_right hc.le hM.le
        rw [neg_div] at h5
        push_cast
        linarith
  obtain ⟨n, hn⟩ := exists_nat_gt ((r - x0) / (tol / D x0))
  rcases step n with ⟨k, -, h⟩ | ⟨-, h2, h3⟩
  · exact ⟨k, h⟩
  · have := (div_lt_iff₀ (by positivity)).1 hn
    exact absurd h2 (by rw [not_le]; linarith)

/-- With enough iterations the guarded Newton iteration returns a point that meets the tolerance, or it gets stuck in zero. -/
theorem newton_concave (hD : ∀ x, 0 < x → 0 < D x) (hD0 : D 0 = 0) (ht : ∀ x y, 0 < x → 0 < y → F y ≤ F x + D x * (y - x))
    (ha : ∀ x y, 0 < x → x ≤ y → D y ≤ D x) {r : ℝ} (hr : 0 < r) (hF : F r = 0) (hF0 : F 0 ≤ 0) {x0 tol : ℝ} (htol : 0 < tol) (h0 : 0 < x0) :
    ∃ N : ℤ, ∀ limit, N ≤ limit → ∃ x, newtonIteration F D x0 tol limit = some x ∧ 0 ≤ x ∧ (|F x| ≤ tol ∨ x = 0) := by
  have key : ∃ k, |F (newtonIterate F D x0 k)| ≤ tol ∨ newtonIterate F D x0 k = 0 := by
    obtain ⟨k, hk | ⟨hk, hf⟩⟩ := newton_phase1 hD ht hr hF h0
    · exact ⟨k, Or.inr hk⟩
    · obtain ⟨j, hj⟩ := newton_phase2 hD ht ha hr hF htol hk hf
      exact ⟨k + j, Or.inl (by rw [← newtonIterate_shift]; exact hj)⟩
  obtain ⟨k, hk⟩ := key
  have hzero : ∀ j, newtonIterate F D x0 k = 0 → newtonIterate F D x0 (k + j) = 0 := by
    intro j h
    induction j with
    | zero => exact h
    | succ j ih => rw [← Nat.add_assoc, newtonIterate, ih, newtonStep, if_pos hD0, mul_zero]
  refine ⟨k + 1, fun limit hl => ?_⟩
  have hnn : ¬ limit < 0 := by omega
  obtain ⟨j, hj, h1, h2, h3⟩ := newtonLoop_iterate F D tol limit.toNat x0
  have hres : |F (newtonLoop F D tol limit.toNat x0).1| ≤ tol ∨ (newtonLoop F D tol limit.toNat x0).1 = 0 := by
    cases hb : (newtonLoop F D tol limit.toNat x0).2 with
    | false => exact Or.inl (newtonLoop_converged F D tol _ x0 hb)
    | true =>
      have hjk := h2 hb
      rcases hk with hk | hk
      · exact absurd (h3 k (by omega)) (not_lt.2 hk)
      · right
        rw [h1]
        have := hzero (j - k) hk
        rwa [show k + (j - k) = j by omega] at this
  have hle : ¬ ((newtonLoop F D tol limit.toNat x0).2 = true ∧ tol < F (newtonLoop F D tol limit.toNat x0).1) := by
    rintro ⟨-, h⟩
    rcases hres with h' | h'
    · exact absurd ((le_abs_self _).trans h') (not_le.2 h)
    · rw [h'] at h; linarith
  refine ⟨(newtonLoop F D tol limit.toNat x0).1, ?_, ?_, hres⟩
  · unfold newtonIteration
    rw [if_neg hnn]; simp only [if_neg hle]
  · refine newton_nonneg F D x0 tol _ limit h0.le ?_
    unfold newtonIteration
    rw [if_neg hnn]; simp only [if_neg hle]

end Fub
