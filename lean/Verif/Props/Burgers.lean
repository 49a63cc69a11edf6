import Verif.Model.Burgers
import Verif.Spec.Burgers
import Verif.Props.Flux
import Mathlib.Algebra.Order.BigOperators.Group.Finset
import Mathlib.Algebra.BigOperators.Intervals
import Mathlib.Algebra.BigOperators.Ring.Finset
import Mathlib.Algebra.Order.Ring.Abs
import Mathlib.Tactic.LinearCombination

/-! C31, C32: Burgers and advection. -/

namespace Fub
variable {K : Type} [Field K] [LinearOrder K] [IsStrictOrderedRing K]

/-! ### C31 -/

theorem burgersSolve_between (l r : K) : min l r ≤ burgersSolve l r ∧ burgersSolve l r ≤ max l r := by
  simp only [burgersSolve]
  split_ifs with h1 h2 h3 h4
  · exact ⟨min_le_right _ _, le_max_right _ _⟩
  · exact ⟨min_le_left _ _, le_max_left _ _⟩
  · exact ⟨min_le_left _ _, le_max_left _ _⟩
  · exact ⟨min_le_right _ _, le_max_right _ _⟩
  · exact ⟨(min_le_left _ _).trans (not_lt.1 h3), (not_lt.1 h4).trans (le_max_right _ _)⟩

/-- **C31.** For all states, the vectorised Riemann solver and signals of the Burgers equation equal the scalar ones; the solution lies
between the two states; the flux of the solution is the Godunov flux, that is the minimum of `u²/2` over `[l, r]` if `l ≤ r` and
the maximum over `[r, l]` if `r ≤ l`. -/
theorem burgers_riemann (l r : K) :
    burgersSolveArray l r = burgersSolve l r ∧ burgersSignalsArray l r = burgersSignals l r ∧
    (min l r ≤ burgersSolve l r ∧ burgersSolve l r ≤ max l r) ∧
    IsGodunovFlux (fun u : K => u * u / 2) l r (godunovFlux burgersEqn burgersSolve l r ()) := by
  have hb := burgersSolve_between l r
  refine ⟨?_, ?_, hb, ?_⟩
  · simp only [burgersSolveArray, burgersSolve]
    split_ifs <;> first | rfl | (exfalso; linarith)
  · simp only [burgersSignalsArray, burgersSignals]
    split_ifs <;> rfl
  · have hf : godunovFlux burgersEqn burgersSolve l r () = burgersSolve l r * burgersSolve l r / 2 := by
      simp only [godunovFlux, burgersEqn, burgersFlux]; ring
    rw [hf]
    refine ⟨fun h => ⟨⟨burgersSolve l r, ⟨by simpa [h] using hb.1, by simpa [h] using hb.2⟩, rfl⟩, ?_⟩,
      fun h => ⟨⟨burgersSolve l r, ⟨by simpa [h] using hb.1, by simpa [h] using hb.2⟩, rfl⟩, ?_⟩⟩
    · rintro _ ⟨v, ⟨hv1, hv2⟩, rfl⟩
      simp only [burgersSolve, not_lt.2 h, if_false]
      split_ifs with h3 h4
      · nlinarith
      · nlinarith
      · nlinarith [mul_self_nonneg v]
    · rintro _ ⟨v, ⟨hv1, hv2⟩, rfl⟩
      rcases h.lt_or_eq with h | h
      · simp only [burgersSolve, h, if_true]
        split_ifs with h3
        · nlinarith
        · nlinarith
      · subst h
        have : v = r := le_antisymm hv2 hv1
        subst this
        simp only [burgersSolve, lt_irrefl, if_false]
        split_ifs with h3 h4
        · exact le_rfl
        · exact le_rfl
        · have : v = 0 := le_antisymm (not_lt.1 h3) (not_lt.1 h4)
          simp [this]

/-- The Riemann solvers of both scalar equations return the common state of equal states, so Godunov's method is consistent for them (C29). -/
theorem scalar_solvers_consistent (u v : K) : burgersSolve u u = u ∧ advectionSolve v u u = u := by
  have := burgersSolve_between u u
  simp only [min_self, max_self] at this
  exact ⟨le_antisymm this.2 this.1, by simp [advectionSolve]⟩

/-- Transonic rarefaction, shocks in both directions: the solver returns 0, the left and the right state. -/
example : burgersSolve (-1 : ℚ) 2 = 0 ∧ burgersSolve (2 : ℚ) (-1) = 2 ∧ burgersSolve (1 : ℚ) (-2) = -2 := by
  refine ⟨?_, ?_, ?_⟩ <;> decide +kernel

/-! ### C32 -/

/-- What "the step is at most the stable one" means for the fraction `dt/dx`. -/
theorem dt_le_signalDt {s dt dx : K} (hdx : 0 < dx) (h : (dt : WithTop K) ≤ signalDt [s] dx) : dt / dx * |s| ≤ 1 := by
  have hm : maxSignal [s] = |s| := by simp [maxSignal]
  simp only [signalDt, hm] at h
  split_ifs at h with h0
  · rw [h0, mul_zero]; exact zero_le_one
  · have h1 : dt ≤ dx / |s| := WithTop.coe_le_coe.1 h
    have hs : 0 < |s| := lt_of_le_of_ne (abs_nonneg s) (Ne.symm h0)
    rw [le_div_iff₀ hs] at h1
    rw [div_mul_eq_mul_div, div_le_one hdx]; exact h1

theorem burgers_face (l r lam : K) (hl : 0 ≤ lam) (h : ∀ s ∈ burgersSignals l r, lam * |s| ≤ 1) :
    ∃ C D : K, 0 ≤ C ∧ 0 ≤ D ∧ C + D ≤ 1 ∧
      lam * (burgersFlux r - burgersFlux (burgersSolve l r)) = C * (r - l) ∧
      lam * (burgersFlux (burgersSolve l r) - burgersFlux l) = -(D * (r - l)) ∧
      C ≤ lam * max 0 (max l 0 + r) / 2 ∧ D ≤ lam * max 0 (max (-r) 0 - l) / 2 := by
  have n1 : (0 : K) ≤ max 0 (max l 0 + r) := le_max_left _ _
  have n2 : (0 : K) ≤ max 0 (max (-r) 0 - l) := le_max_left _ _
  have m1 : max l 0 + r ≤ max 0 (max l 0 + r) := le_max_right _ _
  have m2 : max (-r) 0 - l ≤ max 0 (max (-r) 0 - l) := le_max_right _ _
  have k1 := le_max_left l 0
  have k2 := le_max_left (-r) 0
  have k3 := le_max_right l 0
  have k4 := le_max_right (-r) 0
  generalize max 0 (max l 0 + r) = M1 at *
  generalize max 0 (max (-r) 0 - l) = M2 at *
  have hn1 : 0 ≤ lam * M1 := mul_nonneg hl n1
  have hn2 : 0 ≤ lam * M2 := mul_nonneg hl n2
  simp only [burgersSignals] at h
  simp only [burgersSolve, burgersFlux]
  split_ifs at h ⊢ with h1 h2 h3 h4
  · -- shock moving left
    have hs := h _ (List.mem_singleton.2 rfl)
    rw [abs_of_neg h2] at hs
    refine ⟨0, lam * (-(1 / 2 * (l + r))), le_rfl, mul_nonneg hl (by linarith), by linarith, by ring, by ring, by linarith, ?_⟩
    have := mul_le_mul_of_nonneg_left (show -(l + r) ≤ M2 by linarith) hl
    linarith
  · have hs := h _ (List.mem_singleton.2 rfl)
    rw [abs_of_nonneg (not_lt.1 h2)] at hs
    refine ⟨lam * (1 / 2 * (l + r)), 0, mul_nonneg hl (not_lt.1 h2), le_rfl, by linarith, by ring, by ring, ?_, by linarith⟩
    have := mul_le_mul_of_nonneg_left (show l + r ≤ M1 by linarith) hl
    linarith
  · have hs := h _ (List.mem_singleton.2 rfl)
    rw [abs_of_nonneg (le_max_of_le_left (abs_nonneg l))] at hs
    have hlr := not_lt.1 h1
    have a1 := mul_le_mul_of_nonneg_left ((le_abs_self l).trans (le_max_left _ |r|)) hl
    have a2 := mul_le_mul_of_nonneg_left ((le_abs_self r).trans (le_max_right |l| _)) hl
    refine ⟨lam * (1 / 2 * (l + r)), 0, mul_nonneg hl (by linarith), le_rfl, by linarith, by ring, by ring, ?_, by linarith⟩
    have := mul_le_mul_of_nonneg_left (show l + r ≤ M1 by linarith) hl
    linarith
  · have hs := h _ (List.mem_singleton.2 rfl)
    rw [abs_of_nonneg (le_max_of_le_left (abs_nonneg l))] at hs
    have hlr := not_lt.1 h1
    have a1 := mul_le_mul_of_nonneg_left ((neg_le_abs l).trans (le_max_left _ |r|)) hl
    have a2 := mul_le_mul_of_nonneg_left ((neg_le_abs r).trans (le_max_right |l| _)) hl
    refine ⟨0, lam * (-(1 / 2 * (l + r))), le_rfl, mul_nonneg hl (by linarith), by linarith, by ring, by ring, by linarith, ?_⟩
    have := mul_le_mul_of_nonneg_left (show -(l + r) ≤ M2 by linarith) hl
    linarith
  · have hs := h _ (List.mem_singleton.2 rfl)
    rw [abs_of_nonneg (le_max_of_le_left (abs_nonneg l))] at hs
    have hl0 := not_lt.1 h3
    have hr0 := not_lt.1 h4
    have a1 := mul_le_mul_of_nonneg_left ((neg_le_abs l).trans (le_max_left _ |r|)) hl
    have a2 := mul_le_mul_of_nonneg_left ((le_abs_self r).trans (le_max_right |l| _)) hl
    rcases eq_or_lt_of_le (show (0 : K) ≤ r - l by linarith) with h0 | h0
    · have e1 : r = 0 := by linarith
      have e2 : l = 0 := by linarith
      refine ⟨0, 0, le_rfl, le_rfl, by linarith, by rw [e1, e2]; ring, by rw [e1, e2]; ring, by linarith, by linarith⟩
    · refine ⟨lam * (r * r) / 2 / (r - l), lam * (l * l) / 2 / (r - l), by positivity,
        div_nonneg (div_nonneg (mul_nonneg hl (mul_self_nonneg _)) (by norm_num)) h0.le, ?_, ?_, ?_, ?_, ?_⟩
      · rw [← add_div, div_le_one h0]
        nlinarith [mul_le_mul_of_nonneg_right (a2.trans hs) hr0, mul_le_mul_of_nonneg_right (a1.trans hs) (neg_nonneg.2 hl0)]
      · rw [div_mul_cancel₀ _ h0.ne']; ring
      · rw [div_mul_cancel₀ _ h0.ne']; ring
      · rw [div_le_iff₀ h0]
        have := mul_le_mul_of_nonneg_left (show r ≤ M1 by linarith) hl
        nlinarith [mul_nonneg hl hr0, mul_nonneg hn1 (neg_nonneg.2 hl0), mul_le_mul_of_nonneg_right this hr0]
      · rw [div_le_iff₀ h0]
        have := mul_le_mul_of_nonneg_left (show -l ≤ M2 by linarith) hl
        nlinarith [mul_nonneg hl (neg_nonneg.2 hl0), mul_nonneg hn2 hr0, mul_le_mul_of_nonneg_right this (neg_nonneg.2 hl0)]

theorem advection_face (v l r lam : K) (hl : 0 ≤ lam) (h : ∀ s ∈ advectionSignals v l r, lam * |s| ≤ 1) :
    ∃ C D : K, 0 ≤ C ∧ 0 ≤ D ∧ C + D ≤ 1 ∧
      lam * (r * v - advectionSolve v l r * v) = C * (r - l) ∧
      lam * (advectionSolve v l r * v - l * v) = -(D * (r - l)) ∧ C = lam * max v 0 ∧ D = lam * max (-v) 0 := by
  have hs := h v (List.mem_singleton.2 rfl)
  simp only [advectionSolve]
  split_ifs with h1
  · rw [abs_of_pos h1] at hs
    refine ⟨lam * v, 0, mul_nonneg hl h1.le, le_rfl, by linarith, by ring, by ring, by rw [max_eq_left h1.le], by rw [max_eq_right (by linarith), mul_zero]⟩
  · rw [abs_of_nonpos (not_lt.1 h1)] at hs
    refine ⟨0, lam * -v, le_rfl, mul_nonneg hl (by linarith), by linarith, by ring, by ring, by rw [max_eq_right (by linarith), mul_zero], by rw [max_eq_left (by linarith)]⟩

theorem sum_shift (N : Nat) (p : Int → K) (hp : Periodic N p) :
    ∑ i ∈ Finset.range N, p ((i : Int) + 1) = ∑ i ∈ Finset.range N, p i := by
  have h1 := Finset.sum_range_succ' (fun i : Nat => p i) N
  have h2 := Finset.sum_range_succ (fun i : Nat => p i) N
  have h3 : p (N : Int) = p 0 := by have := hp 0; rwa [zero_add] at this
  rw [h2] at h1
  simp only [Nat.cast_add, Nat.cast_one, Nat.cast_zero, h3] at h1
  exact (add_right_cancel h1).symm

theorem periodic_shift {N : Nat} {p : Int → K} (hp : Periodic N p) (k : Int) : Periodic N (fun i => p (i + k)) := by
  intro i
  have := hp (i + k)
  simp only [show i + (N : Int) + k = i + k + N by ring]
  exact this

/-- Harten's lemma on a periodic line. -/
theorem harten_tvd (N : Nat) (u u' C D : Int → K) (hu : Periodic N u) (hC : ∀ i, 0 ≤ C i) (hD : ∀ i, 0 ≤ D i)
    (hCD : ∀ i, C i + D i ≤ 1)
    (pC : Periodic N fun i => C i * (u i - u (i - 1))) (pD : Periodic N fun i => D i * (u i - u (i - 1)))
    (hs : ∀ i, u' i = u i - C i * (u i - u (i - 1)) + D (i + 1) * (u (i + 1) - u i)) :
    totalVariation N u' ≤ totalVariation N u := by
  have hd : ∀ i, |u' (i + 1) - u' i| ≤ |u (i + 1) - u i| - |C (i + 1) * (u (i + 1) - u i)| - |D (i + 1) * (u (i + 1) - u i)|
      + |C i * (u i - u (i - 1))| + |D (i + 1 + 1) * (u (i + 1 + 1) - u (i + 1))| := by
    intro i
    have e : u' (i + 1) - u' i = (1 - C (i + 1) - D (i + 1)) * (u (i + 1) - u i) + C i * (u i - u (i - 1)) + D (i + 1 + 1) * (u (i + 1 + 1) - u (i + 1)) := by
      rw [hs, hs, show i + 1 - 1 = i by ring]; ring
    rw [e]
    have hp : 0 ≤ 1 - C (i + 1) - D (i + 1) := by linarith [hCD (i + 1)]
    refine (abs_add_le _ _).trans (add_le_add ((abs_add_le _ _).trans (add_le_add ?_ le_rfl)) le_rfl)
    rw [abs_mul, abs_of_nonneg hp, abs_mul, abs_of_nonneg (hC _), abs_mul, abs_of_nonneg (hD _)]
    linarith
  have pc : Periodic N fun i => |C i * (u i - u (i - 1))| := fun i => by have := pC i; simp only at this ⊢; rw [this]
  have pd : Periodic N fun i => |D i * (u i - u (i - 1))| := fun i => by have := pD i; simp only at this ⊢; rw [this]
  have s1 := sum_shift N _ pc
  have s2 := sum_shift N _ (periodic_shift pd 1)
  simp only [add_sub_cancel_right] at s1 s2
  unfold totalVariation
  refine (Finset.sum_le_sum fun (i : Nat) _ => hd (i : Int)).trans ?_
  simp only [Finset.sum_add_distrib, Finset.sum_sub_distrib, s1, s2]
  linarith

/-- The maximum principle in one cell from incremental coefficients. -/
theorem convex_between {a u b C D : K} (hC : 0 ≤ C) (hD : 0 ≤ D) (h : C + D ≤ 1) :
    min a (min u b) ≤ u - C * (u - a) + D * (b - u) ∧ u - C * (u - a) + D * (b - u) ≤ max a (max u b) := by
  have a1 := min_le_left a (min u b)
  have a2 := (min_le_right a (min u b)).trans (min_le_left u b)
  have a3 := (min_le_right a (min u b)).trans (min_le_right u b)
  have b1 := le_max_left a (max u b)
  have b2 := (le_max_left u b).trans (le_max_right a (max u b))
  have b3 := (le_max_right u b).trans (le_max_right a (max u b))
  have e : u - C * (u - a) + D * (b - u) = (1 - C - D) * u + C * a + D * b := by ring
  generalize min a (min u b) = m at *
  generalize max a (max u b) = M at *
  rw [e]
  have hp : 0 ≤ 1 - C - D := by linarith
  constructor
  · nlinarith [mul_le_mul_of_nonneg_left a1 hC, mul_le_mul_of_nonneg_left a2 hp, mul_le_mul_of_nonneg_left a3 hD]
  · nlinarith [mul_le_mul_of_nonneg_left b1 hC, mul_le_mul_of_nonneg_left b2 hp, mul_le_mul_of_nonneg_left b3 hD]

theorem godunovStep_periodic (E : EqnOps K K Unit) (solve : K → K → K) (dt dx : K) {N : Nat} {u : Int → K} (hu : Periodic N u) :
    Periodic N (godunovStep E solve dt dx u) := by
  intro i
  simp only [godunovStep]
  rw [hu i, show i + (N : Int) - 1 = i - 1 + N by ring, hu (i - 1), show i + (N : Int) + 1 = i + 1 + N by ring, hu (i + 1)]

/-- From a face estimate to the total variation bound, for any scalar equation. -/
theorem tvd_of_face (E : EqnOps K K Unit) (solve : K → K → K) (N : Nat) (u : Int → K) (hu : Periodic N u) (dt dx : K)
    (h : ∀ i : Int, ∃ C D : K, 0 ≤ C ∧ 0 ≤ D ∧ C + D ≤ 1 ∧
      dt / dx * (E.flux (u i) () - E.flux (solve (u (i - 1)) (u i)) ()) = C * (u i - u (i - 1)) ∧
      dt / dx * (E.flux (solve (u (i - 1)) (u i)) () - E.flux (u (i - 1)) ()) = -(D * (u i - u (i - 1)))) :
    totalVariation N (godunovStep E solve dt dx u) ≤ totalVariation N u := by
  choose C D h1 h2 h3 h4 h5 using h
  refine harten_tvd N u _ C D hu h1 h2 h3 (fun i => ?_) (fun i => ?_) (fun i => ?_)
  · simp only
    rw [← h4, ← h4, show i + (N : Int) - 1 = i - 1 + N by ring, hu i, hu (i - 1)]
  · have e : ∀ i, D i * (u i - u (i - 1)) = -(dt / dx * (E.flux (solve (u (i - 1)) (u i)) () - E.flux (u (i - 1)) ())) := fun i => by rw [h5, neg_neg]
    simp only
    rw [e, e, show i + (N : Int) - 1 = i - 1 + N by ring, hu i, hu (i - 1)]
  · have a := h4 i
    have b := h5 (i + 1)
    rw [add_sub_cancel_right] at b
    simp only [godunovStep, godunovFlux]
    linear_combination -a - b

/-- **C32 (Burgers, total variation).** On every periodic line with any number of cells and any data: one Godunov step for the Burgers
equation with a step size that does not exceed the step size the method reports at any face does not increase the total variation. -/
theorem burgers_tvd (N : Nat) (u : Int → K) (hu : Periodic N u) (dt dx : K) (hdx : 0 < dx) (hdt : 0 ≤ dt)
    (h : ∀ i, (dt : WithTop K) ≤ faceDt burgersSignals dx u i) :
    totalVariation N (godunovStep burgersEqn burgersSolve dt dx u) ≤ totalVariation N u := by
  refine tvd_of_face _ _ N u hu dt dx fun i => ?_
  obtain ⟨C, D, h1, h2, h3, h4, h5, -, -⟩ := burgers_face (u (i - 1)) (u i) (dt / dx) (div_nonneg hdt hdx.le) (by
    have hi := h i
    simp only [faceDt, burgersSignals] at hi
    simp only [burgersSignals]
    split_ifs at hi ⊢ <;> (intro s hs; rw [List.mem_singleton.1 hs]; exact dt_le_signalDt hdx hi))
  exact ⟨C, D, h1, h2, h3, h4, h5⟩

/-- The stable step at the face left of a cell bounds the positive part of the cell's value, the one at its right face the negative part. -/
theorem burgers_cell_bound (l u lam : K) (hl : 0 ≤ lam) (h : ∀ s ∈ burgersSignals l u, lam * |s| ≤ 1) : lam * u ≤ 1 ∧ lam * -l ≤ 1 := by
  simp only [burgersSignals] at h
  split_ifs at h with h1
  · have hs := h _ (List.mem_singleton.2 rfl)
    have a1 := mul_le_mul_of_nonneg_left (le_abs_self (1 / 2 * (l + u))) hl
    have a2 := mul_le_mul_of_nonneg_left (neg_le_abs (1 / 2 * (l + u))) hl
    have a3 := mul_le_mul_of_nonneg_left h1.le hl
    constructor <;> linarith
  · have hs := h _ (List.mem_singleton.2 rfl)
    rw [abs_of_nonneg (le_max_of_le_left (abs_nonneg l))] at hs
    have a1 := mul_le_mul_of_nonneg_left ((neg_le_abs l).trans (le_max_left _ |u|)) hl
    have a2 := mul_le_mul_of_nonneg_left ((le_abs_self u).trans (le_max_right |l| _)) hl
    constructor <;> linarith

/-- **C32 (Burgers, maximum principle).** Every new cell value lies between the minimum and maximum of the old values of the cell and its two neighbours, if the
step size does not exceed the reported step sizes at the two faces of the cell and at the next face on either side. -/
theorem burgers_max_principle (u : Int → K) (dt dx : K) (hdx : 0 < dx) (hdt : 0 ≤ dt) (i : Int)
    (h : ∀ j, i - 1 ≤ j → j ≤ i + 2 → (dt : WithTop K) ≤ faceDt burgersSignals dx u j) :
    min (u (i - 1)) (min (u i) (u (i + 1))) ≤ godunovStep burgersEqn burgersSolve dt dx u i ∧
    godunovStep burgersEqn burgersSolve dt dx u i ≤ max (u (i - 1)) (max (u i) (u (i + 1))) := by
  have hl : 0 ≤ dt / dx := div_nonneg hdt hdx.le
  have hsig : ∀ j, i - 1 ≤ j → j ≤ i + 2 → ∀ s ∈ burgersSignals (u (j - 1)) (u j), dt / dx * |s| ≤ 1 := by
    intro j h1 h2
    have hi := h j h1 h2
    simp only [faceDt, burgersSignals] at hi
    simp only [burgersSignals]
    split_ifs at hi ⊢ <;> (intro s hs; rw [List.mem_singleton.1 hs]; exact dt_le_signalDt hdx hi)
  obtain ⟨C, D', c1, -, -, c4, -, c6, -⟩ := burgers_face _ _ (dt / dx) hl (hsig i (by omega) (by omega))
  obtain ⟨C', D, -, d2, -, -, d5, -, d7⟩ := burgers_face _ _ (dt / dx) hl (hsig (i + 1) (by omega) (by omega))
  have b1 := (burgers_cell_bound _ _ _ hl (hsig (i - 1) (by omega) (by omega))).1
  have b2 := burgers_cell_bound _ _ _ hl (hsig i (by omega) (by omega))
  have b3 := burgers_cell_bound _ _ _ hl (hsig (i + 1) (by omega) (by omega))
  have b4 := (burgers_cell_bound _ _ _ hl (hsig (i + 2) (by omega) (by omega))).2
  rw [add_sub_cancel_right] at d5 d7 b3
  rw [show i + 2 - 1 = i + 1 by ring] at b4
  have e : godunovStep burgersEqn burgersSolve dt dx u i = u i - C * (u i - u (i - 1)) + D * (u (i + 1) - u i) := by
    simp only [godunovStep, godunovFlux, burgersEqn]
    linear_combination -c4 - d5
  rw [e]
  refine convex_between c1 d2 ?_
  generalize dt / dx = lam at *
  generalize u (i - 1) = a at *
  generalize u (i + 1) = b at *
  generalize u i = w at *
  have p1 : lam * max a 0 ≤ 1 := by
    rw [mul_max_of_nonneg _ _ hl, mul_zero]; exact max_le b1 zero_le_one
  have p2 : lam * max (-b) 0 ≤ 1 := by
    rw [mul_max_of_nonneg _ _ hl, mul_zero]; exact max_le b4 zero_le_one
  have q1 : lam * max 0 (max a 0 + w) = max 0 (lam * max a 0 + lam * w) := by
    rw [mul_max_of_nonneg _ _ hl, mul_zero, mul_add]
  have q2 : lam * max 0 (max (-b) 0 - w) = max 0 (lam * max (-b) 0 - lam * w) := by
    rw [mul_max_of_nonneg _ _ hl, mul_zero, mul_sub]
  rw [q1] at c6
  rw [q2] at d7
  have r1 := b2.1
  have r2 := b3.2
  rw [mul_neg] at r2
  rcases le_total 0 (lam * max a 0 + lam * w) with h1 | h1 <;> rcases le_total 0 (lam * max (-b) 0 - lam * w) with h2 | h2 <;>
    simp only [max_eq_left, max_eq_right, h1, h2] at c6 d7 <;> linarith

/-- **C32 (advection).** The same for the advection equation with any velocity: total variation and maximum principle. -/
theorem advection_stable (v : K) (u : Int → K) (dt dx : K) (hdx : 0 < dx) (hdt : 0 ≤ dt)
    (h : ∀ i, (dt : WithTop K) ≤ faceDt (advectionSignals v) dx u i) :
    (∀ N, Periodic N u → totalVariation N (godunovStep (advectionEqn v) (advectionSolve v) dt dx u) ≤ totalVariation N u) ∧
    ∀ i, min (u (i - 1)) (min (u i) (u (i + 1))) ≤ godunovStep (advectionEqn v) (advectionSolve v) dt dx u i ∧
      godunovStep (advectionEqn v) (advectionSolve v) dt dx u i ≤ max (u (i - 1)) (max (u i) (u (i + 1))) := by
  have hl : 0 ≤ dt / dx := div_nonneg hdt hdx.le
  have hsig : ∀ j, ∀ s ∈ advectionSignals v (u (j - 1)) (u j), dt / dx * |s| ≤ 1 := by
    intro j s hs
    have hi := h j
    simp only [faceDt, advectionSignals] at hi
    rw [List.mem_singleton.1 hs]
    exact dt_le_signalDt hdx hi
  refine ⟨fun N hu => tvd_of_face _ _ N u hu dt dx fun i => ?_, fun i => ?_⟩
  · obtain ⟨C, D, h1, h2, h3, h4, h5, -, -⟩ := advection_face v _ _ (dt / dx) hl (hsig i)
    exact ⟨C, D, h1, h2, h3, h4, h5⟩
  · obtain ⟨C, D', c1, -, c3, c4, -, c6, c7⟩ := advection_face v _ _ (dt / dx) hl (hsig i)
    obtain ⟨C', D, -, d2, -, -, d5, -, d7⟩ := advection_face v _ _ (dt / dx) hl (hsig (i + 1))
    rw [add_sub_cancel_right] at d5
    have e : godunovStep (advectionEqn v) (advectionSolve v) dt dx u i = u i - C * (u i - u (i - 1)) + D * (u (i + 1) - u i) := by
      simp only [godunovStep, godunovFlux, advectionEqn]
      linear_combination -c4 - d5
    rw [e]
    exact convex_between c1 d2 (by rw [d7, ← c7]; exact c3)

/-- A run of Godunov steps with the step sizes `dts`. -/
def godunovRun (E : EqnOps K K Unit) (solve : K → K → K) (dx : K) : List K → (Int → K) → Int → K
  | [], u => u
  | dt :: dts, u => godunovRun E solve dx dts (godunovStep E solve dt dx u)

/-- Every step size of the run is non-negative and at most the step size the method reports for the state it is applied to. -/
def StableRun (E : EqnOps K K Unit) (solve : K → K → K) (signals : K → K → List K) (dx : K) : List K → (Int → K) → Prop
  | [], _ => True
  | dt :: dts, u => 0 ≤ dt ∧ (∀ i, (dt : WithTop K) ≤ faceDt signals dx u i) ∧ StableRun E solve signals dx dts (godunovStep E solve dt dx u)

/-- **C32 (any number of steps).** For Burgers and advection, any number of cells, any data and any sequence of step sizes each at most the reported
one: all values stay in the range of the initial data, the total variation never exceeds the initial one, and the total amount over the periodic domain is
unchanged. -/
theorem scalar_run_stable (E : EqnOps K K Unit) (solve : K → K → K) (signals : K → K → List K)
    (hE : (E = burgersEqn ∧ solve = burgersSolve ∧ signals = burgersSignals) ∨
      ∃ v, E = advectionEqn v ∧ solve = advectionSolve v ∧ signals = advectionSignals v)
    (N : Nat) (dx : K) (hdx : 0 < dx) (dts : List K) (u : Int → K) (hu : Periodic N u) (h : StableRun E solve signals dx dts u) :
    (∀ m M, (∀ i, m ≤ u i ∧ u i ≤ M) → ∀ i, m ≤ godunovRun E solve dx dts u i ∧ godunovRun E solve dx dts u i ≤ M) ∧
    totalVariation N (godunovRun E solve dx dts u) ≤ totalVariation N u ∧
    ∑ i ∈ Finset.range N, godunovRun E solve dx dts u i = ∑ i ∈ Finset.range N, u i := by
  induction dts generalizing u with
  | nil => exact ⟨fun m M h => h, le_rfl, rfl⟩
  | cons dt dts ih =>
    obtain ⟨hdt, hst, hrest⟩ := h
    obtain ⟨i1, i2, i3⟩ := ih _ (godunovStep_periodic E solve dt dx hu) hrest
    have key : totalVariation N (godunovStep E solve dt dx u) ≤ totalVariation N u ∧ ∀ i, min (u (i - 1)) (min (u i) (u (i + 1))) ≤ godunovStep E solve dt dx u i ∧
        godunovStep E solve dt dx u i ≤ max (u (i - 1)) (max (u i) (u (i + 1))) := by
      rcases hE with ⟨rfl, rfl, rfl⟩ | ⟨v, rfl, rfl, rfl⟩
      · exact ⟨burgers_tvd N u hu dt dx hdx hdt hst, fun i => burgers_max_principle u dt dx hdx hdt i fun j _ _ => hst j⟩
      · have := advection_stable v u dt dx hdx hdt hst
        exact ⟨this.1 N hu, this.2⟩
    refine ⟨fun m M hb => i1 m M fun i => ⟨?_, ?_⟩, i2.trans key.1, i3.trans ?_⟩
    · exact (le_min (hb _).1 (le_min (hb _).1 (hb _).1)).trans (key.2 i).1
    · exact (key.2 i).2.trans (max_le (hb _).2 (max_le (hb _).2 (hb _).2))
    · have hp : Periodic N fun i => godunovFlux E solve (u (i - 1)) (u i) () := by
        intro i
        simp only
        rw [show i + (N : Int) - 1 = i - 1 + N by ring, hu i, hu (i - 1)]
      have := sum_shift N _ hp
      simp only [add_sub_cancel_right] at this
      simp only [godunovStep, Finset.sum_add_distrib, ← Finset.mul_sum, Finset.sum_sub_distrib, this, sub_self, mul_zero, add_zero]

/-- Periodic data with a shock and a transonic rarefaction: `2, -1, 2, -1, …` and a positive step size that satisfies the hypotheses. -/
example : let u : Int → ℚ := fun i => if i % 2 = 0 then 2 else -1
    Periodic 2 u ∧ StableRun burgersEqn burgersSolve burgersSignals 1 [1 / 2] u ∧ totalVariation 2 u = 6 := by
  intro u
  refine ⟨fun i => by simp [u], ⟨by norm_num, fun i => ?_, trivial⟩, by decide +kernel⟩
  rcases Int.emod_two_eq_zero_or_one i with h | h
  · have h' : (i - 1) % 2 = 1 := by omega
    simp only [faceDt, u, h, h']
    decide +kernel
  · have h' : (i - 1) % 2 = 0 := by omega
    simp only [faceDt, u, h, h']
    decide +kernel

/-- **The maximum principle fails with the signals of the cell's own faces only.** The step size reported at the two faces of a cell is not enough:
the solver reports the shock speed, not the largest characteristic speed, at a shock. This is what happens in a cell next to a boundary, where the next face
outwards does not take part in the estimate: here the new value is larger than all three old values. -/
theorem burgers_boundary_overshoot : ∃ (u : Int → ℚ) (dt : ℚ), 0 < dt ∧
    (dt : WithTop ℚ) ≤ faceDt burgersSignals 1 u 0 ∧ (dt : WithTop ℚ) ≤ faceDt burgersSignals 1 u 1 ∧
    max (u (-1)) (max (u 0) (u 1)) < godunovStep burgersEqn burgersSolve dt 1 u 0 := by
  refine ⟨fun i => if i = 0 then -1 else if i = 1 then -9 / 10 else 3, 1, by norm_num, ?_, ?_, ?_⟩
  · decide +kernel
  · decide +kernel
  · decide +kernel

end Fub
