import Verif.Model.Newton
import Mathlib.Algebra.Order.Field.Rat
import Mathlib.Tactic.FieldSimp
import Mathlib.Tactic.Ring
import Mathlib.Tactic.Linarith
import Mathlib.Tactic.NormNum
import Mathlib.Tactic.Positivity

/-!
# Properties of the Newton iteration for the temperature
-/

namespace Fub

section
variable {K : Type*} [Field K] [LinearOrder K] [IsStrictOrderedRing K]

/-- Specification: the energy curve around the wanted temperature `Ts`. Within the distance `D` the
reported heat capacity lies in `[m, L]`, and the slope of the secant through the target differs from
it by at most the factor `q < 1`. No smoothness is asked for. -/
def EnergyCurve (U C : K → K) (target Ts m L q D : K) : Prop :=
  (0 < m ∧ 1 / 4 ≤ q ∧ q < 1) ∧ ∀ T, |T - Ts| ≤ D → (m ≤ C T ∧ C T ≤ L) ∧
    (Ts ≤ T → (1 - q) * C T * (T - Ts) ≤ U T - target ∧ U T - target ≤ (1 + q) * C T * (T - Ts)) ∧
    (T ≤ Ts → (1 - q) * C T * (Ts - T) ≤ target - U T ∧ target - U T ≤ (1 + q) * C T * (Ts - T))

/-- A curve whose heat capacities and secant slopes lie in `[m, L]` with `L ≤ (1 + q) * m` and
`(1 - q) * L ≤ m`; such a `q < 1` exists when `L < 2 * m`. -/
theorem energy_curve_of_slopes (U C : K → K) (target Ts m L q D : K) (hm : 0 < m)
    (hq : (1 - q) * L ≤ m ∧ L ≤ (1 + q) * m ∧ 1 / 4 ≤ q ∧ q < 1)
    (h : ∀ T, |T - Ts| ≤ D → (m ≤ C T ∧ C T ≤ L) ∧
      (Ts ≤ T → m * (T - Ts) ≤ U T - target ∧ U T - target ≤ L * (T - Ts)) ∧
      (T ≤ Ts → m * (Ts - T) ≤ target - U T ∧ target - U T ≤ L * (Ts - T))) :
    EnergyCurve U C target Ts m L q D := by
  obtain ⟨h1, h2, h3, h4⟩ := hq
  refine ⟨⟨hm, h3, h4⟩, fun T hT => ?_⟩
  obtain ⟨⟨hC1, hC2⟩, hup, hdn⟩ := h T hT
  have a1 : (1 - q) * C T ≤ m := le_trans (mul_le_mul_of_nonneg_left hC2 (by linarith)) h1
  have a2 : L ≤ (1 + q) * C T := le_trans h2 (mul_le_mul_of_nonneg_left hC1 (by linarith))
  refine ⟨⟨hC1, hC2⟩, fun hle => ?_, fun hle => ?_⟩
  · exact ⟨le_trans (mul_le_mul_of_nonneg_right a1 (by linarith)) (hup hle).1,
      le_trans (hup hle).2 (mul_le_mul_of_nonneg_right a2 (by linarith))⟩
  · exact ⟨le_trans (mul_le_mul_of_nonneg_right a1 (by linarith)) (hdn hle).1,
      le_trans (hdn hle).2 (mul_le_mul_of_nonneg_right a2 (by linarith))⟩

/-- The variables of the iteration belong together. -/
def NewtonInv (U C : K → K) (Ts D : K) (s : NewtonState K) : Prop :=
  |s.T - Ts| ≤ D ∧ s.U = U s.T ∧ s.C = C s.T ∧ (s.Utop = U s.Ttop ∧ |s.Ttop - Ts| ≤ D) ∧
    (s.Ubot = U s.Tbot ∧ |s.Tbot - Ts| ≤ D) ∧ s.unstable = false

theorem energy_raw (q C e g : K) (hC : 0 < C) (hg1 : (1 - q) * C * e ≤ g)
    (hg2 : g ≤ (1 + q) * C * e) : (1 - q) * e ≤ g / C ∧ g / C ≤ (1 + q) * e := by
  constructor
  · rw [le_div_iff₀ hC]
    linarith [show (1 - q) * e * C = (1 - q) * C * e by ring]
  · rw [div_le_iff₀ hC]
    linarith [show (1 + q) * e * C = (1 + q) * C * e by ring]

/-- The size of one step in terms of the distance to the wanted temperature. -/
theorem energy_step_size (U C : K → K) (target Ts m L D q : K) (hE : EnergyCurve U C target Ts m L q D) (s : NewtonState K) (hs : NewtonInv U C Ts D s) :
    |s.T + newtonStepSize target s false - Ts| ≤ max (q * |s.T - Ts|) (|s.T - Ts| - 100) := by
  obtain ⟨hD, hU, hC, ⟨hUt, hTt⟩, ⟨hUb, hTb⟩, -⟩ := hs
  obtain ⟨⟨hm, hq3, hq4⟩, hcurve⟩ := hE
  obtain ⟨⟨hC1, hC2⟩, hup, hdn⟩ := hcurve s.T hD
  rw [← hC] at hC1 hC2 hup hdn
  rw [← hU] at hup hdn
  have hCp : 0 < s.C := lt_of_lt_of_le hm hC1
  have hTb' : s.Ubot < target → s.Tbot < Ts := by
    intro h
    by_contra hcon
    push Not at hcon
    have := ((hcurve s.Tbot hTb).2.1 hcon).1
    rw [← hUb] at this
    have hCb : 0 < C s.Tbot := lt_of_lt_of_le hm (hcurve s.Tbot hTb).1.1
    have h0 : 0 ≤ (1 - q) * C s.Tbot * (s.Tbot - Ts) :=
      mul_nonneg (mul_nonneg (by linarith) hCb.le) (by linarith)
    linarith
  have hTt' : s.Utop > target → Ts < s.Ttop := by
    intro h
    by_contra hcon
    push Not at hcon
    have := ((hcurve s.Ttop hTt).2.2 hcon).1
    rw [← hUt] at this
    have hCb : 0 < C s.Ttop := lt_of_lt_of_le hm (hcurve s.Ttop hTt).1.1
    have h0 : 0 ≤ (1 - q) * C s.Ttop * (Ts - s.Ttop) :=
      mul_nonneg (mul_nonneg (by linarith) hCb.le) (by linarith)
    linarith
  rcases le_or_gt Ts s.T with hle | hgt
  · -- above the target
    have he : 0 ≤ s.T - Ts := by linarith
    obtain ⟨r1, r2⟩ := energy_raw q s.C (s.T - Ts) (s.U - target) hCp
      (hup hle).1 (hup hle).2
    have hraw : (target - s.U) / s.C = -((s.U - target) / s.C) := by ring
    have hdT : max (-100) (min 100 ((target - s.U) / s.C)) =
        -min 100 ((s.U - target) / s.C) := by
      rw [hraw]
      have h0 : 0 ≤ (s.U - target) / s.C := le_trans (mul_nonneg (by linarith) he) r1
      generalize (s.U - target) / s.C = r at h0
      rw [min_eq_right (by linarith : -r ≤ 100)]
      rcases le_total 100 r with h | h
      · rw [min_eq_left h, max_eq_left (by linarith)]
      · rw [min_eq_right h, max_eq_right (by linarith)]
    generalize (s.U - target) / s.C = r at r1 r2 hdT
    have h0 : 0 ≤ r := le_trans (mul_nonneg (by linarith) he) r1
    have hbr : (max (-100) (min 100 ((target - s.U) / s.C)) ≤ 0) := by
      rw [hdT]
      have : 0 ≤ min (100 : K) r := le_min (by norm_num) h0
      linarith
    rw [abs_of_nonneg he]
    have hlow : -(q * (s.T - Ts)) ≤ s.T + -min 100 r - Ts := by
      have : min (100 : K) r ≤ r := min_le_right _ _
      nlinarith
    have hupp : s.T + -min 100 r - Ts ≤ max (q * (s.T - Ts)) (s.T - Ts - 100) := by
      rcases min_choice (100 : K) r with h | h
      · rw [h]
        exact le_max_of_le_right (by linarith)
      · rw [h]
        exact le_max_of_le_left (by nlinarith)
    unfold newtonStepSize
    simp only [hbr, and_true, or_true, if_true]
    split_ifs with hlim
    · have hb := hTb' hlim.1
      rw [hdT] at hlim
      rw [abs_le]
      constructor
      · refine le_trans (neg_le_neg (le_max_left _ _)) ?_
        have := hlim.2
        linarith
      · refine le_max_of_le_left ?_
        have hqe : 1 / 4 * (s.T - Ts) ≤ q * (s.T - Ts) := mul_le_mul_of_nonneg_right hq3 he
        linarith
    · rw [hdT, abs_le]
      exact ⟨le_trans (neg_le_neg (le_max_left _ _)) hlow, hupp⟩
  · -- below the target
    have he : 0 ≤ Ts - s.T := by linarith
    have hepos : 0 < Ts - s.T := by linarith
    obtain ⟨r1, r2⟩ := energy_raw q s.C (Ts - s.T) (target - s.U) hCp
      (hdn hgt.le).1 (hdn hgt.le).2
    generalize hrdef : (target - s.U) / s.C = r at r1 r2
    have h0 : 0 < r := lt_of_lt_of_le (mul_pos (by linarith) hepos) r1
    have hdT : max (-100) (min 100 r) = min 100 r :=
      max_eq_right (le_trans (by norm_num) (le_min (by norm_num) h0.le))
    have hpos : 0 < min (100 : K) r := lt_min (by norm_num) h0
    have habs : |s.T - Ts| = Ts - s.T := by rw [abs_sub_comm, abs_of_nonneg he]
    rw [habs]
    have hlow : s.T + min 100 r - Ts ≤ q * (Ts - s.T) := by
      have : min (100 : K) r ≤ r := min_le_right _ _
      nlinarith
    have hupp : -(max (q * (Ts - s.T)) (Ts - s.T - 100)) ≤ s.T + min 100 r - Ts := by
      rcases min_choice (100 : K) r with h | h
      · rw [h]
        have := le_max_right (q * (Ts - s.T)) (Ts - s.T - 100)
        linarith
      · rw [h]
        have := le_max_left (q * (Ts - s.T)) (Ts - s.T - 100)
        nlinarith
    unfold newtonStepSize
    rw [hrdef, hdT]
    have hbr : ¬ ((min (100 : K) r > 0 ∧ false = true) ∨ (min (100 : K) r ≤ 0 ∧ false = false)) := by
      rintro (h | h)
      · cases h.2
      · exact absurd h.1 (not_le.mpr hpos)
    dsimp only
    rw [if_neg hbr]
    split_ifs with hlim
    · have hb := hTt' hlim.1
      rw [abs_le]
      constructor
      · refine le_trans (neg_le_neg (le_max_left _ _)) ?_
        have hqe : 1 / 4 * (Ts - s.T) ≤ q * (Ts - s.T) := mul_le_mul_of_nonneg_right hq3 he
        linarith
      · refine le_max_of_le_left ?_
        have := hlim.2
        linarith
    · rw [abs_le]
      exact ⟨hupp, le_max_of_le_left hlow⟩

omit [IsStrictOrderedRing K] in
theorem newtonBackoff_stable (C : K → K) (T : K) (n : ℕ) (x dT : K) (h : 0 ≤ C (T + dT)) :
    newtonBackoff C T (n + 1) x dT = (T + dT, dT) := by
  have : ¬ C (T + dT) < 0 := not_lt.mpr h
  simp only [newtonBackoff, this, if_false]

/-- One pass of the loop. -/
theorem energy_step_spec (b : Bool) (U C : K → K) (target Ts m L D q : K)
    (hE : EnergyCurve U C target Ts m L q D) (s : NewtonState K)
    (hs : NewtonInv U C Ts D s) :
    let s' := energyStep b U C target s
    NewtonInv U C Ts D s' ∧ s'.dT = s'.T - s.T ∧
    |s'.T - Ts| ≤ max (q * |s.T - Ts|) (|s.T - Ts| - 100) := by
  intro s'
  have hq4 := hE.1.2.2
  have hstep := energy_step_size U C target Ts m L D q hE s hs
  have hCpos : ∀ T, |T - Ts| ≤ D → 0 < C T := fun T hT =>
    lt_of_lt_of_le hE.1.1 (hE.2 T hT).1.1
  have hun : ((b && s.unstable) || decide (s.C < 0)) = false := by
    have h1 := hCpos s.T hs.1
    rw [← hs.2.2.1] at h1
    rw [hs.2.2.2.2.2]
    simp [h1.le]
  have hle : |s.T + newtonStepSize target s false - Ts| ≤ D := by
    refine le_trans hstep (max_le ?_ ?_)
    · have := hs.1
      nlinarith [abs_nonneg (s.T - Ts)]
    · have := hs.1
      linarith
  have hb := newtonBackoff_stable C s.T 9 (s.T + newtonStepSize target s false)
    (newtonStepSize target s false) (hCpos _ hle).le
  have hT : s'.T = s.T + newtonStepSize target s false := by
    show (newtonBackoff C s.T 10 _ _).1 = _
    rw [hun, hb]
  have hdT : s'.dT = newtonStepSize target s false := by
    show (newtonBackoff C s.T 10 _ _).2 = _
    rw [hun, hb]
  have hTle : |s'.T - Ts| ≤ D := by rw [hT]; exact hle
  refine ⟨⟨hTle, rfl, rfl, ?_, ?_, hun⟩, ?_, ?_⟩
  · show (if _ then _ else _) = U (if _ then _ else _) ∧ |(if _ then _ else _) - Ts| ≤ D
    split_ifs
    · exact ⟨rfl, hTle⟩
    · exact hs.2.2.2.1
  · show (if _ then _ else _) = U (if _ then _ else _) ∧ |(if _ then _ else _) - Ts| ≤ D
    split_ifs
    · exact ⟨rfl, hTle⟩
    · exact hs.2.2.2.2.1
  · rw [hdT, hT]
    ring
  · rw [hT]
    exact hstep

/-- Specification: how close the returned temperature is. It is within the distance `D`, and either the last step was shorter than the
tolerance, or the energy is met to `1e-5 * tol` relative to the target (or, for small targets, to
the heat capacity times the tolerance). -/
def NewtonAccuracy (target Ts D m L q tol T : K) : Prop :=
  |T - Ts| ≤ D ∧ (|T - Ts| ≤ q / (1 - q) * tol ∨
  (1 - q) * m * |T - Ts| ≤ max |target| (max L (1 / 100000) * tol) * (1 / 100000 * tol))

theorem lane_done_of_newton_done (target tol : K) (htol : 0 < tol) (s s' : NewtonState K)
    (h : newtonDone target tol s s') : laneDone target tol s s' := by
  have hden : 0 < max |target| (max |s.C| (1 / 100000) * tol) :=
    lt_max_of_lt_right (mul_pos (lt_max_of_lt_right (by norm_num)) htol)
  rcases h with h | h | h
  · left
    rw [h, sub_self, abs_zero]
    positivity
  · left
    rw [abs_div, abs_of_pos hden, div_lt_iff₀ hden] at h
    linarith [mul_comm (1 / 100000 * tol) (max |target| (max |s.C| (1 / 100000) * tol))]
  · right
    exact h

theorem energy_done_of_small (target tol : K) (s s' : NewtonState K) (h : |s'.dT| < tol) :
    newtonDone target tol s s' ∧ laneDone target tol s s' :=
  ⟨Or.inr (Or.inr h), Or.inr h⟩

/-- The accuracy of a pass which passes the test. -/
theorem energy_accuracy (b : Bool) (U C : K → K) (target Ts m L D q tol : K)
    (hE : EnergyCurve U C target Ts m L q D) (ht : tol ≤ 100)
    (s : NewtonState K) (hs : NewtonInv U C Ts D s)
    (hd : laneDone target tol s (energyStep b U C target s)) (htol : 0 < tol) :
    NewtonAccuracy target Ts D m L q tol (energyStep b U C target s).T := by
  obtain ⟨hinv, hdT, hstep⟩ := energy_step_spec b U C target Ts m L D q hE s hs
  set s' := energyStep b U C target s with hs'
  clear_value s'
  have hq4 := hE.1.2.2
  refine ⟨hinv.1, ?_⟩
  rcases hd with h | h
  · right
    obtain ⟨-, hup, hdn⟩ := hE.2 s'.T hinv.1
    have hC := (hE.2 s.T hs.1).1
    have hCpos : 0 < C s.T := lt_of_lt_of_le hE.1.1 hC.1
    rw [hs.2.2.1, abs_of_pos hCpos, hinv.2.1] at h
    have hle' : (1 - q) * m * |s'.T - Ts| ≤ (1 - q) * C s'.T * |s'.T - Ts| :=
      mul_le_mul_of_nonneg_right (mul_le_mul_of_nonneg_left (hE.2 s'.T hinv.1).1.1 (by linarith))
        (abs_nonneg _)
    have h1 : (1 - q) * C s'.T * |s'.T - Ts| ≤ |target - U s'.T| := by
      rcases le_total Ts s'.T with hle | hle
      · rw [abs_of_nonneg (by linarith : 0 ≤ s'.T - Ts), abs_sub_comm]
        exact le_trans (hup hle).1 (le_abs_self _)
      · rw [abs_sub_comm, abs_of_nonneg (by linarith : 0 ≤ Ts - s'.T)]
        exact le_trans (hdn hle).1 (le_abs_self _)
    refine le_trans (le_trans hle' h1) (le_trans h.le (mul_le_mul_of_nonneg_right ?_ (by positivity)))
    exact max_le_max le_rfl (mul_le_mul_of_nonneg_right (max_le_max hC.2 le_rfl) htol.le)
  · left
    rw [hdT] at h
    have htri : |s.T - Ts| ≤ |s'.T - Ts| + |s'.T - s.T| := by
      have h1 := abs_sub_abs_le_abs_sub (s.T - Ts) (s'.T - Ts)
      have h2 : s.T - Ts - (s'.T - Ts) = -(s'.T - s.T) := by ring
      rw [h2, abs_neg] at h1
      linarith
    rcases le_max_iff.mp hstep with h1 | h1
    · rw [div_mul_eq_mul_div, le_div_iff₀ (by linarith)]
      have hq0 : 0 ≤ q := le_trans (by norm_num) hE.1.2.1
      have h2 : q * |s.T - Ts| ≤ q * (|s'.T - Ts| + tol) :=
        mul_le_mul_of_nonneg_left (by linarith) hq0
      linarith [show |s'.T - Ts| * (1 - q) = |s'.T - Ts| - q * |s'.T - Ts| by ring]
    · exfalso
      linarith

theorem energy_phase2 (U C : K → K) (target Ts m L D q tol : K)
    (hE : EnergyCurve U C target Ts m L q D) (ht : tol ≤ 100) (htol : 0 < tol) :
    ∀ (n2 fuel : ℕ) (E : K) (s : NewtonState K), NewtonInv U C Ts D s → |s.T - Ts| ≤ E →
      (1 - q) * E ≤ 100 → 2 * (q ^ n2 * E) < tol → n2 + 1 ≤ fuel →
      ∃ T, energyLoop U C target tol fuel s = some T ∧ NewtonAccuracy target Ts D m L q tol T := by
  have hq0 : 0 ≤ q := le_trans (by norm_num) hE.1.2.1
  have hq4 := hE.1.2.2
  intro n2
  induction n2 with
  | zero =>
    intro fuel E s hs hE0 hE1 hsmall hfuel
    obtain ⟨f, rfl⟩ : ∃ f, fuel = f + 1 := ⟨fuel - 1, by omega⟩
    obtain ⟨hinv, hdT, hstep⟩ := energy_step_spec true U C target Ts m L D q hE s hs
    have hs' : |(energyStep true U C target s).T - Ts| ≤ |s.T - Ts| := by
      refine le_trans hstep (max_le ?_ (by linarith))
      nlinarith [abs_nonneg (s.T - Ts)]
    have hd : |(energyStep true U C target s).dT| < tol := by
      rw [hdT]
      have h1 := abs_sub (energyStep true U C target s).T Ts
      have h2 : (energyStep true U C target s).T - s.T =
        ((energyStep true U C target s).T - Ts) - (s.T - Ts) := by ring
      rw [h2]
      refine lt_of_le_of_lt (abs_sub _ _) ?_
      simp only [pow_zero, one_mul] at hsmall
      linarith
    obtain ⟨hd1, hd2⟩ := energy_done_of_small target tol s _ hd
    refine ⟨_, ?_, energy_accuracy true U C target Ts m L D q tol hE ht s hs hd2 htol⟩
    simp only [energyLoop, hd1, if_true]
  | succ n2 ih =>
    intro fuel E s hs hE0 hE1 hsmall hfuel
    obtain ⟨f, rfl⟩ : ∃ f, fuel = f + 1 := ⟨fuel - 1, by omega⟩
    obtain ⟨hinv, hdT, hstep⟩ := energy_step_spec true U C target Ts m L D q hE s hs
    have hEpos : 0 ≤ E := le_trans (abs_nonneg _) hE0
    by_cases hd : newtonDone target tol s (energyStep true U C target s)
    · refine ⟨_, ?_, energy_accuracy true U C target Ts m L D q tol hE ht s hs
        (lane_done_of_newton_done target tol htol s _ hd) htol⟩
      simp only [energyLoop, hd, if_true]
    · have hnext : |(energyStep true U C target s).T - Ts| ≤ q * E := by
        refine le_trans hstep (max_le (mul_le_mul_of_nonneg_left hE0 hq0) ?_)
        linarith
      obtain ⟨T, hT, hacc⟩ := ih f (q * E) _ hinv hnext
        (by nlinarith) (by rw [pow_succ, mul_assoc] at hsmall; exact hsmall) (by omega)
      refine ⟨T, ?_, hacc⟩
      simp only [energyLoop, hd, if_false]
      exact hT

theorem energy_phase1 (U C : K → K) (target Ts m L D q tol : K)
    (hE : EnergyCurve U C target Ts m L q D) (ht : tol ≤ 100) (htol : 0 < tol)
    (n2 : ℕ) (hn2 : 2 * (q ^ n2 * (100 / (1 - q))) < tol) :
    ∀ (n1 fuel : ℕ) (s : NewtonState K), NewtonInv U C Ts D s →
      |s.T - Ts| ≤ 100 / (1 - q) + 100 * n1 → n1 + n2 + 1 ≤ fuel →
      ∃ T, energyLoop U C target tol fuel s = some T ∧ NewtonAccuracy target Ts D m L q tol T := by
  have hq4 := hE.1.2.2
  have hq0 : 0 ≤ q := le_trans (by norm_num) hE.1.2.1
  have hE0 : (1 - q) * (100 / (1 - q)) = 100 := by
    field_simp [show (1 - q) ≠ 0 by intro h; linarith]
  intro n1
  induction n1 with
  | zero =>
    intro fuel s hs hb hf
    exact energy_phase2 U C target Ts m L D q tol hE ht htol n2 fuel (100 / (1 - q)) s hs
      (by simpa using hb) hE0.le hn2 (by omega)
  | succ n1 ih =>
    intro fuel s hs hb hf
    obtain ⟨f, rfl⟩ : ∃ f, fuel = f + 1 := ⟨fuel - 1, by omega⟩
    obtain ⟨hinv, hdT, hstep⟩ := energy_step_spec true U C target Ts m L D q hE s hs
    by_cases hd : newtonDone target tol s (energyStep true U C target s)
    · refine ⟨_, ?_, energy_accuracy true U C target Ts m L D q tol hE ht s hs
        (lane_done_of_newton_done target tol htol s _ hd) htol⟩
      simp only [energyLoop, hd, if_true]
    · have hnext : |(energyStep true U C target s).T - Ts| ≤ 100 / (1 - q) + 100 * n1 := by
        push_cast at hb
        refine le_trans hstep (max_le ?_ (by linarith))
        have hpos : 0 < 100 / (1 - q) := div_pos (by norm_num) (by linarith)
        rcases le_total |s.T - Ts| (100 / (1 - q)) with h | h
        · have h1 := mul_le_mul_of_nonneg_left h hq0
          have h2 : (0 : K) ≤ 100 * n1 := by positivity
          nlinarith
        · have h1 : (1 - q) * (100 / (1 - q)) ≤ (1 - q) * |s.T - Ts| :=
            mul_le_mul_of_nonneg_left h (by linarith)
          rw [hE0] at h1
          linarith
      obtain ⟨T, hT, hacc⟩ := ih f _ hinv hnext (by omega)
      refine ⟨T, ?_, hacc⟩
      simp only [energyLoop, hd, if_false]
      exact hT

theorem energy_init_inv (U C : K → K) (Ts D T0 : K) (h : |T0 - Ts| ≤ D) :
    NewtonInv U C Ts D (newtonInit U C T0) :=
  ⟨h, rfl, rfl, ⟨rfl, h⟩, ⟨rfl, h⟩, rfl⟩

/-- **C126** Setting the energy (or enthalpy) finds the temperature. Let the slopes
of the secants of the energy curve through the target differ from the heat capacity by a factor less
than two, as far as the starting temperature is away from the wanted one. Then the iteration stops within its 1000
passes, however far the start is (as long as `n1` steps of 100 K and `n2` contractions suffice), and
the temperature is accurate. -/
theorem set_energy_converges (U C : K → K) (target Ts m L q tol T0 : K) (n1 n2 : ℕ)
    (hE : EnergyCurve U C target Ts m L q |T0 - Ts|)
    (ht : tol ≤ 100) (htol : 0 < tol) (hn1 : |T0 - Ts| ≤ 100 / (1 - q) + 100 * n1)
    (hn2 : 2 * (q ^ n2 * (100 / (1 - q))) < tol) (hn : n1 + n2 + 1 ≤ 1000) :
    ∃ T, setEnergy U C target tol T0 = some T ∧ NewtonAccuracy target Ts |T0 - Ts| m L q tol T :=
  energy_phase1 U C target Ts m L _ q tol hE ht htol n2 hn2 n1 1000 _
    (energy_init_inv U C Ts _ T0 le_rfl) hn1 hn

/-- **C126** The lanes of the array version, with or without mask, likewise: all lanes in the mask
are accurate, although the iteration goes on for lanes which have converged until the last one has;
the lanes outside of the mask hold 300 K. -/
theorem set_energy_lanes_converge {ι : Type*} [Fintype ι] (mask : ι → Bool) (U C : ι → K → K)
    (target Ts m L q T0 : ι → K) (tol : K) (n1 n2 : ℕ)
    (hE : ∀ i, mask i = true → EnergyCurve (U i) (C i) (target i) (Ts i) (m i) (L i) (q i)
      |T0 i - Ts i|)
    (ht : tol ≤ 100) (htol : 0 < tol)
    (hn1 : ∀ i, mask i = true → |T0 i - Ts i| ≤ 100 / (1 - q i) + 100 * n1)
    (hn2 : ∀ i, mask i = true → 2 * (q i ^ n2 * (100 / (1 - q i))) < tol)
    (hn : n1 + n2 + 1 ≤ 1000) :
    ∃ T, setEnergyLanes mask U C target tol T0 = some T ∧
      (∀ i, mask i = true → NewtonAccuracy (target i) (Ts i) |T0 i - Ts i| (m i) (L i) (q i) tol (T i)) ∧
      ∀ i, mask i = false → T i = 300 := by
  -- exact targets pass the second test as well
  have hor : ∀ s s' : ι → NewtonState K, ((∀ i, mask i = true → (s' i).U = target i) ∨
      (∀ i, mask i = true → laneDone (target i) tol (s i) (s' i))) ↔
      (∀ i, mask i = true → laneDone (target i) tol (s i) (s' i)) := by
    intro s s'
    constructor
    · rintro (h | h)
      · intro i hi
        exact lane_done_of_newton_done _ tol htol _ _ (Or.inl (h i hi))
      · exact h
    · exact Or.inr
  have hdone : ∀ (n : ℕ) (s : ι → NewtonState K),
      (∀ i, mask i = true → NewtonInv (U i) (C i) (Ts i) |T0 i - Ts i| (s i)) →
      (∀ i, mask i = true → laneDone (target i) tol (s i)
        (energyStep false (U i) (C i) (target i) (s i))) →
      ∃ T, newtonLanes mask U C target tol (n + 1) s = some T ∧
      (∀ i, mask i = true → NewtonAccuracy (target i) (Ts i) |T0 i - Ts i| (m i) (L i) (q i) tol (T i)) ∧
      ∀ i, mask i = false → T i = 300 := by
    intro n s hs hd
    refine ⟨fun i => if mask i = true then (energyStep false (U i) (C i) (target i) (s i)).T
      else 300, by simp only [newtonLanes, (hor _ _).mpr hd, if_true], ?_, ?_⟩
    · intro i hi
      simp only [hi, if_true]
      exact energy_accuracy false _ _ _ _ _ _ _ _ tol (hE i hi) ht _ (hs i hi) (hd i hi)
        htol
    · intro i hi
      simp [hi]
  have hphase2 : ∀ (k fuel : ℕ) (E : ι → K) (s : ι → NewtonState K),
      (∀ i, mask i = true → NewtonInv (U i) (C i) (Ts i) |T0 i - Ts i| (s i)) →
      (∀ i, mask i = true → |(s i).T - Ts i| ≤ E i) →
      (∀ i, mask i = true → (1 - q i) * E i ≤ 100) →
      (∀ i, mask i = true → 2 * (q i ^ k * E i) < tol) → k + 1 ≤ fuel →
      ∃ T, newtonLanes mask U C target tol fuel s = some T ∧
      (∀ i, mask i = true → NewtonAccuracy (target i) (Ts i) |T0 i - Ts i| (m i) (L i) (q i) tol (T i)) ∧
      ∀ i, mask i = false → T i = 300 := by
    intro k
    induction k with
    | zero =>
      intro fuel E s hs hE0 hE1 hsmall hf
      obtain ⟨f, rfl⟩ : ∃ f, fuel = f + 1 := ⟨fuel - 1, by omega⟩
      refine hdone f s hs fun i hi => Or.inr ?_
      obtain ⟨hinv, hdT, hstep⟩ := energy_step_spec false (U i) (C i) (target i) (Ts i) (m i) (L i)
        _ (q i) (hE i hi) (s i) (hs i hi)
      have hq4 := (hE i hi).1.2.2
      have hs' : |(energyStep false (U i) (C i) (target i) (s i)).T - Ts i| ≤ |(s i).T - Ts i| := by
        refine le_trans hstep (max_le ?_ (by linarith))
        nlinarith [abs_nonneg ((s i).T - Ts i)]
      rw [hdT]
      have h2 : (energyStep false (U i) (C i) (target i) (s i)).T - (s i).T =
        ((energyStep false (U i) (C i) (target i) (s i)).T - Ts i) - ((s i).T - Ts i) := by ring
      rw [h2]
      refine lt_of_le_of_lt (abs_sub _ _) ?_
      have h3 := hsmall i hi
      have h4 := hE0 i hi
      simp only [pow_zero, one_mul] at h3
      linarith
    | succ k ih =>
      intro fuel E s hs hE0 hE1 hsmall hf
      obtain ⟨f, rfl⟩ : ∃ f, fuel = f + 1 := ⟨fuel - 1, by omega⟩
      by_cases hd : ∀ i, mask i = true → laneDone (target i) tol (s i)
        (energyStep false (U i) (C i) (target i) (s i))
      · exact hdone f s hs hd
      · have hspec := fun i hi => energy_step_spec false (U i) (C i) (target i) (Ts i) (m i) (L i)
          _ (q i) (hE i hi) (s i) (hs i hi)
        obtain ⟨T, hT, hacc⟩ := ih f (fun i => q i * E i)
          (fun i => energyStep false (U i) (C i) (target i) (s i)) (fun i hi => (hspec i hi).1)
          (fun i hi => by
            have hq0 : 0 ≤ q i := le_trans (by norm_num) (hE i hi).1.2.1
            have h1 := hE1 i hi
            have h2 := hE0 i hi
            refine le_trans (hspec i hi).2.2 (max_le (mul_le_mul_of_nonneg_left h2 hq0) ?_)
            linarith)
          (fun i hi => by
            have hq0 : 0 ≤ q i := le_trans (by norm_num) (hE i hi).1.2.1
            have hq4 := (hE i hi).1.2.2
            have h1 := hE1 i hi
            have h2 : 0 ≤ E i := le_trans (abs_nonneg _) (hE0 i hi)
            have h3 : q i * E i ≤ E i := by nlinarith
            have h4 : (1 - q i) * (q i * E i) ≤ (1 - q i) * E i :=
              mul_le_mul_of_nonneg_left h3 (by linarith)
            exact le_trans h4 h1)
          (fun i hi => by
            have := hsmall i hi
            rw [pow_succ, mul_assoc] at this
            exact this) (by omega)
        refine ⟨T, ?_, hacc⟩
        simp only [newtonLanes, hor]
        rw [if_neg hd]
        exact hT
  have hphase1 : ∀ (k fuel : ℕ) (s : ι → NewtonState K),
      (∀ i, mask i = true → NewtonInv (U i) (C i) (Ts i) |T0 i - Ts i| (s i)) →
      (∀ i, mask i = true → |(s i).T - Ts i| ≤ 100 / (1 - q i) + 100 * k) → k + n2 + 1 ≤ fuel →
      ∃ T, newtonLanes mask U C target tol fuel s = some T ∧
      (∀ i, mask i = true → NewtonAccuracy (target i) (Ts i) |T0 i - Ts i| (m i) (L i) (q i) tol (T i)) ∧
      ∀ i, mask i = false → T i = 300 := by
    have hE0 : ∀ i, mask i = true → (1 - q i) * (100 / (1 - q i)) = 100 := fun i hi => by
      have hq4 := (hE i hi).1.2.2
      field_simp [show (1 - q i) ≠ 0 by intro h; linarith]
    intro k
    induction k with
    | zero =>
      intro fuel s hs hb hf
      exact hphase2 n2 fuel (fun i => 100 / (1 - q i)) s hs (fun i hi => by simpa using hb i hi)
        (fun i hi => (hE0 i hi).le) hn2 (by omega)
    | succ k ih =>
      intro fuel s hs hb hf
      obtain ⟨f, rfl⟩ : ∃ f, fuel = f + 1 := ⟨fuel - 1, by omega⟩
      by_cases hd : ∀ i, mask i = true → laneDone (target i) tol (s i)
        (energyStep false (U i) (C i) (target i) (s i))
      · exact hdone f s hs hd
      · have hspec := fun i hi => energy_step_spec false (U i) (C i) (target i) (Ts i) (m i) (L i)
          _ (q i) (hE i hi) (s i) (hs i hi)
        obtain ⟨T, hT, hacc⟩ := ih f
          (fun i => energyStep false (U i) (C i) (target i) (s i)) (fun i hi => (hspec i hi).1)
          (fun i hi => by
            have hq0 : 0 ≤ q i := le_trans (by norm_num) (hE i hi).1.2.1
            have hq4 := (hE i hi).1.2.2
            have hbi := hb i hi
            have hEi := hE0 i hi
            push_cast at hbi
            refine le_trans (hspec i hi).2.2 (max_le ?_ (by linarith))
            have hpos : 0 < 100 / (1 - q i) := div_pos (by norm_num) (by linarith)
            rcases le_total |(s i).T - Ts i| (100 / (1 - q i)) with h | h
            · have h1 := mul_le_mul_of_nonneg_left h hq0
              have h2 : (0 : K) ≤ 100 * k := by positivity
              nlinarith
            · have h1 : (1 - q i) * (100 / (1 - q i)) ≤ (1 - q i) * |(s i).T - Ts i| :=
                mul_le_mul_of_nonneg_left h (by linarith)
              rw [hEi] at h1
              linarith) (by omega)
        refine ⟨T, ?_, hacc⟩
        simp only [newtonLanes, hor]
        rw [if_neg hd]
        exact hT
  exact hphase1 n1 1000 _ (fun i _ => energy_init_inv _ _ _ _ _ le_rfl) hn1 hn

end

/-! ### The bracket -/

section
variable {K : Type*} [Field K] [LinearOrder K] [IsStrictOrderedRing K]

/-- The state after `n` passes. -/
def newtonIter (sticky : Bool) (U C : K → K) (target T0 : K) (n : ℕ) : NewtonState K := (energyStep sticky U C target)^[n] (newtonInit U C T0)

omit [IsStrictOrderedRing K] in
theorem newtonIter_succ (b : Bool) (U C : K → K) (target T0 : K) (n : ℕ) :
    newtonIter b U C target T0 (n + 1) = energyStep b U C target (newtonIter b U C target T0 n) := Function.iterate_succ_apply' _ _ _

omit [IsStrictOrderedRing K] in
/-- The bracket is the best that was seen. Whatever the energy curve and the heat capacities are: after any number of passes the lower end of the bracket is a temperature that was tried, its
energy is the one reported there, and if any temperature that was tried lies below the target then so does the lower end, and none lies closer to the target; likewise the upper end. (A start at the target is
excluded: there the iteration has nothing to do.) -/
theorem newton_bracket_best (b : Bool) (U C : K → K) (target T0 : K) (h0 : U T0 ≠ target) (n : ℕ) :
    let s := newtonIter b U C target T0 n
    let tried := fun k => (newtonIter b U C target T0 k).T
    (s.Ubot = U s.Tbot ∧ (∃ k ≤ n, s.Tbot = tried k) ∧ ∀ k ≤ n, U (tried k) < target → s.Ubot < target ∧ U (tried k) ≤ s.Ubot) ∧
    (s.Utop = U s.Ttop ∧ (∃ k ≤ n, s.Ttop = tried k) ∧ ∀ k ≤ n, target < U (tried k) → target < s.Utop ∧ s.Utop ≤ U (tried k)) := by
  have key : ∀ n, (newtonIter b U C target T0 n).Ubot ≠ target ∧ (newtonIter b U C target T0 n).Utop ≠ target := by
    intro n
    induction n with
    | zero => exact ⟨h0, h0⟩
    | succ n ih =>
      rw [newtonIter_succ]
      constructor
      · show (if _ then _ else _) ≠ target
        split_ifs with h
        · exact ne_of_lt h.1
        · exact ih.1
      · show (if _ then _ else _) ≠ target
        split_ifs with h
        · exact ne_of_gt h.1
        · exact ih.2
  induction n with
  | zero =>
    refine ⟨⟨rfl, ⟨0, le_rfl, rfl⟩, fun k hk h => ?_⟩, ⟨rfl, ⟨0, le_rfl, rfl⟩, fun k hk h => ?_⟩⟩
    · obtain rfl : k = 0 := by omega
      exact ⟨h, le_rfl⟩
    · obtain rfl : k = 0 := by omega
      exact ⟨h, le_rfl⟩
  | succ n ih =>
    obtain ⟨⟨b1, ⟨kb, hkb, b2⟩, b3⟩, ⟨t1, ⟨kt, hkt, t2⟩, t3⟩⟩ := ih
    have hnb := (key n).1
    have hnt := (key n).2
    intro s tried
    have hT : tried (n + 1) = s.T := rfl
    have hs : s = energyStep b U C target (newtonIter b U C target T0 n) := newtonIter_succ b U C target T0 n
    generalize newtonIter b U C target T0 n = r at *
    have hUn : ∀ x, (energyStep b U C target r).T = x → (energyStep b U C target r).Ubot = (if U x < target ∧ (r.Ubot > target ∨ U x > r.Ubot) then U x else r.Ubot)
        ∧ (energyStep b U C target r).Tbot = (if U x < target ∧ (r.Ubot > target ∨ U x > r.Ubot) then x else r.Tbot)
        ∧ (energyStep b U C target r).Utop = (if U x > target ∧ (r.Utop < target ∨ U x < r.Utop) then U x else r.Utop)
        ∧ (energyStep b U C target r).Ttop = (if U x > target ∧ (r.Utop < target ∨ U x < r.Utop) then x else r.Ttop) := by
      rintro x rfl; exact ⟨rfl, rfl, rfl, rfl⟩
    obtain ⟨e1, e2, e3, e4⟩ := hUn s.T (by rw [hs])
    rw [← hs] at e1 e2 e3 e4
    constructor
    · by_cases hc : U s.T < target ∧ (r.Ubot > target ∨ U s.T > r.Ubot)
      · rw [if_pos hc] at e1 e2
        refine ⟨by rw [e1, e2], ⟨n + 1, le_rfl, e2⟩, fun k hk h => ⟨by rw [e1]; exact hc.1, ?_⟩⟩
        rw [e1]
        rcases Nat.lt_or_ge n k with hkn | hkn
        · obtain rfl : k = n + 1 := by omega
          exact le_of_eq rfl
        · obtain ⟨a1, a2⟩ := b3 k hkn h
          rcases hc.2 with h' | h'
          · exact absurd h' (not_lt.mpr a1.le)
          · exact le_trans a2 h'.le
      · rw [if_neg hc] at e1 e2
        refine ⟨by rw [e1, e2]; exact b1, ⟨kb, by omega, by rw [e2]; exact b2⟩, fun k hk h => ?_⟩
        rw [e1]
        rcases Nat.lt_or_ge n k with hkn | hkn
        · obtain rfl : k = n + 1 := by omega
          rw [hT] at h ⊢
          have h' := not_and.mp hc h
          push Not at h'
          exact ⟨lt_of_le_of_ne h'.1 hnb, h'.2⟩
        · exact b3 k hkn h
    · by_cases hc : U s.T > target ∧ (r.Utop < target ∨ U s.T < r.Utop)
      · rw [if_pos hc] at e3 e4
        refine ⟨by rw [e3, e4], ⟨n + 1, le_rfl, e4⟩, fun k hk h => ⟨by rw [e3]; exact hc.1, ?_⟩⟩
        rw [e3]
        rcases Nat.lt_or_ge n k with hkn | hkn
        · obtain rfl : k = n + 1 := by omega
          exact le_of_eq rfl
        · obtain ⟨a1, a2⟩ := t3 k hkn h
          rcases hc.2 with h' | h'
          · exact absurd h' (not_lt.mpr a1.le)
          · exact le_trans h'.le a2
      · rw [if_neg hc] at e3 e4
        refine ⟨by rw [e3, e4]; exact t1, ⟨kt, by omega, by rw [e4]; exact t2⟩, fun k hk h => ?_⟩
        rw [e3]
        rcases Nat.lt_or_ge n k with hkn | hkn
        · obtain rfl : k = n + 1 := by omega
          rw [hT] at h ⊢
          have h' := not_and.mp hc h
          push Not at h'
          exact ⟨lt_of_le_of_ne h'.1 (Ne.symm hnt), h'.2⟩
        · exact t3 k hkn h

/-- The iteration never leaves the bracket. Let the energy increase with the temperature and the heat capacities be positive, but not necessarily its slopes. As soon as temperatures on both sides of the target have been
tried, all later temperatures lie between the best of them. -/
theorem newton_stays_in_bracket (b : Bool) (U C : K → K) (target T0 : K) (hU : StrictMono U) (hC : ∀ T, 0 < C T) (h0 : U T0 ≠ target) (i j n : ℕ)
    (hi : U (newtonIter b U C target T0 i).T < target) (hj : target < U (newtonIter b U C target T0 j).T) (hin : i ≤ n) (hjn : j ≤ n) (m : ℕ) (hm : n ≤ m) :
    (newtonIter b U C target T0 n).Tbot ≤ (newtonIter b U C target T0 m).T ∧ (newtonIter b U C target T0 m).T ≤ (newtonIter b U C target T0 n).Ttop := by
  -- the current temperature is never worse than the bracket
  have key : ∀ n, (newtonIter b U C target T0 n).U = U (newtonIter b U C target T0 n).T ∧ (newtonIter b U C target T0 n).C = C (newtonIter b U C target T0 n).T
      ∧ (newtonIter b U C target T0 n).unstable = false
      ∧ ((newtonIter b U C target T0 n).Ubot < target → (newtonIter b U C target T0 n).Tbot ≤ (newtonIter b U C target T0 n).T)
      ∧ (target < (newtonIter b U C target T0 n).Utop → (newtonIter b U C target T0 n).T ≤ (newtonIter b U C target T0 n).Ttop) := by
    intro n
    induction n with
    | zero => exact ⟨rfl, rfl, rfl, fun _ => le_rfl, fun _ => le_rfl⟩
    | succ n ih =>
      obtain ⟨i1, i2, i3, i4, i5⟩ := ih
      obtain ⟨⟨b1, -, b3⟩, ⟨t1, -, t3⟩⟩ := newton_bracket_best b U C target T0 h0 n
      have b3' := b3 n le_rfl
      have t3' := t3 n le_rfl
      rw [newtonIter_succ]
      generalize newtonIter b U C target T0 n = r at *
      have hun : ((b && r.unstable) || decide (r.C < 0)) = false := by
        rw [i3, i2]; simp [(hC r.T).le]
      have hbk := newtonBackoff_stable C r.T 9 (r.T + newtonStepSize target r false) (newtonStepSize target r false) (hC _).le
      have hT : (energyStep b U C target r).T = r.T + newtonStepSize target r false := by
        show (newtonBackoff C r.T 10 _ _).1 = _
        rw [hun, hbk]
      refine ⟨rfl, rfl, hun, ?_, ?_⟩
      · have e1 : (energyStep b U C target r).Ubot = (if U (energyStep b U C target r).T < target ∧ (r.Ubot > target ∨ U (energyStep b U C target r).T > r.Ubot) then U (energyStep b U C target r).T else r.Ubot) := rfl
        have e2 : (energyStep b U C target r).Tbot = (if U (energyStep b U C target r).T < target ∧ (r.Ubot > target ∨ U (energyStep b U C target r).T > r.Ubot) then (energyStep b U C target r).T else r.Tbot) := rfl
        rw [e1, e2]
        split_ifs with hc
        · intro _; exact le_rfl
        · intro hb
          rcases not_and_or.mp hc with h | h
          · -- the new temperature is not below the target
            push Not at h
            have : r.Tbot < (energyStep b U C target r).T := hU.lt_iff_lt.mp (by rw [← b1]; exact lt_of_lt_of_le hb h)
            exact this.le
          · push Not at h
            -- the new temperature is below the target, but not better than the bracket
            have hle : (energyStep b U C target r).T ≤ r.Tbot := hU.le_iff_le.mp (by rw [← b1]; exact h.2)
            rw [hT] at hle ⊢
            -- the step cannot cross the lower end
            have hx := i4 hb
            rcases le_or_gt target (U r.T) with h' | h'
            · have hlt : r.Tbot < r.T := hU.lt_iff_lt.mp (by rw [← b1]; linarith)
              have hraw : (target - r.U) / r.C ≤ 0 := div_nonpos_of_nonpos_of_nonneg (by rw [i1]; linarith) (by rw [i2]; exact (hC _).le)
              unfold newtonStepSize
              dsimp only
              generalize (target - r.U) / r.C = x at hraw
              have hd : max (-100) (min 100 x) ≤ 0 := max_le (by norm_num) (le_trans (min_le_right _ _) hraw)
              generalize max (-100) (min 100 x) = d at hd
              simp only [hd, and_true, or_true, if_true]
              split_ifs with hl
              · linarith
              · have hl' := not_and.mp hl hb
                linarith
            · have hraw : 0 < (target - r.U) / r.C := div_pos (by rw [i1]; linarith) (by rw [i2]; exact hC _)
              unfold newtonStepSize
              dsimp only
              generalize (target - r.U) / r.C = x at hraw
              have hd : 0 < max (-100) (min 100 x) := lt_max_of_lt_right (lt_min (by norm_num) hraw)
              generalize max (-100) (min 100 x) = d at hd
              have hn : ¬ ((d > 0 ∧ false = true) ∨ (d ≤ 0 ∧ false = false)) := by
                rintro (h | h)
                · cases h.2
                · linarith [h.1]
              rw [if_neg hn]
              split_ifs with hl
              · have : r.T < r.Ttop := hU.lt_iff_lt.mp (by rw [← t1]; linarith [hl.1])
                linarith
              · linarith
      · have e1 : (energyStep b U C target r).Utop = (if U (energyStep b U C target r).T > target ∧ (r.Utop < target ∨ U (energyStep b U C target r).T < r.Utop) then U (energyStep b U C target r).T else r.Utop) := rfl
        have e2 : (energyStep b U C target r).Ttop = (if U (energyStep b U C target r).T > target ∧ (r.Utop < target ∨ U (energyStep b U C target r).T < r.Utop) then (energyStep b U C target r).T else r.Ttop) := rfl
        rw [e1, e2]
        split_ifs with hc
        · intro _; exact le_rfl
        · intro hb
          rcases not_and_or.mp hc with h | h
          · push Not at h
            have : (energyStep b U C target r).T < r.Ttop := hU.lt_iff_lt.mp (by rw [← t1]; exact lt_of_le_of_lt h hb)
            exact this.le
          · push Not at h
            have hle : r.Ttop ≤ (energyStep b U C target r).T := hU.le_iff_le.mp (by rw [← t1]; exact h.2)
            rw [hT] at hle ⊢
            have hx := i5 hb
            rcases le_or_gt target (U r.T) with h' | h'
            · have hraw : (target - r.U) / r.C ≤ 0 := div_nonpos_of_nonpos_of_nonneg (by rw [i1]; linarith) (by rw [i2]; exact (hC _).le)
              unfold newtonStepSize
              dsimp only
              generalize (target - r.U) / r.C = x at hraw
              have hd : max (-100) (min 100 x) ≤ 0 := max_le (by norm_num) (le_trans (min_le_right _ _) hraw)
              generalize max (-100) (min 100 x) = d at hd
              simp only [hd, and_true, or_true, if_true]
              split_ifs with hl
              · have : r.Tbot < r.T := hU.lt_iff_lt.mp (by rw [← b1]; linarith [hl.1])
                linarith
              · linarith
            · have hlt : r.T < r.Ttop := hU.lt_iff_lt.mp (by rw [← t1]; linarith)
              have hraw : 0 < (target - r.U) / r.C := div_pos (by rw [i1]; linarith) (by rw [i2]; exact hC _)
              unfold newtonStepSize
              dsimp only
              generalize (target - r.U) / r.C = x at hraw
              have hd : 0 < max (-100) (min 100 x) := lt_max_of_lt_right (lt_min (by norm_num) hraw)
              generalize max (-100) (min 100 x) = d at hd
              have hn : ¬ ((d > 0 ∧ false = true) ∨ (d ≤ 0 ∧ false = false)) := by
                rintro (h | h)
                · cases h.2
                · linarith [h.1]
              rw [if_neg hn]
              split_ifs with hl
              · linarith
              · have hl' := not_and.mp hl hb
                linarith
  obtain ⟨⟨b1, ⟨kb, hkb, b2⟩, b3⟩, ⟨t1, ⟨kt, hkt, t2⟩, t3⟩⟩ := newton_bracket_best b U C target T0 h0 n
  obtain ⟨⟨b1', -, b3'⟩, ⟨t1', -, t3'⟩⟩ := newton_bracket_best b U C target T0 h0 m
  have hbn := (b3 i hin hi).1
  have htn := (t3 j hjn hj).1
  obtain ⟨c1, c2⟩ := b3' kb (by omega) (by rw [← b2, ← b1]; exact hbn)
  obtain ⟨d1, d2⟩ := t3' kt (by omega) (by rw [← t2, ← t1]; exact htn)
  obtain ⟨-, -, -, k4, k5⟩ := key m
  rw [← b2, b1'] at c2
  rw [← t2, t1'] at d2
  exact ⟨le_trans (hU.le_iff_le.mp c2) (k4 c1), le_trans (k5 d1) (hU.le_iff_le.mp d2)⟩

end

/-- Non-vacuity: with a reported heat capacity that is too small by a factor two the iteration for the energy `T` overshoots in the first pass, and then works with temperatures on both sides. -/
example : StrictMono (fun T : ℚ => T) ∧ (newtonIter true (fun T : ℚ => T) (fun _ => 1 / 2) 340 300 0).T < 340 ∧ 340 < (newtonIter true (fun T : ℚ => T) (fun _ => 1 / 2) 340 300 1).T :=
  ⟨strictMono_id, by decide +kernel, by decide +kernel⟩

/-- Non-vacuity: a curve whose heat capacity rises from 700 to 1000 with a kink, the target 1800 K
away, met from 300 K. -/
example : ∃ T, setEnergy (fun T : ℚ => if T ≤ 1000 then 700 * T else 700000 + 1000 * (T - 1000))
    (fun T => if T ≤ 1000 then 700 else 1000) 1800000 (1 / 1000000) 300 = some T ∧
    NewtonAccuracy 1800000 2100 |300 - 2100| 700 1000 (1 / 2) (1 / 1000000) T := by
  refine set_energy_converges _ _ _ 2100 700 1000 (1 / 2) _ _ 18 40
    (energy_curve_of_slopes _ _ _ _ _ _ _ _ (by norm_num)
      ⟨by norm_num, by norm_num, by norm_num, by norm_num⟩ ?_) (by norm_num) (by norm_num) ?_ ?_
    (by norm_num)
  · intro T hT
    rw [show |(300 : ℚ) - 2100| = 1800 by rw [abs_of_neg (by norm_num)]; norm_num] at hT
    split_ifs with h
    · refine ⟨by norm_num, fun h1 => ?_, fun h1 => ?_⟩
      · constructor <;> linarith
      · constructor <;> linarith
    · refine ⟨by norm_num, fun h1 => ?_, fun h1 => ?_⟩
      · constructor <;> linarith
      · constructor <;> linarith
  · rw [show |(300 : ℚ) - 2100| = 1800 by rw [abs_of_neg (by norm_num)]; norm_num]
    norm_num
  · norm_num

theorem energy_far {K : Type*} [Field K] [LinearOrder K] [IsStrictOrderedRing K]
    (c Ts : K) (hc : 1 / 100000 ≤ c) :
    ∀ (fuel : ℕ) (s : NewtonState K), s.U = c * s.T → s.C = c → s.Utop ≤ c * Ts →
      s.unstable = false → 0 ≤ s.T → s.T + 100 * fuel ≤ 105000 → s.T + 100 * fuel + 1 < Ts →
      energyLoop (fun T => c * T) (fun _ => c) (c * Ts) (1 / 1000000) fuel s = none := by
  have hc0 : 0 < c := lt_of_lt_of_le (by norm_num) hc
  intro fuel
  induction fuel with
  | zero => intros; rfl
  | succ n ih =>
    intro s hU hC hUt hun hT hle hlt
    push_cast at hle hlt
    have hn : (0 : K) ≤ n := Nat.cast_nonneg n
    have hsz : newtonStepSize (c * Ts) s false = 100 := by
      have hr : (c * Ts - s.U) / s.C = Ts - s.T := by
        rw [hU, hC]
        field_simp
      unfold newtonStepSize
      rw [hr, min_eq_left (by linarith), max_eq_right (by norm_num)]
      have h1 : ¬ ((100 : K) ≤ 0) := by norm_num
      have h2 : ¬ (s.Utop > c * Ts) := not_lt.mpr hUt
      simp [h1, h2]
    have hstep : ∃ s', energyStep true (fun T => c * T) (fun _ => c) (c * Ts) s = s' ∧
        s'.T = s.T + 100 ∧ s'.U = c * (s.T + 100) ∧ s'.C = c ∧ s'.Utop ≤ c * Ts ∧
        s'.unstable = false ∧ s'.dT = 100 := by
      have hb := newtonBackoff_stable (fun _ => c) s.T 9 (s.T + 100) 100 hc0.le
      have hu : ((true && s.unstable) || decide (s.C < 0)) = false := by
        rw [hun, hC]
        simp [hc0.le]
      refine ⟨_, rfl, ?_, ?_, rfl, ?_, hu, ?_⟩
      · simp only [energyStep, hu, hsz, hb]
      · simp only [energyStep, hu, hsz, hb]
      · simp only [energyStep, hu, hsz, hb]
        have h3 : ¬ (c * (s.T + 100) > c * Ts) := by
          apply not_lt.mpr
          exact mul_le_mul_of_nonneg_left (by linarith) hc0.le
        simp only [h3, false_and, if_false]
        exact hUt
      · simp only [energyStep, hu, hsz, hb]
    obtain ⟨s', hs', hT', hU', hC', hUt', hun', hdT'⟩ := hstep
    have hTs : 0 < Ts := by linarith
    have hden : max |c * Ts| (max |s.C| (1 / 100000) * (1 / 1000000)) = c * Ts := by
      rw [abs_of_pos (mul_pos hc0 hTs), hC, abs_of_pos hc0, max_eq_left hc]
      apply max_eq_left
      nlinarith
    have hd : ¬ newtonDone (c * Ts) (1 / 1000000) s s' := by
      have hgap : 1 < Ts - (s.T + 100) := by linarith
      rintro (h | h | h)
      · rw [hU'] at h
        have := mul_left_cancel₀ (ne_of_gt hc0) h
        linarith
      · rw [hden, hU', ← mul_sub, mul_div_mul_left _ _ (ne_of_gt hc0),
          abs_of_pos (div_pos (by linarith) hTs), div_lt_iff₀ hTs] at h
        linarith
      · rw [hdT', abs_of_pos (by norm_num)] at h
        norm_num at h
    simp only [energyLoop, hs', hd, if_false]
    exact ih s' (by rw [hU', hT']) hC' hUt' hun' (by rw [hT']; linarith) (by rw [hT']; linarith)
      (by rw [hT']; linarith)

/-- **C126** The steps are limited to 100 K and there are 1000 of them: a target which is more than
100001 K away raises an exception even when the heat capacity is constant. -/
theorem set_energy_too_far {K : Type*} [Field K] [LinearOrder K] [IsStrictOrderedRing K]
    (c T0 Ts : K) (hc : 1 / 100000 ≤ c) (h0 : 0 ≤ T0) (h1 : T0 ≤ 5000) (hfar : T0 + 100001 < Ts) :
    setEnergy (fun T => c * T) (fun _ => c) (c * Ts) (1 / 1000000) T0 = none := by
  have hc0 : 0 < c := lt_of_lt_of_le (by norm_num) hc
  refine energy_far c Ts hc 1000 _ rfl rfl ?_ rfl h0 ?_ ?_
  · exact mul_le_mul_of_nonneg_left (by linarith) hc0.le
  · show T0 + 100 * ((1000 : ℕ) : K) ≤ 105000
    push_cast
    linarith
  · show T0 + 100 * ((1000 : ℕ) : K) + 1 < Ts
    push_cast
    linarith

/-- Non-vacuity: air at a million kelvin. -/
example : setEnergy (fun T : ℚ => 718 * T) (fun _ => 718) (718 * 1000000) (1 / 1000000) 300 = none :=
  set_energy_too_far 718 300 1000000 (by norm_num) (by norm_num) (by norm_num) (by norm_num)

/-- **C126** A jump of the energy curve, as the tables have it at 1000 K, makes the iteration accept
a temperature which misses the target: here by five energy units where the tolerance asks for
`1e-11` relative. No exception is raised. -/
theorem set_energy_gap :
    ∃ T : ℚ, setEnergy (fun T => if T ≤ 1000 then T else T + 10) (fun _ => 1) 1005 (1 / 1000000) 300 =
      some T ∧ 5 < (if T ≤ 1000 then T else T + 10) - 1005 := by
  have h : (match setEnergy (fun T : ℚ => if T ≤ 1000 then T else T + 10) (fun _ => 1) 1005
      (1 / 1000000) 300 with
    | some T => decide (5 < (if T ≤ 1000 then T else T + 10) - 1005)
    | none => false) = true := by decide +kernel
  revert h
  cases setEnergy (fun T : ℚ => if T ≤ 1000 then T else T + 10) (fun _ => 1) 1005
      (1 / 1000000) 300 with
  | none => simp
  | some T => intro h; exact ⟨T, rfl, by simpa using h⟩

end Fub
