import Verif.Model.Massflow
import Verif.Props.GasExact
import Mathlib.Topology.Order.IntermediateValue
import Mathlib.Topology.UniformSpace.HeineCantor
import Mathlib.Topology.Algebra.Order.LiminfLimsup

/-! Properties of the boundary condition that requires a mass flow by the exact solution of a Riemann problem (C83). -/

namespace Fub
open Set Finset
variable {d : ℕ}

/-! ### Bisection -/

theorem bisectLoop_spec (f : ℝ → ℝ) (tol : ℝ → ℝ → Bool) (n : ℕ) : ∀ lo hi, lo ≤ hi → 0 < f lo → f hi < 0 →
    let r := bisectLoop f tol n lo hi
    lo ≤ r.1 ∧ r.1 ≤ r.2 ∧ r.2 ≤ hi ∧ 0 ≤ f r.1 ∧ f r.2 ≤ 0 ∧ (r.2 - r.1 ≤ (hi - lo) / 2 ^ n ∨ tol r.1 r.2 = true) := by
  induction n with
  | zero => intro lo hi h h1 h2; simp [bisectLoop, h, h1.le, h2.le]
  | succ n ih =>
    intro lo hi h h1 h2
    simp only [bisectLoop]
    have hpow : (0 : ℝ) < 2 ^ n := by positivity
    have hpow' : (0 : ℝ) < 2 ^ (n + 1) := by positivity
    split_ifs with t z m
    · exact ⟨le_rfl, h, le_rfl, h1.le, h2.le, Or.inr t⟩
    · refine ⟨by simp only; linarith, le_rfl, by simp only; linarith, z.ge, z.le, Or.inl ?_⟩
      simp only [sub_self]
      exact div_nonneg (sub_nonneg.2 h) hpow'.le
    · have hm : f ((lo + hi) / 2) < 0 := by
        by_contra hn
        exact absurd m (not_lt.2 (mul_nonneg (not_lt.1 hn) h1.le))
      obtain ⟨a, b, c, e, g, w⟩ := ih lo ((lo + hi) / 2) (by linarith) h1 hm
      refine ⟨a, b, by linarith, e, g, w.imp_left fun w => w.trans (le_of_eq ?_)⟩
      rw [pow_succ]; field_simp; ring
    · have hm : 0 < f ((lo + hi) / 2) := by
        rcases lt_trichotomy (f ((lo + hi) / 2)) 0 with hl | hl | hl
        · exact absurd (mul_neg_of_neg_of_pos hl h1) m
        · exact absurd hl z
        · exact hl
      obtain ⟨a, b, c, e, g, w⟩ := ih ((lo + hi) / 2) hi (by linarith) hm h2
      refine ⟨by linarith, b, c, e, g, w.imp_left fun w => w.trans (le_of_eq ?_)⟩
      rw [pow_succ]; field_simp; ring

/-- Started with a change of sign the bisection succeeds and encloses a change of sign in an interval that is short or accepted by the tolerance. -/
theorem bisect_spec (f : ℝ → ℝ) (tol : ℝ → ℝ → Bool) (n : ℕ) (lo hi : ℝ) (h : lo < hi) (h1 : 0 ≤ f lo) (h2 : f hi ≤ 0) :
    ∃ a b, bisect f tol n lo hi = some (a, b) ∧ lo ≤ a ∧ a ≤ b ∧ b ≤ hi ∧ 0 ≤ f a ∧ f b ≤ 0 ∧ (b - a ≤ (hi - lo) / 2 ^ n ∨ tol a b = true) := by
  have hw : 0 ≤ (hi - lo) / 2 ^ n := div_nonneg (sub_nonneg.2 h.le) (by positivity)
  rw [bisect]
  split_ifs with z1 z2 z3 z4
  · exact ⟨_, _, rfl, le_rfl, le_rfl, h.le, z1.ge, z1.le, Or.inl (by simpa using hw)⟩
  · exact ⟨_, _, rfl, h.le, le_rfl, le_rfl, z2.ge, z2.le, Or.inl (by simpa using hw)⟩
  · linarith
  · have : f lo * f hi < 0 := mul_neg_of_pos_of_neg (lt_of_le_of_ne h1 (Ne.symm z1)) (lt_of_le_of_ne h2 z2)
    linarith
  · exact ⟨_, _, rfl, bisectLoop_spec f tol n lo hi h.le (lt_of_le_of_ne h1 (Ne.symm z1)) (lt_of_le_of_ne h2 z2)⟩

/-! ### The search for a change of sign -/

theorem mfLower_spec (f : ℝ → ℝ) (n : ℕ) : ∀ x, 0 < x →
    (∀ y, mfLower f n x = some y → x / 2 ^ n ≤ y ∧ y < x ∧ 0 ≤ f y) ∧ ((∃ k, 1 ≤ k ∧ k ≤ n ∧ 0 ≤ f (x / 2 ^ k)) ↔ (mfLower f n x).isSome) := by
  induction n with
  | zero => intro x hx; refine ⟨fun y h => by simp [mfLower] at h, ?_⟩; simp only [mfLower, Option.isSome_none, Bool.false_eq_true, iff_false]; rintro ⟨k, a, b, -⟩; omega
  | succ n ih =>
    intro x hx
    obtain ⟨h1, h2⟩ := ih (x * (1 / 2)) (by linarith)
    have hp : (1 : ℝ) ≤ 2 ^ n := one_le_pow₀ (by norm_num)
    have e : ∀ k : ℕ, x * (1 / 2) / 2 ^ k = x / 2 ^ (k + 1) := fun k => by rw [pow_succ]; field_simp
    simp only [mfLower]
    split_ifs with hn
    · refine ⟨fun y hy => ?_, ?_⟩
      · obtain ⟨a, b, c⟩ := h1 y hy
        rw [e] at a
        exact ⟨a, by linarith, c⟩
      · rw [← h2]
        constructor
        · rintro ⟨k, a, b, c⟩
          obtain ⟨k, rfl⟩ : ∃ j, k = j + 1 := ⟨k - 1, by omega⟩
          rcases Nat.eq_zero_or_pos k with rfl | hk
          · have : x / 2 ^ (0 + 1) = x * (1 / 2) := by norm_num; ring
            rw [this] at c; linarith
          · exact ⟨k, hk, by omega, by rw [e]; exact c⟩
        · rintro ⟨k, a, b, c⟩
          exact ⟨k + 1, by omega, by omega, by rw [← e]; exact c⟩
    · refine ⟨fun y hy => ?_, by simp only [Option.isSome_some, iff_true]; exact ⟨1, le_rfl, by omega, by rw [pow_one, div_eq_mul_one_div]; linarith⟩⟩
      obtain rfl := Option.some.inj hy
      refine ⟨?_, by linarith, not_lt.1 hn⟩
      rw [← e]
      exact div_le_self (by linarith) hp

theorem mfUpper_spec (f : ℝ → ℝ) (n : ℕ) : ∀ x, 0 < x →
    (∀ y, mfUpper f n x = some y → y ≤ x * 2 ^ n ∧ x < y ∧ f y ≤ 0) ∧ ((∃ k, 1 ≤ k ∧ k ≤ n ∧ f (x * 2 ^ k) ≤ 0) ↔ (mfUpper f n x).isSome) := by
  induction n with
  | zero => intro x hx; refine ⟨fun y h => by simp [mfUpper] at h, ?_⟩; simp only [mfUpper, Option.isSome_none, Bool.false_eq_true, iff_false]; rintro ⟨k, a, b, -⟩; omega
  | succ n ih =>
    intro x hx
    obtain ⟨h1, h2⟩ := ih (x * 2) (by linarith)
    have hp : (1 : ℝ) ≤ 2 ^ n := one_le_pow₀ (by norm_num)
    have e : ∀ k : ℕ, x * 2 * 2 ^ k = x * 2 ^ (k + 1) := fun k => by rw [pow_succ]; ring
    simp only [mfUpper]
    split_ifs with hn
    · refine ⟨fun y hy => ?_, ?_⟩
      · obtain ⟨a, b, c⟩ := h1 y hy
        rw [e] at a
        exact ⟨a, by linarith, c⟩
      · rw [← h2]
        constructor
        · rintro ⟨k, a, b, c⟩
          obtain ⟨k, rfl⟩ : ∃ j, k = j + 1 := ⟨k - 1, by omega⟩
          rcases Nat.eq_zero_or_pos k with rfl | hk
          · have : x * 2 ^ (0 + 1) = x * 2 := by norm_num
            rw [this] at c; linarith
          · exact ⟨k, hk, by omega, by rw [e]; exact c⟩
        · rintro ⟨k, a, b, c⟩
          exact ⟨k + 1, by omega, by omega, by rw [← e]; exact c⟩
    · refine ⟨fun y hy => ?_, by simp only [Option.isSome_some, iff_true]; exact ⟨1, le_rfl, by omega, by rw [pow_one]; linarith⟩⟩
      obtain rfl := Option.some.inj hy
      refine ⟨?_, by linarith, not_lt.1 hn⟩
      rw [← e]
      nlinarith

theorem mfBounds_spec (f : ℝ → ℝ) (x lo hi : ℝ) (hx : 0 < x) (h : mfBounds f x = some (lo, hi)) :
    x / 4096 ≤ lo ∧ lo < hi ∧ hi ≤ x * 4096 ∧ 0 ≤ f lo ∧ f hi ≤ 0 := by
  have e : (2 : ℝ) ^ 12 = 4096 := by norm_num
  rw [mfBounds] at h
  split_ifs at h with hn
  · obtain ⟨y, hy, h⟩ := Option.map_eq_some_iff.1 h
    obtain ⟨rfl, rfl⟩ := Prod.ext_iff.1 h
    obtain ⟨a, b, c⟩ := (mfLower_spec f 12 x hx).1 y hy
    rw [e] at a
    exact ⟨a, b, by simp only; linarith, c, hn.le⟩
  · obtain ⟨y, hy, h⟩ := Option.map_eq_some_iff.1 h
    obtain ⟨rfl, rfl⟩ := Prod.ext_iff.1 h
    obtain ⟨a, b, c⟩ := (mfUpper_spec f 12 x hx).1 y hy
    rw [e] at a
    exact ⟨by simp only; linarith, b, a, not_lt.1 hn, c⟩

/-! ### The wave curve -/

/-- The state behind the wave that runs into `Q` from the right and has the pressure `p` behind it. -/
noncomputable def gasBehind (eq : GasEq) (dir : Fin d) (Q : GasComplete d) (p : ℝ) : GasComplete d :=
  gasInner eq dir Q p (Q.vel dir - gasWave eq.gamma Q.density Q.pressure Q.speedOfSound p)

theorem mf_velocity (eq : GasEq) (hv : eq.Valid) (dir : Fin d) (Q : GasComplete d) (hQ : IsGasState eq Q) (p : ℝ) :
    (if p < Q.pressure then mfURar eq.gamma dir Q p else mfUShock eq.gamma dir Q p) = Q.vel dir - gasWave eq.gamma Q.density Q.pressure Q.speedOfSound p := by
  have hw := hQ.wave hv
  rcases lt_trichotomy p Q.pressure with h | h | h
  · rw [if_pos h, gasWave, if_neg (not_lt.2 h.le), mfURar, mfFRar, GasComplete.vel]
    rw [show (eq.gamma - 1) / 2 / eq.gamma = 1 / 2 * (eq.gamma - 1) / eq.gamma by ring]; ring
  · subst h
    rw [if_neg (lt_irrefl _), gasWave_self hw, mfUShock, mfFShock, GasComplete.vel]; simp
  · rw [if_neg (not_lt.2 h.le), gasWave, if_pos h, mfUShock, mfFShock, GasComplete.vel, mul_comm Q.pressure ((eq.gamma - 1) / (eq.gamma + 1))]

theorem mf_density (eq : GasEq) (hv : eq.Valid) (dir : Fin d) (Q : GasComplete d) (hQ : IsGasState eq Q) (p : ℝ) :
    (if p < Q.pressure then mfRhoRar eq.gamma Q p else mfRhoShock eq.gamma Q p) = (gasBehind eq dir Q p).density := by
  have hp := hQ.pressure_pos
  simp only [gasBehind, gasInner, exactState]
  rcases lt_trichotomy p Q.pressure with h | h | h
  · rw [if_pos h, if_neg (not_lt.2 h.le), mfRhoRar]
  · subst h
    have hg := hv.one_lt
    have hr : 0 < (eq.gamma - 1) / (eq.gamma + 1) := div_pos (by linarith) (by linarith)
    rw [if_neg (lt_irrefl _), if_neg (lt_irrefl _), mfRhoShock]
    rw [div_self hp.ne', Real.one_rpow, mul_one ((eq.gamma - 1) / (eq.gamma + 1)), div_self (by linarith)]
  · rw [if_neg (not_lt.2 h.le), if_pos h, mfRhoShock]
    rw [add_comm ((eq.gamma - 1) / (eq.gamma + 1)), mul_div_assoc]

theorem gasBehind_momentum (eq : GasEq) (hv : eq.Valid) (dir : Fin d) (Q : GasComplete d) (hQ : IsGasState eq Q) (p : ℝ) :
    (gasBehind eq dir Q p).momentum dir = (gasBehind eq dir Q p).density * (Q.vel dir - gasWave eq.gamma Q.density Q.pressure Q.speedOfSound p) := by
  simp [gasBehind, gasInner, exactState]

/-- `delta_rhou` is the mass flow behind the wave minus the required one. -/
theorem mfDelta_eq (eq : GasEq) (hv : eq.Valid) (dir : Fin d) (Q : GasComplete d) (hQ : IsGasState eq Q) (m p : ℝ) :
    mfDelta eq.gamma dir Q m p = (gasBehind eq dir Q p).momentum dir - m := by
  rw [gasBehind_momentum eq hv dir Q hQ, ← mf_density eq hv dir Q hQ, ← mf_velocity eq hv dir Q hQ, mfDelta]
  split <;> rfl

/-- `Q` and `M` are connected by a wave that runs to the left relative to the gas. -/
def LeftWave (eq : GasEq) (dir : Fin d) (Q M : GasComplete d) : Prop := (∃ s, IsGasShock dir (-1) Q M s) ∨ IsGasRar eq dir (-1) Q M

theorem gasBehind_wave (eq : GasEq) (hv : eq.Valid) (dir : Fin d) (Q : GasComplete d) (hQ : IsGasState eq Q) {p : ℝ} (hp : 0 < p) :
    IsGasState eq (gasBehind eq dir Q p) ∧ LeftWave eq dir Q (gasBehind eq dir Q p) ∧ (∀ i, i ≠ dir → (gasBehind eq dir Q p).vel i = Q.vel i) ∧ (gasBehind eq dir Q p).pressure = p := by
  obtain ⟨h1, h2, h3⟩ := gasInner_valid eq hv dir Q hQ (Q.vel dir - gasWave eq.gamma Q.density Q.pressure Q.speedOfSound p) hp
  refine ⟨h1, ?_, fun i hi => ?_, h3⟩
  · rcases lt_or_ge Q.pressure p with hc | hc
    · exact Or.inl ⟨_, (gasInner_shock eq hv dir Q hQ (Or.inr rfl) hc (by ring)).1⟩
    · exact Or.inr (gasInner_rar eq hv dir Q hQ (Or.inr rfl) hp hc (by ring)).1
  · exact (h2 i).trans (if_neg hi)

theorem gasBehind_continuous (eq : GasEq) (hv : eq.Valid) (dir : Fin d) (Q : GasComplete d) (hQ : IsGasState eq Q) :
    ContinuousOn (fun p => (gasBehind eq dir Q p).momentum dir) (Ioi 0) := by
  have hg := hv.one_lt
  have hr := hQ.density_pos
  have hP := hQ.pressure_pos
  have hk : 0 < (eq.gamma - 1) / (eq.gamma + 1) := div_pos (by linarith) (by linarith)
  have hdens : ∀ p, (gasBehind eq dir Q p).density = (max p Q.pressure / Q.pressure + (eq.gamma - 1) / (eq.gamma + 1)) / ((eq.gamma - 1) / (eq.gamma + 1) * (max p Q.pressure / Q.pressure) + 1) *
      (Q.density * (min p Q.pressure / Q.pressure) ^ (1 / eq.gamma)) := by
    intro p
    simp only [gasBehind, gasInner, exactState]
    split_ifs with h
    · rw [max_eq_left h.le, min_eq_right h.le, div_self hP.ne', Real.one_rpow]; ring
    · rw [max_eq_right (not_lt.1 h), min_eq_left (not_lt.1 h), div_self hP.ne', mul_one ((eq.gamma - 1) / (eq.gamma + 1)), add_comm ((eq.gamma - 1) / (eq.gamma + 1)), div_self (by linarith), one_mul]
  have e : (fun p => (gasBehind eq dir Q p).momentum dir) = fun p => (max p Q.pressure / Q.pressure + (eq.gamma - 1) / (eq.gamma + 1)) / ((eq.gamma - 1) / (eq.gamma + 1) * (max p Q.pressure / Q.pressure) + 1) *
      (Q.density * (min p Q.pressure / Q.pressure) ^ (1 / eq.gamma)) * (Q.vel dir - gasWave eq.gamma Q.density Q.pressure Q.speedOfSound p) := by
    funext p; rw [gasBehind_momentum eq hv dir Q hQ, hdens]
  rw [e]
  have c1 : Continuous fun p : ℝ => max p Q.pressure / Q.pressure := (continuous_id.max continuous_const).div_const _
  have c2 : Continuous fun p : ℝ => min p Q.pressure / Q.pressure := (continuous_id.min continuous_const).div_const _
  refine ContinuousOn.mul (Continuous.continuousOn (Continuous.mul ?_ ?_)) ?_
  · refine (c1.add continuous_const).div ((continuous_const.mul c1).add continuous_const) fun p => ?_
    have : 0 < max p Q.pressure / Q.pressure := div_pos (lt_of_lt_of_le hP (le_max_right _ _)) hP
    positivity
  · exact continuous_const.mul (c2.rpow_const fun p => Or.inr (by positivity))
  · exact continuousOn_const.sub fun p hp => (gasWave_deriv (hQ.wave hv) hp).continuousAt.continuousWithinAt

/-! ### The boundary state -/

/-- The returned state lies on the wave curve and its pressure in an interval with a change of sign. -/
theorem requireMassflow_eq (eq : GasEq) (hv : eq.Valid) (tol : ℝ → ℝ → Bool) (n : ℕ) (required area : ℝ) (dir : Fin d) (Q : GasComplete d) (hQ : IsGasState eq Q) :
    (mfBounds (mfDelta eq.gamma dir Q (required / area)) Q.pressure = none ∧ requireMassflow eq tol n required area dir Q = none) ∨
    ∃ a b, requireMassflow eq tol n required area dir Q = some (gasBehind eq dir Q ((a + b) / 2)) ∧ Q.pressure / 4096 ≤ a ∧ a ≤ b ∧ b ≤ Q.pressure * 4096 ∧
      required / area ≤ (gasBehind eq dir Q a).momentum dir ∧ (gasBehind eq dir Q b).momentum dir ≤ required / area ∧ (b - a ≤ Q.pressure * 4096 / 2 ^ n ∨ tol a b = true) := by
  have hp := hQ.pressure_pos
  rw [requireMassflow]
  simp only
  rcases hb : mfBounds (mfDelta eq.gamma dir Q (required / area)) Q.pressure with _ | ⟨lo, hi⟩
  · exact Or.inl ⟨rfl, rfl⟩
  · right
    obtain ⟨h1, h2, h3, h4, h5⟩ := mfBounds_spec _ _ lo hi hp hb
    obtain ⟨a, b, e, k1, k2, k3, k4, k5, k6⟩ := bisect_spec _ tol n lo hi h2 h4 h5
    rw [mfDelta_eq eq hv dir Q hQ] at k4 k5
    have hlo : 0 < lo := lt_of_lt_of_le (by positivity) h1
    refine ⟨a, b, ?_, h1.trans k1, k2, k3.trans h3, by linarith, by linarith, k6.imp_left fun k => k.trans ?_⟩
    · simp only [e]
      have ep : a + 1 / 2 * (b - a) = (a + b) / 2 := by ring
      rw [ep, mf_density eq hv dir Q hQ, mf_velocity eq hv dir Q hQ]
      congr 1
      have hpm : 0 < (a + b) / 2 := by linarith
      obtain ⟨s1, s2, s3, s4⟩ := gasBehind_wave eq hv dir Q hQ hpm
      have hv2 : ∀ i, (gasBehind eq dir Q ((a + b) / 2)).vel i = if i = dir then Q.vel dir - gasWave eq.gamma Q.density Q.pressure Q.speedOfSound ((a + b) / 2) else Q.vel i :=
        (gasInner_valid eq hv dir Q hQ _ hpm).2.1
      have hr := (gas_prim_roundtrip eq hv ⟨(gasBehind eq dir Q ((a + b) / 2)).density, fun i => if i = dir then Q.vel dir - gasWave eq.gamma Q.density Q.pressure Q.speedOfSound ((a + b) / 2) else (gasPrim Q).velocity i, (a + b) / 2⟩
        s1.density_pos hpm).1
      refine gasState_ext hr s1 rfl (fun i => ?_) s4.symm
      rw [hv2 i]
      simp only [gasFromPrim, GasComplete.vel]
      rw [mul_comm, mul_div_assoc, div_self s1.density_pos.ne', mul_one]
      rfl
    · exact div_le_div_of_nonneg_right (by linarith) (by positivity)

/-- **C83.** For every gas, state and required mass flow, if the operator returns a state: it is a state of the gas with the tangential velocities of the source that is connected to the source by a shock or a rarefaction of the left family, and
there is a state of this kind with exactly the required mass flow whose pressure differs from the returned one at most by half of the last interval. -/
theorem require_massflow (eq : GasEq) (hv : eq.Valid) (tol : ℝ → ℝ → Bool) (n : ℕ) (required area : ℝ) (ha : 0 < area) (dir : Fin d) (Q q' : GasComplete d) (hQ : IsGasState eq Q)
    (h : requireMassflow eq tol n required area dir Q = some q') :
    IsGasState eq q' ∧ LeftWave eq dir Q q' ∧ (∀ i, i ≠ dir → q'.vel i = Q.vel i) ∧
    ∃ M, IsGasState eq M ∧ LeftWave eq dir Q M ∧ (∀ i, i ≠ dir → M.vel i = Q.vel i) ∧ area * M.momentum dir = required ∧
      (|q'.pressure - M.pressure| ≤ Q.pressure * 2048 / 2 ^ n ∨ ∃ a b, tol a b = true ∧ q'.pressure = (a + b) / 2 ∧ M.pressure ∈ Icc a b) := by
  have hp := hQ.pressure_pos
  rcases requireMassflow_eq eq hv tol n required area dir Q hQ with ⟨-, hn⟩ | ⟨a, b, e, h1, h2, h3, h4, h5, h6⟩
  · rw [hn] at h; cases h
  · rw [e] at h
    obtain rfl := Option.some.inj h
    have ha0 : 0 < a := lt_of_lt_of_le (by positivity) h1
    have hpm : 0 < (a + b) / 2 := by linarith
    obtain ⟨s1, s2, s3, s4⟩ := gasBehind_wave eq hv dir Q hQ hpm
    refine ⟨s1, s2, s3, ?_⟩
    have hsub : Icc a b ⊆ Ioi 0 := fun x hx => lt_of_lt_of_le ha0 hx.1
    obtain ⟨p, hpI, hpm⟩ := intermediate_value_Icc' h2 ((gasBehind_continuous eq hv dir Q hQ).mono hsub) ⟨h5, h4⟩
    obtain ⟨m1, m2, m3, m4⟩ := gasBehind_wave eq hv dir Q hQ (hsub hpI)
    refine ⟨_, m1, m2, m3, ?_, ?_⟩
    · simp only at hpm; rw [hpm]; field_simp
    · rw [s4, m4]
      rcases h6 with h6 | h6
      · left
        have e : Q.pressure * 2048 / 2 ^ n = Q.pressure * 4096 / 2 ^ n / 2 := by ring
        rw [e, abs_le]
        constructor <;> linarith [hpI.1, hpI.2]
      · exact Or.inr ⟨a, b, h6, rfl, hpI⟩

/-- **C83 (accuracy).** For every state and every error there is a number of iterations and a width of the last interval for which the mass flow of the returned state has at most this error. -/
theorem require_massflow_accuracy (eq : GasEq) (hv : eq.Valid) (required area : ℝ) (ha : 0 < area) (dir : Fin d) (Q : GasComplete d) (hQ : IsGasState eq Q) (ε : ℝ) (hε : 0 < ε) :
    ∃ N : ℕ, ∃ δ > 0, ∀ (tol : ℝ → ℝ → Bool) (n : ℕ) (q' : GasComplete d), N ≤ n → (∀ a b, tol a b = true → |b - a| ≤ δ) → requireMassflow eq tol n required area dir Q = some q' →
      |area * q'.momentum dir - required| < ε := by
  have hp := hQ.pressure_pos
  have hc : UniformContinuousOn (fun p => (gasBehind eq dir Q p).momentum dir) (Icc (Q.pressure / 4096) (Q.pressure * 4096)) :=
    isCompact_Icc.uniformContinuousOn_of_continuous ((gasBehind_continuous eq hv dir Q hQ).mono fun x hx => lt_of_lt_of_le (by positivity) hx.1)
  rw [Metric.uniformContinuousOn_iff] at hc
  obtain ⟨δ, hδ, hu⟩ := hc (ε / area) (by positivity)
  obtain ⟨N, hN⟩ := exists_nat_gt (Q.pressure * 4096 / (δ / 2))
  refine ⟨N, δ / 2, by linarith, fun tol n q' hn ht h => ?_⟩
  have hwid : Q.pressure * 4096 / 2 ^ n ≤ δ / 2 := by
    rw [div_le_iff₀ (by positivity)]
    rw [div_lt_iff₀ (by linarith)] at hN
    have h1 : (N : ℝ) ≤ 2 ^ n := by
      have : N < 2 ^ n := lt_of_le_of_lt hn Nat.lt_two_pow_self
      exact_mod_cast this.le
    nlinarith
  rcases requireMassflow_eq eq hv tol n required area dir Q hQ with ⟨-, hn⟩ | ⟨a, b, e, h1, h2, h3, h4, h5, h6⟩
  · rw [hn] at h; cases h
  · rw [e] at h
    obtain rfl := Option.some.inj h
    have hab : b - a ≤ δ / 2 := by
      rcases h6 with h6 | h6
      · exact h6.trans hwid
      · exact (le_abs_self _).trans (ht a b h6)
    have hI : ∀ x, a ≤ x → x ≤ b → x ∈ Icc (Q.pressure / 4096) (Q.pressure * 4096) := fun x h h' => ⟨h1.trans h, h'.trans h3⟩
    have dA := hu ((a + b) / 2) (hI _ (by linarith) (by linarith)) a (hI _ le_rfl h2) (by rw [Real.dist_eq, abs_lt]; constructor <;> linarith)
    have dB := hu ((a + b) / 2) (hI _ (by linarith) (by linarith)) b (hI _ h2 le_rfl) (by rw [Real.dist_eq, abs_lt]; constructor <;> linarith)
    rw [Real.dist_eq, abs_lt] at dA dB
    have key : |(gasBehind eq dir Q ((a + b) / 2)).momentum dir - required / area| < ε / area := by
      rw [abs_lt]; constructor <;> linarith [dA.1, dA.2, dB.1, dB.2]
    rw [lt_div_iff₀ ha] at key
    have e2 : area * (gasBehind eq dir Q ((a + b) / 2)).momentum dir - required = ((gasBehind eq dir Q ((a + b) / 2)).momentum dir - required / area) * area := by field_simp
    rw [e2, abs_mul, abs_of_pos ha]
    exact key

/-- **C83 (throttling).** For `γ ≤ 2` and velocities up to thirty times the speed of sound, every nonnegative mass flow up to the one of the source is found. -/
theorem require_massflow_found (eq : GasEq) (hv : eq.Valid) (hg2 : eq.gamma ≤ 2) (tol : ℝ → ℝ → Bool) (n : ℕ) (required area : ℝ) (ha : 0 < area) (dir : Fin d) (Q : GasComplete d) (hQ : IsGasState eq Q)
    (h0 : 0 ≤ required) (h1 : required ≤ area * Q.momentum dir) (hM : Q.vel dir ≤ 30 * Q.speedOfSound) : ∃ q', requireMassflow eq tol n required area dir Q = some q' := by
  rcases requireMassflow_eq eq hv tol n required area dir Q hQ with ⟨hn, -⟩ | ⟨a, b, e, -⟩
  · exfalso
    have hp := hQ.pressure_pos
    have hr := hQ.density_pos
    have hc := hQ.sound_pos
    have hcs := hQ.sound_sq
    have hg := hv.one_lt
    have hw := hQ.wave hv
    have hself : (gasBehind eq dir Q Q.pressure).momentum dir = Q.momentum dir := by
      rw [gasBehind_momentum eq hv dir Q hQ, gasWave_self hw]
      simp only [gasBehind, gasInner, exactState, lt_irrefl, if_false, GasComplete.vel, div_self hp.ne', Real.one_rpow, mul_one, sub_zero]
      field_simp
    have hm0 : 0 ≤ required / area := div_nonneg h0 ha.le
    have hm1 : required / area ≤ Q.momentum dir := by rw [div_le_iff₀ ha]; linarith
    rw [mfBounds, if_neg (by rw [mfDelta_eq eq hv dir Q hQ, hself]; linarith), Option.map_eq_none_iff] at hn
    have hs := (mfUpper_spec (mfDelta eq.gamma dir Q (required / area)) 12 Q.pressure hp).2.1 ⟨12, by norm_num, le_rfl, ?_⟩
    · rw [hn] at hs; simp at hs
    · have hpp : 0 < Q.pressure * 2 ^ 12 := by positivity
      obtain ⟨s1, -⟩ := gasBehind_wave eq hv dir Q hQ hpp
      rw [mfDelta_eq eq hv dir Q hQ, gasBehind_momentum eq hv dir Q hQ]
      have hf : 30 * Q.speedOfSound ≤ gasWave eq.gamma Q.density Q.pressure Q.speedOfSound (Q.pressure * 2 ^ 12) := by
        rw [gasWave, if_pos (by nlinarith)]
        have hden : 0 < Q.pressure * 2 ^ 12 + (eq.gamma - 1) / (eq.gamma + 1) * Q.pressure := by
          have : 0 < (eq.gamma - 1) / (eq.gamma + 1) := div_pos (by linarith) (by linarith)
          positivity
        have hroot : (30 * Q.speedOfSound / (Q.pressure * 4095)) ≤ Real.sqrt (2 / ((eq.gamma + 1) * Q.density) / (Q.pressure * 2 ^ 12 + (eq.gamma - 1) / (eq.gamma + 1) * Q.pressure)) := by
          apply Real.le_sqrt_of_sq_le
          have e1 : Q.pressure * 2 ^ 12 + (eq.gamma - 1) / (eq.gamma + 1) * Q.pressure = Q.pressure * (4096 * (eq.gamma + 1) + (eq.gamma - 1)) / (eq.gamma + 1) := by
            have : eq.gamma + 1 ≠ 0 := by linarith
            field_simp; ring
          have e2 : 2 / ((eq.gamma + 1) * Q.density) / (Q.pressure * (4096 * (eq.gamma + 1) + (eq.gamma - 1)) / (eq.gamma + 1)) = 2 / (Q.density * Q.pressure * (4096 * (eq.gamma + 1) + (eq.gamma - 1))) := by
            have h1 : eq.gamma + 1 ≠ 0 := by linarith
            have h2 : 4096 * (eq.gamma + 1) + (eq.gamma - 1) ≠ 0 := by linarith
            field_simp
          have e3 : (30 * Q.speedOfSound / (Q.pressure * 4095)) ^ 2 = 900 * eq.gamma / (4095 ^ 2 * (Q.pressure * Q.density)) := by
            have : Q.speedOfSound ^ 2 = eq.gamma * Q.pressure / Q.density := by field_simp; linarith
            rw [div_pow, mul_pow, this]; field_simp; norm_num
          rw [e1, e2, e3]
          have hb : 0 < 4096 * (eq.gamma + 1) + (eq.gamma - 1) := by linarith
          rw [div_le_div_iff₀ (by positivity) (by positivity)]
          have : 900 * eq.gamma * (4096 * (eq.gamma + 1) + (eq.gamma - 1)) ≤ 2 * 4095 ^ 2 := by nlinarith
          have hpr : 0 < Q.density * Q.pressure := by positivity
          nlinarith
        have e : Q.pressure * 2 ^ 12 - Q.pressure = Q.pressure * 4095 := by ring
        rw [e]
        have := mul_le_mul_of_nonneg_left hroot (show 0 ≤ Q.pressure * 4095 by positivity)
        refine le_trans (le_of_eq ?_) this
        field_simp
      have := mul_nonneg s1.density_pos.le (show 0 ≤ gasWave eq.gamma Q.density Q.pressure Q.speedOfSound (Q.pressure * 2 ^ 12) - Q.vel dir by linarith)
      generalize gasWave eq.gamma Q.density Q.pressure Q.speedOfSound (Q.pressure * 2 ^ 12) = w at *
      generalize (gasBehind eq dir Q (Q.pressure * 2 ^ 12)).density = r at *
      have e : r * (Q.vel dir - w) = -(r * (w - Q.vel dir)) := by ring
      rw [e]; linarith
  · exact ⟨_, e⟩

/-- **C83 (limits).** For a source that does not move away from the boundary, no state is returned for a mass flow above `ρ (u + 2 a / (γ - 1))`: the operator throws. -/
theorem require_massflow_fails (eq : GasEq) (hv : eq.Valid) (tol : ℝ → ℝ → Bool) (n : ℕ) (required area : ℝ) (ha : 0 < area) (dir : Fin d) (Q : GasComplete d) (hQ : IsGasState eq Q)
    (h0 : 0 ≤ Q.vel dir) (hbig : area * (Q.density * (Q.vel dir + 2 * Q.speedOfSound / (eq.gamma - 1))) < required) : requireMassflow eq tol n required area dir Q = none := by
  rcases requireMassflow_eq eq hv tol n required area dir Q hQ with ⟨-, h⟩ | ⟨a, b, e, h1, h2, h3, h4, h5, h6⟩
  · exact h
  · exfalso
    have hp := hQ.pressure_pos
    have hr := hQ.density_pos
    have hc := hQ.sound_pos
    have hg := hv.one_lt
    have hw := hQ.wave hv
    have ha0 : 0 < a := lt_of_lt_of_le (by positivity) h1
    have hm : Q.density * (Q.vel dir + 2 * Q.speedOfSound / (eq.gamma - 1)) < required / area := by rw [lt_div_iff₀ ha]; linarith
    have hU : 0 < 2 * Q.speedOfSound / (eq.gamma - 1) := div_pos (by linarith) (by linarith)
    -- the source pressure has less than the required mass flow, so that the search goes to lower pressures
    have key : ∀ x, 0 < x → x ≤ Q.pressure → (gasBehind eq dir Q x).momentum dir < required / area := by
      intro x hx hle
      obtain ⟨s1, -⟩ := gasBehind_wave eq hv dir Q hQ hx
      rw [gasBehind_momentum eq hv dir Q hQ]
      have hd : (gasBehind eq dir Q x).density ≤ Q.density := by
        simp only [gasBehind, gasInner, exactState, if_neg (not_lt.2 hle)]
        refine mul_le_of_le_one_right hr.le (Real.rpow_le_one (by positivity) ((div_le_one hp).2 hle) ?_)
        have : 0 < eq.gamma := by linarith
        positivity
      have hf := gasWave_lower hw hx.le
      have hd0 := s1.density_pos
      have h1 : (gasBehind eq dir Q x).density * (Q.vel dir - gasWave eq.gamma Q.density Q.pressure Q.speedOfSound x) ≤ (gasBehind eq dir Q x).density * (Q.vel dir + 2 * Q.speedOfSound / (eq.gamma - 1)) :=
        mul_le_mul_of_nonneg_left (by linarith) hd0.le
      have h2 : (gasBehind eq dir Q x).density * (Q.vel dir + 2 * Q.speedOfSound / (eq.gamma - 1)) ≤ Q.density * (Q.vel dir + 2 * Q.speedOfSound / (eq.gamma - 1)) :=
        mul_le_mul_of_nonneg_right hd (by linarith)
      linarith
    have hb : ∃ lo hi, mfBounds (mfDelta eq.gamma dir Q (required / area)) Q.pressure = some (lo, hi) := by
      rcases hb : mfBounds (mfDelta eq.gamma dir Q (required / area)) Q.pressure with _ | ⟨lo, hi⟩
      · rw [requireMassflow] at e; simp [hb] at e
      · exact ⟨lo, hi, rfl⟩
    obtain ⟨lo, hi, hb⟩ := hb
    rw [mfBounds, if_pos (by rw [mfDelta_eq eq hv dir Q hQ]; linarith [key Q.pressure hp le_rfl])] at hb
    obtain ⟨y, hy, -⟩ := Option.map_eq_some_iff.1 hb
    obtain ⟨k1, k2, k3⟩ := (mfLower_spec _ 12 Q.pressure hp).1 y hy
    rw [mfDelta_eq eq hv dir Q hQ] at k3
    linarith [key y (lt_of_lt_of_le (by positivity) k1) k2.le]

/-- **C83 (inverse).** From the state behind the wave and the pressure of the source the second operator finds density and velocity of the source. -/
theorem massflow_left_inverse (eq : GasEq) (hv : eq.Valid) (dir : Fin d) (Q : GasComplete d) (hQ : IsGasState eq Q) (p : ℝ) (hp : 0 < p) :
    massflowLeft eq.gamma (gasBehind eq dir Q p).density ((gasBehind eq dir Q p).vel dir) p Q.pressure = (Q.density, Q.vel dir) := by
  have hP := hQ.pressure_pos
  have hr := hQ.density_pos
  have hc := hQ.sound_pos
  have hg := hv.one_lt
  have hvel : (gasBehind eq dir Q p).vel dir = Q.vel dir - gasWave eq.gamma Q.density Q.pressure Q.speedOfSound p :=
    ((gasInner_valid eq hv dir Q hQ _ hp).2.1 dir).trans (if_pos rfl)
  have hk : 0 < (eq.gamma - 1) / (eq.gamma + 1) := div_pos (by linarith) (by linarith)
  have hx : 0 < p / Q.pressure := by positivity
  rw [hvel]
  simp only [massflowLeft]
  rcases lt_or_ge Q.pressure p with h | h
  · have hd : (gasBehind eq dir Q p).density * ((eq.gamma - 1) / (eq.gamma + 1) * (p / Q.pressure) + 1) / ((eq.gamma - 1) / (eq.gamma + 1) + p / Q.pressure) = Q.density := by
      simp only [gasBehind, gasInner, exactState, if_pos h]
      generalize (eq.gamma - 1) / (eq.gamma + 1) = k at *
      generalize p / Q.pressure = x at *
      field_simp
      ring
    rw [if_pos h, if_pos h, hd, gasWave, if_pos h, mul_comm Q.pressure ((eq.gamma - 1) / (eq.gamma + 1)), sub_add_cancel]
  · have hd : (gasBehind eq dir Q p).density / (p / Q.pressure) ^ (1 / eq.gamma) = Q.density := by
      simp only [gasBehind, gasInner, exactState, if_neg (not_lt.2 h)]
      have := Real.rpow_pos_of_pos hx (1 / eq.gamma)
      field_simp
    rw [if_neg (not_lt.2 h), if_neg (not_lt.2 h), hd, ← hQ.sound_eq, gasWave, if_neg (not_lt.2 h),
      show (eq.gamma - 1) / 2 / eq.gamma = 1 / 2 * (eq.gamma - 1) / eq.gamma by ring]
    congr 1
    ring

/-- The hypotheses are met: a flow with half the speed of sound is throttled to half of its mass flow. -/
example (tol : ℝ → ℝ → Bool) (n : ℕ) : ∃ q', requireMassflow exampleGas2 tol n 1 2 0 (exLeft (1 / 2)) = some q' ∧ IsGasState exampleGas2 q' ∧ LeftWave exampleGas2 0 (exLeft (1 / 2)) q' := by
  obtain ⟨q', h⟩ := require_massflow_found exampleGas2 exampleGas2_valid (by norm_num [exampleGas2]) tol n 1 2 (by norm_num) 0 _ (exLeft_state (1 / 2)) (by norm_num) (by norm_num [exLeft]) (by norm_num [exLeft, GasComplete.vel])
  obtain ⟨h1, h2, -⟩ := require_massflow exampleGas2 exampleGas2_valid tol n 1 2 (by norm_num) 0 _ q' (exLeft_state (1 / 2)) h
  exact ⟨q', h, h1, h2⟩
example (tol : ℝ → ℝ → Bool) (n : ℕ) : requireMassflow exampleGas2 tol n 11 2 0 (exLeft (1 / 2)) = none :=
  require_massflow_fails exampleGas2 exampleGas2_valid tol n 11 2 (by norm_num) 0 _ (exLeft_state (1 / 2)) (by norm_num [exLeft, GasComplete.vel]) (by norm_num [exLeft, GasComplete.vel, exampleGas2])

end Fub
