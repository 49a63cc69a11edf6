import Verif.Props.IdealMuscl

/-!
# C139, C140: bounds, the masked version, the characteristic method and where the versions differ
-/

namespace Fub

section
variable {d : ℕ} {S : Type} [Fintype S]

/-! ## Mass fractions at the faces -/

theorem minModSlope_fraction (a b c : ℝ) : ∃ θ θ' : ℝ, (0 ≤ θ ∧ θ ≤ 1) ∧ (0 ≤ θ' ∧ θ' ≤ 1) ∧
    minModSlope a b c = θ * (c - b) ∧ minModSlope a b c = θ' * (b - a) := by
  have key : ∀ x y : ℝ, 0 < y → 0 ≤ x → x ≤ y → ∃ θ : ℝ, (0 ≤ θ ∧ θ ≤ 1) ∧ x = θ * y := fun x y hy h0 h1 =>
    ⟨x / y, ⟨div_nonneg h0 hy.le, (div_le_one hy).2 h1⟩, (div_mul_cancel₀ x hy.ne').symm⟩
  obtain ⟨h1, h2, h3⟩ := minModSlope_cases a b c
  rcases lt_trichotomy 0 (b - a) with hab | hab | hab
  · rcases lt_trichotomy 0 (c - b) with hbc | hbc | hbc
    · rw [h1 hab hbc]
      obtain ⟨θ, hθ, e⟩ := key (min (b - a) (c - b)) (c - b) hbc (lt_min hab hbc).le (min_le_right _ _)
      obtain ⟨θ', hθ', e'⟩ := key (min (b - a) (c - b)) (b - a) hab (lt_min hab hbc).le (min_le_left _ _)
      exact ⟨θ, θ', hθ, hθ', e, e'⟩
    · rw [h3 (by rw [← hbc]; simp)]
      exact ⟨0, 0, by norm_num, by norm_num, by ring, by ring⟩
    · rw [h3 (mul_nonpos_of_nonneg_of_nonpos hab.le hbc.le)]
      exact ⟨0, 0, by norm_num, by norm_num, by ring, by ring⟩
  · rw [h3 (by rw [← hab]; simp)]
    exact ⟨0, 0, by norm_num, by norm_num, by ring, by ring⟩
  · rcases lt_trichotomy 0 (c - b) with hbc | hbc | hbc
    · rw [h3 (mul_nonpos_of_nonpos_of_nonneg hab.le hbc.le)]
      exact ⟨0, 0, by norm_num, by norm_num, by ring, by ring⟩
    · rw [h3 (by rw [← hbc]; simp)]
      exact ⟨0, 0, by norm_num, by norm_num, by ring, by ring⟩
    · rw [h2 hab hbc]
      have hmax : max (b - a) (c - b) < 0 := max_lt hab hbc
      obtain ⟨θ, hθ, e⟩ := key (-max (b - a) (c - b)) (-(c - b)) (by linarith) (by linarith)
        (by linarith [le_max_right (b - a) (c - b)])
      obtain ⟨θ', hθ', e'⟩ := key (-max (b - a) (c - b)) (-(b - a)) (by linarith) (by linarith)
        (by linarith [le_max_left (b - a) (c - b)])
      exact ⟨θ, θ', hθ, hθ', by linarith, by linarith⟩

theorem segment_between (a b k : ℝ) (h0 : 0 ≤ k) (h1 : k ≤ 1) :
    min a b ≤ a + k * (b - a) ∧ a + k * (b - a) ≤ max a b := by
  rcases le_total a b with h | h
  · rw [min_eq_left h, max_eq_right h]
    constructor <;> nlinarith
  · rw [min_eq_right h, max_eq_left h]
    constructor <;> nlinarith

/-- **C139** Scalar version: if the flow crosses at most one cell per time step, each mass fraction on
either side of the face lies between the mass fractions of the two cells of the face; so no mass
fraction becomes negative or larger than one. -/
theorem igm_muscl_fraction_bounds (m : Mechanism S ℝ) (lambda : ℝ) (dir : Fin d)
    (q0 q1 q2 q3 : IgmComplete d S)
    (h1 : |lambda * (q1.momentum dir / q1.density)| ≤ 1)
    (h2 : |lambda * (q2.momentum dir / q2.density)| ≤ 1) (s : S) :
    let y1 := q1.species s / q1.density
    let y2 := q2.species s / q2.density
    let w := igmPrimFaces m lambda dir q0 q1 q2 q3
    (min y1 y2 ≤ w.1.massFractions s ∧ w.1.massFractions s ≤ max y1 y2) ∧
    (min y1 y2 ≤ w.2.massFractions s ∧ w.2.massFractions s ≤ max y1 y2) := by
  intro y1 y2 w
  obtain ⟨a1, b1⟩ := abs_le.1 h1
  obtain ⟨a2, b2⟩ := abs_le.1 h2
  constructor
  · obtain ⟨θ, -, ⟨t0, t1⟩, -, e, -⟩ := minModSlope_fraction (q0.species s / q0.density) y1 y2
    have hw : w.1.massFractions s = y1 + (1 / 2 * (1 - lambda * (q1.momentum dir / q1.density)) * θ) * (y2 - y1) := by
      show y1 + 1 / 2 * (lambda * (-(q1.momentum dir / q1.density) *
        minModSlope (q0.species s / q0.density) y1 y2) +
        minModSlope (q0.species s / q0.density) y1 y2) = _
      rw [e]; ring
    rw [hw]
    apply segment_between
    · exact mul_nonneg (by linarith) t0
    · exact mul_le_one₀ (by linarith) t0 t1
  · obtain ⟨-, θ, -, ⟨t0, t1⟩, -, e⟩ := minModSlope_fraction y1 y2 (q3.species s / q3.density)
    have hw : w.2.massFractions s = y2 + (1 / 2 * (1 + lambda * (q2.momentum dir / q2.density)) * θ) * (y1 - y2) := by
      show y2 + 1 / 2 * (lambda * (-(q2.momentum dir / q2.density) *
        minModSlope y1 y2 (q3.species s / q3.density)) -
        minModSlope y1 y2 (q3.species s / q3.density)) = _
      rw [e]; ring
    rw [hw, min_comm, max_comm]
    apply segment_between
    · exact mul_nonneg (by linarith) t0
    · exact mul_le_one₀ (by linarith) t0 t1

/-- **C139** Array version: if the mass fractions of all four cells sum to one, so do those on both
sides of the face, before they are normalised, for every time step. -/
theorem igm_muscl_lane_sum (m : Mechanism S ℝ) (eps : ℝ) (first : S) (lambda : ℝ) (dir : Fin d)
    (q : Fin 4 → IgmComplete d S) (hq : ∀ k, 0 < (q k).density)
    (hs : ∀ k, ∑ s, (q k).species s = (q k).density) :
    let w := igmPrimFacesLane m eps first lambda dir (q 0) (q 1) (q 2) (q 3)
    ∑ s, w.1.massFractions s = 1 ∧ ∑ s, w.2.massFractions s = 1 := by
  intro w
  have hsum : ∀ k, ∑ s, (igmToPrimLane (q k)).massFractions s = 1 := by
    intro k
    unfold igmToPrimLane
    simp only [hq k, if_true]
    rw [← Finset.sum_div, hs k, div_self (hq k).ne']
  have hsl : ∀ i j k, ∑ s, (igmSlopesLane eps first (igmToPrimLane (q i)) (igmToPrimLane (q j))
      (igmToPrimLane (q k))).massFractions s = 0 := by
    intro i j k
    unfold igmSlopesLane
    dsimp only
    rw [← Finset.mul_sum, ← Finset.mul_sum, Finset.sum_sub_distrib, hsum, hsum]
    ring
  have hd : ∀ (x : IgmComplete d S) (g : IgmPrim d S), ∑ s, g.massFractions s = 0 →
      ∑ s, (igmPrimDerivatives m x g dir).massFractions s = 0 := by
    intro x g hg
    unfold igmPrimDerivatives
    dsimp only
    rw [← Finset.mul_sum, hg, mul_zero]
  constructor
  · show ∑ s, ((igmToPrimLane (q 1)).massFractions s + 1 / 2 * (lambda *
      (igmPrimDerivatives m (q 1) (igmSlopesLane eps first (igmToPrimLane (q 0)) (igmToPrimLane (q 1))
      (igmToPrimLane (q 2))) dir).massFractions s + (igmSlopesLane eps first (igmToPrimLane (q 0)) (igmToPrimLane (q 1))
      (igmToPrimLane (q 2))).massFractions s)) = 1
    rw [Finset.sum_add_distrib, ← Finset.mul_sum, Finset.sum_add_distrib, ← Finset.mul_sum, hsum,
      hd _ _ (hsl 0 1 2), hsl]
    ring
  · show ∑ s, ((igmToPrimLane (q 2)).massFractions s + 1 / 2 * (-(igmSlopesLane eps first (igmToPrimLane (q 1)) (igmToPrimLane (q 2))
      (igmToPrimLane (q 3))).massFractions s + lambda *
      (igmPrimDerivatives m (q 2) (igmSlopesLane eps first (igmToPrimLane (q 1)) (igmToPrimLane (q 2))
      (igmToPrimLane (q 3))) dir).massFractions s)) = 1
    rw [Finset.sum_add_distrib, ← Finset.mul_sum, Finset.sum_add_distrib, ← Finset.mul_sum,
      Finset.sum_neg_distrib, hsum, hd _ _ (hsl 1 2 3), hsl]
    ring

/-- A gas at rest with given mass fractions. -/
noncomputable def restMix {n : ℕ} (y : Fin n → ℝ) : IgmComplete 1 (Fin n) :=
  ⟨⟨1, fun _ => 0, 1, y⟩, 1, 1, 300, 1, 7 / 5⟩

/-- **C139** Array version, where the bounds fail: the second species is absent in both cells of a
face, but its mass fraction on the left side of the face is `-1/10`, which the normalisation turns
into `1/12`. All species are limited by the limiter of the first one. -/
theorem igm_muscl_lane_negative (m : Mechanism (Fin 3) ℝ) (q3 : IgmComplete 1 (Fin 3)) :
    let q0 := restMix ![2 / 10, 4 / 10, 4 / 10]
    let q1 := restMix ![4 / 10, 0, 6 / 10]
    let q2 := restMix ![6 / 10, 0, 4 / 10]
    let w := igmPrimFacesLane m 1e-12 0 1 0 q0 q1 q2 q3
    w.1.massFractions 1 = -(1 / 10) ∧ (igmPrimLane m w.1).massFractions 1 = 1 / 12 := by
  intro q0 q1 q2 w
  have hσ : igmSigma 1e-12 (2 / 10) (4 / 10) (6 / 10) = 1 := by
    unfold igmSigma
    norm_num [abs_of_pos]
  have hw : ∀ s, w.1.massFractions s = ![5 / 10, -(1 / 10), 6 / 10] s := by
    intro s
    show (igmToPrimLane q1).massFractions s + 1 / 2 * (1 * (-(q1.momentum 0 / q1.density) *
      (igmSlopesLane 1e-12 0 (igmToPrimLane q0) (igmToPrimLane q1) (igmToPrimLane q2)).massFractions s) +
      (igmSlopesLane 1e-12 0 (igmToPrimLane q0) (igmToPrimLane q1) (igmToPrimLane q2)).massFractions s) = _
    have hsl : (igmSlopesLane 1e-12 0 (igmToPrimLane q0) (igmToPrimLane q1) (igmToPrimLane q2)).massFractions s =
        1 / 2 * (![6 / 10, 0, 4 / 10] s - ![2 / 10, 4 / 10, 4 / 10] s) := by
      show igmSigma 1e-12 _ _ _ * _ = _
      simp only [q0, q1, q2, igmToPrimLane, restMix, zero_lt_one, if_true, div_one, Matrix.cons_val_zero]
      rw [hσ, one_mul]
    rw [hsl]
    simp only [q1, igmToPrimLane, restMix, zero_lt_one, if_true, div_one]
    fin_cases s <;> norm_num
  refine ⟨by rw [hw]; rfl, ?_⟩
  show massFractionsLane w.1.massFractions 1 = _
  rw [show w.1.massFractions = ![5 / 10, -(1 / 10), 6 / 10] from funext hw]
  unfold massFractionsLane
  have e2 : (![5 / 10, -(1 / 10), 6 / 10] : Fin 3 → ℝ) 2 = 6 / 10 := rfl
  simp only [Fin.sum_univ_three, e2, Matrix.cons_val_zero, Matrix.cons_val_one]
  norm_num [abs_of_pos, abs_neg]

/-- **C139** Scalar version, where the sum fails: the last species has the mass fraction `1/2` in all
cells, but `10/19` on the left side of the face, because the limited slopes of the other species do
not cancel and the mass fractions are normalised. -/
theorem igm_muscl_scalar_inert (m : Mechanism (Fin 4) ℝ) (r : ReactorState (Fin 4) ℝ)
    (q3 : IgmComplete 1 (Fin 4)) :
    let q0 := restMix ![0, 0, 10 / 20, 10 / 20]
    let q1 := restMix ![1 / 20, 3 / 20, 6 / 20, 10 / 20]
    let q2 := restMix ![4 / 20, 4 / 20, 2 / 20, 10 / 20]
    let w := igmPrimFaces m 1 0 q0 q1 q2 q3
    w.1.massFractions 3 = 1 / 2 ∧ (igmPrimReactor m r w.1).massFractions 3 = 10 / 19 := by
  intro q0 q1 q2 w
  have hw : ∀ s, w.1.massFractions s = ![3 / 40, 7 / 40, 8 / 40, 20 / 40] s := by
    intro s
    show (igmToPrim q1).massFractions s + 1 / 2 * (1 * (-(q1.momentum 0 / q1.density) *
      (igmSlopes (igmToPrim q0) (igmToPrim q1) (igmToPrim q2)).massFractions s) +
      (igmSlopes (igmToPrim q0) (igmToPrim q1) (igmToPrim q2)).massFractions s) = _
    simp only [q0, q1, q2, igmToPrim, restMix, div_one, igmSlopes]
    fin_cases s <;> norm_num [minModSlope]
  have e2 : (![3 / 40, 7 / 40, 8 / 40, 20 / 40] : Fin 4 → ℝ) 2 = 8 / 40 := rfl
  have e3 : (![3 / 40, 7 / 40, 8 / 40, 20 / 40] : Fin 4 → ℝ) 3 = 20 / 40 := rfl
  refine ⟨by rw [hw, e3]; norm_num, ?_⟩
  have hr : (igmPrimReactor m r w.1).massFractions =
      ((r.setDensity 1).setMassFractions m w.1.massFractions).massFractions := by
    unfold igmPrimReactor ReactorState.setPressure ReactorState.setDensity ReactorState.setTemperature
      ReactorState.updateThermo
    dsimp only
    split_ifs <;> rfl
  rw [hr, show w.1.massFractions = ![3 / 40, 7 / 40, 8 / 40, 20 / 40] from funext hw]
  rw [(setMassFractions_clip m _ _ ⟨3, by rw [e3]; norm_num⟩).2.2 3]
  simp only [Fin.sum_univ_four, e2, e3, Matrix.cons_val_zero, Matrix.cons_val_one]
  norm_num

/-! ## The temperature in the array version -/

/-- **C139** A linear temperature profile in a gas at rest with constant pressure and composition: in
the scalar version the two sides of the face have the same temperature, the mean of the two cells; in
the array version the right side has the temperature of the opposite face of its cell. -/
theorem igm_muscl_lane_temperature (m : Mechanism S ℝ) (eps : ℝ) (first : S) (lambda : ℝ)
    (dir : Fin d) (q : Fin 4 → IgmComplete d S) (T0 h : ℝ) (he : 0 ≤ eps) (hh : eps < |h|)
    (hT : ∀ k, (q k).temperature = T0 + k.1 * h) (hq : ∀ k, 0 < (q k).density)
    (hrest : ∀ k i, (q k).momentum i = 0) :
    let w := igmPrimFaces m lambda dir (q 0) (q 1) (q 2) (q 3)
    let w' := igmPrimFacesLane m eps first lambda dir (q 0) (q 1) (q 2) (q 3)
    w.1.temperature = T0 + 3 / 2 * h ∧ w.2.temperature = T0 + 3 / 2 * h ∧
    w'.1.temperature = T0 + 3 / 2 * h ∧ w'.2.temperature = T0 + 5 / 2 * h := by
  have hm : ∀ a : ℝ, minModSlope a (a + h) (a + 2 * h) = h := by
    intro a
    unfold minModSlope
    rw [show a + h - a = h by ring, show a + 2 * h - (a + h) = h by ring]
    dsimp only
    rw [min_self, max_self]
    split_ifs with h0
    · exact max_eq_right h0.le
    · exact min_eq_right (not_lt.1 h0)
  have hp : ∀ a : ℝ, primLimiter eps a (a + h) (a + 2 * h) = h := by
    intro a
    have hh0 : h ≠ 0 := by rintro rfl; simp at hh; linarith
    unfold primLimiter
    rw [show 1 / 2 * (a + 2 * h - a) = h by ring, show a + h - a = h by ring,
      show a + 2 * h - (a + h) = h by ring]
    simp only [hh, if_true, div_self hh0, min_self, zero_lt_one, and_self, lt_irrefl, if_false]
    norm_num
  have t0 : (q 0).temperature = T0 := by rw [hT]; norm_num
  have t1 : (q 1).temperature = T0 + h := by rw [hT]; norm_num
  have t2 : (q 2).temperature = T0 + 2 * h := by rw [hT]; norm_num
  have t3 : (q 3).temperature = T0 + 3 * h := by rw [hT]; norm_num
  have hz : ∀ k g, (g : IgmPrim d S).velocity dir = 0 →
      (igmPrimDerivatives m (q k) g dir).temperature = 0 := by
    intro k g hg
    simp only [igmPrimDerivatives, hg, hrest]
    simp
  have hv : ∀ k, igmToPrim (q k) = ⟨(q k).pressure, fun _ => 0, (q k).temperature,
      fun s => (q k).species s / (q k).density⟩ := by
    intro k
    simp only [igmToPrim, hrest, zero_div]
  have hv' : ∀ k, igmToPrimLane (q k) = igmToPrim (q k) := by
    intro k
    simp only [igmToPrimLane, igmToPrim, hq k, if_true]
  have s1 : ∀ i j k, (igmSlopes (igmToPrim (q i)) (igmToPrim (q j)) (igmToPrim (q k))).velocity dir = 0 := by
    intro i j k
    simp [igmSlopes, hv, minModSlope]
  have s2 : ∀ i j k, (igmSlopesLane eps first (igmToPrim (q i)) (igmToPrim (q j)) (igmToPrim (q k))).velocity dir = 0 := by
    intro i j k
    simp [igmSlopesLane, hv]
  have e1 : (igmSlopes (igmToPrim (q 0)) (igmToPrim (q 1)) (igmToPrim (q 2))).temperature = h := by
    show minModSlope (q 0).temperature (q 1).temperature (q 2).temperature = h
    rw [t0, t1, t2, hm]
  have e2 : (igmSlopes (igmToPrim (q 1)) (igmToPrim (q 2)) (igmToPrim (q 3))).temperature = h := by
    show minModSlope (q 1).temperature (q 2).temperature (q 3).temperature = h
    rw [t1, t2, t3, show T0 + 2 * h = T0 + h + h by ring, show T0 + 3 * h = T0 + h + 2 * h by ring, hm]
  have e3 : (igmSlopesLane eps first (igmToPrim (q 0)) (igmToPrim (q 1)) (igmToPrim (q 2))).temperature = h := by
    show primLimiter eps (q 0).temperature (q 1).temperature (q 2).temperature = h
    rw [t0, t1, t2, hp]
  have e4 : (igmSlopesLane eps first (igmToPrim (q 1)) (igmToPrim (q 2)) (igmToPrim (q 3))).temperature = h := by
    show primLimiter eps (q 1).temperature (q 2).temperature (q 3).temperature = h
    rw [t1, t2, t3, show T0 + 2 * h = T0 + h + h by ring, show T0 + 3 * h = T0 + h + 2 * h by ring, hp]
  intro w w'
  refine ⟨?_, ?_, ?_, ?_⟩
  · show (q 1).temperature + 1 / 2 * (lambda * (igmPrimDerivatives m (q 1) _ dir).temperature + _) = _
    rw [hz 1 _ (s1 0 1 2), e1, t1]; ring
  · show (q 2).temperature + 1 / 2 * (lambda * (igmPrimDerivatives m (q 2) _ dir).temperature - _) = _
    rw [hz 2 _ (s1 1 2 3), e2, t2]; ring
  · show (q 1).temperature + 1 / 2 * (lambda * (igmPrimDerivatives m (q 1) _ dir).temperature + _) = _
    rw [hv', hv', hv', hz 1 _ (s2 0 1 2), e3, t1]; ring
  · show (q 2).temperature - 1 / 2 * (-_ + lambda * (igmPrimDerivatives m (q 2) _ dir).temperature) = _
    rw [hv', hv', hv', hz 2 _ (s2 1 2 3), e4, t2]; ring

/-! ## The masked version -/

/-- **C139** The version with face fractions. On an open face with fluid in the outer cells the two
sides are those of the array version; an outer cell without fluid makes the side of its inner
neighbour the state of the neighbour itself. -/
theorem igm_muscl_masked_faces (m : Mechanism S ℝ) (eps : ℝ) (first : S) (lambda : ℝ) (dir : Fin d)
    (face vol0 vol3 : ℝ) (q0 q1 q2 q3 : IgmComplete d S) (hf : 0 < face) :
    let w := igmPrimFacesMasked m eps first lambda dir face vol0 vol3 q0 q1 q2 q3
    let w' := igmPrimFacesLane m eps first lambda dir q0 q1 q2 q3
    (0 < vol0 → w.1 = w'.1) ∧ (0 < vol3 → w.2 = w'.2) ∧
    (vol0 ≤ 0 → w.1 = igmToPrimLane q1) ∧ (vol3 ≤ 0 → w.2 = igmToPrimLane q2) := by
  have ht : ∀ q : IgmComplete d S, igmToPrimMasked true q = igmToPrimLane q := fun q => rfl
  refine ⟨fun h => ?_, fun h => ?_, fun h => ?_, fun h => ?_⟩
  · simp only [igmPrimFacesMasked, igmPrimFacesLane, hf, h, decide_true, Bool.and_self,
      igmSlopesMasked_true, igmPrimDerivativesMasked_true, ht]
  · simp only [igmPrimFacesMasked, igmPrimFacesLane, hf, h, decide_true, Bool.and_self,
      igmSlopesMasked_true, igmPrimDerivativesMasked_true, ht]
  · simp only [igmPrimFacesMasked, hf, not_lt.2 h, decide_true, decide_false, Bool.false_and,
      igmSlopesMasked_false, igmPrimDerivativesMasked_true, igmPrimDerivatives_zero, igmUpper_zero, ht]
  · simp only [igmPrimFacesMasked, hf, not_lt.2 h, decide_true, decide_false, Bool.and_false,
      igmSlopesMasked_false, igmPrimDerivativesMasked_true, igmPrimDerivatives_zero, igmUpper_zero, ht]

/-- **C139** A closed face in a chunk with an open face has the flux zero, whatever the cells hold; if
all faces of the chunk are closed nothing is written. -/
theorem igm_muscl_masked_closed {ι : Type} [Fintype ι] (m : Mechanism S ℝ) (eps : ℝ)
    (first : S) (complete : IgmCons d S → IgmComplete d S) (lambda : ℝ) (dir : Fin d)
    (face vol0 vol3 : ι → ℝ) (q0 q1 q2 q3 : ι → IgmComplete d S) (before : ι → IgmVar d S → ℝ) :
    ((∃ l, 0 < face l) → ∀ l, face l ≤ 0 →
      igmMusclPrimFluxMasked m eps first complete lambda dir face vol0 vol3 q0 q1 q2 q3 before l =
        some fun _ => 0) ∧
    ((∀ l, face l ≤ 0) → ∀ l,
      igmMusclPrimFluxMasked m eps first complete lambda dir face vol0 vol3 q0 q1 q2 q3 before l =
        some (before l)) := by
  constructor
  · intro h l hl
    unfold igmMusclPrimFluxMasked
    rw [if_pos h]
    unfold igmMusclPrimFluxMaskedLane hllFluxMasked
    simp only [not_lt.2 hl, decide_false, Bool.false_eq_true, if_false, zero_lt_one, if_true,
      (igm_einfeldt_masked dir _ _).2]
    simp
  · intro h l
    have hn : ¬ ∃ l, 0 < face l := by
      push Not
      exact h
    unfold igmMusclPrimFluxMasked
    rw [if_neg hn]

/-! ## Stagnant gas -/

/-- A gas of one species at rest with pressure one and temperature `T`. -/
noncomputable def restLine (T : ℝ) : IgmComplete 1 Unit :=
  ⟨⟨1 / T, fun _ => 0, 5 / 2, fun _ => 1 / T⟩, 1, Real.sqrt (7 / 5 * 1 / (1 / T)), T, 7 / 2, 7 / 5⟩

theorem unitGas_good : GoodMechanism unitGas := ⟨fun _ => one_pos, one_pos⟩

theorem restLine_good (T : ℝ) (hT : 0 < T) :
    IsGoodMixture unitGas (1 / T) (fun _ : Fin 1 => 0) (fun _ => 1) T (restLine T) := by
  have hne := hT.ne'
  refine ⟨⟨rfl, ?_, ?_, ?_, rfl, ?_, ?_, ?_, rfl⟩, by positivity, hT, fun _ => zero_le_one, by simp, ?_⟩
  · intro i; simp [restLine]
  · intro i; simp [restLine]
  · simp only [restLine, unitGas, Finset.univ_unique, Finset.sum_singleton]
    field_simp
    ring
  · simp only [restLine, unitGas, Finset.univ_unique, Finset.sum_singleton]
    field_simp
  · simp [restLine, unitGas]
  · norm_num [restLine, unitGas]
  · show 0 < Real.sqrt _
    apply Real.sqrt_pos.2
    positivity

theorem restLine_prim (T : ℝ) (hT : 0 < T) : igmToPrim (restLine T) = ⟨1, fun _ => 0, T, fun _ => 1⟩ :=
  (restLine_good T hT).toPrim.1

/-- **C139** A stagnant gas with constant pressure and a linear temperature profile: the scalar version
returns no mass flux, the array version returns a mass flux from the left to the right. -/
theorem igm_muscl_versions_differ (s : ReactorState Unit ℝ) (hs : Cached unitGas s)
    (old : IgmCons 1 Unit) (complete : IgmCons 1 Unit → IgmComplete 1 Unit) (lambda : ℝ) :
    (∃ f, igmMusclPrimFlux unitGas s old complete lambda 0 (restLine 2) (restLine 4) (restLine 6)
      (restLine 8) = some f ∧ f .density = 0) ∧
    0 < igmMusclPrimFluxLane unitGas 1e-12 () complete lambda 0 (restLine 2) (restLine 4)
      (restLine 6) (restLine 8) .density := by
  have hp : ∀ T : ℝ, 0 < T → igmToPrimLane (restLine T) = ⟨1, fun _ => 0, T, fun _ => 1⟩ := fun T h =>
    (restLine_good T h).toPrim.2.1
  obtain ⟨a1, a2, a3, a4⟩ := igm_muscl_lane_temperature (d := 1) unitGas 1e-12 () lambda 0
    ![restLine 2, restLine 4, restLine 6, restLine 8] 2 2 (by norm_num) (by norm_num)
    (by intro k; fin_cases k <;> norm_num [restLine])
    (by intro k; fin_cases k <;> norm_num [restLine])
    (by intro k i; fin_cases k <;> simp [restLine])
  simp only [Matrix.cons_val_zero, Matrix.cons_val_one, Matrix.cons_val] at a1 a2 a3 a4
  have hsl : ∀ a b c : ℝ, 0 < a → 0 < b → 0 < c →
      igmSlopes (igmToPrim (restLine a)) (igmToPrim (restLine b)) (igmToPrim (restLine c)) =
      ⟨0, fun _ => 0, minModSlope a b c, fun _ => 0⟩ := by
    intro a b c ha hb hc
    rw [restLine_prim a ha, restLine_prim b hb, restLine_prim c hc]
    simp [igmSlopes, minModSlope]
  have hslL : ∀ a b c : ℝ, 0 < a → 0 < b → 0 < c →
      igmSlopesLane 1e-12 () (igmToPrimLane (restLine a)) (igmToPrimLane (restLine b)) (igmToPrimLane (restLine c)) =
      ⟨0, fun _ => 0, primLimiter 1e-12 a b c, fun _ => 0⟩ := by
    intro a b c ha hb hc
    rw [hp a ha, hp b hb, hp c hc]
    refine IgmPrim.ext ?_ ?_ rfl ?_
    · simp [igmSlopesLane, primLimiter]
    · funext i; simp [igmSlopesLane, primLimiter]
    · funext i; simp [igmSlopesLane]
  have hder : ∀ (a g : ℝ), 0 < a → igmPrimDerivatives unitGas (restLine a) ⟨0, fun _ => 0, g, fun _ => 0⟩ 0 =
      zeroPrim 1 Unit := by
    intro a g ha
    unfold igmPrimDerivatives zeroPrim
    ext i <;> simp [restLine]
  constructor
  · have w1 : (igmPrimFaces unitGas lambda 0 (restLine 2) (restLine 4) (restLine 6) (restLine 8)) =
        (⟨1, fun _ => 0, 5, fun _ => 1⟩, ⟨1, fun _ => 0, 5, fun _ => 1⟩) := by
      refine Prod.ext ?_ ?_
      · refine IgmPrim.ext ?_ ?_ (by rw [a1]; norm_num) ?_ <;>
        · simp only [igmPrimFaces, hsl 2 4 6 (by norm_num) (by norm_num) (by norm_num),
            hder 4 _ (by norm_num), igmUpper, zeroPrim]
          simp only [restLine_prim 4 (by norm_num)]
          norm_num
      · refine IgmPrim.ext ?_ ?_ (by rw [a2]; norm_num) ?_ <;>
        · simp only [igmPrimFaces, hsl 4 6 8 (by norm_num) (by norm_num) (by norm_num),
            hder 6 _ (by norm_num), igmLower, zeroPrim]
          simp only [restLine_prim 6 (by norm_num)]
          norm_num
    have h5 := restLine_good 5 (by norm_num)
    have hr1 := (igm_prim_round_trip unitGas unitGas_good s hs h5).1
    have hc1 : Cached unitGas (igmFromPrim unitGas s (igmToPrim (restLine 5))).1 := by
      rw [restLine_prim 5 (by norm_num)]
      exact (igm_from_prim_state unitGas unitGas_good s hs _ (by norm_num) (by norm_num) ⟨(), by norm_num⟩).2.2.2
    have hr2 := (igm_prim_round_trip unitGas unitGas_good _ hc1 h5).1
    have hc := (igm_hll_consistent unitGas h5 old complete 0).1
    refine ⟨(mixNormalFlux (restLine 5) fun i => if i = (0 : Fin 1) then 1 else 0).get, ?_, ?_⟩
    · unfold igmMusclPrimFlux
      simp only [w1]
      rw [restLine_prim 5 (by norm_num)] at hr1 hr2
      rw [hr1, hr2, hc]
    · simp [IgmCons.get, mixNormalFlux, restLine]
  · have w1 : (igmPrimFacesLane unitGas 1e-12 () lambda 0 (restLine 2) (restLine 4) (restLine 6) (restLine 8)) =
        (⟨1, fun _ => 0, 5, fun _ => 1⟩, ⟨1, fun _ => 0, 7, fun _ => 1⟩) := by
      refine Prod.ext ?_ ?_
      · refine IgmPrim.ext ?_ ?_ (by rw [a3]; norm_num) ?_ <;>
        · simp only [igmPrimFacesLane, hslL 2 4 6 (by norm_num) (by norm_num) (by norm_num),
            hder 4 _ (by norm_num), igmUpper, zeroPrim]
          simp only [hp 4 (by norm_num)]
          norm_num
      · refine IgmPrim.ext ?_ ?_ (by rw [a4]; norm_num) ?_ <;>
        · simp only [igmPrimFacesLane, hslL 4 6 8 (by norm_num) (by norm_num) (by norm_num),
            hder 6 _ (by norm_num), igmLowerLane, zeroPrim]
          simp only [hp 6 (by norm_num)]
          norm_num
    have g5 := restLine_good 5 (by norm_num)
    have g7 := restLine_good 7 (by norm_num)
    have h5 := (igm_prim_round_trip unitGas unitGas_good s hs g5).2.1
    have h7 := (igm_prim_round_trip unitGas unitGas_good s hs g7).2.1
    rw [hp 5 (by norm_num)] at h5
    rw [hp 7 (by norm_num)] at h7
    unfold igmMusclPrimFluxLane
    simp only [w1]
    rw [h5, h7]
    have hb := (igm_einfeldt_bounds (0 : Fin 1) (restLine 5) (restLine 7) (by norm_num [restLine]) (by norm_num [restLine])
      (Or.inl g5.sound_pos)).1 (igmEinfeldtLane 0 (restLine 5) (restLine 7)) (by simp)
    have p5 := g5.sound_pos
    have p7 := g7.sound_pos
    obtain ⟨b1, b2, -⟩ := hb
    have hL : (igmEinfeldtLane 0 (restLine 5) (restLine 7)).1 < 0 := by
      have : (restLine 5).momentum 0 / (restLine 5).density = 0 := by simp [restLine]
      rw [this] at b1
      linarith
    have hR : 0 < (igmEinfeldtLane 0 (restLine 5) (restLine 7)).2 := by
      have : (restLine 7).momentum 0 / (restLine 7).density = 0 := by simp [restLine]
      rw [this] at b2
      linarith
    unfold hllFluxArray
    simp only [min_eq_left hL.le, max_eq_left hR.le, sub_pos, hL.trans hR, if_true]
    generalize (igmEinfeldtLane 0 (restLine 5) (restLine 7)).1 = sL at *
    generalize (igmEinfeldtLane 0 (restLine 5) (restLine 7)).2 = sR at *
    have f5 : ∀ T, (igmEqnLane complete 0).flux (restLine T) .density = 0 := by
      intro T; simp [igmEqnLane, igmFluxLane, IgmCons.get, restLine]
    have c5 : ∀ T, (igmEqnLane complete 0).cons (restLine T) .density = 1 / T := fun T => rfl
    rw [f5, f5, c5, c5]
    apply div_pos _ (by linarith)
    nlinarith [mul_neg_of_neg_of_pos hL hR]

/-! ## The characteristic method -/

/-- **C140** The state built by the characteristic method: for positive density and pressure and at
least one positive mass fraction it is a state of the mixture with exactly this density, pressure and
velocity; the mass fractions are clipped and normalised. -/
theorem igm_char_state (m : Mechanism S ℝ) (hm : GoodMechanism m) (s : ReactorState S ℝ)
    (hs : Cached m s) (w : GasPrim d) (y : S → ℝ) (hp : 0 < w.pressure) (hr : 0 < w.density)
    (hy : ∃ i, 0 < y i) :
    ∃ T, 0 < T ∧ IsMixture m w.density w.velocity (fun i => max 0 (y i) / ∑ j, max 0 (y j)) T
      (igmCompleteFromReactor m (igmCharReactor m s w y) w.velocity) ∧
    (igmCompleteFromReactor m (igmCharReactor m s w y) w.velocity).pressure = w.pressure ∧
    Cached m (igmCharReactor m s w y) := by
  obtain ⟨y0, y1, ye⟩ := setMassFractions_clip m s y hy
  have hX := hm.sum_pos y0 y1
  have hyf : (s.setMassFractions m y).massFractions =
      fun i => max 0 (y i) / ∑ j, max 0 (y j) := funext ye
  have hR := hm.gas_pos
  rw [hyf] at hX
  set Y : S → ℝ := fun i => max 0 (y i) / ∑ j, max 0 (y j) with hY
  have hc : Cached m ((s.setMassFractions m y).setDensity w.density) := hs
  have hM : ((s.setMassFractions m y).setDensity w.density).meanMolarMass m =
      1 / ∑ i, Y i / m.molarMass i := by
    show 1 / ∑ i, (s.setMassFractions m y).massFractions i / m.molarMass i = _
    rw [hyf]
  set T : ℝ := w.pressure * (1 / ∑ i, Y i / m.molarMass i) / w.density / m.gasConstant with hT
  have hTpos : 0 < T := by rw [hT]; positivity
  obtain ⟨X, hX', e⟩ : ∃ X, X = ((s.setMassFractions m y).setDensity w.density).setTemperature m T ∧
      igmCharReactor m s w y = X := by
    refine ⟨_, rfl, ?_⟩
    unfold igmCharReactor
    dsimp only
    rw [hM, ← hT]
  rw [setTemperature_fields m _ T hc] at hX'
  rw [hX'] at e
  have hmix := igm_complete_from_reactor m (igmCharReactor m s w y) w.velocity
    (by rw [e]; exact ⟨rfl, rfl⟩) (by rw [e]) (by rw [e]; exact hr.ne')
  have r1 : (igmCharReactor m s w y).density = w.density := by rw [e]; rfl
  have r2 : (igmCharReactor m s w y).massFractions = Y := by rw [e]; exact hyf
  have r3 : (igmCharReactor m s w y).temperature = T := by rw [e]
  rw [r1, r2, r3] at hmix
  refine ⟨T, hTpos, hmix, ?_, by rw [e]; exact ⟨rfl, rfl⟩⟩
  rw [hmix.pressure, hT]
  field_simp

/-- **C140** The reconstruction of density, velocity and pressure: the state of the cell plus or minus
half of the limited difference, moved by a quarter of a time step of the Euler equations (not half a
time step: the ratio handed to the reconstruction is already halved). -/
theorem igm_char_quarter_step (limiter : ℝ → ℝ → ℝ) (qL q qR : IgmComplete d S)
    (hr : q.density ≠ 0) (hc : q.speedOfSound ≠ 0) (hd : d ≤ 3) (dt dx : ℝ) (dir : Fin d)
    (rightSide : Bool) :
    let rhoc := q.density * q.speedOfSound
    let ooc2 := 1 / (q.speedOfSound * q.speedOfSound)
    let diff := charDifference (slopes3 limiter (toPrim3 qL.toGas) (toPrim3 q.toGas)
      (toPrim3 qR.toGas) rhoc ooc2 (dir.castLE hd)) rhoc ooc2 (dir.castLE hd) d
    charReconstruct3 limiter qL.toGas q.toGas qR.toGas rightSide (1 / 2 * dt / dx) dir (dir.castLE hd) =
      primComb (gasPrim q.toGas) (if rightSide then -(1 / 2) else 1 / 2) diff
        (-(dt / dx / 4)) (eulerPrimMatrix (gasPrim q.toGas) q.speedOfSound dir diff) := by
  intro rhoc ooc2 diff
  unfold charReconstruct3
  rw [muscl_char_predictor _ q.toGas hr hc hd]
  congr 1
  ring

/-- **C140** The same for the mass fractions. -/
theorem igm_char_species_step (slope : S → ℝ) (q : IgmComplete d S) (dt dx : ℝ) (dir : Fin d)
    (s : S) :
    igmCharSpecies slope q false (1 / 2 * dt / dx) dir s = q.species s / q.density +
      1 / 2 * slope s - dt / 4 * (q.momentum dir / q.density) * (slope s / dx) ∧
    igmCharSpecies slope q true (1 / 2 * dt / dx) dir s = q.species s / q.density -
      1 / 2 * slope s - dt / 4 * (q.momentum dir / q.density) * (slope s / dx) := by
  constructor
  · simp only [igmCharSpecies, Bool.false_eq_true, if_false]; ring
  · simp only [igmCharSpecies, if_true]; ring

/-- **C140** The primitive and the characteristic method differ on a linear profile of a mass fraction
in a uniform flow, although both are meant to be of second order: the difference is the movement
during a quarter of a time step. -/
theorem igm_char_prim_differ (m : Mechanism S ℝ) (limiter : ℝ → ℝ → ℝ) (hlim : ∀ x, limiter x x = x)
    (q0 q1 q2 q3 : IgmComplete d S) (dt dx : ℝ) (dir : Fin d) (s : S)
    (h : q1.species s / q1.density - q0.species s / q0.density =
      q2.species s / q2.density - q1.species s / q1.density) :
    igmCharSpecies (igmSpeciesSlopes limiter q0 q1 q2) q1 false (1 / 2 * dt / dx) dir s -
      (igmPrimFaces m (dt / dx) dir q0 q1 q2 q3).1.massFractions s =
      dt / 4 * (q1.momentum dir / q1.density) *
        ((q2.species s / q2.density - q1.species s / q1.density) / dx) := by
  have hm : minModSlope (q0.species s / q0.density) (q1.species s / q1.density)
      (q2.species s / q2.density) = q2.species s / q2.density - q1.species s / q1.density := by
    unfold minModSlope
    rw [h]
    dsimp only
    rw [min_self, max_self]
    split_ifs with h0
    · exact max_eq_right h0.le
    · exact min_eq_right (not_lt.1 h0)
  rw [(igm_char_species_step _ q1 dt dx dir s).1]
  show _ - (q1.species s / q1.density + 1 / 2 * (dt / dx * (-(q1.momentum dir / q1.density) *
    minModSlope (q0.species s / q0.density) (q1.species s / q1.density) (q2.species s / q2.density)) +
    minModSlope (q0.species s / q0.density) (q1.species s / q1.density) (q2.species s / q2.density))) = _
  rw [hm]
  unfold igmSpeciesSlopes
  rw [h, hlim]
  ring

/-- **C140** Consistency of the scalar characteristic method: in a uniform flow the flux is that of the
Euler equations, for every limiter which vanishes for zero differences, every time step and every
history of the reactor. -/
theorem igm_muscl_char_consistent (m : Mechanism S ℝ) (hm : GoodMechanism m) (s : ReactorState S ℝ)
    (hs : Cached m s) {ρ T : ℝ} {v : Fin d → ℝ} {Y : S → ℝ} {q : IgmComplete d S}
    (h : IsGoodMixture m ρ v Y T q) (old : IgmCons d S)
    (complete : IgmCons d S → IgmComplete d S) (limiter : ℝ → ℝ → ℝ) (hlim : limiter 0 0 = 0)
    (hd : d ≤ 3) (dt dx : ℝ) (dir : Fin d) :
    igmMusclCharFlux m s old complete limiter dt dx dir (dir.castLE hd) q q q q =
      some (mixNormalFlux q fun i => if i = dir then 1 else 0).get := by
  have hρ : 0 < q.density := by rw [h.density]; exact h.density_pos
  have hne := h.density_pos.ne'
  have hrec : ∀ side, charReconstruct3 limiter q.toGas q.toGas q.toGas side (1 / 2 * dt / dx) dir (dir.castLE hd) =
      gasPrim q.toGas := by
    intro side
    rw [igm_char_quarter_step limiter q q q hρ.ne' h.sound_pos.ne' hd]
    have hs0 : slopes3 limiter (toPrim3 q.toGas) (toPrim3 q.toGas) (toPrim3 q.toGas) (q.density * q.speedOfSound)
        (1 / (q.speedOfSound * q.speedOfSound)) (dir.castLE hd) = ⟨0, 0, 0, 0, 0⟩ := by
      simp [slopes3, ampl3, hlim]
    rw [hs0]
    have hz : charDifference ⟨0, 0, 0, 0, 0⟩ (q.density * q.speedOfSound) (1 / (q.speedOfSound * q.speedOfSound))
        (dir.castLE hd) d = ⟨0, fun _ => 0, 0⟩ := by
      ext i <;> simp [charDifference, recombine3]
    rw [hz]
    ext i
    · simp [primComb, eulerPrimMatrix]
    · by_cases hi : i = dir <;> simp [primComb, eulerPrimMatrix, hi]
    · simp [primComb, eulerPrimMatrix]
  have hgp : gasPrim q.toGas = ⟨ρ, v, q.pressure⟩ := by
    ext i
    · exact h.density
    · show q.momentum i / q.density = v i
      rw [h.momentum, h.density]; field_simp
    · rfl
  have hy : ∀ side, igmCharSpecies (igmSpeciesSlopes limiter q q q) q side (1 / 2 * dt / dx) dir = Y := by
    intro side
    funext i
    have h0 : igmSpeciesSlopes limiter q q q i = 0 := by simp [igmSpeciesSlopes, hlim]
    unfold igmCharSpecies
    simp only [h0, mul_zero, zero_mul, zero_add]
    rw [h.species, h.density]; field_simp
  obtain ⟨n1, -, n3⟩ := norm_keep h.fraction_nonneg h.fraction_sum
  have hp := h.pressure_pos hm
  have key : ∀ (r : ReactorState S ℝ), Cached m r → ∀ side,
      (igmCharReconstruct m r limiter q q q side (1 / 2 * dt / dx) dir (dir.castLE hd)).2 = q ∧
      Cached m (igmCharReconstruct m r limiter q q q side (1 / 2 * dt / dx) dir (dir.castLE hd)).1 := by
    intro r hcr side
    unfold igmCharReconstruct
    simp only [hrec, hgp, hy]
    obtain ⟨T', hT', mix, pr, hc⟩ := igm_char_state m hm r hcr (⟨ρ, v, q.pressure⟩ : GasPrim d) Y hp
      h.density_pos n3
    refine ⟨?_, hc⟩
    dsimp only at mix pr
    rw [n1] at mix
    have hX := hm.sum_pos h.fraction_nonneg h.fraction_sum
    have hTT : T' = T := by
      have e1 := mix.pressure
      rw [pr, h.pressure] at e1
      have hk : (T - T') * (ρ * m.gasConstant * ∑ i, Y i / m.molarMass i) = 0 := by linear_combination e1
      have hk2 : ρ * m.gasConstant * ∑ i, Y i / m.molarMass i ≠ 0 := by
        have := hm.gas_pos
        have := h.density_pos
        positivity
      have := (mul_eq_zero.1 hk).resolve_right hk2
      linarith
    subst hTT
    exact isMixture_unique mix h.toIsMixture pr (by
      have := hm.gas_pos
      positivity)
  unfold igmMusclCharFlux
  dsimp only
  obtain ⟨k1, k2⟩ := key s hs false
  rw [k1, (key _ k2 true).1, (igm_hll_consistent m h old complete dir).1]

theorem vanLeer_fraction (a b : ℝ) : ∃ θ θ' : ℝ, (0 ≤ θ ∧ θ ≤ 2) ∧ (0 ≤ θ' ∧ θ' ≤ 2) ∧
    vanLeer a b = θ * b ∧ vanLeer a b = θ' * a := by
  obtain ⟨h1, h2⟩ := vanLeer_cases a b
  by_cases h : 0 < a * b
  · rw [h1 h]
    have hab : (0 < a ∧ 0 < b) ∨ (a < 0 ∧ b < 0) := mul_pos_iff.1 h
    have hs : a + b ≠ 0 := by
      rcases hab with ⟨x, y⟩ | ⟨x, y⟩
      · exact (add_pos x y).ne'
      · exact (add_neg x y).ne
    have key : ∀ x y : ℝ, (0 < x ∧ 0 < y) ∨ (x < 0 ∧ y < 0) → 0 ≤ 2 * x / (x + y) ∧ 2 * x / (x + y) ≤ 2 := by
      rintro x y (⟨hx, hy⟩ | ⟨hx, hy⟩)
      · refine ⟨by positivity, ?_⟩
        rw [div_le_iff₀ (by linarith)]; linarith
      · refine ⟨div_nonneg_of_nonpos (by linarith) (by linarith), ?_⟩
        rw [div_le_iff_of_neg (by linarith)]; linarith
    refine ⟨2 * a / (a + b), 2 * b / (a + b), key a b hab, ?_, by ring, by ring⟩
    have := key b a (hab.imp And.symm And.symm)
    rwa [add_comm b a] at this
  · rw [h2 (not_lt.1 h)]
    exact ⟨0, 0, by norm_num, by norm_num, by ring, by ring⟩

/-- **C140** With the default limiter the mass fractions on the side of the face from which the flow
comes lie between those of the two cells, if the flow crosses at most two cells per time step. -/
theorem igm_char_fraction_bounds (dt dx : ℝ) (dir : Fin d) (q0 q1 q2 q3 : IgmComplete d S) (s : S) :
    let y1 := q1.species s / q1.density
    let y2 := q2.species s / q2.density
    let c1 := dt / dx * (q1.momentum dir / q1.density)
    let c2 := dt / dx * (q2.momentum dir / q2.density)
    let l := igmCharSpecies (igmSpeciesSlopes vanLeer q0 q1 q2) q1 false (1 / 2 * dt / dx) dir s
    let r := igmCharSpecies (igmSpeciesSlopes vanLeer q1 q2 q3) q2 true (1 / 2 * dt / dx) dir s
    (0 ≤ c1 → c1 ≤ 2 → min y1 y2 ≤ l ∧ l ≤ max y1 y2) ∧
    (-2 ≤ c2 → c2 ≤ 0 → min y1 y2 ≤ r ∧ r ≤ max y1 y2) := by
  intro y1 y2 c1 c2 l r
  constructor
  · intro h0 h2
    obtain ⟨θ, -, ⟨t0, t1⟩, -, e, -⟩ := vanLeer_fraction (y1 - q0.species s / q0.density) (y2 - y1)
    have el : l = y1 + (1 / 2 * (1 - 1 / 2 * c1) * θ) * (y2 - y1) := by
      show igmCharSpecies (igmSpeciesSlopes vanLeer q0 q1 q2) q1 false (1 / 2 * dt / dx) dir s = _
      rw [(igm_char_species_step _ q1 dt dx dir s).1]
      show y1 + 1 / 2 * vanLeer (y1 - q0.species s / q0.density) (y2 - y1) - dt / 4 * (q1.momentum dir / q1.density) *
        (vanLeer (y1 - q0.species s / q0.density) (y2 - y1) / dx) = _
      rw [e]; simp only [c1]; ring
    rw [el]
    apply segment_between
    · exact mul_nonneg (by linarith) t0
    · calc _ ≤ 1 / 2 * θ := mul_le_mul_of_nonneg_right (by linarith) t0
        _ ≤ 1 := by linarith
  · intro h0 h2
    obtain ⟨-, θ, -, ⟨t0, t1⟩, -, e⟩ := vanLeer_fraction (y2 - y1) (q3.species s / q3.density - y2)
    have er : r = y2 + (1 / 2 * (1 + 1 / 2 * c2) * θ) * (y1 - y2) := by
      show igmCharSpecies (igmSpeciesSlopes vanLeer q1 q2 q3) q2 true (1 / 2 * dt / dx) dir s = _
      rw [(igm_char_species_step _ q2 dt dx dir s).2]
      show y2 - 1 / 2 * vanLeer (y2 - y1) (q3.species s / q3.density - y2) - dt / 4 * (q2.momentum dir / q2.density) *
        (vanLeer (y2 - y1) (q3.species s / q3.density - y2) / dx) = _
      rw [e]; simp only [c2]; ring
    rw [er, min_comm, max_comm]
    apply segment_between
    · exact mul_nonneg (by linarith) t0
    · calc _ ≤ 1 / 2 * θ := mul_le_mul_of_nonneg_right (by linarith) t0
        _ ≤ 1 := by linarith

/-! ## The loop over the species in the array version -/

/-- **C140** The array version adds the differences of the mass fractions in a loop up to the number of
entries of the array, not to the number of its rows: with more than one lane the loop leaves the array
(undefined behaviour); with one lane it adds the differences. -/
theorem igm_char_array_loop (rows lanes : ℕ) (diffs y : Fin rows → Fin lanes → ℝ) :
    (0 < rows → 1 < lanes → igmAddRows rows lanes diffs y = none) ∧
    (lanes = 1 → igmAddRows rows lanes diffs y = some fun i l => diffs i l + y i l) := by
  set f : (Fin rows → Fin lanes → ℝ) → ℕ → Option (Fin rows → Fin lanes → ℝ) := fun acc s =>
    if h : s < rows then
      some (Function.update acc ⟨s, h⟩ (fun l => acc ⟨s, h⟩ l + y ⟨s, h⟩ l))
    else none with hf
  have key : ∀ n, n ≤ rows → (List.range n).foldlM f diffs =
      some fun i l => if i.1 < n then diffs i l + y i l else diffs i l := by
    intro n
    induction n with
    | zero => intro _; simp
    | succ n ih =>
      intro hn
      rw [List.range_succ, List.foldlM_append, ih (by omega)]
      simp only [Option.bind_eq_bind, Option.bind_some, List.foldlM_cons, List.foldlM_nil]
      have hlt : n < rows := hn
      simp only [hf, hlt, dif_pos, lt_irrefl, if_false, Option.bind_some]
      show some _ = some _
      congr 1
      funext i l
      by_cases hi : i = ⟨n, hlt⟩
      · subst hi
        simp
      · have hne : i.1 ≠ n := fun h => hi (Fin.ext h)
        rw [Function.update_of_ne hi]
        by_cases hlt' : i.1 < n
        · simp [hlt', Nat.lt_succ_of_lt hlt']
        · have : ¬ i.1 < n + 1 := by omega
          simp [hlt', this]
  constructor
  · intro hr hl
    have hlt : rows + 1 ≤ rows * lanes := by nlinarith
    obtain ⟨k, hk⟩ := Nat.exists_eq_add_of_le hlt
    unfold igmAddRows
    rw [hk, List.range_add, List.foldlM_append, List.range_succ, List.foldlM_append, key rows le_rfl]
    simp [hf]
  · rintro rfl
    unfold igmAddRows
    rw [mul_one]
    rw [key rows le_rfl]
    simp

end

/-! ## The hypotheses are met -/

/-- A reactor after one evaluation of the thermodynamics. -/
noncomputable def restReactor : ReactorState Unit ℝ :=
  ⟨fun _ => 1, fun _ => 1, 1, 1, 1, (unitGas.thermo 1).1, (unitGas.thermo 1).2⟩

example : GoodMechanism unitGas ∧ Cached unitGas restReactor ∧
    IsGoodMixture unitGas (1 / 4) (fun _ : Fin 1 => 0) (fun _ => 1) 4 (restLine 4) ∧
    vanLeer (0 : ℝ) 0 = 0 ∧ (∀ k, 0 < (![restLine 2, restLine 4, restLine 6, restLine 8] k).density) ∧
    |(1 : ℝ) * ((restLine 4).momentum 0 / (restLine 4).density)| ≤ 1 := by
  refine ⟨unitGas_good, ⟨rfl, rfl⟩, restLine_good 4 (by norm_num), ?_, ?_, ?_⟩
  · simp [vanLeer]
  · intro k; fin_cases k <;> norm_num [restLine]
  · simp [restLine]

end Fub
