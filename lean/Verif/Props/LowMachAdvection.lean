import Verif.Model.LowMach
import Verif.Spec.NodalHelm
import Mathlib.Algebra.Order.Field.Rat
import Mathlib.Tactic.Ring
import Mathlib.Tactic.Linarith
import Mathlib.Tactic.FieldSimp
import Mathlib.Tactic.LinearCombination

/-!
C102: the advection step of the low Mach number solver.
-/

namespace Fub

section Flux
variable {K : Type} [Field K] [LinearOrder K] [IsStrictOrderedRing K]

omit [IsStrictOrderedRing K] in
theorem lmUpwind_cases (pv : K) : (0 < pv ∧ lmUpwind pv = 1) ∨ (pv = 0 ∧ lmUpwind pv = 0) ∨ (pv < 0 ∧ lmUpwind pv = -1) := by
  unfold lmUpwind
  rcases lt_trichotomy pv 0 with h | h | h
  · right; right; simp [h, not_lt.2 h.le]
  · right; left; simp [h]
  · left; simp [h, not_lt.2 h.le]

/-- **C102.** Upwinding: with a positive face value only the left states and face values enter, with a negative one only the right ones, and through a face without flow nothing is transported. -/
theorem lm_flux_upwind (dt dx : K) (s0 s1 s2 s3 t0 t3 : LMCell K) (pv1 pv2 pv3 qv1 qv3 : K) :
    (0 < pv2 → lmFlux dt dx s0 s1 s2 s3 pv1 pv2 pv3 = lmFlux dt dx s0 s1 s2 t3 pv1 pv2 qv3)
    ∧ (pv2 < 0 → lmFlux dt dx s0 s1 s2 s3 pv1 pv2 pv3 = lmFlux dt dx t0 s1 s2 s3 qv1 pv2 pv3)
    ∧ (pv2 = 0 → lmFlux dt dx s0 s1 s2 s3 pv1 pv2 pv3 = ⟨0, 0, 0, 0⟩) := by
  refine ⟨fun h => ?_, fun h => ?_, fun h => ?_⟩
  · have hu : lmUpwind pv2 = 1 := by unfold lmUpwind; simp [h, not_lt.2 h.le]
    unfold lmFlux; simp [hu]
  · have hu : lmUpwind pv2 = -1 := by unfold lmUpwind; simp [h, not_lt.2 h.le]
    unfold lmFlux; simp [hu]
  · unfold lmFlux; simp [h]

omit [LinearOrder K] [IsStrictOrderedRing K] in
theorem lmRec_const (dt dx q v : K) : lmRecL dt dx q q q v = q ∧ lmRecR dt dx q q q v = q := by
  unfold lmRecL lmRecR lmSlope; constructor <;> simp

/-- A uniform inverse potential temperature and velocity are carried by every flux. -/
theorem lm_flux_uniform {dt dx chi u w : K} {s0 s1 s2 s3 : LMCell K} (pv1 pv2 pv3 : K)
    (h0 : s0.ptinv = chi ∧ s0.mx / s0.density = u ∧ s0.my / s0.density = w) (h1 : s1.ptinv = chi ∧ s1.mx / s1.density = u ∧ s1.my / s1.density = w)
    (h2 : s2.ptinv = chi ∧ s2.mx / s2.density = u ∧ s2.my / s2.density = w) (h3 : s3.ptinv = chi ∧ s3.mx / s3.density = u ∧ s3.my / s3.density = w) :
    lmFlux dt dx s0 s1 s2 s3 pv1 pv2 pv3 = ⟨pv2 * chi, pv2 * chi * u, pv2 * chi * w, pv2⟩ := by
  obtain ⟨a0, b0, c0⟩ := h0
  obtain ⟨a1, b1, c1⟩ := h1
  obtain ⟨a2, b2, c2⟩ := h2
  obtain ⟨a3, b3, c3⟩ := h3
  unfold lmFlux
  simp only [a0, a1, a2, a3, b0, b1, b2, b3, c0, c1, c2, c3, (lmRec_const _ _ _ _).1, (lmRec_const _ _ _ _).2]
  ext <;> simp only <;> ring

/-- **C102.** Mirror symmetry: reflecting the states and the face values reflects the flux. -/
theorem lm_flux_mirror (dt dx : K) (s0 s1 s2 s3 : LMCell K) (pv1 pv2 pv3 : K) :
    let m := fun q : LMCell K => { q with mx := -q.mx }
    let f := lmFlux dt dx s0 s1 s2 s3 pv1 pv2 pv3
    lmFlux dt dx (m s3) (m s2) (m s1) (m s0) (-pv3) (-pv2) (-pv1) = ⟨-f.density, f.mx, -f.my, -f.pt⟩ := by
  simp only
  have hL : ∀ q0 q1 q2 v : K, lmRecL dt dx q2 q1 q0 (-v) = lmRecR dt dx q0 q1 q2 v := by
    intro q0 q1 q2 v; unfold lmRecL lmRecR lmSlope; ring
  have hR : ∀ q0 q1 q2 v : K, lmRecR dt dx q2 q1 q0 (-v) = lmRecL dt dx q0 q1 q2 v := by
    intro q0 q1 q2 v; unfold lmRecL lmRecR lmSlope; ring
  have hLn : ∀ q0 q1 q2 v : K, lmRecL dt dx (-q2) (-q1) (-q0) (-v) = -lmRecR dt dx q0 q1 q2 v := by
    intro q0 q1 q2 v; unfold lmRecL lmRecR lmSlope; ring
  have hRn : ∀ q0 q1 q2 v : K, lmRecR dt dx (-q2) (-q1) (-q0) (-v) = -lmRecL dt dx q0 q1 q2 v := by
    intro q0 q1 q2 v; unfold lmRecL lmRecR lmSlope; ring
  have hup : lmUpwind (-pv2) = -lmUpwind pv2 := by
    unfold lmUpwind; simp only [gt_iff_lt, Left.neg_pos_iff, Left.neg_neg_iff]; ring
  unfold lmFlux
  simp only [neg_div]
  have e1 : 1 / 2 * (-pv3 + -pv2) / s2.pt = -(1 / 2 * (pv2 + pv3) / s2.pt) := by ring
  have e2 : 1 / 2 * (-pv2 + -pv1) / s1.pt = -(1 / 2 * (pv1 + pv2) / s1.pt) := by ring
  rw [e1, e2, hup]
  simp only [hLn, hRn]
  simp only [hL, hR]
  ext <;> simp only <;> ring

/-- **C102.** Second order: for a uniform flow and a linear profile of the inverse potential temperature the transported mass is exactly the profile, shifted by half a time step, at the face. Cell `k` of the stencil has its center at `x + (k - 3/2) dx`. -/
theorem lm_flux_linear {dt dx P v a b x : K} (hdx : dx ≠ 0) (hP : 0 < P) {s0 s1 s2 s3 : LMCell K} (hp1 : s1.pt = P) (hp2 : s2.pt = P)
    (h0 : s0.ptinv = a + b * (x - 3 / 2 * dx)) (h1 : s1.ptinv = a + b * (x - 1 / 2 * dx)) (h2 : s2.ptinv = a + b * (x + 1 / 2 * dx)) (h3 : s3.ptinv = a + b * (x + 3 / 2 * dx)) :
    (lmFlux dt dx s0 s1 s2 s3 (P * v) (P * v) (P * v)).density = P * v * (a + b * (x - v * dt / 2)) := by
  have hv : 1 / 2 * (P * v + P * v) / P = v := by field_simp; ring
  have hL : lmRecL dt dx s0.ptinv s1.ptinv s2.ptinv v = a + b * (x - v * dt / 2) := by
    rw [h0, h1, h2]; unfold lmRecL lmSlope; field_simp; ring
  have hR : lmRecR dt dx s1.ptinv s2.ptinv s3.ptinv v = a + b * (x - v * dt / 2) := by
    rw [h1, h2, h3]; unfold lmRecR lmSlope; field_simp; ring
  unfold lmFlux
  simp only [hp1, hp2, hv, hL, hR]
  ring

theorem foldl_max_spec (l : List K) (a : K) : a ≤ l.foldl max a ∧ (∀ x ∈ l, x ≤ l.foldl max a) ∧ (l.foldl max a = a ∨ l.foldl max a ∈ l) := by
  induction l generalizing a with
  | nil => simp
  | cons y ys ih =>
    obtain ⟨h1, h2, h3⟩ := ih (max a y)
    refine ⟨(le_max_left _ _).trans h1, ?_, ?_⟩
    · intro x hx
      rcases List.mem_cons.1 hx with rfl | hx
      · exact (le_max_right _ _).trans h1
      · exact h2 x hx
    · rcases h3 with h3 | h3
      · rcases max_choice a y with h | h
        · left; rw [List.foldl_cons, h3, h]
        · right; rw [List.foldl_cons, h3, h]; simp
      · right; exact List.mem_cons_of_mem _ h3

/-- **C102.** The stable time step is the largest one for which no cell is crossed in one step, and there is no limit exactly if nothing moves. -/
theorem lm_stable_dt {dx : K} (hdx : 0 < dx) (cells : List (K × K × K)) :
    (∀ dt, lmStableDt dx cells = some dt → 0 < dt ∧ (∀ c ∈ cells, lmSpeed c.1 c.2.1 c.2.2 * dt ≤ dx) ∧ ∃ c ∈ cells, lmSpeed c.1 c.2.1 c.2.2 * dt = dx)
    ∧ (lmStableDt dx cells = none ↔ ∀ c ∈ cells, lmSpeed c.1 c.2.1 c.2.2 = 0) := by
  obtain ⟨h1, h2, h3⟩ := foldl_max_spec (cells.map fun c => lmSpeed c.1 c.2.1 c.2.2) (-1)
  unfold lmStableDt
  simp only
  generalize hm : (cells.map fun c => lmSpeed c.1 c.2.1 c.2.2).foldl max (-1) = m at *
  have hle : ∀ c ∈ cells, lmSpeed c.1 c.2.1 c.2.2 ≤ m := fun c hc => h2 _ (List.mem_map.2 ⟨c, hc, rfl⟩)
  have hnn : ∀ a b c : K, 0 ≤ lmSpeed a b c := fun a b c => abs_nonneg _
  constructor
  · intro dt h
    split at h
    · rename_i hpos
      cases h
      have hpos : 0 < m := hpos
      refine ⟨div_pos hdx hpos, fun c hc => ?_, ?_⟩
      · rw [← mul_div_assoc, div_le_iff₀ hpos, mul_comm]
        exact mul_le_mul_of_nonneg_left (hle c hc) hdx.le
      · rcases h3 with h3 | h3
        · linarith
        · obtain ⟨c, hc, he⟩ := List.mem_map.1 h3
          refine ⟨c, hc, ?_⟩
          have he : lmSpeed c.1 c.2.1 c.2.2 = m := he
          rw [he]; field_simp
    · cases h
  · constructor
    · intro h c hc
      split at h
      · cases h
      · rename_i hpos
        exact le_antisymm ((hle c hc).trans (not_lt.1 hpos)) (hnn _ _ _)
    · intro h
      rw [if_neg]
      intro hpos
      rcases h3 with h3 | h3
      · rw [h3] at hpos; have : (0 : K) < -1 := hpos; linarith
      · obtain ⟨c, hc, he⟩ := List.mem_map.1 h3
        have he : lmSpeed c.1 c.2.1 c.2.2 = m := he
        rw [h c hc] at he
        have : 0 < m := hpos
        linarith

example : lmStableDt (1 : ℚ) [(1, 3, 2), (-4, -4, 2), (0, 0, 1)] = some (1 / 2) := by decide +kernel

end Flux

section Sweeps
variable {I J K : Type} [AddGroupWithOne I] [AddGroupWithOne J] [Field K] [LinearOrder K] [IsStrictOrderedRing K]

/-- A field of complete states with uniform inverse potential temperature and velocity. -/
def LMUniform (chi u w : K) (s : I → J → LMCell K) : Prop :=
  ∀ i j, (s i j).density = chi * (s i j).pt ∧ (s i j).mx = u * (s i j).density ∧ (s i j).my = w * (s i j).density ∧ (s i j).ptinv = (s i j).density / (s i j).pt

omit [AddGroupWithOne I] [AddGroupWithOne J] [LinearOrder K] [IsStrictOrderedRing K] in
theorem LMUniform.vals {chi u w : K} {s : I → J → LMCell K} (hs : LMUniform chi u w s) (hchi : chi ≠ 0) {i : I} {j : J} (hp : (s i j).pt ≠ 0) :
    (s i j).ptinv = chi ∧ (s i j).mx / (s i j).density = u ∧ (s i j).my / (s i j).density = w := by
  obtain ⟨h1, h2, h3, h4⟩ := hs i j
  have hd : (s i j).density ≠ 0 := by rw [h1]; exact mul_ne_zero hchi hp
  refine ⟨?_, ?_, ?_⟩
  · rw [h4, h1]; field_simp
  · rw [h2]; field_simp
  · rw [h3]; field_simp

theorem lm_sweepX_uniform {dx dt chi u w : K} (hchi : chi ≠ 0) (pv : I → J → K) {s : I → J → LMCell K} (hs : LMUniform chi u w s) (hp : ∀ i j, (s i j).pt ≠ 0) :
    LMUniform chi u w (lmSweepX dx dt pv s) := by
  intro i j
  have hv : ∀ i, (s i j).ptinv = chi ∧ (s i j).mx / (s i j).density = u ∧ (s i j).my / (s i j).density = w := fun i => hs.vals hchi (hp i j)
  obtain ⟨h1, h2, h3, h4⟩ := hs i j
  unfold lmSweepX
  simp only [lm_flux_uniform _ _ _ (hv (i - 2)) (hv (i - 1)) (hv i) (hv (i + 1)), lm_flux_uniform _ _ _ (hv (i + 1 - 2)) (hv (i + 1 - 1)) (hv (i + 1)) (hv (i + 1 + 1)), lmComplete]
  rw [h2, h3, h1]
  refine ⟨by ring, by ring, by ring, trivial⟩

theorem lm_sweepY_uniform {dy dt chi u w : K} (hchi : chi ≠ 0) (pv : I → J → K) {s : I → J → LMCell K} (hs : LMUniform chi u w s) (hp : ∀ i j, (s i j).pt ≠ 0) :
    LMUniform chi u w (lmSweepY dy dt pv s) := by
  intro i j
  have hv : ∀ j, (s i j).ptinv = chi ∧ (s i j).mx / (s i j).density = u ∧ (s i j).my / (s i j).density = w := fun j => hs.vals hchi (hp i j)
  obtain ⟨h1, h2, h3, h4⟩ := hs i j
  unfold lmSweepY
  simp only [lm_flux_uniform _ _ _ (hv (j - 2)) (hv (j - 1)) (hv j) (hv (j + 1)), lm_flux_uniform _ _ _ (hv (j + 1 - 2)) (hv (j + 1 - 1)) (hv (j + 1)) (hv (j + 1 + 1)), lmComplete]
  rw [h2, h3, h1]
  refine ⟨by ring, by ring, by ring, trivial⟩

/-- **C102.** Constancy: a uniform (inverse) potential temperature and a uniform velocity stay uniform under every sequence of directional sweeps and every field of face values, as long as the transported `PTdensity` does not vanish. -/
theorem lm_advect_uniform {dx dy chi u w : K} (hchi : chi ≠ 0) (pvx pvy : I → J → K) (sweeps : List (Bool × K)) (s : I → J → LMCell K) (hs : LMUniform chi u w s)
    (hp : ∀ n ≤ sweeps.length, ∀ i j, (lmAdvect dx dy pvx pvy (sweeps.take n) s i j).pt ≠ 0) : LMUniform chi u w (lmAdvect dx dy pvx pvy sweeps s) := by
  induction sweeps generalizing s with
  | nil => exact hs
  | cons a rest ih =>
    have h0 : ∀ i j, (s i j).pt ≠ 0 := hp 0 (Nat.zero_le _)
    show LMUniform chi u w (lmAdvect dx dy pvx pvy rest (if a.1 then lmSweepX dx a.2 pvx s else lmSweepY dy a.2 pvy s))
    refine ih _ ?_ (fun n hn => hp (n + 1) (by simpa using hn))
    split
    · exact lm_sweepX_uniform hchi pvx hs h0
    · exact lm_sweepY_uniform hchi pvy hs h0

omit [IsStrictOrderedRing K] in
/-- **C102.** The new `PTdensity` does not depend on the order of the sweeps or on the states: it changes by the total time of the sweeps in a direction times the difference of the face values. -/
theorem lm_advect_pt (dx dy : K) (pvx pvy : I → J → K) (sweeps : List (Bool × K)) (s : I → J → LMCell K) (i : I) (j : J) :
    (lmAdvect dx dy pvx pvy sweeps s i j).pt = (s i j).pt - ((sweeps.filter (·.1)).map (·.2)).sum * ((pvx (i + 1) j - pvx i j) / dx)
      - ((sweeps.filter (!·.1)).map (·.2)).sum * ((pvy i (j + 1) - pvy i j) / dy) := by
  induction sweeps generalizing s with
  | nil => simp [lmAdvect]
  | cons a rest ih =>
    show (lmAdvect dx dy pvx pvy rest (if a.1 then lmSweepX dx a.2 pvx s else lmSweepY dy a.2 pvy s) i j).pt = _
    rw [ih]
    obtain ⟨b, t⟩ := a
    cases b
    · simp only [Bool.false_eq_true, if_false, lmSweepY, lmComplete, lmFlux, List.filter_cons, Bool.not_false, if_true, List.map_cons, List.sum_cons]
      ring
    · simp only [if_true, lmSweepX, lmComplete, lmFlux, List.filter_cons, Bool.not_true, Bool.false_eq_true, if_false, List.map_cons, List.sum_cons]
      ring

/-- **C102.** (Disagreement.) The function called `LimitSlopes` does not limit: at half of the stable time step an advected step profile overshoots. -/
theorem lm_overshoot : ∃ s : ℤ → ℤ → LMCell ℚ, (∀ i j, (s i j).pt = 1 ∧ 1 ≤ (s i j).ptinv ∧ (s i j).ptinv ≤ 2 ∧ (s i j).density = (s i j).ptinv) ∧
    lmStableDt (1 : ℚ) [(1, 1, 1)] = some 1 ∧ 2 < (lmSweepX 1 (1 / 2) (fun _ _ => 1) s 0 0).ptinv := by
  refine ⟨fun i _ => if i ≤ 0 then ⟨2, 2, 0, 1, 2⟩ else ⟨1, 1, 0, 1, 1⟩, fun i j => ?_, ?_, ?_⟩
  · dsimp only; split <;> norm_num
  · decide +kernel
  · decide +kernel

/-- A non-trivial state that meets the hypotheses: varying `PTdensity`, uniform velocity, a rotating field of face values. -/
example : LMUniform (I := ZMod 2) (J := ZMod 2) (2 : ℚ) 3 (-1) (fun i j => lmComplete ⟨2 * (1 + i.val), 6 * (1 + i.val), -2 * (1 + i.val), 1 + i.val⟩) ∧
    ∀ n ≤ 2, ∀ i j, (lmAdvect (I := ZMod 2) (J := ZMod 2) 1 1 (fun _ j => (j.val : ℚ)) (fun i _ => (i.val : ℚ)) ([(true, 1 / 4), (false, 1 / 2)].take n)
      (fun i j => lmComplete ⟨2 * (1 + i.val), 6 * (1 + i.val), -2 * (1 + i.val), 1 + i.val⟩) i j).pt ≠ 0 := by
  constructor
  · intro i j
    simp only [lmComplete]
    refine ⟨trivial, by ring, by ring, trivial⟩
  · decide +kernel

end Sweeps
end Fub
