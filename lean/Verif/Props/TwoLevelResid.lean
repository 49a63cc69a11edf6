import Verif.Props.TwoLevelRhs
import Verif.Model.TwoLevelResid

/-!
C191: the residual of the pressure equation at the nodes between two refinement levels.
-/

namespace Fub
variable {K : Type} [Field K] [CharZero K]

/-- The coefficient `sig` alone: no cross coefficients, no diagonal. -/
def sigOnly (sig : ℤ → ℤ → K) (dxinv dyinv : K) : HelmCoef ℤ ℤ K := ⟨sig, fun _ _ => 0, fun _ _ => 0, fun _ _ => 0, dxinv, dyinv⟩

/-- The velocity `sig grad x`, first component. -/
def sigGradX (sig : ℤ → ℤ → K) (dxinv : K) (x : ℤ → ℤ → K) (i j : ℤ) : K := sig i j * cellGradX dxinv x i j
/-- The velocity `sig grad x`, second component. -/
def sigGradY (sig : ℤ → ℤ → K) (dyinv : K) (x : ℤ → ℤ → K) (i j : ℤ) : K := sig i j * cellGradY dyinv x i j

theorem fineAx_eq (fdx fdy : K) (f : NBox) (msk : ℤ → ℤ → Bool) (sig rhs x : ℤ → ℤ → K)
    (hm : ∀ i j, f.ilo + 1 ≤ i ∧ i ≤ f.ihi - 1 ∧ f.jlo + 1 ≤ j ∧ j ≤ f.jhi - 1 → msk i j = false) (i j : ℤ) :
    fineAx fdx fdy f sig rhs (levelRes (sigOnly sig fdx fdy) msk rhs x) x i j
      = fineRh fdx fdy f f.enclosed (nodeDivu fdx fdy msk (sigGradX sig fdx x) (sigGradY sig fdy x)) (sigGradX sig fdx x) (sigGradY sig fdy x) i j := by
  unfold fineAx fineRh
  by_cases hb : f.onBorder i j = true
  · simp only [hb, if_true]
    have m : ∀ (g : ℤ → ℤ → K) (a b : ℤ), onBox f.enclosed (fun i j => sig i j * g i j) a b = onBox f.enclosed sig a b * g a b := by
      intro g a b; unfold onBox; split_ifs <;> simp
    have mx : ∀ a b, onBox f.enclosed (sigGradX sig fdx x) a b = onBox f.enclosed sig a b * cellGradX fdx x a b := fun a b => m _ a b
    have my : ∀ a b, onBox f.enclosed (sigGradY sig fdy x) a b = onBox f.enclosed sig a b * cellGradY fdy x a b := fun a b => m _ a b
    simp only [mx, my]
    generalize onBox f.enclosed sig = s
    simp only [cellGradX, cellGradY, sub_add_cancel]
    ring
  · simp only [hb]
    by_cases hs : f.ilo + 1 ≤ i ∧ i ≤ f.ihi - 1 ∧ f.jlo + 1 ≤ j ∧ j ≤ f.jhi - 1
    · have hs' := (mem_has ⟨f.ilo + 1, f.ihi - 1, f.jlo + 1, f.jhi - 1⟩ i j).mpr hs
      simp only [hs', if_true, levelRes, helmApply, nodeDivu, hm i j hs, Bool.false_eq_true, if_false, helmStencil, sigOnly, sigGradX, sigGradY, cellGradX, cellGradY, sub_add_cancel]
      ring
    · have hs' : NBox.has ⟨f.ilo + 1, f.ihi - 1, f.jlo + 1, f.jhi - 1⟩ i j = false := Bool.eq_false_iff.mpr fun c => hs ((mem_has _ _ _).mp c)
      simp only [hs', Bool.false_eq_true, if_false]

/-- **C191.** Without cross coefficients and diagonal the part of the operator that comes from the fine level is, at every coarse node, exactly what the velocity `sig grad x` of the fine level contributes to the right-hand side. -/
theorem reflux_fine_part (fdx fdy : K) (cdom : NBox) (bc : Sides LinBC) (hbc : bc.open) (grids : List NBox) (fmsk : ℤ → ℤ → Bool) (ccmsk : ℤ → ℤ → ℤ)
    (hm : MasksFit grids ccmsk fmsk) (sig rhs x : ℤ → ℤ → K) (i j : ℤ) :
    refluxFine fdx fdy grids fmsk sig rhs (levelRes (sigOnly sig fdx fdy) fmsk rhs x) x i j
      = fineSum fdx fdy cdom bc grids fmsk (sigGradX sig fdx x) (sigGradY sig fdy x) (fun _ _ => 0) i j := by
  unfold refluxFine fineSum
  refine congrArg List.sum (List.map_congr_left fun c hc => ?_)
  rw [velocityBox_plain _ _ _ (open_noInflow bc hbc)]
  have hin : ∀ a b, 2 * c.ilo + 1 ≤ a ∧ a ≤ 2 * c.ihi - 1 ∧ 2 * c.jlo + 1 ≤ b ∧ b ≤ 2 * c.jhi - 1 → fmsk a b = false := fun a b h => hm.inner a b (grid_inner grids c hc a b h)
  have e : fineAx fdx fdy c.refine2 sig rhs (levelRes (sigOnly sig fdx fdy) fmsk rhs x) x
      = fineRh fdx fdy c.refine2 c.refine2.enclosed (nodeDivu fdx fdy fmsk (sigGradX sig fdx x) (sigGradY sig fdy x)) (sigGradX sig fdx x) (sigGradY sig fdy x) := by
    funext a b
    exact fineAx_eq fdx fdy c.refine2 fmsk sig rhs x (fun p q h => hin p q h) a b
  rw [e]
  have z : rhccContrib c.refine2 fmsk (onBox c.refine2.enclosed fun _ _ => (0 : K)) i j = 0 := by
    have : onBox c.refine2.enclosed (fun _ _ => (0 : K)) = fun _ _ => 0 := by funext a b; simp [onBox]
    rw [this]; simp [rhccContrib]
  rw [z, add_zero]
  unfold resContrib fineContrib
  have hcond : (c.has i j && fmsk (2 * i) (2 * j)) = (c.refine2.onBorder (2 * i) (2 * j) && fmsk (2 * i) (2 * j)) := by
    by_cases hk : fmsk (2 * i) (2 * j) = true
    · rw [hk, Bool.and_true, Bool.and_true, Bool.eq_iff_iff, mem_has, onBorder_iff]
      simp only [NBox.refine2]
      constructor
      · intro h
        refine ⟨by omega, fun h2 => ?_⟩
        rw [hin _ _ (by omega)] at hk
        exact absurd hk (by simp)
      · intro h; omega
    · simp [hk]
  simp only [hcond]

/-- The residual at the nodes between the levels, for the right-hand side of the velocity `sig grad x` on both levels. Full claim: it vanishes for all pressures; see `reflux_wrong`. -/
def GradientResidualZero (dxinv dyinv : K) (cdom : NBox) (bc : Sides LinBC) (grids : List NBox) (fmsk : ℤ → ℤ → Bool) (ccmsk : ℤ → ℤ → ℤ) (sig p fsig q res0 : ℤ → ℤ → K) (i j : ℤ) : Prop :=
  let u := sigGradX sig dxinv p
  let v := sigGradY sig dyinv p
  let fu := sigGradX fsig (2 * dxinv) q
  let fv := sigGradY fsig (2 * dyinv) q
  let zero := fun _ _ => 0
  let rhs := compRhs2 dxinv dyinv (2 * dxinv) (2 * dyinv) cdom bc grids (fun _ _ => false) fmsk ccmsk u v zero fu fv zero
  let frhs := levelRhs (2 * dxinv) (2 * dyinv) fmsk fu fv zero
  refluxRes dxinv dyinv (2 * dxinv) (2 * dyinv) cdom bc grids (fun _ _ => false) fmsk ccmsk sig p rhs res0 fsig q frhs
    (levelRes (sigOnly fsig (2 * dxinv) (2 * dyinv)) fmsk frhs q) i j = 0

/-- **C191.** If the coarse pressure is affine, the residual at a node between the levels vanishes for the velocity `sig grad p`, for all coefficients on both levels and all fine pressures. -/
theorem reflux_gradient_partial (dxinv dyinv a b d : K) (cdom : NBox) (bc : Sides LinBC) (hbc : bc.open) (grids : List NBox) (fmsk : ℤ → ℤ → Bool) (ccmsk : ℤ → ℤ → ℤ)
    (hm : MasksFit grids ccmsk fmsk) (sig fsig q res0 : ℤ → ℤ → K) (i j : ℤ) (hn : nodalMask ccmsk i j = 1) :
    GradientResidualZero dxinv dyinv cdom bc grids fmsk ccmsk sig (fun i j => a * i + b * j + d) fsig q res0 i j := by
  have h01 : ∀ p q, ccmsk p q = 1 ∨ ccmsk p q = 0 := fun p q => by
    by_cases h : UnderFine grids p q
    · exact Or.inl (hm.one p q h)
    · exact Or.inr (hm.zero p q h)
  have w : ∀ p q, (1 - (ccmsk p q : K)) = if decide (ccmsk p q = 0) = true then 1 else 0 := fun p q => by
    rcases h01 p q with e | e <;> simp [e]
  unfold GradientResidualZero
  simp only [refluxRes, resCf, hn, compRhs2, cfDivu, wallFactor_open _ bc hbc, Bool.not_false, Bool.true_and, decide_true, if_true, mul_one, mul_zero]
  rw [reflux_fine_part _ _ cdom bc hbc grids fmsk ccmsk hm]
  generalize fineSum (2 * dxinv) (2 * dyinv) cdom bc grids fmsk _ _ _ i j = F
  simp only [w, resCfAx, sigGradX, sigGradY, cellGradX, cellGradY, sub_add_cancel, Int.cast_sub, Int.cast_add, Int.cast_one]
  generalize sig (i - 1) (j - 1) = s1
  generalize sig i (j - 1) = s2
  generalize sig (i - 1) j = s3
  generalize sig i j = s4
  split_ifs <;> ring

/-- **C191, false as stated.** For a pressure that is not affine the residual at a node between the levels does not vanish, although the velocity is the gradient of the pressure and the equations hold everywhere else: the iteration has no fixed point with a divergence-free velocity. -/
theorem reflux_wrong : ∃ (p q : ℤ → ℤ → ℚ), (∀ i j, q i j = bilin p i j) ∧
    nodalMask twoCc 1 2 = 1 ∧ ¬GradientResidualZero 1 1 ⟨0, 9, 0, 9⟩ periodicSides twoGrids twoMsk twoCc (fun _ _ => 1) p (fun _ _ => 1) q (fun _ _ => 0) 1 2 :=
  ⟨fun i j => i * j * j, bilin fun i j => i * j * j, fun _ _ => rfl, by decide, by unfold GradientResidualZero; decide +kernel⟩

/-- **C191, false with a diagonal.** For the constant pressure 1 and the diagonal 1 on both levels the operator is 1 at every node of each level alone; between the levels, on a straight border, it is 1/4. -/
theorem reflux_diagonal_wrong :
    let c : HelmCoef ℤ ℤ ℚ := ⟨fun _ _ => 1, fun _ _ => 0, fun _ _ => 0, fun _ _ => 1, 2, 2⟩
    (∀ i j, helmApply c (fun _ _ => false) (fun _ _ => 1) i j = 1) ∧ nodalMask twoCc 1 2 = 1
      ∧ refluxRes 1 1 2 2 ⟨0, 9, 0, 9⟩ periodicSides twoGrids (fun _ _ => false) twoMsk twoCc (fun _ _ => 1) (fun _ _ => 1) (fun _ _ => 0) (fun _ _ => 0)
          (fun _ _ => 1) (fun _ _ => 1) (fun _ _ => 0) (levelRes c twoMsk (fun _ _ => 0) (fun _ _ => 1)) 1 2 = -(1 / 4) := by
  refine ⟨fun i j => ?_, by decide, by decide +kernel⟩
  simp only [helmApply, helmStencil, Bool.false_eq_true, if_false]
  norm_num

/-- **C191.** Inside the fine level the coarse residual is the weighted mean of the fine residual, outside of it that of the coarse level. -/
theorem reflux_elsewhere (dxinv dyinv fdx fdy : K) (cdom : NBox) (bc : Sides LinBC) (grids : List NBox) (dmsk fmsk : ℤ → ℤ → Bool) (ccmsk : ℤ → ℤ → ℤ)
    (hm : MasksFit grids ccmsk fmsk) (sig phi rhs res0 fsig fphi frhs fres : ℤ → ℤ → K) (i j : ℤ) :
    let r := refluxRes dxinv dyinv fdx fdy cdom bc grids dmsk fmsk ccmsk sig phi rhs res0 fsig fphi frhs fres i j
    (UnderFine grids (i - 1) (j - 1) → UnderFine grids i (j - 1) → UnderFine grids (i - 1) j → UnderFine grids i j → r = fullWeight fres i j)
      ∧ ((∀ c ∈ grids, ¬(c.ilo ≤ i ∧ i ≤ c.ihi ∧ c.jlo ≤ j ∧ j ≤ c.jhi)) → r = res0 i j) := by
  intro r
  constructor
  · intro h1 h2 h3 h4
    have hnm : nodalMask ccmsk i j = 2 := by
      unfold nodalMask
      simp [hm.one _ _ h1, hm.one _ _ h2, hm.one _ _ h3, hm.one _ _ h4]
    have hany : (grids.any fun c => c.has i j) = true := by
      obtain ⟨c, hc, hh⟩ := h4
      exact List.any_eq_true.mpr ⟨c, hc, (mem_has _ _ _).mpr (by omega)⟩
    have hmsk : fmsk (i * 2) (j * 2) = false := by
      refine hm.inner _ _ ?_
      unfold FineInner FineCell
      rw [show (i * 2 - 1) / 2 = i - 1 by omega, show (j * 2 - 1) / 2 = j - 1 by omega, show i * 2 / 2 = i by omega, show j * 2 / 2 = j by omega]
      exact ⟨h1, h2, h3, h4⟩
    show refluxRes _ _ _ _ _ _ _ _ _ _ _ _ _ _ _ _ _ _ _ _ = _
    simp only [refluxRes, resCf, hnm, hany, nodeRestrict, hmsk, fullWeight]
    simp
  · intro h
    have hany : (grids.any fun c => c.has i j) = false := by
      rw [Bool.eq_false_iff]
      intro hc
      obtain ⟨c, hc, hh⟩ := List.any_eq_true.mp hc
      exact h c hc ((mem_has _ _ _).mp hh)
    have hnm : nodalMask ccmsk i j = 0 := by
      have z : ∀ a b : ℤ, i - 1 ≤ a → a ≤ i → j - 1 ≤ b → b ≤ j → ccmsk a b = 0 := fun a b _ _ _ _ => hm.zero a b fun ⟨c, hc, hh⟩ => h c hc (by omega)
      unfold nodalMask
      rw [z (i - 1) (j - 1) (by omega) (by omega) (by omega) (by omega), z i (j - 1) (by omega) (by omega) (by omega) (by omega), z (i - 1) j (by omega) (by omega) (by omega) (by omega), z i j (by omega) (by omega) (by omega) (by omega)]
      decide
    show refluxRes _ _ _ _ _ _ _ _ _ _ _ _ _ _ _ _ _ _ _ _ = _
    simp only [refluxRes, resCf, hnm, hany]
    simp

/-- The hypotheses of the partial theorem are met at the border of the sample grids, with a pressure, coefficients and a fine pressure that are not constant. -/
example : nodalMask twoCc 3 3 = 1 ∧ nodalMask twoCc 1 1 = 1 ∧ nodalMask twoCc 2 2 = 2 ∧ nodalMask twoCc 7 7 = 0 := by decide
example : refluxFine 2 2 twoGrids twoMsk someField (fun _ _ => 0) (levelRes (sigOnly someField 2 2) twoMsk (fun _ _ => 0) fun i j => someField (i - 1) j * j) (fun i j => someField (i - 1) j * j) 3 3 ≠ 0 := by
  decide +kernel

end Fub
