import Verif.Lemmas.TwoLevelRhs

/-!
C190: the right-hand side of the pressure equation on two refinement levels.
-/

namespace Fub
variable {K : Type} [Field K] [CharZero K]

/-- No side is a wall or an inflow. -/
def Sides.open (bc : Sides LinBC) : Prop := bc.xlo.isWall = false ∧ bc.xhi.isWall = false ∧ bc.ylo.isWall = false ∧ bc.yhi.isWall = false

omit [CharZero K] in
theorem wallFactor_open (nddom : NBox) (bc : Sides LinBC) (h : bc.open) (i j : ℤ) : wallFactor (K := K) nddom bc i j = 1 := by
  obtain ⟨h1, h2, h3, h4⟩ := h
  simp [wallFactor, h1, h2, h3, h4]

theorem open_noInflow (bc : Sides LinBC) (h : bc.open) : bc.xlo ≠ .inflow ∧ bc.xhi ≠ .inflow ∧ bc.ylo ≠ .inflow ∧ bc.yhi ≠ .inflow := by
  obtain ⟨h1, h2, h3, h4⟩ := h
  refine ⟨?_, ?_, ?_, ?_⟩ <;> intro e <;> simp_all [LinBC.isWall]

theorem grid_inner (grids : List NBox) (c : NBox) (hc : c ∈ grids) (i j : ℤ) (h : 2 * c.ilo + 1 ≤ i ∧ i ≤ 2 * c.ihi - 1 ∧ 2 * c.jlo + 1 ≤ j ∧ j ≤ 2 * c.jhi - 1) : FineInner grids i j :=
  ⟨⟨c, hc, by omega⟩, ⟨c, hc, by omega⟩, ⟨c, hc, by omega⟩, ⟨c, hc, by omega⟩⟩

/-- **C190.** The right-hand side at a coarse node, whatever its position relative to the fine level, is the divergence (and the mean of the source) of the coarse cells that are not covered plus the weighted mean of the same quantities of the fine level: every cell of the two levels counts exactly once. -/
theorem composite_split (dxinv dyinv fdx fdy : K) (cdom : NBox) (bc : Sides LinBC) (hbc : bc.open) (grids : List NBox) (hd : GridsDisjoint grids) (fmsk : ℤ → ℤ → Bool) (ccmsk : ℤ → ℤ → ℤ)
    (hm : MasksFit grids ccmsk fmsk) (u v r fu fv fr : ℤ → ℤ → K) (i j : ℤ) :
    compositeRhs dxinv dyinv fdx fdy cdom bc grids (fun _ _ => false) fmsk ccmsk u v r fu fv fr i j
      = (nodeDiv dxinv dyinv (coarsePart grids u) (coarsePart grids v) i j + nodeRhcc (fun _ _ => false) (coarsePart grids r) i j)
        + fullWeight (fineNodal fdx fdy (finePart grids fu) (finePart grids fv) (finePart grids fr)) i j := by
  classical
  have c01 : ∀ a b, (UnderFine grids a b ∧ ccmsk a b = 1) ∨ (¬UnderFine grids a b ∧ ccmsk a b = 0) := fun a b => by
    by_cases h : UnderFine grids a b
    · exact Or.inl ⟨h, hm.one a b h⟩
    · exact Or.inr ⟨h, hm.zero a b h⟩
  have cp : ∀ (f : ℤ → ℤ → K) (a b : ℤ), (1 - (ccmsk a b : K)) * f a b = coarsePart grids f a b := by
    intro f a b
    unfold coarsePart
    rcases c01 a b with ⟨h, e⟩ | ⟨h, e⟩ <;> simp [h, e]
  have cc1 := c01 (i - 1) (j - 1)
  have cc2 := c01 i (j - 1)
  have cc3 := c01 (i - 1) j
  have cc4 := c01 i j
  by_cases hall : UnderFine grids (i - 1) (j - 1) ∧ UnderFine grids i (j - 1) ∧ UnderFine grids (i - 1) j ∧ UnderFine grids i j
  · obtain ⟨g1, g2, g3, g4⟩ := hall
    have hnm : nodalMask ccmsk i j = 2 := by
      unfold nodalMask
      simp [hm.one _ _ g1, hm.one _ _ g2, hm.one _ _ g3, hm.one _ _ g4]
    have around : ∀ a b : ℤ, i - 1 ≤ a → a ≤ i → j - 1 ≤ b → b ≤ j → UnderFine grids a b := by
      intro a b _ _ _ _
      rcases (by omega : a = i - 1 ∨ a = i) with rfl | rfl <;> rcases (by omega : b = j - 1 ∨ b = j) with rfl | rfl <;> assumption
    have inner : ∀ a b : ℤ, -1 ≤ a → a ≤ 1 → -1 ≤ b → b ≤ 1 → fmsk (2 * i + a) (2 * j + b) = false := fun a b _ _ _ _ =>
      hm.inner _ _ ⟨around _ _ (by omega) (by omega) (by omega) (by omega), around _ _ (by omega) (by omega) (by omega) (by omega),
        around _ _ (by omega) (by omega) (by omega) (by omega), around _ _ (by omega) (by omega) (by omega) (by omega)⟩
    unfold compositeRhs
    rw [if_pos hnm]
    have e0 : nodeRestrict fmsk (levelRhs fdx fdy fmsk fu fv fr) i j = fullWeight (levelRhs fdx fdy fmsk fu fv fr) i j := by
      have := inner 0 0 (by omega) (by omega) (by omega) (by omega)
      simp only [add_zero] at this
      unfold nodeRestrict fullWeight nodeRestrict
      rw [show i * 2 = 2 * i by ring, show j * 2 = 2 * j by ring]
      simp only [this, Bool.false_eq_true, if_false]
    have e1 : fullWeight (levelRhs fdx fdy fmsk fu fv fr) i j = fullWeight (fineNodal fdx fdy fu fv fr) i j :=
      fullWeight_local i j fun a b h1 h2 h3 h4 => by
        simp only [levelRhs, fineNodal, nodeDivu, nodeRhcc, nodeDiv, inner a b h1 h2 h3 h4, Bool.false_eq_true, if_false]
        ring
    have e2 : fullWeight (fineNodal fdx fdy fu fv fr) i j = fullWeight (fineNodal fdx fdy (finePart grids fu) (finePart grids fv) (finePart grids fr)) i j :=
      weightNodal_local fdx fdy i j fun a b h1 h2 h3 h4 => by
        have hf : FineCell grids a b := around _ _ h1 h2 h3 h4
        simp [finePart, hf]
    have zc : ∀ f : ℤ → ℤ → K, coarsePart grids f (i - 1) (j - 1) = 0 ∧ coarsePart grids f i (j - 1) = 0 ∧ coarsePart grids f (i - 1) j = 0 ∧ coarsePart grids f i j = 0 := by
      intro f; simp [coarsePart, g1, g2, g3, g4]
    rw [e0, e1, e2]
    simp [nodeDiv, nodeRhcc, zc]
  · have hn2 : nodalMask ccmsk i j ≠ 2 := by
      unfold nodalMask
      rcases cc1 with ⟨g1, e1⟩ | ⟨g1, e1⟩ <;> rcases cc2 with ⟨g2, e2⟩ | ⟨g2, e2⟩ <;> rcases cc3 with ⟨g3, e3⟩ | ⟨g3, e3⟩ <;> rcases cc4 with ⟨g4, e4⟩ | ⟨g4, e4⟩ <;>
        first | (exfalso; apply hall; refine ⟨?_, ?_, ?_, ?_⟩ <;> assumption) | (rw [e1, e2, e3, e4]; decide)
    unfold compositeRhs compRhs2
    rw [if_neg hn2]
    by_cases hnone : ¬UnderFine grids (i - 1) (j - 1) ∧ ¬UnderFine grids i (j - 1) ∧ ¬UnderFine grids (i - 1) j ∧ ¬UnderFine grids i j
    · obtain ⟨g1, g2, g3, g4⟩ := hnone
      have hnm : nodalMask ccmsk i j = 0 := by
        unfold nodalMask
        simp [hm.zero _ _ g1, hm.zero _ _ g2, hm.zero _ _ g3, hm.zero _ _ g4]
      have around : ∀ a b : ℤ, i - 1 ≤ a → a ≤ i → j - 1 ≤ b → b ≤ j → ¬UnderFine grids a b := by
        intro a b _ _ _ _
        rcases (by omega : a = i - 1 ∨ a = i) with rfl | rfl <;> rcases (by omega : b = j - 1 ∨ b = j) with rfl | rfl <;> assumption
      have ez : fullWeight (fineNodal fdx fdy (finePart grids fu) (finePart grids fv) (finePart grids fr)) i j = 0 := by
        rw [weightNodal_local fdx fdy (u' := fun _ _ => 0) (v' := fun _ _ => 0) (r' := fun _ _ => 0) i j fun a b h1 h2 h3 h4 => by
          have hf : ¬FineCell grids a b := around _ _ h1 h2 h3 h4
          simp [finePart, hf]]
        rw [show fineNodal fdx fdy (fun _ _ => (0 : K)) (fun _ _ => 0) (fun _ _ => 0) = fun _ _ => 0 from funext fun a => funext fun b => fineNodal_zero fdx fdy a b, fullWeight_zero]
      have zc : ∀ f : ℤ → ℤ → K, coarsePart grids f (i - 1) (j - 1) = f (i - 1) (j - 1) ∧ coarsePart grids f i (j - 1) = f i (j - 1) ∧ coarsePart grids f (i - 1) j = f (i - 1) j ∧ coarsePart grids f i j = f i j := by
        intro f; simp [coarsePart, g1, g2, g3, g4]
      rw [ez]
      simp only [cfDivu, hnm, levelRhs, nodeDivu, nodeRhcc, nodeDiv, zc, Bool.false_eq_true, if_false]
      simp only [Bool.not_false, Bool.true_and, decide_eq_true_eq, zero_ne_one, if_false]
      ring
    · have hn1 : nodalMask ccmsk i j = 1 := by
        unfold nodalMask
        rcases cc1 with ⟨g1, e1⟩ | ⟨g1, e1⟩ <;> rcases cc2 with ⟨g2, e2⟩ | ⟨g2, e2⟩ <;> rcases cc3 with ⟨g3, e3⟩ | ⟨g3, e3⟩ <;> rcases cc4 with ⟨g4, e4⟩ | ⟨g4, e4⟩ <;>
          first | (exfalso; apply hall; refine ⟨?_, ?_, ?_, ?_⟩ <;> assumption) | (exfalso; apply hnone; refine ⟨?_, ?_, ?_, ?_⟩ <;> assumption) | (rw [e1, e2, e3, e4]; decide)
      have hfs : fineSum fdx fdy cdom bc grids fmsk fu fv fr i j = fullWeight (fineNodal fdx fdy (finePart grids fu) (finePart grids fv) (finePart grids fr)) i j := by
        have e1 : fineSum fdx fdy cdom bc grids fmsk fu fv fr i j
            = (grids.map fun c => fullWeight (fineNodal fdx fdy (onBox c.refine2.enclosed fu) (onBox c.refine2.enclosed fv) (onBox c.refine2.enclosed fr)) i j).sum := by
          unfold fineSum
          refine congrArg List.sum (List.map_congr_left fun c hc => ?_)
          rw [velocityBox_plain _ _ _ (open_noInflow bc hbc)]
          refine contrib_eq fdx fdy c fmsk fu fv fr (fun a b h => hm.inner a b (grid_inner grids c hc a b h)) i j ?_ ?_
          · intro h
            exact hall ⟨⟨c, hc, by omega⟩, ⟨c, hc, by omega⟩, ⟨c, hc, by omega⟩, ⟨c, hc, by omega⟩⟩
          · intro h h1 h2
            refine hm.border _ _ ?_ ?_
            · by_cases ha : i = c.ilo <;> by_cases hb : j = c.jlo
              · exact Or.inr (Or.inr (Or.inr ⟨c, hc, by omega⟩))
              · exact Or.inr (Or.inl ⟨c, hc, by omega⟩)
              · exact Or.inr (Or.inr (Or.inl ⟨c, hc, by omega⟩))
              · exact Or.inl ⟨c, hc, by omega⟩
            · rintro ⟨q1, q2, q3, q4⟩
              unfold FineCell at q1 q2 q3 q4
              rw [show (2 * i - 1) / 2 = i - 1 by omega] at q1 q3
              rw [show (2 * j - 1) / 2 = j - 1 by omega] at q1 q2
              rw [show 2 * i / 2 = i by omega] at q2 q4
              rw [show 2 * j / 2 = j by omega] at q3 q4
              exact hall ⟨q1, q2, q3, q4⟩
        rw [e1, weight_sum]
        have g : ∀ f : ℤ → ℤ → K, (fun a b => (grids.map fun c => onBox c.refine2.enclosed f a b).sum) = finePart grids f := fun f => funext fun a => funext fun b => gridSum_parts grids hd f a b
        rw [g, g, g]
      simp only [cfDivu, hn1, wallFactor_open _ bc hbc, hfs, Bool.not_false, Bool.true_and, decide_true, if_true, nodeDiv, nodeRhcc, Bool.false_eq_true, if_false, ← cp]
      ring

/-- **C190.** The right-hand side in weak form: summed up against any nodal function `x` it is the work of the coarse cells that are not covered against `x` plus the work of the fine cells (their area is a quarter) against the bilinear interpolation of `x`. -/
theorem composite_weak (dxinv dyinv fdx fdy : K) (cdom : NBox) (bc : Sides LinBC) (hbc : bc.open) (grids : List NBox) (hd : GridsDisjoint grids) (fmsk : ℤ → ℤ → Bool) (ccmsk : ℤ → ℤ → ℤ)
    (hm : MasksFit grids ccmsk fmsk) (u v r fu fv fr : ℤ → ℤ → K) (hu : FinSupp u) (hv : FinSupp v) (hr : FinSupp r) (hfu : FinSupp fu) (hfv : FinSupp fv) (hfr : FinSupp fr) (x : ℤ → ℤ → K) :
    planeSum (fun i j => x i j * compositeRhs dxinv dyinv fdx fdy cdom bc grids (fun _ _ => false) fmsk ccmsk u v r fu fv fr i j)
      = planeSum (coarsePart grids (cellWork dxinv dyinv x u v r)) + (1 / 4) * planeSum (finePart grids (cellWork fdx fdy (bilin x) fu fv fr)) := by
  classical
  have hc : ∀ {f : ℤ → ℤ → K}, FinSupp f → FinSupp (coarsePart grids f) := fun h => finSupp_mono h fun i j e => by simp [coarsePart, e]
  have hf : ∀ {f : ℤ → ℤ → K}, FinSupp f → FinSupp (finePart grids f) := fun h => finSupp_mono h fun i j e => by simp [finePart, e]
  have nod : ∀ (a b : K) {u v r : ℤ → ℤ → K}, FinSupp u → FinSupp v → FinSupp r → FinSupp (fineNodal a b u v r) := by
    intro a b u v r hu hv hr
    have h0 : ∀ {f : ℤ → ℤ → K}, FinSupp f → ∀ p q : ℤ, FinSupp fun i j => f (i + p) (j + q) := fun h p q => finSupp_shift h p q
    have s : ∀ {f : ℤ → ℤ → K}, FinSupp f → ∀ k : K, FinSupp fun i j => k * f i j := fun h k => finSupp_mul h fun _ _ => k
    have c4 : ∀ {f : ℤ → ℤ → K}, FinSupp f → ∀ k1 k2 k3 k4 : K, FinSupp fun i j => k1 * f (i - 1) (j - 1) + k2 * f i (j - 1) + k3 * f (i - 1) j + k4 * f i j := by
      intro f h k1 k2 k3 k4
      have a1 := s (h0 h (-1) (-1)) k1
      have a2 := s (h0 h 0 (-1)) k2
      have a3 := s (h0 h (-1) 0) k3
      have a4 := s h k4
      simp only [add_zero, ← sub_eq_add_neg] at a1 a2 a3
      exact finSupp_add (finSupp_add (finSupp_add a1 a2) a3) a4
    have := finSupp_add (finSupp_add (c4 hu (-(a / 2)) (a / 2) (-(a / 2)) (a / 2)) (c4 hv (-(b / 2)) (-(b / 2)) (b / 2) (b / 2))) (c4 hr (1 / 4) (1 / 4) (1 / 4) (1 / 4))
    refine finSupp_mono this fun i j e => ?_
    rw [← e]
    simp only [fineNodal, nodeDiv, nodeRhcc, Bool.false_eq_true, if_false]
    ring
  have hF := nod fdx fdy (hf hfu) (hf hfv) (hf hfr)
  have hC := nod dxinv dyinv (hc hu) (hc hv) (hc hr)
  have hW : FinSupp (fullWeight (fineNodal fdx fdy (finePart grids fu) (finePart grids fv) (finePart grids fr))) := by
    have c : ∀ (w : K) (p q : ℤ), FinSupp fun i j => w * fineNodal fdx fdy (finePart grids fu) (finePart grids fv) (finePart grids fr) (i * 2 + p) (j * 2 + q) := fun w p q =>
      finSupp_mul (finSupp_comp hF (fun i => i * 2 + p) (fun j => j * 2 + q) (fun a b e => by simpa using e) (fun a b e => by simpa using e)) fun _ _ => w
    have := finSupp_add (finSupp_add (finSupp_add (finSupp_add (c 1 (-1) (-1)) (c 2 0 (-1))) (finSupp_add (c 1 1 (-1)) (c 2 (-1) 0))) (finSupp_add (finSupp_add (c 4 0 0) (c 2 1 0)) (finSupp_add (c 1 (-1) 1) (c 2 0 1)))) (c 1 1 1)
    refine finSupp_mono (finSupp_mul this fun _ _ => 1 / 16) fun i j e => ?_
    rw [← e]
    simp only [fullWeight, nodeRestrict, Bool.false_eq_true, if_false, add_zero, ← sub_eq_add_neg]
    ring
  have e1 : (fun i j => x i j * compositeRhs dxinv dyinv fdx fdy cdom bc grids (fun _ _ => false) fmsk ccmsk u v r fu fv fr i j)
      = fun i j => (fun i j => x i j * fineNodal dxinv dyinv (coarsePart grids u) (coarsePart grids v) (coarsePart grids r) i j) i j
        + (fun i j => x i j * fullWeight (fineNodal fdx fdy (finePart grids fu) (finePart grids fv) (finePart grids fr)) i j) i j := by
    funext i j
    rw [composite_split dxinv dyinv fdx fdy cdom bc hbc grids hd fmsk ccmsk hm, mul_add]
    rfl
  rw [e1, planeSum_add (finSupp_mul hC x) (finSupp_mul hW x), fullWeight_adjoint hF]
  have p1 := plane_parts dxinv dyinv (hc hu) (hc hv) (hc hr) x
  have p2 := plane_parts fdx fdy (hf hfu) (hf hfv) (hf hfr) (bilin x)
  refine congrArg₂ (· + ·) (p1.trans (congrArg planeSum ?_)) (congrArg (1 / 4 * ·) (p2.trans (congrArg planeSum ?_)))
  · funext i j
    by_cases h : UnderFine grids i j <;> simp [coarsePart, cellWork, h]
  · funext i j
    by_cases h : FineCell grids i j <;> simp [finePart, cellWork, h]

/-- **C190.** Compatibility: the right-hand side on two levels sums up to the sources of the uncovered coarse cells and of the fine cells, each with its area. The velocity contributes nothing, however it jumps between the levels. -/
theorem composite_compatible (dxinv dyinv fdx fdy : K) (cdom : NBox) (bc : Sides LinBC) (hbc : bc.open) (grids : List NBox) (hd : GridsDisjoint grids) (fmsk : ℤ → ℤ → Bool) (ccmsk : ℤ → ℤ → ℤ)
    (hm : MasksFit grids ccmsk fmsk) (u v r fu fv fr : ℤ → ℤ → K) (hu : FinSupp u) (hv : FinSupp v) (hr : FinSupp r) (hfu : FinSupp fu) (hfv : FinSupp fv) (hfr : FinSupp fr) :
    planeSum (compositeRhs dxinv dyinv fdx fdy cdom bc grids (fun _ _ => false) fmsk ccmsk u v r fu fv fr)
      = planeSum (coarsePart grids r) + (1 / 4) * planeSum (finePart grids fr) := by
  have h := composite_weak dxinv dyinv fdx fdy cdom bc hbc grids hd fmsk ccmsk hm u v r fu fv fr hu hv hr hfu hfv hfr fun _ _ => 1
  simp only [one_mul] at h
  have b1 : bilin (fun _ _ => (1 : K)) = fun _ _ => 1 := by funext i j; unfold bilin; norm_num
  have w : ∀ (a b : K) (u v r : ℤ → ℤ → K), cellWork a b (fun _ _ => 1) u v r = r := by
    intro a b u v r; funext i j; simp only [cellWork, cornerMean, cellGradX, cellGradY]; ring
  rw [b1, w, w] at h
  exact h

/-- **C190.** Exactly the divergence-free test: a constant velocity, the same on both levels, has right-hand side zero at every coarse node, also at the nodes between the levels. -/
theorem composite_constant (dxinv dyinv : K) (cdom : NBox) (bc : Sides LinBC) (hbc : bc.open) (grids : List NBox) (hd : GridsDisjoint grids) (fmsk : ℤ → ℤ → Bool) (ccmsk : ℤ → ℤ → ℤ)
    (hm : MasksFit grids ccmsk fmsk) (a b : K) (i j : ℤ) :
    compositeRhs dxinv dyinv (2 * dxinv) (2 * dyinv) cdom bc grids (fun _ _ => false) fmsk ccmsk (fun _ _ => a) (fun _ _ => b) (fun _ _ => 0) (fun _ _ => a) (fun _ _ => b) (fun _ _ => 0) i j = 0 := by
  classical
  rw [composite_split dxinv dyinv _ _ cdom bc hbc grids hd fmsk ccmsk hm]
  have fp : ∀ (c : K) (p q : ℤ), finePart grids (fun _ _ => c) p q = c - coarsePart grids (fun _ _ => c) (p / 2) (q / 2) := by
    intro c p q
    by_cases h : UnderFine grids (p / 2) (q / 2) <;> simp [finePart, coarsePart, FineCell, h]
  simp only [fullWeight, nodeRestrict, fineNodal, nodeDiv, nodeRhcc, Bool.false_eq_true, if_false, fp]
  rw [show (i * 2 - 1 - 1) / 2 = i - 1 by omega, show (i * 2 - 1) / 2 = i - 1 by omega, show (i * 2) / 2 = i by omega, show (i * 2 + 1 - 1) / 2 = i by omega, show (i * 2 + 1) / 2 = i by omega,
    show (j * 2 - 1 - 1) / 2 = j - 1 by omega, show (j * 2 - 1) / 2 = j - 1 by omega, show (j * 2) / 2 = j by omega, show (j * 2 + 1 - 1) / 2 = j by omega, show (j * 2 + 1) / 2 = j by omega]
  have z : ∀ p q : ℤ, coarsePart grids (fun _ _ => (0 : K)) p q = 0 := fun p q => by simp [coarsePart]
  simp only [z]
  ring

/-! The hypotheses are met: two adjacent grids, the masks computed from them. -/

/-- Two fine grids side by side, over the coarse cells 1..2 x 1..2 and 3..4 x 1..3. -/
def twoGrids : List NBox := [⟨1, 3, 1, 3⟩, ⟨3, 5, 1, 4⟩]

instance underFineDec (grids : List NBox) (i j : ℤ) : Decidable (UnderFine grids i j) := by unfold UnderFine; infer_instance
instance fineInnerDec (grids : List NBox) (i j : ℤ) : Decidable (FineInner grids i j) := by unfold FineInner FineCell; infer_instance

/-- The masks of these grids. -/
def twoCc (i j : ℤ) : ℤ := if UnderFine twoGrids i j then 1 else 0
/-- The Dirichlet mask of the fine level of these grids. -/
def twoMsk (i j : ℤ) : Bool := !decide (FineInner twoGrids i j)

example : GridsDisjoint twoGrids := by
  unfold GridsDisjoint twoGrids
  simp only [List.pairwise_cons, List.mem_cons, List.not_mem_nil, or_false, forall_eq, List.Pairwise.nil, and_true, IsEmpty.forall_iff, implies_true]
  intro i j; omega

example : MasksFit twoGrids twoCc twoMsk :=
  ⟨fun i j h => by simp [twoCc, h], fun i j h => by simp [twoCc, h], fun i j h => by simp [twoMsk, h], fun i j _ h => by simp [twoMsk, h]⟩

/-- A velocity and a source in a finite region. -/
def someField (i j : ℤ) : ℚ := if 0 ≤ i ∧ i ≤ 9 ∧ 0 ≤ j ∧ j ≤ 9 then i * i + 3 * j else 0

example : FinSupp someField := by
  refine Set.Finite.subset (Set.finite_Icc ((0 : ℤ), (0 : ℤ)) (9, 9)) fun p hp => ?_
  simp only [Function.mem_support, someField] at hp
  have := (ite_ne_right_iff.mp hp).1
  exact ⟨⟨this.1, this.2.2.1⟩, ⟨this.2.1, this.2.2.2⟩⟩

/-- Periodic in all directions. -/
def periodicSides : Sides LinBC := ⟨.periodic, .periodic, .periodic, .periodic⟩

example : periodicSides.open := by unfold Sides.open periodicSides LinBC.isWall; decide

/-- At a node between the levels the right-hand side is not trivial. -/
example : compositeRhs 1 1 2 2 ⟨0, 9, 0, 9⟩ periodicSides twoGrids (fun _ _ => false) twoMsk twoCc someField someField someField someField someField someField 3 3 ≠ 0 := by decide +kernel

/-! An inflow through a side of the domain. -/

/-- The cells in front of the fine grid beyond the side are used iff the grid touches this side of the domain. -/
def InflowRight (f : NBox) (fdom : NBox) (cdom : NBox) (bc : Sides LinBC) : Prop := (velocityBox f cdom bc).ihi = f.enclosed.ihi + 1 ↔ bc.xhi = .inflow ∧ f.enclosed.ihi = fdom.ihi

/-- **C190.** At the left and the lower side the inflow is taken into account by exactly the grids at this side, if the domain begins with index 0. -/
theorem inflow_low (f : NBox) (cdom : NBox) (bc : Sides LinBC) (h0 : cdom.ilo = 0) (h1 : cdom.jlo = 0) :
    ((velocityBox f cdom bc).ilo = f.ilo - 1 ↔ bc.xlo = .inflow ∧ f.ilo = 0) ∧ ((velocityBox f cdom bc).jlo = f.jlo - 1 ↔ bc.ylo = .inflow ∧ f.jlo = 0) := by
  unfold velocityBox NBox.enclosed
  rw [h0, h1]
  constructor
  · cases hb : bc.xlo <;> by_cases h : f.ilo = 0 <;> simp [h] <;> omega
  · cases hb : bc.ylo <;> by_cases h : f.jlo = 0 <;> simp [h] <;> omega

/-- **C190, false as stated for the right and the upper side.** Fine indices are compared with the coarse domain: the grid at the right side of the fine domain ignores the inflow there, and a grid in the middle of the domain takes velocities of cells outside of itself. -/
theorem inflow_high_wrong :
    let bc : Sides LinBC := ⟨.periodic, .inflow, .periodic, .periodic⟩
    ¬InflowRight ⟨8, 16, 0, 8⟩ ⟨0, 15, 0, 15⟩ ⟨0, 7, 0, 7⟩ bc ∧ ¬InflowRight ⟨4, 8, 0, 8⟩ ⟨0, 15, 0, 15⟩ ⟨0, 7, 0, 7⟩ bc := by
  unfold InflowRight; decide

end Fub
