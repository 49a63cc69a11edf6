import Verif.Props.NodalHelm

/-!
C101: smoothers and grid transfer of the nodal Helmholtz operator.
-/

namespace Fub

section Smooth
variable {I J K : Type} [AddGroupWithOne I] [AddGroupWithOne J] [Field K]

theorem jacobiDiag_eq (c : HelmCoef I J K) (i : I) (j : J) : jacobiDiag c i j = helmDiag c i j := by
  unfold jacobiDiag helmDiag; ring

theorem gsAx_eq (c : HelmCoef I J K) (x : I → J → K) (i : I) (j : J) : gsAx c x i j = helmStencil c x i j := by
  unfold gsAx helmDiag helmStencil; ring

variable [LinearOrder K] [IsStrictOrderedRing K]

/-- **C101.** For the coefficients of the low Mach number integrator the smoothers never divide by zero: the diagonal is negative. -/
theorem helm_diag_neg {c : HelmCoef I J K} (hc : c.Valid) (hx : c.dxinv ≠ 0) (i : I) (j : J) : helmDiag c i j < 0 := by
  have h1 := hc.sig_pos (i - 1) (j - 1)
  have h2 := hc.sig_pos i (j - 1)
  have h3 := hc.sig_pos (i - 1) j
  have h4 := hc.sig_pos i j
  have ha := hc.alp_nonpos i j
  unfold helmDiag
  simp only [hc.cross]
  have hp : 0 < ((1 / 4 : K) * c.dxinv * c.dxinv + 1 / 4 * c.dyinv * c.dyinv) * (c.sig (i - 1) (j - 1) + c.sig i (j - 1) + c.sig (i - 1) j + c.sig i j) := by
    refine mul_pos ?_ (by linarith)
    have := mul_self_pos.2 hx
    have := mul_self_nonneg c.dyinv
    nlinarith
  have e : (1 / 4 * c.dxinv * c.dyinv) * (-c.sigc0 (i - 1) (j - 1) + c.sigc0 i (j - 1) + c.sigc0 (i - 1) j - c.sigc0 i j
        - -c.sigc0 (i - 1) (j - 1) + -c.sigc0 i (j - 1) + -c.sigc0 (i - 1) j - -c.sigc0 i j) = 0 := by ring
  rw [e]
  linarith

omit [LinearOrder K] [IsStrictOrderedRing K] in
/-- **C101.** The Jacobi smoother does not change a field exactly if it solves the equation on the unmasked nodes and vanishes on the masked ones. -/
theorem jacobi_fixed [CharZero K] {c : HelmCoef I J K} (hd : ∀ i j, helmDiag c i j ≠ 0) (msk : I → J → Bool) (rhs sol : I → J → K) :
    jacobiSweep c msk rhs sol = sol ↔ ∀ i j, (msk i j = true → sol i j = 0) ∧ (msk i j = false → helmApply c msk sol i j = rhs i j) := by
  have key : ∀ i j, jacobiSweep c msk rhs sol i j = sol i j ↔ (msk i j = true → sol i j = 0) ∧ (msk i j = false → helmApply c msk sol i j = rhs i j) := by
    intro i j
    unfold jacobiSweep
    cases hm : msk i j
    · simp only [Bool.false_eq_true, if_false, false_imp_iff, true_and, true_imp_iff]
      rw [jacobiDiag_eq, add_eq_left, div_eq_zero_iff]
      constructor
      · rintro (h | h)
        · have := (mul_eq_zero.1 h).resolve_left (by norm_num)
          exact (sub_eq_zero.1 this).symm
        · exact absurd h (hd i j)
      · intro h; left; rw [h, sub_self, mul_zero]
    · simp only [if_true, Bool.true_eq_false, false_imp_iff, and_true, true_imp_iff]
      exact eq_comm
  constructor
  · intro h i j; exact (key i j).1 (by rw [h])
  · intro h; funext i j; exact (key i j).2 (h i j)

end Smooth

section GaussSeidel
variable {K : Type} [Field K]

/-- **C101.** Updating an unmasked node makes the equation hold exactly at this node. -/
theorem gs_node_residual {c : HelmCoef ℤ ℤ K} {msk : ℤ → ℤ → Bool} {i j : ℤ} (hd : helmDiag c i j ≠ 0) (hm : msk i j = false) (rhs sol : ℤ → ℤ → K) :
    helmApply c msk (gsNode c msk rhs sol (i, j)) i j = rhs i j := by
  have e : helmApply c msk (gsNode c msk rhs sol (i, j)) i j = gsAx c sol i j + (gsValue c msk rhs sol i j - sol i j) * helmDiag c i j := by
    unfold helmApply
    simp only [hm, Bool.false_eq_true, if_false]
    rw [← gsAx_eq]
    have h1 : ∀ a : ℤ, ¬ a - 1 = a := by intro a; omega
    have h2 : ∀ a : ℤ, ¬ a + 1 = a := by intro a; omega
    unfold gsAx
    simp only [gsNode, h1, h2, false_and, and_false, if_false, and_self, if_true]
    ring
  rw [e]
  unfold gsValue
  simp only [hm, Bool.false_eq_true, if_false]
  field_simp
  ring

theorem gsNode_other {c : HelmCoef ℤ ℤ K} {msk : ℤ → ℤ → Bool} {rhs sol : ℤ → ℤ → K} {p : ℤ × ℤ} {a b : ℤ} (h : (a, b) ≠ p) :
    gsNode c msk rhs sol p a b = sol a b := by
  unfold gsNode
  rw [if_neg]
  rintro ⟨rfl, rfl⟩; exact h rfl

theorem gsSweep_other {c : HelmCoef ℤ ℤ K} {msk : ℤ → ℤ → Bool} {rhs : ℤ → ℤ → K} {nodes : List (ℤ × ℤ)} {a b : ℤ} (h : (a, b) ∉ nodes) (sol : ℤ → ℤ → K) :
    gsSweep c msk rhs nodes sol a b = sol a b := by
  induction nodes generalizing sol with
  | nil => rfl
  | cons p ps ih =>
    rw [List.mem_cons, not_or] at h
    show gsSweep c msk rhs ps (gsNode c msk rhs sol p) a b = _
    rw [ih h.2, gsNode_other h.1]

/-- The condition that a field solves the equation at a node. -/
def NodeSolved (c : HelmCoef ℤ ℤ K) (msk : ℤ → ℤ → Bool) (rhs sol : ℤ → ℤ → K) (i j : ℤ) : Prop :=
  (msk i j = true → sol i j = 0) ∧ (msk i j = false → helmApply c msk sol i j = rhs i j)

theorem gsValue_fixed {c : HelmCoef ℤ ℤ K} {msk : ℤ → ℤ → Bool} {rhs sol : ℤ → ℤ → K} {i j : ℤ} (hd : helmDiag c i j ≠ 0) :
    gsValue c msk rhs sol i j = sol i j ↔ NodeSolved c msk rhs sol i j := by
  unfold gsValue NodeSolved helmApply
  cases hm : msk i j
  · simp only [Bool.false_eq_true, if_false, false_imp_iff, true_and, true_imp_iff]
    rw [gsAx_eq, add_eq_left, div_eq_zero_iff, or_iff_left hd, sub_eq_zero, eq_comm]
  · simp only [if_true, Bool.true_eq_false, false_imp_iff, and_true, true_imp_iff]
    exact eq_comm

theorem gsNode_fixed {c : HelmCoef ℤ ℤ K} {msk : ℤ → ℤ → Bool} {rhs sol : ℤ → ℤ → K} {p : ℤ × ℤ} (hd : helmDiag c p.1 p.2 ≠ 0) (h : NodeSolved c msk rhs sol p.1 p.2) :
    gsNode c msk rhs sol p = sol := by
  funext a b
  unfold gsNode
  split
  · rename_i hab
    rw [hab.1, hab.2]; exact (gsValue_fixed hd).2 h
  · rfl

theorem gs_fixed {c : HelmCoef ℤ ℤ K} (hd : ∀ i j, helmDiag c i j ≠ 0) (msk : ℤ → ℤ → Bool) (rhs : ℤ → ℤ → K) {nodes : List (ℤ × ℤ)} (hn : nodes.Nodup) (sol : ℤ → ℤ → K) :
    gsSweep c msk rhs nodes sol = sol ↔ ∀ p ∈ nodes, NodeSolved c msk rhs sol p.1 p.2 := by
  induction nodes with
  | nil => simp [gsSweep]
  | cons p ps ih =>
    rw [List.nodup_cons] at hn
    constructor
    · intro h
      have hp : gsNode c msk rhs sol p p.1 p.2 = sol p.1 p.2 := by
        have : gsSweep c msk rhs ps (gsNode c msk rhs sol p) p.1 p.2 = sol p.1 p.2 := congrFun (congrFun h p.1) p.2
        rwa [gsSweep_other hn.1] at this
      have hs : NodeSolved c msk rhs sol p.1 p.2 := by
        refine (gsValue_fixed (hd _ _)).1 ?_
        rw [← hp]; simp [gsNode]
      have hrest : gsSweep c msk rhs ps sol = sol := by
        have : gsSweep c msk rhs ps (gsNode c msk rhs sol p) = sol := h
        rwa [gsNode_fixed (hd _ _) hs] at this
      intro q hq
      rcases List.mem_cons.1 hq with rfl | hq
      · exact hs
      · exact (ih hn.2).1 hrest q hq
    · intro h
      show gsSweep c msk rhs ps (gsNode c msk rhs sol p) = sol
      rw [gsNode_fixed (hd _ _) (h p (by simp))]
      exact (ih hn.2).2 fun q hq => h q (by simp [hq])

theorem loopRange_nodup (l u : ℤ) : (loopRange l u).Nodup := by
  unfold loopRange
  exact List.Nodup.map (fun a b h => by simpa using h) List.nodup_range

theorem mem_boxNodes {ilo ihi jlo jhi : ℤ} {p : ℤ × ℤ} : p ∈ boxNodes ilo ihi jlo jhi ↔ (ilo ≤ p.1 ∧ p.1 ≤ ihi) ∧ (jlo ≤ p.2 ∧ p.2 ≤ jhi) := by
  unfold boxNodes
  simp only [List.mem_flatMap, List.mem_map, mem_loopRange]
  constructor
  · rintro ⟨j, hj, i, hi, rfl⟩; constructor <;> constructor <;> simp <;> omega
  · rintro ⟨hi, hj⟩; exact ⟨p.2, by omega, p.1, by omega, rfl⟩

theorem boxNodes_nodup (ilo ihi jlo jhi : ℤ) : (boxNodes ilo ihi jlo jhi).Nodup := by
  unfold boxNodes
  rw [List.nodup_flatMap]
  refine ⟨fun j _ => List.Nodup.map (fun a b h => by simpa using h) (loopRange_nodup _ _), ?_⟩
  refine List.Pairwise.imp ?_ (loopRange_nodup jlo (jhi + 1))
  intro a b hab
  simp only [Function.onFun, List.disjoint_left, List.mem_map]
  rintro x ⟨i, _, rfl⟩ ⟨k, _, h⟩
  simp only [Prod.mk.injEq] at h
  exact hab h.2.symm

/-- **C101.** A Gauss-Seidel sweep over a box changes nothing outside of the box, and it does not change a field exactly if the field solves the equation on all unmasked nodes of the box and vanishes on the masked ones. -/
theorem gs_sweep_fixed {c : HelmCoef ℤ ℤ K} (hd : ∀ i j, helmDiag c i j ≠ 0) (msk : ℤ → ℤ → Bool) (rhs sol : ℤ → ℤ → K) (ilo ihi jlo jhi : ℤ) :
    (gsSweep c msk rhs (boxNodes ilo ihi jlo jhi) sol = sol
      ↔ ∀ i j, ilo ≤ i → i ≤ ihi → jlo ≤ j → j ≤ jhi → (msk i j = true → sol i j = 0) ∧ (msk i j = false → helmApply c msk sol i j = rhs i j))
    ∧ ∀ i j, ¬ (ilo ≤ i ∧ i ≤ ihi ∧ jlo ≤ j ∧ j ≤ jhi) → gsSweep c msk rhs (boxNodes ilo ihi jlo jhi) sol i j = sol i j := by
  constructor
  · rw [gs_fixed hd msk rhs (boxNodes_nodup _ _ _ _)]
    constructor
    · intro h i j h1 h2 h3 h4; exact h (i, j) (mem_boxNodes.2 ⟨⟨h1, h2⟩, h3, h4⟩)
    · intro h p hp
      obtain ⟨⟨h1, h2⟩, h3, h4⟩ := mem_boxNodes.1 hp
      exact h p.1 p.2 h1 h2 h3 h4
  · intro i j h
    exact gsSweep_other (fun hm => h (by have := mem_boxNodes.1 hm; simpa [and_assoc] using this)) sol

/-- Sample coefficients on a plain array. -/
def helmSampleZ : HelmCoef ℤ ℤ ℚ := ⟨fun _ _ => 1, fun _ _ => 1 / 2, fun _ _ => -1 / 2, fun _ _ => -1, 2, 2⟩

example : ∀ i j, helmDiag helmSampleZ i j ≠ 0 := fun i j =>
  (helm_diag_neg ⟨fun _ _ => by simp [helmSampleZ], fun _ _ => by simp only [helmSampleZ]; ring, fun _ _ => by simp [helmSampleZ]⟩ (by simp [helmSampleZ]) i j).ne

example : gsSweep helmSampleZ (fun _ _ => false) (fun _ _ => -9) (boxNodes 0 1 0 0) (fun _ _ => 0) 1 0 ≠ 0 := by decide +kernel

end GaussSeidel

section Ha
variable {I J K : Type} [AddGroupWithOne I] [AddGroupWithOne J] [Field K]

/-- **C101.** With one coefficient for both directions the two operators agree. -/
theorem helm_ha_partial (sig x : I → J → K) (dxinv dyinv : K) (msk : I → J → Bool) (i : I) (j : J) :
    helmApplyHa sig sig dxinv dyinv msk x i j = helmApply ⟨sig, fun _ _ => 0, fun _ _ => 0, fun _ _ => 0, dxinv, dyinv⟩ msk x i j := by
  unfold helmApplyHa helmApply helmStencil
  split <;> ring

/-- **C101.** (Disagreement.) With the harmonic averages of the coarse multigrid levels the operator does not annihilate constants: the rows sum up to a difference of `sy` and `sx`. -/
theorem helm_ha_const (sx sy : I → J → K) (dxinv dyinv a : K) (msk : I → J → Bool) (i : I) (j : J) (hm : msk i j = false) :
    helmApplyHa sx sy dxinv dyinv msk (fun _ _ => a) i j = a * (1 / 4 * dyinv * dyinv) * (sy (i - 1) j + sy i j - sx (i - 1) j - sx i j) := by
  unfold helmApplyHa
  simp only [hm, Bool.false_eq_true, if_false]; ring

/-- **C101.** (Disagreement.) A witness: coefficients obtained from a smooth fine coefficient. -/
theorem helm_ha_not_conservative : ∃ fine : ℤ → ℤ → ℚ, (∀ i j, 0 < fine i j) ∧ helmApplyHa (avgdownX fine) (avgdownY fine) 1 1 (fun _ _ => false) (fun _ _ => 1) 0 0 ≠ 0 :=
  ⟨fun i j => if i % 2 = 0 then 1 else 2, fun i j => by dsimp only; split <;> norm_num, by decide +kernel⟩

end Ha

section Transfer
variable {K : Type} [Field K] [LinearOrder K] [IsStrictOrderedRing K]

/-- **C101.** The coarse coefficients of positive fine coefficients are positive and lie between the bounds of the fine ones; in particular a constant coefficient stays the same. -/
theorem avgdown_bounds {fine : ℤ → ℤ → K} {lo hi : K} (hlo : 0 < lo) (h : ∀ i j, lo ≤ fine i j ∧ fine i j ≤ hi) (i j : ℤ) :
    (lo ≤ avgdownX fine i j ∧ avgdownX fine i j ≤ hi) ∧ (lo ≤ avgdownY fine i j ∧ avgdownY fine i j ≤ hi) := by
  have key : ∀ a b : K, 2 * lo ≤ a → a ≤ 2 * hi → 2 * lo ≤ b → b ≤ 2 * hi → lo ≤ a * b / (a + b) ∧ a * b / (a + b) ≤ hi := by
    intro a b h1 h2 h3 h4
    have hs : 0 < a + b := by linarith
    rw [le_div_iff₀ hs, div_le_iff₀ hs]
    constructor <;> nlinarith
  unfold avgdownX avgdownY
  constructor <;> apply key <;> linarith [h (2 * i) (2 * j), h (2 * i) (2 * j + 1), h (2 * i + 1) (2 * j), h (2 * i + 1) (2 * j + 1)]

omit [LinearOrder K] [IsStrictOrderedRing K] in
/-- **C101.** The restriction keeps affine residuals at the unmasked nodes (its weights sum up to one and are symmetric). -/
theorem restrict_affine [CharZero K] (msk : ℤ → ℤ → Bool) (a b d : K) (i j : ℤ) (hm : msk (i * 2) (j * 2) = false) :
    nodeRestrict msk (fun i j => a + b * i + d * j) i j = a + b * (2 * i) + d * (2 * j) := by
  unfold nodeRestrict
  simp only [hm, Bool.false_eq_true, if_false]
  push_cast
  ring

theorem weighted_bounds {w1 w2 a b lo hi : K} (h1 : 0 < w1) (h2 : 0 < w2) (ha : lo ≤ a ∧ a ≤ hi) (hb : lo ≤ b ∧ b ≤ hi) :
    lo ≤ (w1 * a + w2 * b) / (w1 + w2) ∧ (w1 * a + w2 * b) / (w1 + w2) ≤ hi := by
  have hs : 0 < w1 + w2 := by linarith
  rw [le_div_iff₀ hs, div_le_iff₀ hs]
  constructor <;> nlinarith

/-- **C101.** The interpolated correction lies between the bounds of the coarse correction, for all positive coefficients. -/
theorem interp_bounds {sigx sigy crse : ℤ → ℤ → K} {lo hi : K} (hx : ∀ i j, 0 < sigx i j) (hy : ∀ i j, 0 < sigy i j) (hc : ∀ i j, lo ≤ crse i j ∧ crse i j ≤ hi)
    (msk : ℤ → ℤ → Bool) (fine : ℤ → ℤ → K) (i j : ℤ) (hm : msk i j = false) :
    lo ≤ interpAdd msk sigx sigy crse fine i j - fine i j ∧ interpAdd msk sigx sigy crse fine i j - fine i j ≤ hi := by
  have hlx : ∀ i j ic jc, lo ≤ interpLineX crse sigx i j ic jc ∧ interpLineX crse sigx i j ic jc ≤ hi := fun i j ic jc =>
    weighted_bounds (add_pos (hx _ _) (hx _ _)) (add_pos (hx _ _) (hx _ _)) (hc _ _) (hc _ _)
  have hly : ∀ i j ic jc, lo ≤ interpLineY crse sigy i j ic jc ∧ interpLineY crse sigy i j ic jc ≤ hi := fun i j ic jc =>
    weighted_bounds (add_pos (hy _ _) (hy _ _)) (add_pos (hy _ _) (hy _ _)) (hc _ _) (hc _ _)
  unfold interpAdd
  simp only [hm, Bool.false_eq_true, if_false]
  split
  · rw [add_sub_cancel_left]
    unfold interpFaceXY
    have k1 := add_pos (hx (i - 1) (j - 1)) (hx (i - 1) j)
    have k2 := add_pos (hx i (j - 1)) (hx i j)
    have k3 := add_pos (hy (i - 1) (j - 1)) (hy i (j - 1))
    have k4 := add_pos (hy (i - 1) j) (hy i j)
    have l1 := hly (i - 1) j (i / 2) (j / 2)
    have l2 := hly (i + 1) j (i / 2 + 1) (j / 2)
    have l3 := hlx i (j - 1) (i / 2) (j / 2)
    have l4 := hlx i (j + 1) (i / 2) (j / 2 + 1)
    simp only
    generalize sigx (i - 1) (j - 1) + sigx (i - 1) j = w1 at *
    generalize sigx i (j - 1) + sigx i j = w2 at *
    generalize sigy (i - 1) (j - 1) + sigy i (j - 1) = w3 at *
    generalize sigy (i - 1) j + sigy i j = w4 at *
    generalize interpLineY crse sigy (i - 1) j (i / 2) (j / 2) = p1 at *
    generalize interpLineY crse sigy (i + 1) j (i / 2 + 1) (j / 2) = p2 at *
    generalize interpLineX crse sigx i (j - 1) (i / 2) (j / 2) = p3 at *
    generalize interpLineX crse sigx i (j + 1) (i / 2) (j / 2 + 1) = p4 at *
    have hs : 0 < w1 + w2 + w3 + w4 := by linarith
    rw [le_div_iff₀ hs, div_le_iff₀ hs]
    constructor
    · have := mul_nonneg k1.le (sub_nonneg.2 l1.1)
      have := mul_nonneg k2.le (sub_nonneg.2 l2.1)
      have := mul_nonneg k3.le (sub_nonneg.2 l3.1)
      have := mul_nonneg k4.le (sub_nonneg.2 l4.1)
      linarith
    · have := mul_nonneg k1.le (sub_nonneg.2 l1.2)
      have := mul_nonneg k2.le (sub_nonneg.2 l2.2)
      have := mul_nonneg k3.le (sub_nonneg.2 l3.2)
      have := mul_nonneg k4.le (sub_nonneg.2 l4.2)
      linarith
  · split
    · rw [add_sub_cancel_left]; exact hlx _ _ _ _
    · split
      · rw [add_sub_cancel_left]; exact hly _ _ _ _
      · rw [add_sub_cancel_left]; exact hc _ _

/-- **C101.** For a constant coefficient the interpolation is bilinear: an affine coarse correction is reproduced at every fine node. -/
theorem interp_affine (s a b d : K) (hs : 0 < s) (msk : ℤ → ℤ → Bool) (fine : ℤ → ℤ → K) (i j : ℤ) (hm : msk i j = false) :
    interpAdd msk (fun _ _ => s) (fun _ _ => s) (fun i j => a + b * i + d * j) fine i j = fine i j + (a + b * (i / 2) + d * (j / 2)) := by
  have h4 : s + s + (s + s) ≠ 0 := by linarith
  have h8 : s + s + (s + s) + (s + s) + (s + s) ≠ 0 := by linarith
  have hlx : ∀ ic jc : ℤ, interpLineX (fun i j => a + b * i + d * j) (fun _ _ => s) i j ic jc = a + b * (ic + 1 / 2) + d * jc := by
    intro ic jc; unfold interpLineX; push_cast; field_simp; ring
  have hlx' : ∀ k l ic jc : ℤ, interpLineX (fun i j => a + b * i + d * j) (fun _ _ => s) k l ic jc = a + b * (ic + 1 / 2) + d * jc := by
    intro k l ic jc; unfold interpLineX; push_cast; field_simp; ring
  have hly' : ∀ k l ic jc : ℤ, interpLineY (fun i j => a + b * i + d * j) (fun _ _ => s) k l ic jc = a + b * ic + d * (jc + 1 / 2) := by
    intro k l ic jc; unfold interpLineY; push_cast; field_simp; ring
  have ho : ∀ k : ℤ, k / 2 * 2 ≠ k → (k : K) / 2 = ((k / 2 : ℤ) : K) + 1 / 2 := by
    intro k hk
    have : k = 2 * (k / 2) + 1 := by omega
    have h2 : (k : K) = 2 * ((k / 2 : ℤ) : K) + 1 := by exact_mod_cast this
    rw [h2]; ring
  have he : ∀ k : ℤ, ¬ k / 2 * 2 ≠ k → (k : K) / 2 = ((k / 2 : ℤ) : K) := by
    intro k hk
    have : k = 2 * (k / 2) := by omega
    have h2 : (k : K) = 2 * ((k / 2 : ℤ) : K) := by exact_mod_cast this
    rw [h2]; ring
  unfold interpAdd
  simp only [hm, Bool.false_eq_true, if_false]
  split
  · rename_i h
    rw [ho i h.1, ho j h.2]
    unfold interpFaceXY
    simp only [hlx', hly']
    push_cast
    field_simp
    ring
  · rename_i hn
    split
    · rename_i hi
      have hj : ¬ j / 2 * 2 ≠ j := fun hj => hn ⟨hi, hj⟩
      rw [ho i hi, he j hj, hlx']
    · rename_i hi
      split
      · rename_i hj
        rw [he i hi, ho j hj, hly']
      · rename_i hj
        rw [he i hi, he j hj]

example : (∀ i j : ℤ, (1 : ℚ) ≤ (if i = j then 2 else 1) ∧ ((if i = j then 2 else 1 : ℚ)) ≤ 2) := fun i j => by split <;> norm_num

end Transfer
end Fub
