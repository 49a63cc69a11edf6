import Verif.Props.NodalSmooth
import Verif.Props.LowMachAdvection

/-!
C103 (source terms of the low Mach number solver), C104 (the complete step).
-/

namespace Fub

section Averages
variable {I J K : Type} [AddGroupWithOne I] [AddGroupWithOne J] [Field K] [LinearOrder K] [IsStrictOrderedRing K]

omit [LinearOrder K] [IsStrictOrderedRing K] in
/-- **C103.** The divergence of the face averaged field in a cell is the mean of the nodal divergences at its four corners. -/
theorem lm_face_divergence [CharZero K] (dxinv dyinv : K) (u v : I → J → K) (i : I) (j : J) :
    (lmFaceX u (i + 1) j - lmFaceX u i j) * dxinv + (lmFaceY v i (j + 1) - lmFaceY v i j) * dyinv
      = (nodeDivu dxinv dyinv (fun _ _ => false) u v i j + nodeDivu dxinv dyinv (fun _ _ => false) u v (i + 1) j
          + nodeDivu dxinv dyinv (fun _ _ => false) u v i (j + 1) + nodeDivu dxinv dyinv (fun _ _ => false) u v (i + 1) (j + 1)) / 4 := by
  simp only [node_divergence, Bool.false_eq_true, if_false]
  unfold nodeDiv lmFaceX lmFaceY
  simp only [add_sub_cancel_right]
  field_simp
  ring

/-- **C103.** If the cell centered field has no divergence at the nodes, the advection with the face averaged field keeps `PTdensity`, in every cell and for every sequence of sweeps that covers the same time in both directions. -/
theorem lm_advect_incompressible (dx dy : K) (u v : I → J → K) (hdiv : ∀ i j, nodeDivu (1 / dx) (1 / dy) (fun _ _ => false) u v i j = 0) (sweeps : List (Bool × K))
    (hs : ((sweeps.filter (·.1)).map (·.2)).sum = ((sweeps.filter (!·.1)).map (·.2)).sum) (s : I → J → LMCell K) (i : I) (j : J) :
    (lmAdvect dx dy (lmFaceX u) (lmFaceY v) sweeps s i j).pt = (s i j).pt := by
  have h := lm_face_divergence (1 / dx) (1 / dy) u v i j
  simp only [hdiv, add_zero, zero_div] at h
  rw [lm_advect_pt, hs]
  linear_combination -((sweeps.filter (!·.1)).map (·.2)).sum * h

omit [LinearOrder K] [IsStrictOrderedRing K] in
theorem lmNodeAvg_const [CharZero K] (a : K) (i : I) (j : J) : lmNodeAvg (fun _ _ => a) i j = a := by unfold lmNodeAvg; ring

omit [LinearOrder K] [IsStrictOrderedRing K] in
theorem lmFace_const [CharZero K] (a : K) : lmFaceX (fun (_ : I) (_ : J) => a) = (fun _ _ => a) ∧ lmFaceY (fun (_ : I) (_ : J) => a) = (fun _ _ => a) := by
  constructor
  · funext i j; unfold lmFaceX; ring
  · funext i j; unfold lmFaceY; ring

end Averages

section Coriolis
variable {K : Type} [Field K] [LinearOrder K] [IsStrictOrderedRing K]

/-- **C103.** The implicit Coriolis step solves the linear system `m + dt f k × m = m_old` exactly if the rotation axis is a unit vector (or nothing rotates). -/
theorem lm_coriolis_backward (p : LMParam K) (dt : K) (q : LMCell K) :
    let r := lmCoriolisBackward p dt q
    (r.mx + dt * p.f * (-p.k2 * r.my) = q.mx ∧ r.my + dt * p.f * (p.k2 * r.mx) = q.my) ↔ p.k2 ^ 2 = 1 ∨ dt * p.f = 0 ∨ (q.mx = 0 ∧ q.my = 0) := by
  have hw : (1 + (dt * p.f) ^ 2) ≠ 0 := by nlinarith [sq_nonneg (dt * p.f)]
  simp only [lmCoriolisBackward]
  have e1 : (q.mx + -dt * p.f * (q.my * -p.k2)) * (1 / (1 + (dt * p.f) ^ 2)) + dt * p.f * (-p.k2 * ((q.my + -dt * p.f * (q.mx * p.k2)) * (1 / (1 + (dt * p.f) ^ 2)))) - q.mx
      = (dt * p.f) ^ 2 * (p.k2 ^ 2 - 1) * q.mx / (1 + (dt * p.f) ^ 2) := by field_simp; ring
  have e2 : (q.my + -dt * p.f * (q.mx * p.k2)) * (1 / (1 + (dt * p.f) ^ 2)) + dt * p.f * (p.k2 * ((q.mx + -dt * p.f * (q.my * -p.k2)) * (1 / (1 + (dt * p.f) ^ 2)))) - q.my
      = (dt * p.f) ^ 2 * (p.k2 ^ 2 - 1) * q.my / (1 + (dt * p.f) ^ 2) := by field_simp; ring
  rw [← sub_eq_zero, e1, ← sub_eq_zero (b := q.my), e2, div_eq_zero_iff, div_eq_zero_iff, or_iff_left hw, or_iff_left hw]
  simp only [mul_eq_zero, pow_eq_zero_iff two_ne_zero, sub_eq_zero]
  tauto

omit [LinearOrder K] [IsStrictOrderedRing K] in
/-- The explicit Coriolis step without pressure gradient. -/
theorem lm_forward_coriolis {I J : Type} [AddGroupWithOne I] [AddGroupWithOne J] [LinearOrder K] (p : LMParam K) (dt dxinv dyinv : K) (pi : I → J → K) (s : I → J → LMCell K) (i : I) (j : J) :
    (lmForward p dt dxinv dyinv pi s i j).mx = (s i j).mx + dt * p.f * p.k2 * (s i j).my - p.cp * dt * (s i j).pt * cellGradX dxinv pi i j
    ∧ (lmForward p dt dxinv dyinv pi s i j).my = (s i j).my - dt * p.f * p.k2 * (s i j).mx - p.cp * dt * (s i j).pt * cellGradY dyinv pi i j
    ∧ (lmForward p dt dxinv dyinv pi s i j).density = (s i j).density ∧ (lmForward p dt dxinv dyinv pi s i j).pt = (s i j).pt := by
  unfold lmForward
  simp only [(get_fluxes dxinv dyinv _ pi i j).1, (get_fluxes dxinv dyinv _ pi i j).2]
  refine ⟨by ring, by ring, trivial, trivial⟩

/-- **C103.** With a unit axis the implicit Coriolis step divides the kinetic energy by `1 + (dt f)²`, and the explicit step followed by the implicit step (the trapezoidal rule of the scheme) keeps it. -/
theorem lm_coriolis_energy (p : LMParam K) (hk : p.k2 ^ 2 = 1) (dt : K) (q : LMCell K) :
    (lmCoriolisBackward p dt q).mx ^ 2 + (lmCoriolisBackward p dt q).my ^ 2 = (q.mx ^ 2 + q.my ^ 2) / (1 + (dt * p.f) ^ 2)
    ∧ (let r := lmForward (I := ZMod 1) (J := ZMod 1) p dt 1 1 (fun _ _ => 0) (fun _ _ => q) 0 0
       (lmCoriolisBackward p dt r).mx ^ 2 + (lmCoriolisBackward p dt r).my ^ 2 = q.mx ^ 2 + q.my ^ 2) := by
  have hw : (1 + (dt * p.f) ^ 2) ≠ 0 := by nlinarith [sq_nonneg (dt * p.f)]
  have key : ∀ q : LMCell K, (lmCoriolisBackward p dt q).mx ^ 2 + (lmCoriolisBackward p dt q).my ^ 2 = (q.mx ^ 2 + q.my ^ 2) / (1 + (dt * p.f) ^ 2) := by
    intro q
    have : ((q.mx + -dt * p.f * (q.my * -p.k2)) ^ 2 + (q.my + -dt * p.f * (q.mx * p.k2)) ^ 2) = (q.mx ^ 2 + q.my ^ 2) * (1 + (dt * p.f) ^ 2) := by
      linear_combination (dt * p.f) ^ 2 * (q.mx ^ 2 + q.my ^ 2) * hk
    simp only [lmCoriolisBackward, mul_pow]
    rw [← add_mul, this]
    field_simp
  refine ⟨key q, ?_⟩
  simp only
  rw [key]
  obtain ⟨h1, h2, -, -⟩ := lm_forward_coriolis (I := ZMod 1) (J := ZMod 1) p dt 1 1 (fun _ _ => 0) (fun _ _ => q) 0 0
  rw [h1, h2, div_eq_iff hw]
  simp only [cellGradX, cellGradY]
  linear_combination (dt * p.f) ^ 2 * (q.mx ^ 2 + q.my ^ 2) * hk

end Coriolis

section Backward
variable {I J K : Type} [AddGroupWithOne I] [AddGroupWithOne J] [Field K] [LinearOrder K] [IsStrictOrderedRing K]

/-- A physical field: the cached inverse is up to date and nothing vanishes. -/
def LMPhysical (s : I → J → LMCell K) : Prop := ∀ i j, 0 < (s i j).density ∧ 0 < (s i j).pt ∧ (s i j).ptinv = (s i j).density / (s i j).pt

omit [IsStrictOrderedRing K] in
theorem lm_correct_pv {p : LMParam K} (hk : p.k2 = 1) {dt dxinv dyinv : K} (dfac : K → K) (old pi : I → J → K) {s : I → J → LMCell K} (hs : LMPhysical s) (i : I) (j : J) :
    lmPvX (lmCorrect p dt dxinv dyinv pi s) i j = lmPvX s i j - helmFluxX (lmHelm p dt dxinv dyinv dfac old s) pi i j
    ∧ lmPvY (lmCorrect p dt dxinv dyinv pi s) i j = lmPvY s i j - helmFluxY (lmHelm p dt dxinv dyinv dfac old s) pi i j := by
  obtain ⟨h1, h2, h3⟩ := hs i j
  have h1 := h1.ne'
  have h2 := h2.ne'
  unfold lmPvX lmPvY lmCorrect helmFluxX helmFluxY lmHelm
  simp only [(get_fluxes dxinv dyinv _ pi i j).1, (get_fluxes dxinv dyinv _ pi i j).2, hk, h3]
  generalize lmSigma p dt (s i j) = sg
  generalize cellGradX dxinv pi i j = gx
  generalize cellGradY dyinv pi i j = gy
  constructor
  · field_simp; ring
  · field_simp; ring

/-- **C103.** Implicit pressure step: if the linear solver solves the pressure equation at a node, the mass-weighted velocity afterwards satisfies the discretised divergence constraint there: it is free of divergence in the pseudo-incompressible
case, and balances the change of the pressure in the compressible case. (Unit axis.) -/
theorem lm_backward_divergence {p : LMParam K} (hk : p.k2 = 1) {dt dxinv dyinv : K} {dfac : K → K} {old piOld pi : I → J → K} {s : I → J → LMCell K} (hs : LMPhysical s) {i : I} {j : J}
    (hpi : helmApply (lmHelm p dt dxinv dyinv dfac old s) (fun _ _ => false) pi i j = lmRhs dxinv dyinv dfac piOld s i j) :
    (0 < p.alphaP → nodeDivu dxinv dyinv (fun _ _ => false) (lmPvX (lmCorrect p dt dxinv dyinv pi s)) (lmPvY (lmCorrect p dt dxinv dyinv pi s)) i j
      = lmNodeAvg (fun i j => dfac (s i j).pt) i j * (pi i j - piOld i j))
    ∧ (p.alphaP = 0 → (∀ x, dfac x = 0) → nodeDivu dxinv dyinv (fun _ _ => false) (lmPvX (lmCorrect p dt dxinv dyinv pi s)) (lmPvY (lmCorrect p dt dxinv dyinv pi s)) i j
      = old i j * pi i j) := by
  have hd : nodeDivu dxinv dyinv (fun _ _ => false) (lmPvX (lmCorrect p dt dxinv dyinv pi s)) (lmPvY (lmCorrect p dt dxinv dyinv pi s)) i j
      = nodeDivu dxinv dyinv (fun _ _ => false) (lmPvX s) (lmPvY s) i j
        - nodeDiv dxinv dyinv (helmFluxX (lmHelm p dt dxinv dyinv dfac old s) pi) (helmFluxY (lmHelm p dt dxinv dyinv dfac old s) pi) i j := by
    have ex := fun i j => (lm_correct_pv (dt := dt) (dxinv := dxinv) (dyinv := dyinv) hk dfac old pi hs i j).1
    have ey := fun i j => (lm_correct_pv (dt := dt) (dxinv := dxinv) (dyinv := dyinv) hk dfac old pi hs i j).2
    simp only [node_divergence, Bool.false_eq_true, if_false, nodeDiv, ex, ey]
    ring
  rw [helm_apply_flux] at hpi
  simp only [Bool.false_eq_true, if_false, lmRhs] at hpi
  rw [hd]
  have hdx : (lmHelm p dt dxinv dyinv dfac old s).dxinv = dxinv := rfl
  have hdy : (lmHelm p dt dxinv dyinv dfac old s).dyinv = dyinv := rfl
  rw [hdx, hdy] at hpi
  constructor
  · intro ha
    have hal : (lmHelm p dt dxinv dyinv dfac old s).alp = lmNodeAvg (fun i j => dfac (s i j).pt) := by simp only [lmHelm]; rw [if_pos ha]
    rw [hal] at hpi
    linear_combination -hpi
  · intro ha h0
    have hal : (lmHelm p dt dxinv dyinv dfac old s).alp = old := by simp only [lmHelm]; rw [if_neg]; rw [ha]; exact lt_irrefl _
    rw [hal] at hpi
    simp only [h0, lmNodeAvg_const, mul_zero, add_zero] at hpi
    linear_combination -hpi

/-- A linear solver that solves every solvable system. -/
def LMExact (solve : HelmCoef I J K → (I → J → K) → I → J → K) : Prop :=
  ∀ (c : HelmCoef I J K) (rhs : I → J → K), (∃ x, ∀ i j, helmApply c (fun _ _ => false) x i j = rhs i j) → ∀ i j, helmApply c (fun _ _ => false) (solve c rhs) i j = rhs i j

theorem lmHelm_valid {p : LMParam K} {dt dxinv dyinv : K} {dfac : K → K} {old : I → J → K} {s : I → J → LMCell K} (hs : LMPhysical s) (hcp : 0 < p.cp) (hdt : 0 < dt)
    (hf : ∀ x, 0 < x → dfac x ≤ 0) (ho : ∀ i j, old i j ≤ 0) : (lmHelm p dt dxinv dyinv dfac old s).Valid := by
  refine ⟨fun i j => ?_, fun i j => ?_, fun i j => ?_⟩
  · obtain ⟨h1, h2, h3⟩ := hs i j
    show 0 < lmSigma p dt (s i j)
    unfold lmSigma
    rw [h3]
    have : 0 < 1 + (dt * p.f) ^ 2 := by nlinarith [sq_nonneg (dt * p.f)]
    exact div_pos (mul_pos (div_pos (mul_pos hcp hdt) this) h2) (div_pos h1 h2)
  · simp only [lmHelm]; ring
  · simp only [lmHelm]
    split
    · unfold lmNodeAvg
      have h1 := hf _ (hs (i - 1) (j - 1)).2.1
      have h2 := hf _ (hs i (j - 1)).2.1
      have h3 := hf _ (hs (i - 1) j).2.1
      have h4 := hf _ (hs i j).2.1
      linarith
    · exact ho i j

omit [AddGroupWithOne I] [AddGroupWithOne J] in
theorem lm_coriolis_physical (p : LMParam K) (dt : K) {s : I → J → LMCell K} (hs : LMPhysical s) : LMPhysical (fun i j => lmCoriolisBackward p dt (s i j)) := hs

variable [Fintype I] [Fintype J]

/-- The implicit step of the pseudo-incompressible model with a fresh operator makes every field free of divergence, and does not change density and `PTdensity`. -/
theorem lm_backward_projects {solve : HelmCoef I J K → (I → J → K) → I → J → K} (hsolve : LMExact solve) {p : LMParam K} (hk : p.k2 = 1) (hcp : 0 < p.cp) (ha : p.alphaP = 0) {dt dxinv dyinv : K} (hdt : 0 < dt)
    {dfac : K → K} (hf : ∀ x, dfac x = 0) {old : I → J → K} (ho : ∀ i j, old i j = 0) (piOld : I → J → K) {s : I → J → LMCell K} (hs : LMPhysical s) :
    let r := (lmBackward solve p dt dxinv dyinv dfac old piOld s).1
    (∀ i j, nodeDivu dxinv dyinv (fun _ _ => false) (lmPvX r) (lmPvY r) i j = 0) ∧ ∀ i j, (r i j).density = (s i j).density ∧ (r i j).pt = (s i j).pt ∧ (r i j).ptinv = (s i j).ptinv := by
  have hs1 := lm_coriolis_physical p dt hs
  have hv := lmHelm_valid (dxinv := dxinv) (dyinv := dyinv) (dt := dt) (p := p) hs1 hcp hdt (fun x _ => (hf x).le) (fun i j => (ho i j).le)
  have hal : ∀ i j, (lmHelm p dt dxinv dyinv dfac old (fun i j => lmCoriolisBackward p dt (s i j))).alp i j = 0 := by
    intro i j; simp only [lmHelm]; rw [if_neg (by rw [ha]; exact lt_irrefl _)]; exact ho i j
  have hex := (helm_solvable_incompressible hv hal (lmPvX fun i j => lmCoriolisBackward p dt (s i j)) (lmPvY fun i j => lmCoriolisBackward p dt (s i j))).1
  have hr : lmRhs dxinv dyinv dfac piOld (fun i j => lmCoriolisBackward p dt (s i j))
      = nodeDivu dxinv dyinv (fun _ _ => false) (lmPvX fun i j => lmCoriolisBackward p dt (s i j)) (lmPvY fun i j => lmCoriolisBackward p dt (s i j)) := by
    funext i j; unfold lmRhs; simp only [hf, lmNodeAvg_const, mul_zero, add_zero]
  have hx := hsolve (lmHelm p dt dxinv dyinv dfac old (fun i j => lmCoriolisBackward p dt (s i j))) (lmRhs dxinv dyinv dfac piOld (fun i j => lmCoriolisBackward p dt (s i j))) (by rw [hr]; exact hex)
  refine ⟨fun i j => ?_, fun i j => ⟨rfl, rfl, rfl⟩⟩
  have := (lm_backward_divergence hk hs1 (hx i j)).2 ha hf
  rw [ho, zero_mul] at this
  exact this

/-- **C103.** The initial projection with a fresh linear operator makes the mass-weighted velocity free of divergence at every node and keeps density, `PTdensity` and pressure. -/
theorem lm_initial_projection_partial {e : LMEnv I J K} (hsolve : LMExact e.solve) (hk : e.par.k2 = 1) (hcp : 0 < e.par.cp) {d : LMLevel I J K} (hs : LMPhysical d.state) (ho : ∀ i j, d.alp i j = 0) :
    let r := lmInitialProjection e d
    (∀ i j, nodeDivu (1 / e.dx) (1 / e.dy) (fun _ _ => false) (lmPvX r.state) (lmPvY r.state) i j = 0)
    ∧ (∀ i j, (r.state i j).density = (d.state i j).density ∧ (r.state i j).pt = (d.state i j).pt) ∧ r.pi = d.pi := by
  have := lm_backward_projects (p := { e.par with alphaP := 0, f := 0 }) (dt := 1) (dxinv := 1 / e.dx) (dyinv := 1 / e.dy) hsolve hk hcp rfl one_pos (fun x => rfl) ho d.pi hs
  exact ⟨this.1, fun i j => ⟨(this.2 i j).1, (this.2 i j).2.1⟩, rfl⟩

/-- **C103.** (Disagreement.) The operator keeps the diagonal of an earlier compressible step: then the projected field is free of divergence at a node only if the computed pressure vanishes there. -/
theorem lm_initial_projection_stale {e : LMEnv I J K} (hsolve : LMExact e.solve) (hk : e.par.k2 = 1) (hcp : 0 < e.par.cp) {d : LMLevel I J K} (hs : LMPhysical d.state) (ho : ∀ i j, d.alp i j < 0) :
    ∃ pi : I → J → K, ((∀ i j, pi i j = 0) ↔ ∀ i j, nodeDivu (1 / e.dx) (1 / e.dy) (fun _ _ => false) (lmPvX d.state) (lmPvY d.state) i j = 0)
      ∧ ∀ i j, nodeDivu (1 / e.dx) (1 / e.dy) (fun _ _ => false) (lmPvX (lmInitialProjection e d).state) (lmPvY (lmInitialProjection e d).state) i j = d.alp i j * pi i j := by
  let p : LMParam K := { e.par with alphaP := 0, f := 0 }
  let s1 : I → J → LMCell K := fun i j => lmCoriolisBackward p 1 (d.state i j)
  have hs1e : s1 = d.state := by
    funext i j
    show lmCoriolisBackward p 1 (d.state i j) = d.state i j
    simp [lmCoriolisBackward, p]
  have hs1 : LMPhysical s1 := lm_coriolis_physical p 1 hs
  have hv := lmHelm_valid (dxinv := 1 / e.dx) (dyinv := 1 / e.dy) (dt := 1) (p := p) hs1 hcp one_pos (dfac := fun _ => 0) (fun x _ => le_rfl) (fun i j => (ho i j).le)
  have hal : ∀ i j, (lmHelm p 1 (1 / e.dx) (1 / e.dy) (fun _ => 0) d.alp s1).alp i j = d.alp i j := by
    intro i j; simp only [lmHelm]; rw [if_neg (by show ¬ (0 : K) > 0; exact lt_irrefl _)]
  obtain ⟨x, hx, hu⟩ := helm_solvable hv (fun i j => by rw [hal]; exact ho i j) (lmRhs (1 / e.dx) (1 / e.dy) (fun _ => 0) d.pi s1)
  have hy := hsolve _ _ ⟨x, hx⟩
  have hr : ∀ i j, lmRhs (1 / e.dx) (1 / e.dy) (fun _ => 0) d.pi s1 i j = nodeDivu (1 / e.dx) (1 / e.dy) (fun _ _ => false) (lmPvX d.state) (lmPvY d.state) i j := by
    intro i j; unfold lmRhs; simp only [lmNodeAvg_const, mul_zero, add_zero, hs1e]
  refine ⟨e.solve (lmHelm p 1 (1 / e.dx) (1 / e.dy) (fun _ => 0) d.alp s1) (lmRhs (1 / e.dx) (1 / e.dy) (fun _ => 0) d.pi s1), ?_, fun i j => ?_⟩
  · constructor
    · intro h i j
      rw [← hr, ← hy i j]
      have h0 : e.solve (lmHelm p 1 (1 / e.dx) (1 / e.dy) (fun _ => 0) d.alp s1) (lmRhs (1 / e.dx) (1 / e.dy) (fun _ => 0) d.pi s1) = fun _ _ => 0 := by funext i j; exact h i j
      rw [h0, helm_apply_const]; simp
    · intro h i j
      have e1 := hu _ hy
      have e2 := hu (fun _ _ => 0) (fun i j => by rw [helm_apply_const, hr, h]; simp)
      exact congrFun (congrFun (e1.trans e2.symm) i) j
  · exact (lm_backward_divergence (p := p) (dt := 1) hk hs1 (hy i j)).2 rfl (fun _ => rfl)

omit [Fintype I] [Fintype J] in
theorem lm_advect_ptinv (dx dy : K) (pvx pvy : I → J → K) (sweeps : List (Bool × K)) (s : I → J → LMCell K) (hs : ∀ i j, (s i j).ptinv = (s i j).density / (s i j).pt) (i : I) (j : J) :
    (lmAdvect dx dy pvx pvy sweeps s i j).ptinv = (lmAdvect dx dy pvx pvy sweeps s i j).density / (lmAdvect dx dy pvx pvy sweeps s i j).pt := by
  induction sweeps generalizing s with
  | nil => exact hs i j
  | cons a rest ih =>
    show (lmAdvect dx dy pvx pvy rest (if a.1 then lmSweepX dx a.2 pvx s else lmSweepY dy a.2 pvy s) i j).ptinv = _
    refine ih _ fun i j => ?_
    split <;> rfl

omit [IsStrictOrderedRing K] [Fintype I] [Fintype J] in
/-- The data after a successful step. -/
theorem lmStep_success (e : LMEnv I J K) {dt : K} {d : LMLevel I J K} (hok : (lmStep e dt d).1 = true) :
    let half := (1 / 2) * dt
    let s1 := lmAdvect e.dx e.dy (lmFaceX (lmPvX d.state)) (lmFaceY (lmPvY d.state)) (e.sweeps half) d.state
    let b := lmBackward e.solve e.par half (1 / e.dx) (1 / e.dy) (e.dfac half) d.alp d.pi s1
    let alp1 := if e.par.alphaP > 0 then lmNodeAvg (fun i j => e.dfac half (s1 i j).pt) else d.alp
    let pi1 := if e.par.alphaP = 0 then b.2 else d.pi
    let s2 := lmForward e.par half (1 / e.dx) (1 / e.dy) pi1 d.state
    let pi2 := lmForwardPi e.par (1 / e.dx) (1 / e.dy) (e.dpi half) pi1 d.state
    let s3 := lmAdvect e.dx e.dy (lmFaceX (lmPvX b.1)) (lmFaceY (lmPvY b.1)) (e.sweeps dt) s2
    let r := lmBackward e.solve e.par half (1 / e.dx) (1 / e.dy) (e.dfac half) alp1 pi2 s3
    (lmStep e dt d).2 = ⟨r.1, r.2, if e.par.alphaP > 0 then lmNodeAvg (fun i j => e.dfac half (s3 i j).pt) else alp1⟩ := by
  intro half s1 b alp1 pi1 s2 pi2 s3 r
  have h1 : ¬ (e.accepts half (lmFaceX (lmPvX d.state)) (lmFaceY (lmPvY d.state)) d.state = false) := by
    intro h
    have : lmStep e dt d = (false, d) := by unfold lmStep; exact if_pos h
    rw [this] at hok; cases hok
  have h2 : ¬ (e.accepts dt (lmFaceX (lmPvX b.1)) (lmFaceY (lmPvY b.1)) s2 = false) := by
    intro h
    have : lmStep e dt d = (false, ⟨s2, pi2, alp1⟩) := by unfold lmStep; exact (if_neg h1).trans (if_pos h)
    rw [this] at hok; cases hok
  have : lmStep e dt d = (true, ⟨r.1, r.2, if e.par.alphaP > 0 then lmNodeAvg (fun i j => e.dfac half (s3 i j).pt) else alp1⟩) := by
    unfold lmStep; exact (if_neg h1).trans (if_neg h2)
  rw [this]

/-- The parameters of the pseudo-incompressible model, with an exact linear solver and a splitting that covers the step in both directions. -/
structure LMEnv.Psinc (e : LMEnv I J K) : Prop where
  exact : LMExact e.solve
  axis : e.par.k2 = 1
  cp_pos : 0 < e.par.cp
  alpha : e.par.alphaP = 0
  dfac : ∀ dt x, e.dfac dt x = 0
  sweeps : ∀ dt, (((e.sweeps dt).filter (·.1)).map (·.2)).sum = (((e.sweeps dt).filter (!·.1)).map (·.2)).sum

/-- **C104.** Pseudo-incompressible steps keep `PTdensity`: if the mass-weighted velocity is free of divergence at the nodes, then after a successful step it is so again and `PTdensity` has not changed in any cell, as long as the advected density stays positive.
By induction this holds for any number of steps. -/
theorem lm_step_incompressible {e : LMEnv I J K} (he : e.Psinc) {dt : K} (hdt : 0 < dt) {d : LMLevel I J K} (hs : LMPhysical d.state) (ho : ∀ i j, d.alp i j = 0)
    (hdiv : ∀ i j, nodeDivu (1 / e.dx) (1 / e.dy) (fun _ _ => false) (lmPvX d.state) (lmPvY d.state) i j = 0)
    (hok : (lmStep e dt d).1 = true)
    (hpos : ∀ i j, 0 < (lmAdvect e.dx e.dy (lmFaceX (lmPvX d.state)) (lmFaceY (lmPvY d.state)) (e.sweeps (1 / 2 * dt)) d.state i j).density)
    (hpos2 : ∀ i j, 0 < ((lmStep e dt d).2.state i j).density) :
    let r := (lmStep e dt d).2
    LMPhysical r.state ∧ (∀ i j, r.alp i j = 0) ∧ (∀ i j, nodeDivu (1 / e.dx) (1 / e.dy) (fun _ _ => false) (lmPvX r.state) (lmPvY r.state) i j = 0)
      ∧ ∀ i j, (r.state i j).pt = (d.state i j).pt := by
  have hh : 0 < (1 / 2) * dt := by linarith
  have hna : ¬ e.par.alphaP > 0 := by rw [he.alpha]; exact lt_irrefl _
  have hr : (lmStep e dt d).2 = _ := lmStep_success e hok
  rw [hr] at hpos2 ⊢
  simp only [hna, if_false] at hpos2 ⊢
  -- the first half
  have hp1 : ∀ i j, (lmAdvect e.dx e.dy (lmFaceX (lmPvX d.state)) (lmFaceY (lmPvY d.state)) (e.sweeps (1 / 2 * dt)) d.state i j).pt = (d.state i j).pt :=
    lm_advect_incompressible e.dx e.dy _ _ hdiv _ (he.sweeps _) d.state
  have hph1 : LMPhysical (lmAdvect e.dx e.dy (lmFaceX (lmPvX d.state)) (lmFaceY (lmPvY d.state)) (e.sweeps (1 / 2 * dt)) d.state) := fun i j =>
    ⟨hpos i j, by rw [hp1]; exact (hs i j).2.1, lm_advect_ptinv _ _ _ _ _ _ (fun i j => (hs i j).2.2) i j⟩
  generalize lmAdvect e.dx e.dy (lmFaceX (lmPvX d.state)) (lmFaceY (lmPvY d.state)) (e.sweeps (1 / 2 * dt)) d.state = s1 at *
  have hb := (lm_backward_projects (dxinv := 1 / e.dx) (dyinv := 1 / e.dy) he.exact he.axis he.cp_pos he.alpha hh (he.dfac (1 / 2 * dt)) ho d.pi hph1).1
  generalize lmBackward e.solve e.par (1 / 2 * dt) (1 / e.dx) (1 / e.dy) (e.dfac (1 / 2 * dt)) d.alp d.pi s1 = b at *
  -- the second half
  have hs2 : LMPhysical (lmForward e.par (1 / 2 * dt) (1 / e.dx) (1 / e.dy) (if e.par.alphaP = 0 then b.2 else d.pi) d.state) := hs
  have hp2 : ∀ i j, (lmForward e.par (1 / 2 * dt) (1 / e.dx) (1 / e.dy) (if e.par.alphaP = 0 then b.2 else d.pi) d.state i j).pt = (d.state i j).pt := fun i j => rfl
  generalize lmForward e.par (1 / 2 * dt) (1 / e.dx) (1 / e.dy) (if e.par.alphaP = 0 then b.2 else d.pi) d.state = s2 at *
  have hp3 : ∀ i j, (lmAdvect e.dx e.dy (lmFaceX (lmPvX b.1)) (lmFaceY (lmPvY b.1)) (e.sweeps dt) s2 i j).pt = (s2 i j).pt :=
    lm_advect_incompressible e.dx e.dy _ _ hb _ (he.sweeps _) s2
  have hph3 : LMPhysical (lmAdvect e.dx e.dy (lmFaceX (lmPvX b.1)) (lmFaceY (lmPvY b.1)) (e.sweeps dt) s2) := fun i j =>
    ⟨hpos2 i j, by rw [hp3]; exact (hs2 i j).2.1, lm_advect_ptinv _ _ _ _ _ _ (fun i j => (hs2 i j).2.2) i j⟩
  generalize lmAdvect e.dx e.dy (lmFaceX (lmPvX b.1)) (lmFaceY (lmPvY b.1)) (e.sweeps dt) s2 = s3 at *
  have hr := lm_backward_projects (dxinv := 1 / e.dx) (dyinv := 1 / e.dy) he.exact he.axis he.cp_pos he.alpha hh (he.dfac (1 / 2 * dt)) ho
    (lmForwardPi e.par (1 / e.dx) (1 / e.dy) (e.dpi (1 / 2 * dt)) (if e.par.alphaP = 0 then b.2 else d.pi) d.state) hph3
  refine ⟨fun i j => ?_, ho, hr.1, fun i j => ?_⟩
  · obtain ⟨e1, e2, e3⟩ := hr.2 i j
    rw [e1, e2, e3]; exact hph3 i j
  · rw [(hr.2 i j).2.1, hp3, hp2]

omit [Fintype I] [Fintype J] in
/-- A uniform potential temperature alone is kept by the advection, whatever the velocities are. -/
theorem lm_advect_chi {dx dy chi : K} (pvx pvy : I → J → K) (sweeps : List (Bool × K)) (s : I → J → LMCell K)
    (hs : ∀ i j, (s i j).density = chi * (s i j).pt ∧ (s i j).ptinv = (s i j).density / (s i j).pt)
    (hp : ∀ n ≤ sweeps.length, ∀ i j, (lmAdvect dx dy pvx pvy (sweeps.take n) s i j).pt ≠ 0) (i : I) (j : J) :
    (lmAdvect dx dy pvx pvy sweeps s i j).density = chi * (lmAdvect dx dy pvx pvy sweeps s i j).pt := by
  have hflux : ∀ (dt dx : K) (s0 s1 s2 s3 : LMCell K) (pv1 pv2 pv3 : K), s0.ptinv = chi → s1.ptinv = chi → s2.ptinv = chi → s3.ptinv = chi →
      (lmFlux dt dx s0 s1 s2 s3 pv1 pv2 pv3).density = pv2 * chi := by
    intro dt dx s0 s1 s2 s3 pv1 pv2 pv3 h0 h1 h2 h3
    unfold lmFlux
    simp only [h0, h1, h2, h3, (lmRec_const _ _ _ _).1, (lmRec_const _ _ _ _).2]
    ring
  induction sweeps generalizing s i j with
  | nil => exact (hs i j).1
  | cons a rest ih =>
    have h0 : ∀ i j, (s i j).pt ≠ 0 := hp 0 (Nat.zero_le _)
    have hc : ∀ i j, (s i j).ptinv = chi := by
      intro i j
      rw [(hs i j).2, (hs i j).1]
      have := h0 i j
      field_simp
    show (lmAdvect dx dy pvx pvy rest (if a.1 then lmSweepX dx a.2 pvx s else lmSweepY dy a.2 pvy s) i j).density = chi * _
    refine ih _ ?_ (fun n hn => hp (n + 1) (by simpa using hn)) i j
    intro i j
    dsimp only
    split
    · refine ⟨?_, rfl⟩
      unfold lmSweepX
      simp only [lmComplete, hflux _ _ _ _ _ _ _ _ _ (hc _ _) (hc _ _) (hc _ _) (hc _ _), (hs i j).1]
      simp only [lmFlux]
      ring
    · refine ⟨?_, rfl⟩
      unfold lmSweepY
      simp only [lmComplete, hflux _ _ _ _ _ _ _ _ _ (hc _ _) (hc _ _) (hc _ _) (hc _ _), (hs i j).1]
      simp only [lmFlux]
      ring

omit [Fintype I] [Fintype J] in
theorem lm_advect_const (dx dy a b : K) (sweeps : List (Bool × K)) {q : LMCell K} (hq : 0 < q.density ∧ 0 < q.pt ∧ q.ptinv = q.density / q.pt) :
    lmAdvect dx dy (fun (_ : I) (_ : J) => a) (fun _ _ => b) sweeps (fun _ _ => q) = fun _ _ => q := by
  have h1 := hq.1.ne'
  have h2 := hq.2.1.ne'
  have hx : ∀ t, lmSweepX dx t (fun (_ : I) (_ : J) => a) (fun _ _ => q) = fun _ _ => q := by
    intro t; funext i j
    simp only [lmSweepX, lmComplete, sub_self, mul_zero, add_zero, ← hq.2.2]
  have hy : ∀ t, lmSweepY dy t (fun (_ : I) (_ : J) => b) (fun _ _ => q) = fun _ _ => q := by
    intro t; funext i j
    simp only [lmSweepY, lmComplete, sub_self, mul_zero, add_zero, ← hq.2.2]
  induction sweeps with
  | nil => rfl
  | cons w rest ih =>
    show lmAdvect dx dy _ _ rest (if w.1 then lmSweepX dx w.2 _ _ else lmSweepY dy w.2 _ _) = _
    rw [hx, hy, ite_self]; exact ih

/-- A nodal pressure without gradient. -/
def NoGrad (dxinv dyinv : K) (x : I → J → K) : Prop := ∀ i j, cellGradX dxinv x i j = 0 ∧ cellGradY dyinv x i j = 0

omit [Fintype I] [Fintype J] [IsStrictOrderedRing K] in
theorem lm_correct_noGrad {p : LMParam K} {dt dxinv dyinv : K} {pi : I → J → K} (h : NoGrad dxinv dyinv pi) (s : I → J → LMCell K) : lmCorrect p dt dxinv dyinv pi s = s := by
  funext i j
  unfold lmCorrect
  simp only [(get_fluxes dxinv dyinv _ pi i j).1, (get_fluxes dxinv dyinv _ pi i j).2, (h i j).1, (h i j).2, mul_zero, neg_zero, zero_mul, add_zero]

omit [Fintype I] [Fintype J] [LinearOrder K] [IsStrictOrderedRing K] in
theorem nodeDivu_const [CharZero K] (dxinv dyinv a b : K) (i : I) (j : J) : nodeDivu dxinv dyinv (fun _ _ => false) (fun _ _ => a) (fun _ _ => b) i j = 0 := by
  rw [node_divergence]; simp only [Bool.false_eq_true, if_false, nodeDiv]; ring

/-- The implicit step for a uniform state and an old pressure without gradient. -/
theorem lm_backward_uniform {solve : HelmCoef I J K → (I → J → K) → I → J → K} (hsolve : LMExact solve) {p : LMParam K} (hcp : 0 < p.cp) {dt dxinv dyinv : K} (hdt : 0 < dt)
    {dfac : K → K} (hpos : 0 < p.alphaP → ∀ x, 0 < x → dfac x < 0) (hz : p.alphaP = 0 → ∀ x, dfac x = 0) (hap : 0 ≤ p.alphaP) {old : I → J → K} (ho : p.alphaP = 0 → ∀ i j, old i j = 0)
    {piOld : I → J → K} (hpi : NoGrad dxinv dyinv piOld) {q : LMCell K} (hq : 0 < q.density ∧ 0 < q.pt ∧ q.ptinv = q.density / q.pt) :
    let r := lmBackward solve p dt dxinv dyinv dfac old piOld (fun _ _ => q)
    r.1 = (fun _ _ => lmCoriolisBackward p dt q) ∧ NoGrad dxinv dyinv r.2 ∧ (0 < p.alphaP → r.2 = piOld) := by
  have hs1 : LMPhysical (fun (_ : I) (_ : J) => lmCoriolisBackward p dt q) := fun _ _ => hq
  let c := lmHelm p dt dxinv dyinv dfac old (fun (_ : I) (_ : J) => lmCoriolisBackward p dt q)
  have hal : ∀ i j, c.alp i j = if p.alphaP > 0 then dfac q.pt else 0 := by
    intro i j
    show (if p.alphaP > 0 then lmNodeAvg (fun (_ : I) (_ : J) => dfac (lmCoriolisBackward p dt q).pt) else old) i j = _
    split
    · rw [lmNodeAvg_const]; rfl
    · rename_i h
      exact ho (le_antisymm (not_lt.1 h) hap) i j
  have hdf : dfac q.pt = if p.alphaP > 0 then dfac q.pt else 0 := by
    split
    · rfl
    · rename_i h; exact hz (le_antisymm (not_lt.1 h) hap) _
  have hv : c.Valid := by
    have hv0 := lmHelm_valid (p := p) (dt := dt) (dxinv := dxinv) (dyinv := dyinv) (dfac := fun _ => 0) (old := fun (_ : I) (_ : J) => (0 : K)) hs1 hcp hdt (fun _ _ => le_rfl) (fun _ _ => le_rfl)
    refine ⟨hv0.sig_pos, hv0.cross, fun i j => ?_⟩
    rw [hal]
    split
    · rename_i h; exact (hpos h _ hq.2.1).le
    · exact le_rfl
  have hrhs : ∀ i j, lmRhs dxinv dyinv dfac piOld (fun (_ : I) (_ : J) => lmCoriolisBackward p dt q) i j = c.alp i j * piOld i j := by
    intro i j
    have h0 : nodeDivu dxinv dyinv (fun _ _ => false) (lmPvX fun (_ : I) (_ : J) => lmCoriolisBackward p dt q) (lmPvY fun (_ : I) (_ : J) => lmCoriolisBackward p dt q) i j = 0 := nodeDivu_const _ _ _ _ i j
    have h1 : lmNodeAvg (fun (_ : I) (_ : J) => dfac (lmCoriolisBackward p dt q).pt) i j = dfac q.pt := lmNodeAvg_const _ i j
    unfold lmRhs
    rw [h0, h1, hal, ← hdf]; ring
  have happ : ∀ i j, helmApply c (fun _ _ => false) piOld i j = c.alp i j * piOld i j := by
    intro i j
    have hfx : ∀ i j, helmFluxX c piOld i j = 0 := by
      intro i j
      have h1 : cellGradX c.dxinv piOld i j = 0 := (hpi i j).1
      have h2 : cellGradY c.dyinv piOld i j = 0 := (hpi i j).2
      unfold helmFluxX; rw [h1, h2]; ring
    have hfy : ∀ i j, helmFluxY c piOld i j = 0 := by
      intro i j
      have h1 : cellGradX c.dxinv piOld i j = 0 := (hpi i j).1
      have h2 : cellGradY c.dyinv piOld i j = 0 := (hpi i j).2
      unfold helmFluxY; rw [h1, h2]; ring
    rw [helm_apply_flux]
    simp [nodeDiv, hfx, hfy]
  have hx := hsolve c (lmRhs dxinv dyinv dfac piOld (fun (_ : I) (_ : J) => lmCoriolisBackward p dt q)) ⟨piOld, fun i j => by rw [happ, hrhs]⟩
  generalize hpn : solve c (lmRhs dxinv dyinv dfac piOld (fun (_ : I) (_ : J) => lmCoriolisBackward p dt q)) = pin at hx
  have hdiff : ∀ i j, helmApply c (fun _ _ => false) (pin - piOld) i j = 0 := by
    intro i j
    have := congrFun (congrFun ((helmLin c).map_sub pin piOld) i) j
    have : helmApply c (fun _ _ => false) (pin - piOld) i j = helmApply c (fun _ _ => false) pin i j - helmApply c (fun _ _ => false) piOld i j := this
    rw [this, hx, happ, hrhs, sub_self]
  have ht := helm_energy_terms hv hdiff
  have hng : NoGrad dxinv dyinv pin := by
    intro i j
    obtain ⟨-, h1, h2⟩ := ht i j
    have e1 : cellGradX c.dxinv (pin - piOld) i j = cellGradX dxinv pin i j - cellGradX dxinv piOld i j := by
      show cellGradX dxinv (pin - piOld) i j = _
      simp only [cellGradX, Pi.sub_apply]; ring
    have e2 : cellGradY c.dyinv (pin - piOld) i j = cellGradY dyinv pin i j - cellGradY dyinv piOld i j := by
      show cellGradY dyinv (pin - piOld) i j = _
      simp only [cellGradY, Pi.sub_apply]; ring
    rw [h1, (hpi i j).1] at e1
    rw [h2, (hpi i j).2] at e2
    constructor <;> linarith
  have hr2 : (lmBackward solve p dt dxinv dyinv dfac old piOld (fun _ _ => q)).2 = pin := hpn
  have hr1 : (lmBackward solve p dt dxinv dyinv dfac old piOld (fun _ _ => q)).1 = lmCorrect p dt dxinv dyinv pin (fun _ _ => lmCoriolisBackward p dt q) := by rw [← hpn]; rfl
  simp only
  rw [hr1, hr2]
  refine ⟨lm_correct_noGrad hng _, hng, fun ha => ?_⟩
  funext i j
  have := (ht i j).1
  rw [hal, if_pos ha] at this
  have := (mul_eq_zero.1 this).resolve_left (hpos ha _ hq.2.1).ne
  exact sub_eq_zero.1 this

/-- The parameters of the solver, for both models, with an exact linear solver. -/
structure LMEnv.Valid (e : LMEnv I J K) : Prop where
  exact : LMExact e.solve
  cp_pos : 0 < e.par.cp
  alpha : 0 ≤ e.par.alphaP
  dfac_neg : 0 < e.par.alphaP → ∀ dt x, 0 < dt → 0 < x → e.dfac dt x < 0
  dfac_zero : e.par.alphaP = 0 → ∀ dt x, e.dfac dt x = 0

/-- **C104.** Uniform flow: a successful step from a uniform state with a pressure without gradient gives a uniform state with the same density and `PTdensity`, a pressure without gradient (the same one in the compressible model), and
the momentum rotated by the explicit and then the implicit Coriolis step: with a unit axis its magnitude does not change, and without rotation the state does not change at all. -/
theorem lm_step_uniform {e : LMEnv I J K} (he : e.Valid) {dt : K} (hdt : 0 < dt) {d : LMLevel I J K} {q : LMCell K} (hq : 0 < q.density ∧ 0 < q.pt ∧ q.ptinv = q.density / q.pt)
    (hd : ∀ i j, d.state i j = q) (hpi : NoGrad (1 / e.dx) (1 / e.dy) d.pi) (ho : e.par.alphaP = 0 → ∀ i j, d.alp i j = 0) (hok : (lmStep e dt d).1 = true) :
    ∃ r : LMCell K, (∀ i j, (lmStep e dt d).2.state i j = r) ∧ r.density = q.density ∧ r.pt = q.pt ∧ r.ptinv = q.ptinv
      ∧ NoGrad (1 / e.dx) (1 / e.dy) (lmStep e dt d).2.pi ∧ (0 < e.par.alphaP → (lmStep e dt d).2.pi = d.pi)
      ∧ (e.par.k2 ^ 2 = 1 → r.mx ^ 2 + r.my ^ 2 = q.mx ^ 2 + q.my ^ 2) ∧ (e.par.f = 0 → r = q) := by
  have hh : 0 < 1 / 2 * dt := by linarith
  have hst : d.state = fun _ _ => q := by funext i j; exact hd i j
  have hr := lmStep_success e hok
  simp only at hr
  rw [hr]
  clear hr
  have hpv : ∀ q : LMCell K, lmFaceX (lmPvX (fun (_ : I) (_ : J) => q)) = (fun _ _ => q.pt * q.mx / q.density) ∧ lmFaceY (lmPvY (fun (_ : I) (_ : J) => q)) = (fun _ _ => q.pt * q.my / q.density) :=
    fun q => ⟨(lmFace_const (q.pt * q.mx / q.density)).1, (lmFace_const (q.pt * q.my / q.density)).2⟩
  simp only [hst, (hpv q).1, (hpv q).2, lm_advect_const _ _ _ _ _ hq]
  have hneg : 0 < e.par.alphaP → ∀ x, 0 < x → e.dfac (1 / 2 * dt) x < 0 := fun h x hx => he.dfac_neg h _ x hh hx
  have hzero : e.par.alphaP = 0 → ∀ x, e.dfac (1 / 2 * dt) x = 0 := fun h x => he.dfac_zero h _ x
  obtain ⟨hb1, hb2, hb3⟩ := lm_backward_uniform (dxinv := 1 / e.dx) (dyinv := 1 / e.dy) he.exact he.cp_pos hh hneg hzero he.alpha ho hpi hq
  generalize lmBackward e.solve e.par (1 / 2 * dt) (1 / e.dx) (1 / e.dy) (e.dfac (1 / 2 * dt)) d.alp d.pi (fun _ _ => q) = b at *
  rw [hb1]
  have hpi1 : NoGrad (1 / e.dx) (1 / e.dy) (if e.par.alphaP = 0 then b.2 else d.pi) := by split; exacts [hb2, hpi]
  have hpi1e : 0 < e.par.alphaP → (if e.par.alphaP = 0 then b.2 else d.pi) = d.pi := fun h => if_neg h.ne'
  generalize (if e.par.alphaP = 0 then b.2 else d.pi) = pi1 at *
  have hpi2 : lmForwardPi e.par (1 / e.dx) (1 / e.dy) (e.dpi (1 / 2 * dt)) pi1 (fun _ _ => q) = pi1 := by
    funext i j
    unfold lmForwardPi
    have h0 : nodeDivu (1 / e.dx) (1 / e.dy) (fun _ _ => false) (lmPvX fun (_ : I) (_ : J) => q) (lmPvY fun (_ : I) (_ : J) => q) i j = 0 := nodeDivu_const _ _ _ _ i j
    rw [h0]; simp
  rw [hpi2]
  let fq : LMCell K := { q with mx := q.mx + 1 / 2 * dt * e.par.f * e.par.k2 * q.my, my := q.my - 1 / 2 * dt * e.par.f * e.par.k2 * q.mx }
  have hs2 : lmForward e.par (1 / 2 * dt) (1 / e.dx) (1 / e.dy) pi1 (fun _ _ => q) = fun _ _ => fq := by
    funext i j
    obtain ⟨h1, h2, -, -⟩ := lm_forward_coriolis e.par (1 / 2 * dt) (1 / e.dx) (1 / e.dy) pi1 (fun _ _ => q) i j
    rw [(hpi1 i j).1, mul_zero, sub_zero] at h1
    rw [(hpi1 i j).2, mul_zero, sub_zero] at h2
    show LMCell.mk q.density (lmForward e.par (1 / 2 * dt) (1 / e.dx) (1 / e.dy) pi1 (fun _ _ => q) i j).mx (lmForward e.par (1 / 2 * dt) (1 / e.dx) (1 / e.dy) pi1 (fun _ _ => q) i j).my q.pt q.ptinv = _
    rw [h1, h2]
  rw [hs2]
  have hfq : 0 < fq.density ∧ 0 < fq.pt ∧ fq.ptinv = fq.density / fq.pt := hq
  simp only [(hpv (lmCoriolisBackward e.par (1 / 2 * dt) q)).1, (hpv (lmCoriolisBackward e.par (1 / 2 * dt) q)).2, lm_advect_const _ _ _ _ _ hfq]
  have hal : e.par.alphaP = 0 → ∀ i j, (if e.par.alphaP > 0 then lmNodeAvg (fun (_ : I) (_ : J) => e.dfac (1 / 2 * dt) q.pt) else d.alp) i j = 0 := by
    intro h i j; rw [if_neg (by rw [h]; exact lt_irrefl _)]; exact ho h i j
  obtain ⟨hc1, hc2, hc3⟩ := lm_backward_uniform (dxinv := 1 / e.dx) (dyinv := 1 / e.dy) he.exact he.cp_pos hh hneg hzero he.alpha hal hpi1 hfq
  refine ⟨lmCoriolisBackward e.par (1 / 2 * dt) fq, fun i j => congrFun (congrFun hc1 i) j, rfl, rfl, rfl, hc2, fun h => (hc3 h).trans (hpi1e h), fun hk => ?_, fun hf => ?_⟩
  · rw [(lm_coriolis_energy e.par hk (1 / 2 * dt) fq).1, div_eq_iff (by nlinarith [sq_nonneg (1 / 2 * dt * e.par.f)])]
    simp only [fq]
    linear_combination (1 / 2 * dt * e.par.f) ^ 2 * (q.mx ^ 2 + q.my ^ 2) * hk
  · simp [lmCoriolisBackward, fq, hf]

omit [LinearOrder K] [IsStrictOrderedRing K] in
theorem gridSum_diffX (c : K) (g f : I → J → K) : gridSum (fun i j => g i j + c * (f i j - f (i + 1) j)) = gridSum g := by
  have h := gridSum_shift f (-1) 0
  simp only [sub_neg_eq_add, sub_zero] at h
  have e : (fun i j => g i j + c * (f i j - f (i + 1) j)) = fun i j => g i j + (c * f i j + -c * f (i + 1) j) := by funext i j; ring
  rw [e, gridSum_add, gridSum_add]
  have m : ∀ (c : K) (f : I → J → K), gridSum (fun i j => c * f i j) = c * gridSum f := by intro c f; simp only [gridSum, Finset.mul_sum]
  rw [m, m (-c) (fun i j => f (i + 1) j), h]; ring

omit [LinearOrder K] [IsStrictOrderedRing K] in
theorem gridSum_diffY (c : K) (g f : I → J → K) : gridSum (fun i j => g i j + c * (f i j - f i (j + 1))) = gridSum g := by
  have h := gridSum_shift f 0 (-1)
  simp only [sub_neg_eq_add, sub_zero] at h
  have e : (fun i j => g i j + c * (f i j - f i (j + 1))) = fun i j => g i j + (c * f i j + -c * f i (j + 1)) := by funext i j; ring
  rw [e, gridSum_add, gridSum_add]
  have m : ∀ (c : K) (f : I → J → K), gridSum (fun i j => c * f i j) = c * gridSum f := by intro c f; simp only [gridSum, Finset.mul_sum]
  rw [m, m (-c) (fun i j => f i (j + 1)), h]; ring

omit [IsStrictOrderedRing K] in
/-- **C102.** The advection conserves the total density, momentum and `PTdensity` on a periodic grid, for any face values and any sequence of sweeps. -/
theorem lm_advect_conserves (dx dy : K) (pvx pvy : I → J → K) (sweeps : List (Bool × K)) (s : I → J → LMCell K) :
    let r := lmAdvect dx dy pvx pvy sweeps s
    gridSum (fun i j => (r i j).density) = gridSum (fun i j => (s i j).density) ∧ gridSum (fun i j => (r i j).mx) = gridSum (fun i j => (s i j).mx)
    ∧ gridSum (fun i j => (r i j).my) = gridSum (fun i j => (s i j).my) ∧ gridSum (fun i j => (r i j).pt) = gridSum (fun i j => (s i j).pt) := by
  induction sweeps generalizing s with
  | nil => exact ⟨rfl, rfl, rfl, rfl⟩
  | cons a rest ih =>
    obtain ⟨h1, h2, h3, h4⟩ := ih (if a.1 then lmSweepX dx a.2 pvx s else lmSweepY dy a.2 pvy s)
    refine ⟨h1.trans ?_, h2.trans ?_, h3.trans ?_, h4.trans ?_⟩ <;> split
    · exact gridSum_diffX (a.2 / dx) (fun i j => (s i j).density) (fun i j => (lmFlux a.2 dx (s (i - 2) j) (s (i - 1) j) (s i j) (s (i + 1) j) (pvx (i - 1) j) (pvx i j) (pvx (i + 1) j)).density)
    · exact gridSum_diffY (a.2 / dy) (fun i j => (s i j).density) (fun i j => (lmFlux a.2 dy (s i (j - 2)) (s i (j - 1)) (s i j) (s i (j + 1)) (pvy i (j - 1)) (pvy i j) (pvy i (j + 1))).density)
    · exact gridSum_diffX (a.2 / dx) (fun i j => (s i j).mx) (fun i j => (lmFlux a.2 dx (s (i - 2) j) (s (i - 1) j) (s i j) (s (i + 1) j) (pvx (i - 1) j) (pvx i j) (pvx (i + 1) j)).mx)
    · exact gridSum_diffY (a.2 / dy) (fun i j => (s i j).mx) (fun i j => (lmFlux a.2 dy (s i (j - 2)) (s i (j - 1)) (s i j) (s i (j + 1)) (pvy i (j - 1)) (pvy i j) (pvy i (j + 1))).mx)
    · exact gridSum_diffX (a.2 / dx) (fun i j => (s i j).my) (fun i j => (lmFlux a.2 dx (s (i - 2) j) (s (i - 1) j) (s i j) (s (i + 1) j) (pvx (i - 1) j) (pvx i j) (pvx (i + 1) j)).my)
    · exact gridSum_diffY (a.2 / dy) (fun i j => (s i j).my) (fun i j => (lmFlux a.2 dy (s i (j - 2)) (s i (j - 1)) (s i j) (s i (j + 1)) (pvy i (j - 1)) (pvy i j) (pvy i (j + 1))).my)
    · exact gridSum_diffX (a.2 / dx) (fun i j => (s i j).pt) (fun i j => (lmFlux a.2 dx (s (i - 2) j) (s (i - 1) j) (s i j) (s (i + 1) j) (pvx (i - 1) j) (pvx i j) (pvx (i + 1) j)).pt)
    · exact gridSum_diffY (a.2 / dy) (fun i j => (s i j).pt) (fun i j => (lmFlux a.2 dy (s i (j - 2)) (s i (j - 1)) (s i j) (s i (j + 1)) (pvy i (j - 1)) (pvy i j) (pvy i (j + 1))).pt)

/-- A sequence of steps; `none` if one of them fails. -/
def lmRun (e : LMEnv I J K) : List K → LMLevel I J K → Option (LMLevel I J K)
  | [], d => some d
  | dt :: rest, d => if (lmStep e dt d).1 then lmRun e rest (lmStep e dt d).2 else none

omit [IsStrictOrderedRing K] in
/-- **C104.** Total mass and total `PTdensity` are conserved by any number of successful steps on a periodic grid, in both models and for any linear solver. -/
theorem lm_run_mass (e : LMEnv I J K) (dts : List K) {d r : LMLevel I J K} (hr : lmRun e dts d = some r) :
    gridSum (fun i j => (r.state i j).density) = gridSum (fun i j => (d.state i j).density) ∧ gridSum (fun i j => (r.state i j).pt) = gridSum (fun i j => (d.state i j).pt) := by
  induction dts generalizing d with
  | nil => cases hr; exact ⟨rfl, rfl⟩
  | cons dt rest ih =>
    by_cases hok : (lmStep e dt d).1 = true
    · have hr' : lmRun e rest (lmStep e dt d).2 = some r := by rw [← hr]; exact (if_pos hok).symm
      obtain ⟨h1, h2⟩ := ih hr'
      have hs := lmStep_success e hok
      simp only at hs
      rw [h1, h2, hs]
      exact ⟨(lm_advect_conserves _ _ _ _ _ _).1, (lm_advect_conserves _ _ _ _ _ _).2.2.2⟩
    · have : lmRun e (dt :: rest) d = none := if_neg hok
      rw [this] at hr; cases hr

omit [IsStrictOrderedRing K] [Fintype I] [Fintype J] in
/-- **C104.** What a failed step leaves behind: either nothing has changed, or the state has been replaced by the explicit half step of the sources. Density and `PTdensity` are the old ones in both cases. -/
theorem lm_step_failure (e : LMEnv I J K) {dt : K} {d : LMLevel I J K} (hf : (lmStep e dt d).1 = false) :
    ((lmStep e dt d).2 = d ∨ ∃ pi, (lmStep e dt d).2.state = lmForward e.par (1 / 2 * dt) (1 / e.dx) (1 / e.dy) pi d.state)
    ∧ ∀ i j, ((lmStep e dt d).2.state i j).density = (d.state i j).density ∧ ((lmStep e dt d).2.state i j).pt = (d.state i j).pt := by
  by_cases h1 : e.accepts (1 / 2 * dt) (lmFaceX (lmPvX d.state)) (lmFaceY (lmPvY d.state)) d.state = false
  · have : lmStep e dt d = (false, d) := by unfold lmStep; exact if_pos h1
    rw [this]; exact ⟨Or.inl rfl, fun i j => ⟨rfl, rfl⟩⟩
  · let half := (1 / 2) * dt
    let s1 := lmAdvect e.dx e.dy (lmFaceX (lmPvX d.state)) (lmFaceY (lmPvY d.state)) (e.sweeps half) d.state
    let b := lmBackward e.solve e.par half (1 / e.dx) (1 / e.dy) (e.dfac half) d.alp d.pi s1
    let alp1 := if e.par.alphaP > 0 then lmNodeAvg (fun i j => e.dfac half (s1 i j).pt) else d.alp
    let pi1 := if e.par.alphaP = 0 then b.2 else d.pi
    let s2 := lmForward e.par half (1 / e.dx) (1 / e.dy) pi1 d.state
    let pi2 := lmForwardPi e.par (1 / e.dx) (1 / e.dy) (e.dpi half) pi1 d.state
    by_cases h2 : e.accepts dt (lmFaceX (lmPvX b.1)) (lmFaceY (lmPvY b.1)) s2 = false
    · have : lmStep e dt d = (false, ⟨s2, pi2, alp1⟩) := by unfold lmStep; exact (if_neg h1).trans (if_pos h2)
      rw [this]
      exact ⟨Or.inr ⟨pi1, rfl⟩, fun i j => ⟨rfl, rfl⟩⟩
    · exfalso
      have : (lmStep e dt d).1 = true := by unfold lmStep; exact congrArg Prod.fst ((if_neg h1).trans (if_neg h2))
      rw [this] at hf; cases hf

/-- There is a linear solver that meets the hypothesis. -/
theorem lmExact_exists : ∃ solve : HelmCoef I J K → (I → J → K) → I → J → K, LMExact solve := by
  classical
  refine ⟨fun c rhs => if h : ∃ x, ∀ i j, helmApply c (fun _ _ => false) x i j = rhs i j then h.choose else fun _ _ => 0, fun c rhs h => ?_⟩
  simp only [h, dif_pos]
  exact h.choose_spec

end Backward

/-- A concrete environment for both models. -/
def lmSampleEnv (a : ℚ) (solve : HelmCoef (ZMod 4) (ZMod 3) ℚ → (ZMod 4 → ZMod 3 → ℚ) → ZMod 4 → ZMod 3 → ℚ) : LMEnv (ZMod 4) (ZMod 3) ℚ :=
  { dx := 1, dy := 2, par := ⟨7, 3, 1, a⟩, dfac := fun dt x => -a * x / dt, dpi := fun dt x => -dt * x, solve := solve
    sweeps := fun dt => [(true, dt / 2), (false, dt), (true, dt / 2)], accepts := fun _ _ _ _ => true }

theorem lmSampleEnv_valid {a : ℚ} (ha : 0 ≤ a) {solve : HelmCoef (ZMod 4) (ZMod 3) ℚ → (ZMod 4 → ZMod 3 → ℚ) → ZMod 4 → ZMod 3 → ℚ} (h : LMExact solve) : (lmSampleEnv a solve).Valid := by
  refine ⟨h, by norm_num [lmSampleEnv], ha, fun hp dt x hdt hx => ?_, fun hz dt x => ?_⟩
  · have hp : 0 < a := hp
    show -a * x / dt < 0
    rw [div_lt_iff₀ hdt]; nlinarith
  · have hz : a = 0 := hz
    show -a * x / dt = 0
    rw [hz]; simp

/-- The hypotheses of both theorems about the step are met: a uniform flow with rotation, in both models. -/
example : ∃ solve, (lmSampleEnv 1 solve).Valid ∧ (lmSampleEnv 0 solve).Psinc ∧ ∀ a d, (lmStep (lmSampleEnv a solve) (1 / 2) d).1 = true := by
  obtain ⟨solve, h⟩ := lmExact_exists (I := ZMod 4) (J := ZMod 3) (K := ℚ)
  refine ⟨solve, lmSampleEnv_valid (by norm_num) h, ⟨h, rfl, by norm_num [lmSampleEnv], rfl, fun dt x => by simp [lmSampleEnv], fun dt => by simp [lmSampleEnv]⟩, fun a d => rfl⟩

example : let d : LMLevel (ZMod 4) (ZMod 3) ℚ := ⟨fun _ _ => ⟨2, 3, 5, 4, 1 / 2⟩, fun _ _ => 1, fun _ _ => 0⟩
    LMPhysical d.state ∧ (∀ i j, nodeDivu 1 (1 / 2) (fun _ _ => false) (lmPvX d.state) (lmPvY d.state) i j = 0) ∧ NoGrad 1 (1 / 2) d.pi := by
  refine ⟨fun i j => by norm_num, fun i j => nodeDivu_const _ _ _ _ i j, fun i j => by simp [cellGradX, cellGradY]⟩

/-- **C104.** (Disagreement.) A step that reports a too large time step does not leave the state as it was: the caller's retry starts from a state to which half of the sources has been applied. -/
theorem lm_step_failure_changes : ∃ (e : LMEnv (ZMod 4) (ZMod 3) ℚ) (d : LMLevel (ZMod 4) (ZMod 3) ℚ), e.Valid ∧ LMPhysical d.state ∧ (lmStep e 1 d).1 = false ∧ (lmStep e (1 / 2) d).1 = true
    ∧ ((lmStep e 1 d).2.state 0 0).mx ≠ (d.state 0 0).mx := by
  obtain ⟨solve, h⟩ := lmExact_exists (I := ZMod 4) (J := ZMod 3) (K := ℚ)
  let e : LMEnv (ZMod 4) (ZMod 3) ℚ := { lmSampleEnv 1 solve with accepts := fun dt _ _ _ => decide (dt ≤ 1 / 2) }
  let d : LMLevel (ZMod 4) (ZMod 3) ℚ := ⟨fun _ _ => ⟨2, 3, 5, 4, 1 / 2⟩, fun _ _ => 1, fun _ _ => 0⟩
  have hv := lmSampleEnv_valid (a := 1) (by norm_num) h
  have ha : ∀ t pvx pvy s, e.accepts t pvx pvy s = decide (t ≤ 1 / 2) := fun t pvx pvy s => rfl
  have h1 : (lmStep e 1 d).1 = false ∧ ∃ pi, (∀ i j, pi i j = 1) ∧ (lmStep e 1 d).2.state = lmForward e.par (1 / 2 * 1) (1 / e.dx) (1 / e.dy) pi d.state := by
    unfold lmStep
    simp only [ha]
    norm_num
    refine ⟨fun _ _ => 1, fun _ _ => rfl, ?_⟩
    have : ¬ e.par.alphaP = 0 := by show ¬ (1 : ℚ) = 0; norm_num
    rw [if_neg this]
  refine ⟨e, d, ⟨h, hv.cp_pos, hv.alpha, hv.dfac_neg, hv.dfac_zero⟩, fun i j => by norm_num [d], h1.1, ?_, ?_⟩
  · unfold lmStep
    simp only [ha]
    norm_num
  · obtain ⟨-, pi, hpi, hst⟩ := h1
    rw [hst, (lm_forward_coriolis _ _ _ _ _ _ _ _).1]
    simp only [cellGradX, hpi]
    norm_num [e, d, lmSampleEnv]

end Fub
