import Verif.Model.MusclMasked
import Verif.Spec.MusclMasked
import Verif.Props.GasHll

/-!
# C204: the MUSCL-Hancock flux next to cut cells
-/

namespace Fub
variable {K C ι : Type} [Field K] [LinearOrder K] [IsStrictOrderedRing K]

/-! ### The limiters -/

omit [IsStrictOrderedRing K] in
/-- **C204** All four limiters have a correct version for vectors with covered cells. -/
theorem masked_limiters : IsMaskedLimiter (K := K) noLimiterSlopeMasked noLimiterSlope ∧ IsMaskedLimiter (K := K) noGradientSlopeMasked noGradientSlope ∧
    IsMaskedLimiter (K := K) minModSlopeMasked minModSlope ∧ IsMaskedLimiter (K := K) vanLeerSlopeMasked vanLeerSlope := by
  refine ⟨⟨?_, ?_⟩, ⟨?_, ?_⟩, ⟨?_, ?_⟩, ⟨?_, ?_⟩⟩ <;> intro a b c
  · simp [noLimiterSlopeMasked, noLimiterSlope]
  · simp [noLimiterSlopeMasked]
  · rfl
  · rfl
  · simp [minModSlopeMasked, minModSlope]
  · simp [minModSlopeMasked]
  · simp [vanLeerSlopeMasked, vanLeerSlope, vanLeerArray, vanLeer]
  · simp [vanLeerSlopeMasked, vanLeerArray]

/-! ### Open faces -/

omit [Field K] [IsStrictOrderedRing K] in
/-- Some lane of the vector has an open face. -/
theorem any_open [Zero K] {n : ℕ} (β : Fin n → K) (l : Fin n) (h : 0 < β l) : (List.ofFn fun l : Fin n => decide (0 < β l)).any id = true := by
  rw [List.any_eq_true]
  exact ⟨true, List.mem_ofFn.2 ⟨l, by simp [h]⟩, rfl⟩

omit [Field K] [IsStrictOrderedRing K] in
/-- No lane of the vector has an open face. -/
theorem any_closed [Zero K] {n : ℕ} (β : Fin n → K) (h : ∀ l, β l ≤ 0) : (List.ofFn fun l : Fin n => decide (0 < β l)).any id = false := by
  rw [List.any_eq_false]
  intro b hb
  obtain ⟨l, rfl⟩ := List.mem_ofFn.1 hb
  simp [not_lt.2 (h l)]

omit [IsStrictOrderedRing K] in
/-- The limited slope of a lane is the slope of the specification. -/
theorem masked_slope {limM : Bool → K → K → K → K} {lim : K → K → K → K} (h : IsMaskedLimiter limM lim) (vL vM vR a b c : K) :
    limM (decide (0 < vL) && decide (0 < vM) && decide (0 < vR)) a b c = openSlope lim vL vM vR a b c := by
  unfold openSlope
  by_cases h1 : 0 < vL <;> by_cases h2 : 0 < vM <;> by_cases h3 : 0 < vR <;> simp [h1, h2, h3, h.on, h.off]

omit [IsStrictOrderedRing K] in
/-- **C204** In the lane of an open face the flux is the one of the lower order method between the states that the scalar method reconstructs, with slopes that
are limited if none of their three cells is covered and zero otherwise. It depends on no other lane. `Good` are the conservative values for which the versions of
the equation with and without mask agree. -/
theorem muscl_vector_open {n : ℕ} {R : Type} [Zero R] (E : EqnOps K C ι) (M : MaskOps K C ι) (limM : Bool → K → K → K → K) (lim : K → K → K → K)
    (hl : IsMaskedLimiter limM lim) (base : K → C → C → R) (β : Fin n → K) (s : Fin n → Fin 4 → C) (α : Fin n → Fin 4 → K) (dt dx : K)
    (Good : (ι → K) → Prop) (hG : ∀ u, Good u → M.complete true u = E.complete u ∧ M.flux true (E.complete u) = E.flux (E.complete u))
    (l : Fin n) (hβ : 0 < β l) (slopeL slopeR : ι → K)
    (hL : ∀ i, slopeL i = openSlope lim (α l 0) (α l 1) (α l 2) (E.cons (s l 0) i) (E.cons (s l 1) i) (E.cons (s l 2) i))
    (hR : ∀ i, slopeR i = openSlope lim (α l 1) (α l 2) (α l 3) (E.cons (s l 1) i) (E.cons (s l 2) i) (E.cons (s l 3) i))
    (g1 : Good fun i => E.cons (s l 1) i - 1 / 2 * slopeL i) (g2 : Good fun i => E.cons (s l 1) i + 1 / 2 * slopeL i)
    (g3 : Good fun i => E.cons (s l 2) i - 1 / 2 * slopeR i) (g4 : Good fun i => E.cons (s l 2) i + 1 / 2 * slopeR i)
    (g5 : Good fun i => E.cons (musclFaces E (s l 1) slopeL).2 i + 1 / 2 * dt / dx *
      (E.flux (musclFaces E (s l 1) slopeL).1 i - E.flux (musclFaces E (s l 1) slopeL).2 i))
    (g6 : Good fun i => E.cons (musclFaces E (s l 2) slopeR).1 i + 1 / 2 * dt / dx *
      (E.flux (musclFaces E (s l 2) slopeR).1 i - E.flux (musclFaces E (s l 2) slopeR).2 i)) :
    musclVector E M limM base β s α dt dx l =
      base (β l) (musclLeft E (1 / 2 * dt / dx) (s l 1) slopeL) (musclRight E (1 / 2 * dt / dx) (s l 2) slopeR) := by
  rw [musclVector, if_pos (any_open β l hβ)]
  have eL : (fun i => limM (decide (0 < α l 0) && decide (0 < α l 1) && decide (0 < α l 2)) (E.cons (s l 0) i) (E.cons (s l 1) i) (E.cons (s l 2) i)) = slopeL := by
    funext i; rw [hL, masked_slope hl]
  have eR : (fun i => limM (decide (0 < α l 1) && decide (0 < α l 2) && decide (0 < α l 3)) (E.cons (s l 1) i) (E.cons (s l 2) i) (E.cons (s l 3) i)) = slopeR := by
    funext i; rw [hR, masked_slope hl]
  have f1 : maskedFaces E M true (s l 1) slopeL = musclFaces E (s l 1) slopeL := by
    simp only [maskedFaces, musclFaces, if_true, (hG _ g1).1, (hG _ g2).1]
  have f2 : maskedFaces E M true (s l 2) slopeR = musclFaces E (s l 2) slopeR := by
    simp only [maskedFaces, musclFaces, if_true, (hG _ g3).1, (hG _ g4).1]
  have c1 : maskedLeft E M true (1 / 2 * dt / dx) (s l 1) slopeL = musclLeft E (1 / 2 * dt / dx) (s l 1) slopeL := by
    have a1 : M.flux true (musclFaces E (s l 1) slopeL).1 = E.flux (musclFaces E (s l 1) slopeL).1 := (hG _ g1).2
    have a2 : M.flux true (musclFaces E (s l 1) slopeL).2 = E.flux (musclFaces E (s l 1) slopeL).2 := (hG _ g2).2
    simp only [maskedLeft, musclLeft, f1, a1, a2, (hG _ g5).1]
  have c2 : maskedRight E M true (1 / 2 * dt / dx) (s l 2) slopeR = musclRight E (1 / 2 * dt / dx) (s l 2) slopeR := by
    have a1 : M.flux true (musclFaces E (s l 2) slopeR).1 = E.flux (musclFaces E (s l 2) slopeR).1 := (hG _ g3).2
    have a2 : M.flux true (musclFaces E (s l 2) slopeR).2 = E.flux (musclFaces E (s l 2) slopeR).2 := (hG _ g4).2
    simp only [maskedRight, musclRight, f2, a1, a2, (hG _ g6).1]
  simp only [musclLane, hβ, decide_true, eL, eR, c1, c2]

omit [IsStrictOrderedRing K] in
/-- **C204** The flux of an open face does not depend on what covered cells contain, nor on anything in other lanes. -/
theorem muscl_vector_covered {n : ℕ} {R : Type} [Zero R] (E : EqnOps K C ι) (M : MaskOps K C ι) (limM : Bool → K → K → K → K) (lim : K → K → K → K)
    (hl : IsMaskedLimiter limM lim) (base : K → C → C → R) (β β' : Fin n → K) (s s' : Fin n → Fin 4 → C) (α α' : Fin n → Fin 4 → K) (dt dx : K)
    (l : Fin n) (hβ : 0 < β l) (h1 : 0 < α l 1) (h2 : 0 < α l 2) (eβ : β' l = β l) (eα : α' l = α l) (es : ∀ k, 0 < α l k → s' l k = s l k) :
    musclVector E M limM base β' s' α' dt dx l = musclVector E M limM base β s α dt dx l := by
  have hβ' : 0 < β' l := by rw [eβ]; exact hβ
  rw [musclVector, if_pos (any_open β' l hβ'), musclVector, if_pos (any_open β l hβ)]
  simp only [musclLane, masked_slope hl, eβ, eα, es 1 h1, es 2 h2]
  have e0 : ∀ i, openSlope lim (α l 0) (α l 1) (α l 2) (E.cons (s' l 0) i) (E.cons (s l 1) i) (E.cons (s l 2) i) =
      openSlope lim (α l 0) (α l 1) (α l 2) (E.cons (s l 0) i) (E.cons (s l 1) i) (E.cons (s l 2) i) := by
    intro i
    unfold openSlope
    by_cases h : 0 < α l 0
    · rw [es 0 h]
    · simp [h]
  have e3 : ∀ i, openSlope lim (α l 1) (α l 2) (α l 3) (E.cons (s l 1) i) (E.cons (s l 2) i) (E.cons (s' l 3) i) =
      openSlope lim (α l 1) (α l 2) (α l 3) (E.cons (s l 1) i) (E.cons (s l 2) i) (E.cons (s l 3) i) := by
    intro i
    unfold openSlope
    by_cases h : 0 < α l 3
    · rw [es 3 h]
    · simp [h]
  simp only [e0, e3]

omit [IsStrictOrderedRing K] in
/-- **C204** If no face of the vector is open, all fluxes are zero. -/
theorem muscl_vector_closed {n : ℕ} {R : Type} [Zero R] (E : EqnOps K C ι) (M : MaskOps K C ι) (limM : Bool → K → K → K → K) (base : K → C → C → R)
    (β : Fin n → K) (s : Fin n → Fin 4 → C) (α : Fin n → Fin 4 → K) (dt dx : K) (h : ∀ l, β l ≤ 0) (l : Fin n) :
    musclVector E M limM base β s α dt dx l = 0 := by
  rw [musclVector, any_closed β h]
  rfl

omit [IsStrictOrderedRing K] in
/-- **C204** With the Godunov method as lower order method the flux of a closed face is zero in every vector. -/
theorem muscl_godunov_closed {n : ℕ} (E : EqnOps K C ι) (M : MaskOps K C ι) (limM : Bool → K → K → K → K) (solve : C → C → C)
    (β : Fin n → K) (s : Fin n → Fin 4 → C) (α : Fin n → Fin 4 → K) (dt dx : K) (l : Fin n) (h : β l ≤ 0) :
    musclVector E M limM (fun b => godunovFluxMasked E solve b) β s α dt dx l = 0 := by
  unfold musclVector
  split
  · funext i
    simp [musclLane, godunovFluxMasked, not_lt.2 h]
  · rfl

/-! ### The perfect gas -/

/-- Conservative values with a positive density: the two versions of the equation agree. -/
theorem gas_masked_agree {d : ℕ} (eq : GasEq) (dir : Fin d) (u : GasVar d → ℝ) (h : 0 < u .density) :
    (gasMaskOps eq dir).complete true u = (gasEqn eq dir).complete u ∧
    (gasMaskOps eq dir).flux true ((gasEqn eq dir).complete u) = (gasEqn eq dir).flux ((gasEqn eq dir).complete u) := by
  constructor
  · simp [gasMaskOps, gasEqn, gasCompleteMasked, gasCompleteArray, gasKineticMasked, gasKinetic, GasCons.ofFn, h]
  · exact congrArg GasCons.get (gas_flux_versions _ dir (by simpa [gasEqn, gasCompleteArray, GasCons.ofFn] using h)).2.1

/-- On an open face with positive densities the HLL flux of a lane is the scalar HLL flux. -/
theorem gas_hll_lane {d : ℕ} (eq : GasEq) (hv : eq.Valid) (dir : Fin d) (β : ℝ) (hβ : 0 < β) (l r : GasComplete d) (hl : 0 < l.density) (hr : 0 < r.density) :
    gasHllLane eq dir β l r = hllFlux (gasEqn eq dir) (einfeldt eq.gamma dir) l r := by
  have hs : einfeldtMasked eq.gammaArray true dir l r = some (einfeldt eq.gamma dir l r) := by
    simp only [einfeldtMasked, hl.ne', hr.ne', or_self, if_false, if_true, einfeldt, roeAvg, hv.arr]
    have : ∀ a b x y : ℝ, a * (Real.sqrt x / (Real.sqrt x + Real.sqrt y)) + b * (Real.sqrt y / (Real.sqrt x + Real.sqrt y)) =
      (a * Real.sqrt x + b * Real.sqrt y) * (1 / (Real.sqrt x + Real.sqrt y)) := by intro a b x y; ring
    simp only [this]
  have f1 : (gasFluxMasked l true dir).get = (gasEqn eq dir).flux l := congrArg GasCons.get (gas_flux_versions l dir hl).2.1
  have f2 : (gasFluxMasked r true dir).get = (gasEqn eq dir).flux r := congrArg GasCons.get (gas_flux_versions r dir hr).2.1
  simp only [gasHllLane, hβ, decide_true, hs, hllFluxMasked, hllFlux, if_true, f1, f2, min_comm _ (0 : ℝ), max_comm _ (0 : ℝ)]

/-- **C204** Perfect gas with the HLL flux as lower order method: in a lane whose face is open and whose four cells are not covered the flux is the one of the
scalar method, as long as the six reconstructed densities are positive. -/
theorem muscl_gas_open {n d : ℕ} (eq : GasEq) (hv : eq.Valid) (dir : Fin d) (limM : Bool → ℝ → ℝ → ℝ → ℝ) (lim : ℝ → ℝ → ℝ → ℝ)
    (hl : IsMaskedLimiter limM lim) (β : Fin n → ℝ) (s : Fin n → Fin 4 → GasComplete d) (α : Fin n → Fin 4 → ℝ) (dt dx : ℝ)
    (l : Fin n) (hβ : 0 < β l) (hα : ∀ k, 0 < α l k)
    (slope : Fin 2 → GasVar d → ℝ)
    (hs0 : ∀ i, slope 0 i = lim ((s l 0).cons.get i) ((s l 1).cons.get i) ((s l 2).cons.get i))
    (hs1 : ∀ i, slope 1 i = lim ((s l 1).cons.get i) ((s l 2).cons.get i) ((s l 3).cons.get i))
    (p1 : |slope 0 .density| < 2 * (s l 1).density) (p2 : |slope 1 .density| < 2 * (s l 2).density)
    (p3 : 0 < (musclLeft (gasEqn eq dir) (1 / 2 * dt / dx) (s l 1) (slope 0)).density)
    (p4 : 0 < (musclRight (gasEqn eq dir) (1 / 2 * dt / dx) (s l 2) (slope 1)).density) :
    musclVector (gasEqn eq dir) (gasMaskOps eq dir) limM (gasHllLane eq dir) β s α dt dx l =
      musclFlux (gasEqn eq dir) (hllFlux (gasEqn eq dir) (einfeldt eq.gamma dir)) lim (s l 0) (s l 1) (s l 2) (s l 3) dt dx := by
  have a1 := abs_lt.1 p1
  have a2 := abs_lt.1 p2
  have key := muscl_vector_open (gasEqn eq dir) (gasMaskOps eq dir) limM lim hl (gasHllLane eq dir) β s α dt dx (fun u => 0 < u .density)
    (fun u h => gas_masked_agree eq dir u h) l hβ (slope 0) (slope 1)
    (fun i => by rw [hs0, openSlope, if_pos ⟨hα 0, hα 1, hα 2⟩]; rfl) (fun i => by rw [hs1, openSlope, if_pos ⟨hα 1, hα 2, hα 3⟩]; rfl)
    (by change 0 < (s l 1).density - 1 / 2 * slope 0 .density; linarith) (by change 0 < (s l 1).density + 1 / 2 * slope 0 .density; linarith)
    (by change 0 < (s l 2).density - 1 / 2 * slope 1 .density; linarith) (by change 0 < (s l 2).density + 1 / 2 * slope 1 .density; linarith)
    p3 p4
  rw [key, gas_hll_lane eq hv dir _ hβ _ _ p3 p4, musclFlux]
  have e0 : slope 0 = fun i => lim ((gasEqn eq dir).cons (s l 0) i) ((gasEqn eq dir).cons (s l 1) i) ((gasEqn eq dir).cons (s l 2) i) := funext hs0
  have e1 : slope 1 = fun i => lim ((gasEqn eq dir).cons (s l 1) i) ((gasEqn eq dir).cons (s l 2) i) ((gasEqn eq dir).cons (s l 3) i) := funext hs1
  rw [← e0, ← e1]

/-- **C204** A uniform flow stays uniform at open faces, whatever the covered cells contain: if every cell of the stencil that is not covered holds the state `q`, the flux is
the physical flux of `q`. -/
theorem muscl_gas_uniform {n d : ℕ} (eq : GasEq) (hv : eq.Valid) (dir : Fin d) (limM : Bool → ℝ → ℝ → ℝ → ℝ) (lim : ℝ → ℝ → ℝ → ℝ)
    (hl : IsMaskedLimiter limM lim) (hc : ∀ x, lim x x x = 0) (β : Fin n → ℝ) (s : Fin n → Fin 4 → GasComplete d) (α : Fin n → Fin 4 → ℝ) (dt dx : ℝ)
    (l : Fin n) (hβ : 0 < β l) (h1 : 0 < α l 1) (h2 : 0 < α l 2) (q : GasComplete d) (hq : IsGasState eq q) (hs : ∀ k, 0 < α l k → s l k = q) :
    musclVector (gasEqn eq dir) (gasMaskOps eq dir) limM (gasHllLane eq dir) β s α dt dx l = some (gasFluxArray q dir).get := by
  have hz : ∀ vL vM vR x, openSlope lim vL vM vR x x x = 0 := by intro vL vM vR x; simp [openSlope, hc]
  rw [← muscl_vector_covered (gasEqn eq dir) (gasMaskOps eq dir) limM lim hl (gasHllLane eq dir) β β s (fun _ _ => q) α α dt dx l hβ h1 h2 rfl rfl
    (fun k hk => (hs k hk).symm)]
  have hcq : (gasEqn eq dir).complete ((gasEqn eq dir).cons q) = q := by
    exact (gas_cons_roundtrip eq hv q hq).2.1
  have hL : musclLeft (gasEqn eq dir) (1 / 2 * dt / dx) q (fun _ => 0) = q := by
    simp [musclLeft, musclFaces, hcq]
  have hR : musclRight (gasEqn eq dir) (1 / 2 * dt / dx) q (fun _ => 0) = q := by
    simp [musclRight, musclFaces, hcq]
  rw [muscl_vector_open (gasEqn eq dir) (gasMaskOps eq dir) limM lim hl (gasHllLane eq dir) β (fun _ _ => q) α dt dx (fun u => 0 < u .density)
    (fun u h => gas_masked_agree eq dir u h) l hβ (fun _ => 0) (fun _ => 0) (fun i => (hz _ _ _ _).symm) (fun i => (hz _ _ _ _).symm)
    (by change 0 < q.density - 1 / 2 * 0; linarith [hq.density_pos]) (by change 0 < q.density + 1 / 2 * 0; linarith [hq.density_pos])
    (by change 0 < q.density - 1 / 2 * 0; linarith [hq.density_pos]) (by change 0 < q.density + 1 / 2 * 0; linarith [hq.density_pos])
    (by change 0 < (musclLeft (gasEqn eq dir) (1 / 2 * dt / dx) q (fun _ => 0)).density; rw [hL]; exact hq.density_pos)
    (by change 0 < (musclRight (gasEqn eq dir) (1 / 2 * dt / dx) q (fun _ => 0)).density; rw [hR]; exact hq.density_pos), hL, hR,
    gas_hll_lane eq hv dir _ hβ _ _ hq.density_pos hq.density_pos]
  exact (hll_gas_consistent eq hv dir q hq).1

/-- **C204 fails for closed faces.** Perfect gas with the HLL flux: the flux of a closed face is not a number as soon as some other face of the same vector is open, whatever
the cells contain: `CompleteFromCons` sets the density of a masked lane to zero and the signal speeds divide by it. -/
theorem muscl_gas_closed_nan {n d : ℕ} (eq : GasEq) (dir : Fin d) (limM : Bool → ℝ → ℝ → ℝ → ℝ) (β : Fin n → ℝ) (s : Fin n → Fin 4 → GasComplete d)
    (α : Fin n → Fin 4 → ℝ) (dt dx : ℝ) (l k : Fin n) (hl : β l ≤ 0) (hk : 0 < β k) :
    musclVector (gasEqn eq dir) (gasMaskOps eq dir) limM (gasHllLane eq dir) β s α dt dx l = none := by
  rw [musclVector, if_pos (any_open β k hk)]
  simp [musclLane, gasHllLane, not_lt.2 hl, einfeldtMasked, maskedLeft, gasMaskOps, gasCompleteMasked]

/-! ### The hypotheses are met -/

/-- Advection with speed one as an equation with one component. -/
def advOne : EqnOps ℚ ℚ Unit := ⟨fun q _ => q, fun _ f => f (), fun f => f (), fun q _ => q⟩

/-- Its masked overloads: a masked lane is zero. -/
def advOneMask : MaskOps ℚ ℚ Unit := ⟨fun m f => if m then f () else 0, fun m q _ => if m then q else 0⟩

/-- Three lanes with the upwind flux: the first lane has four open cells and slopes one, in the second lane the outer cells are covered and contain 777 and 888, the face of
the third lane is closed. -/
example : (List.ofFn fun l : Fin 3 => musclVector advOne advOneMask minModSlopeMasked (fun b l _ => if 0 < b then l else 0) ![1, 1 / 2, 0]
      ![![1, 2, 3, 4], ![777, 2, 3, 888], ![1, 2, 3, 4]] ![![1, 1, 1, 1], ![0, 1 / 2, 1 / 2, 0], ![1, 1, 1, 1]] (1 / 2) 1 l) = [9 / 4, 2, 0] := by
  decide +kernel

/-- A resting gas of increasing density meets the hypotheses of `muscl_gas_open`. -/
example : ∃ (s : Fin 4 → GasComplete 1) (slope : Fin 2 → GasVar 1 → ℝ), (GasEq.new 287 (7 / 5)).Valid ∧
    (∀ i, slope 0 i = minModSlope ((s 0).cons.get i) ((s 1).cons.get i) ((s 2).cons.get i)) ∧
    (∀ i, slope 1 i = minModSlope ((s 1).cons.get i) ((s 2).cons.get i) ((s 3).cons.get i)) ∧
    slope 0 .density = 1 ∧ |slope 0 .density| < 2 * (s 1).density ∧ |slope 1 .density| < 2 * (s 2).density ∧
    0 < (musclLeft (gasEqn (GasEq.new 287 (7 / 5)) 0) (1 / 2 * (1 / 10) / 1) (s 1) (slope 0)).density ∧
    0 < (musclRight (gasEqn (GasEq.new 287 (7 / 5)) 0) (1 / 2 * (1 / 10) / 1) (s 2) (slope 1)).density := by
  refine ⟨fun k => ⟨2 + (k : ℕ), fun _ => 0, 5 / 2, 1, Real.sqrt (7 / 5 / (2 + (k : ℕ)))⟩, fun _ i => if i = .density then 1 else 0,
    gasEq_new_valid _ _ (by norm_num), ?_, ?_, by simp, by simp; norm_num, by simp; norm_num, ?_, ?_⟩
  · intro i; cases i <;> simp [GasComplete.cons, GasCons.get, minModSlope] <;> norm_num
  · intro i; cases i <;> simp [GasComplete.cons, GasCons.get, minModSlope] <;> norm_num
  · simp [musclLeft, musclFaces, gasEqn, gasCompleteArray, GasCons.ofFn, GasComplete.cons, GasCons.get, gasFluxArray]; norm_num
  · simp [musclRight, musclFaces, gasEqn, gasCompleteArray, GasCons.ofFn, GasComplete.cons, GasCons.get, gasFluxArray]; norm_num

/-- Two lanes, the first closed and the second open, meet the hypotheses of `muscl_gas_closed_nan`. -/
example : (![0, 1 / 2] : Fin 2 → ℝ) 0 ≤ 0 ∧ 0 < (![0, 1 / 2] : Fin 2 → ℝ) 1 := by norm_num

end Fub
