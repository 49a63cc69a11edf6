import Verif.Model.Flux
import Verif.Props.Limiter
import Mathlib.Data.Fin.VecNotation
import Mathlib.Tactic.NormNum
import Mathlib.Tactic.FinCases
import Mathlib.Order.WithBot

/-! C29, C33: consistency of the numerical fluxes, relations of the HLL flux. -/

namespace Fub
variable {K C ι : Type} [Field K] [LinearOrder K] [IsStrictOrderedRing K]

/-! ### C29 -/

/-- **C29 (Godunov).** If the Riemann solver returns the common state of a constant stencil, the Godunov flux is the
physical flux; closed faces have no flux. -/
theorem godunov_consistent (E : EqnOps K C ι) (solve : C → C → C) (q : C) (h : solve q q = q) :
    godunovFlux E solve q q = E.flux q ∧
    ∀ ff : K, (0 < ff → godunovFluxMasked E solve ff q q = E.flux q) ∧
      (ff ≤ 0 → ∀ l r i, godunovFluxMasked E solve ff l r i = 0) := by
  refine ⟨by rw [godunovFlux, h], fun ff => ⟨fun hf => ?_, fun hf l r i => ?_⟩⟩
  · funext i; simp [godunovFluxMasked, h, hf]
  · simp [godunovFluxMasked, not_lt.2 hf]

/-- **C29 (HLL).** For every equation, every signal estimate and every state: if the signal interval, extended to
contain zero, has positive length, the scalar, the array and the (open face) face-fraction version of the HLL flux of two equal states
return the physical flux. On closed faces the last one returns zero for all states whose masked signals vanish, whatever the masked flux is. -/
theorem hll_consistent (E : EqnOps K C ι) (signals : C → C → K × K) (q : C)
    (h : (signals q q).1 < 0 ∨ 0 < (signals q q).2) :
    hllFlux E signals q q = some (E.flux q) ∧ hllFluxArray E signals q q = E.flux q ∧
    ∀ (sigM : Bool → C → C → K × K) (fluxM : Bool → C → ι → K) (ff : K),
      (0 < ff → sigM true q q = signals q q → fluxM true q = E.flux q → hllFluxMasked E sigM fluxM ff q q = some (E.flux q)) ∧
      (ff ≤ 0 → ∀ l r, sigM false l r = (0, 0) → hllFluxMasked E sigM fluxM ff l r = some fun _ => 0) := by
  have hd : 0 < max 0 (signals q q).2 - min 0 (signals q q).1 := by
    rcases h with h | h
    · have := (min_le_right 0 _).trans_lt h
      have := le_max_left 0 (signals q q).2
      linarith
    · have := h.trans_le (le_max_right 0 _)
      have := min_le_left 0 (signals q q).1
      linarith
  have key : ∀ i, (max 0 (signals q q).2 * E.flux q i - min 0 (signals q q).1 * E.flux q i + min 0 (signals q q).1 * max 0 (signals q q).2 * (E.cons q i - E.cons q i)) /
      (max 0 (signals q q).2 - min 0 (signals q q).1) = E.flux q i := by
    intro i
    rw [div_eq_iff hd.ne']; ring
  refine ⟨?_, ?_, fun sigM fluxM ff => ⟨fun hf h1 h2 => ?_, fun hf l r h1 => ?_⟩⟩
  · simp only [hllFlux, if_pos hd]; congr 1; funext i; exact key i
  · funext i; simp only [hllFluxArray, min_comm _ (0 : K), max_comm _ (0 : K), if_pos hd]; exact key i
  · simp only [hllFluxMasked, hf, decide_true, if_true, h1, h2, min_comm _ (0 : K), max_comm _ (0 : K), if_pos hd]
    congr 1; funext i; exact key i
  · simp [hllFluxMasked, not_lt.2 hf, h1]

/-- **C29 fails for degenerate signals.** If both signals vanish, the scalar HLL flux stops on its assertion, while the array
version silently returns zero instead of the physical flux, for every equation and every pair of states. -/
theorem hll_degenerate (E : EqnOps K C ι) (signals : C → C → K × K) (l r : C) (h0 : signals l r = (0, 0)) :
    hllFlux E signals l r = none ∧ ∀ i, hllFluxArray E signals l r i = 0 := by
  simp [hllFlux, hllFluxArray, h0]

/-- A limiter that gives slope zero on constant data. -/
def FlatLimiter (limiter : K → K → K → K) : Prop := ∀ q, limiter q q q = 0

theorem limiters_flat : FlatLimiter (minModSlope : K → K → K → K) ∧ FlatLimiter (vanLeerSlope : K → K → K → K) ∧
    FlatLimiter (noLimiterSlope : K → K → K → K) ∧ FlatLimiter (noGradientSlope : K → K → K → K) := by
  refine ⟨fun q => ?_, fun q => ?_, fun q => ?_, fun q => ?_⟩ <;>
    simp [minModSlope, vanLeerSlope, vanLeer, noLimiterSlope, noGradientSlope]

/-- **C29 (MUSCL-Hancock).** On a constant stencil of a complete state whose dependent variables are consistent
(`CompleteFromCons` reproduces it), the MUSCL-Hancock flux is the base method's flux of that state, for every base method, all four
limiters, every step size and cell width; so it is the physical flux when the base method is consistent. The same for zero gradients, and for
`MusclHancock2` with any limiter function. -/
theorem muscl_consistent {R : Type} (E : EqnOps K C ι) (base : C → C → R) (q : C) (hq : E.complete (E.cons q) = q) (dt dx : K) :
    (∀ limiter ∈ [(minModSlope : K → K → K → K), vanLeerSlope, noLimiterSlope, noGradientSlope],
      musclFlux E base limiter q q q q dt dx = base q q) ∧
    musclFluxGrad E base q q (fun _ => 0) (fun _ => 0) dt dx = base q q ∧
    ∀ limiter : K → K, muscl2Flux E base limiter q q q q dt dx = base q q := by
  have e : (fun i => E.cons q i) = E.cons q := rfl
  have hL : ∀ lam : K, musclLeft E lam q (fun _ => 0) = q := by
    intro lam; simp [musclLeft, musclFaces, e, hq]
  have hR : ∀ lam : K, musclRight E lam q (fun _ => 0) = q := by
    intro lam; simp [musclRight, musclFaces, e, hq]
  refine ⟨fun limiter hl => ?_, ?_, fun limiter => ?_⟩
  · have hf : ∀ q, limiter q q q = 0 := by
      obtain ⟨h1, h2, h3, h4⟩ := limiters_flat (K := K)
      simp only [List.mem_cons, List.not_mem_nil, or_false] at hl
      rcases hl with rfl | rfl | rfl | rfl <;> assumption
    simp only [musclFlux, hf, hL, hR]
  · simp only [musclFluxGrad, zero_mul, hL, hR]
  · simp [muscl2Flux, consReconstruct, conservativeGradient, centralGradient, e, hq]

/-- **C29 (the two MUSCL-Hancock implementations agree).** `MusclHancock2` with conservative gradients and reconstruction
and the minmod (van Leer) limiter computes exactly the flux of `MusclHancock` with the MinMod (VanLeer) limiter, for
every equation, base method, stencil, step size and positive cell width. -/
theorem muscl_implementations_agree {R : Type} (E : EqnOps K C ι) (base : C → C → R) (s0 s1 s2 s3 : C) (dt dx : K) (hdx : 0 < dx) :
    muscl2Flux E base minModLimiter s0 s1 s2 s3 dt dx = musclFlux E base minModSlope s0 s1 s2 s3 dt dx ∧
    muscl2Flux E base vanLeerLimiter s0 s1 s2 s3 dt dx = musclFlux E base vanLeerSlope s0 s1 s2 s3 dt dx := by
  have hm : ∀ a b c : K, dx * conservativeGradient minModLimiter a b c dx = minModSlope a b c := by
    intro a b c
    rw [conservativeGradient, (gradient_limiters _ _).1]
    have hadd : (b - a) / dx + (c - b) / dx - (b - a) / dx = (c - b) / dx := by ring
    simp only [minModSlope, sub_zero, hadd]
    by_cases h : 0 < c - b
    · rw [if_pos (div_pos h hdx), if_pos h, mul_max_of_nonneg _ _ hdx.le, mul_min_of_nonneg _ _ hdx.le, mul_zero, mul_div_cancel₀ _ hdx.ne', mul_div_cancel₀ _ hdx.ne']
    · rw [if_neg (not_lt.2 (div_nonpos_of_nonpos_of_nonneg (not_lt.1 h) hdx.le)), if_neg h, mul_min_of_nonneg _ _ hdx.le, mul_max_of_nonneg _ _ hdx.le, mul_zero,
        mul_div_cancel₀ _ hdx.ne', mul_div_cancel₀ _ hdx.ne']
  have hv : ∀ a b c : K, dx * conservativeGradient vanLeerLimiter a b c dx = vanLeerSlope a b c := by
    intro a b c
    rw [conservativeGradient, (gradient_limiters _ _).2.1]
    simp only [vanLeer, vanLeerSlope]
    have e1 : 2 * ((b - a) / dx) * ((c - b) / dx) = 2 * (b - a) * (c - b) / (dx * dx) := by field_simp
    rw [e1]
    by_cases h : 0 < 2 * (b - a) * (c - b)
    · rw [if_pos (div_pos h (mul_pos hdx hdx)), if_pos h, ← add_div]
      by_cases h0 : b - a + (c - b) = 0
      · simp [h0]
      · field_simp
    · rw [if_neg (not_lt.2 (div_nonpos_of_nonpos_of_nonneg (not_lt.1 h) (mul_pos hdx hdx).le)), if_neg h, mul_zero]
  refine ⟨?_, ?_⟩
  · simp only [muscl2Flux, musclFlux, consReconstruct, musclLeft, musclRight, musclFaces, if_true, mul_assoc, hm]
    rfl
  · simp only [muscl2Flux, musclFlux, consReconstruct, musclLeft, musclRight, musclFaces, if_true, mul_assoc, hv]
    rfl

/-! ### C33 -/

/-- **C33.** Whenever the HLL flux is defined, with `sL ≤ 0 ≤ sR` the signals extended to zero, there is an intermediate state
satisfying both Rankine–Hugoniot conditions: across the left wave and across the right wave. In particular if all signals go right the flux is
the left flux, if all go left it is the right flux. -/
theorem hll_jump_relations (E : EqnOps K C ι) (signals : C → C → K × K) (l r : C) (F : ι → K) (h : hllFlux E signals l r = some F) :
    (∃ q : ι → K, ∀ i,
      F i - E.flux l i = min 0 (signals l r).1 * (q i - E.cons l i) ∧
      E.flux r i - F i = max 0 (signals l r).2 * (E.cons r i - q i)) ∧
    (0 ≤ (signals l r).1 → F = E.flux l) ∧ ((signals l r).2 ≤ 0 → F = E.flux r) := by
  simp only [hllFlux] at h
  split at h
  · rename_i hd
    obtain rfl := Option.some.inj h
    refine ⟨⟨fun i => (max 0 (signals l r).2 * E.cons r i - min 0 (signals l r).1 * E.cons l i + E.flux l i - E.flux r i) / (max 0 (signals l r).2 - min 0 (signals l r).1), fun i => ⟨?_, ?_⟩⟩, fun hs => ?_, fun hs => ?_⟩
    · have := hd.ne'; field_simp; ring
    · have := hd.ne'; field_simp; ring
    · funext i
      rw [min_eq_left hs] at hd ⊢
      simp only [sub_zero, zero_mul, add_zero] at hd ⊢
      rw [mul_comm, mul_div_cancel_right₀ _ hd.ne']
    · funext i
      rw [max_eq_left hs] at hd ⊢
      have := hd.ne'
      simp only [zero_sub, zero_mul, mul_zero, add_zero] at hd this ⊢
      rw [neg_div_neg_eq, mul_comm, mul_div_cancel_right₀ _ (neg_ne_zero.1 this)]
  · exact absurd h (by simp)

/-- The state in the HLL fan, as the solver computes it when zero lies between the signals, is exactly the state of the jump relations: the
flux of the HLL method satisfies `F = f(l) + sL (q* - l) = f(r) + sR (q* - r)` with `q*` the conservative part of `SolveRiemannProblem`. -/
theorem hll_solver_flux (E : EqnOps K C ι) (signals : C → C → K × K) (l r : C) (hc : ∀ u, E.cons (E.complete u) = u)
    (h1 : (signals l r).1 ≤ 0) (h2 : 0 ≤ (signals l r).2) (h3 : (signals l r).1 < (signals l r).2) :
    ∃ F, hllFlux E signals l r = some F ∧ ∀ i,
      F i = E.flux l i + (signals l r).1 * (E.cons (hllSolve E signals l r) i - E.cons l i) ∧
      F i = E.flux r i + (signals l r).2 * (E.cons (hllSolve E signals l r) i - E.cons r i) := by
  have hd : 0 < (signals l r).2 - (signals l r).1 := by linarith
  refine ⟨_, by simp only [hllFlux, min_eq_right h1, max_eq_right h2, if_pos hd]; rfl, fun i => ?_⟩
  simp only [hllSolve, not_lt.2 h1, not_lt.2 h2, if_false, h3.ne, ne_eq, not_false_eq_true, if_true, hc]
  have := hd.ne'
  constructor <;> field_simp <;> ring

/-- The solver returns the upwind state for supersonic signals, and the common state of equal states whose dependent variables are consistent. -/
theorem hll_solver_upwind (E : EqnOps K C ι) (signals : C → C → K × K) (l r : C) :
    (0 < (signals l r).1 → hllSolve E signals l r = l) ∧
    ((signals l r).1 ≤ 0 → (signals l r).2 < 0 → hllSolve E signals l r = r) ∧
    ((signals l l).1 < (signals l l).2 → E.complete (E.cons l) = l → hllSolve E signals l l = l) := by
  refine ⟨fun h => by simp [hllSolve, h], fun h h' => by simp [hllSolve, not_lt.2 h, h'], fun h hc => ?_⟩
  simp only [hllSolve, h.ne, ne_eq, not_false_eq_true, if_true]
  split_ifs
  · rfl
  · rfl
  · have hd : (signals l l).2 - (signals l l).1 ≠ 0 := sub_ne_zero.2 h.ne'
    have : (fun i => ((signals l l).2 * E.cons l i - (signals l l).1 * E.cons l i + E.flux l i - E.flux l i) / ((signals l l).2 - (signals l l).1)) = E.cons l := by
      funext i; rw [div_eq_iff hd]; ring
    rw [this, hc]

/-- **C33 (vectorised HLL solver).** The conservative part the array version of the solver assigns equals the one of the scalar version when the
signals are ordered. -/
theorem hll_solver_array_partial (E : EqnOps K C ι) (signals : C → C → K × K) (old l r : C) (hc : ∀ u, E.cons (E.complete u) = u)
    (hs : ∀ c u, E.cons (E.setCons c u) = u) (h3 : (signals l r).1 ≤ (signals l r).2) :
    E.cons (hllSolveArray E signals old l r) = E.cons (hllSolve E signals l r) := by
  simp only [hllSolveArray, hllSolve, hs]
  have hds : (if 0 < (signals l r).2 - (signals l r).1 then (signals l r).2 - (signals l r).1 else 1) =
      (if (signals l r).1 ≠ (signals l r).2 then (signals l r).2 - (signals l r).1 else 1) := by
    rcases h3.lt_or_eq with h | h
    · rw [if_pos (by linarith), if_pos h.ne]
    · rw [if_neg (by rw [h]; simp), if_neg (by simp [h])]
  rw [hds]
  split_ifs <;> first | rfl | (rw [hc])

/-- The interface pressure reported by the HLL flux is a convex combination of the two pressures. -/
theorem hll_pressure_between (signals : C → C → K × K) (p : C → K) (l r : C)
    (h : (signals l r).1 < 0 ∨ 0 < (signals l r).2) :
    min (p l) (p r) ≤ hllPressure signals p l r ∧ hllPressure signals p l r ≤ max (p l) (p r) := by
  have a1 : min 0 (signals l r).1 ≤ 0 := min_le_left _ _
  have a2 : 0 ≤ max 0 (signals l r).2 := le_max_left _ _
  have hd : 0 < max 0 (signals l r).2 - min 0 (signals l r).1 := by
    rcases h with h | h
    · have := (min_le_right 0 _).trans_lt h; linarith
    · have := h.trans_le (le_max_right 0 _); linarith
  simp only [hllPressure]
  rw [le_div_iff₀ hd, div_le_iff₀ hd]
  have b1 := min_le_left (p l) (p r); have b2 := min_le_right (p l) (p r)
  have b3 := le_max_left (p l) (p r); have b4 := le_max_right (p l) (p r)
  constructor <;> nlinarith

/-- **C33 (interface pressure).** It is what the HLL flux makes of a component that is transported by the pressure only: the pressure of the upwind side for supersonic signals, and for every component `i` whose flux is the pressure and whose
conserved value does not jump it is the flux of this component. -/
theorem hll_pressure_flux (E : EqnOps K C ι) (signals : C → C → K × K) (p : C → K) (l r : C) (h : (signals l r).1 < (signals l r).2) :
    (0 ≤ (signals l r).1 → hllPressure signals p l r = p l) ∧ ((signals l r).2 ≤ 0 → hllPressure signals p l r = p r) ∧
    ∀ i F, E.flux l i = p l → E.flux r i = p r → E.cons l i = E.cons r i → hllFlux E signals l r = some F → hllPressure signals p l r = F i := by
  refine ⟨fun h1 => ?_, fun h1 => ?_, fun i F e1 e2 e3 hF => ?_⟩
  · have h2 : 0 < (signals l r).2 := h1.trans_lt h
    simp only [hllPressure, min_eq_left h1, max_eq_right h2.le]
    field_simp; ring
  · have h2 : (signals l r).1 < 0 := h.trans_le h1
    simp only [hllPressure, min_eq_right h2.le, max_eq_left h1]
    have := h2.ne
    field_simp; ring
  · simp only [hllFlux] at hF
    rw [Option.ite_none_right_eq_some] at hF
    obtain ⟨-, hF⟩ := hF
    rw [← Option.some.inj hF]
    simp only [hllPressure, e1, e2, e3]
    ring

/-! ### Concrete cases -/

/-- An equation with a dependent variable: conservative `(ρ, m)` and "pressure" `p = ρ^2`, shallow-water like. -/
def exEqn : EqnOps ℚ (ℚ × ℚ × ℚ) (Fin 2) where
  cons c := ![c.1, c.2.1]
  setCons c u := (u 0, u 1, c.2.2)
  complete u := (u 0, u 1, u 0 * u 0)
  flux c := ![c.2.1, c.2.1 * c.2.1 / c.1 + c.2.2]

def exSignals (l r : ℚ × ℚ × ℚ) : ℚ × ℚ := (min (l.2.1 / l.1) (r.2.1 / r.1) - 2, max (l.2.1 / l.1) (r.2.1 / r.1) + 2)

/-- Hypotheses of the HLL theorems hold on a non-trivial pair of states with subsonic and with supersonic signals, and `CompleteFromCons` laws hold. -/
example : (exSignals (1, 0, 1) (1, 1, 1)).1 < 0 ∧ 0 < (exSignals (1, 0, 1) (1, 1, 1)).2 ∧ 0 ≤ (exSignals (1, 5, 1) (1, 6, 1)).1 ∧
    (exSignals (1, -5, 1) (1, -6, 1)).2 ≤ 0 ∧ exEqn.complete (exEqn.cons (2, 1, 4)) = (2, 1, 4) := by
  refine ⟨?_, ?_, ?_, ?_, ?_⟩ <;> decide +kernel

example : (∀ u, exEqn.cons (exEqn.complete u) = u) ∧ (∀ c u, exEqn.cons (exEqn.setCons c u) = u) := by
  refine ⟨fun u => ?_, fun c u => ?_⟩ <;> (funext i; fin_cases i <;> rfl)

/-- **The array version of the HLL Riemann solver leaves the dependent variables stale** (its call of `CompleteFromCons` is commented out): even for
two equal states the returned complete state differs from the scalar solver's, and a Godunov method built on it computes a flux that is not the
physical flux. -/
theorem hll_solver_array_stale : ∃ old q : ℚ × ℚ × ℚ, exEqn.complete (exEqn.cons q) = q ∧
    hllSolve exEqn exSignals q q = q ∧ hllSolveArray exEqn exSignals old q q ≠ q ∧
    godunovFlux exEqn (hllSolveArray exEqn exSignals old) q q ≠ exEqn.flux q :=
  ⟨(1, 0, 7), (2, 1, 4), by decide +kernel, by decide +kernel, by decide +kernel, fun h => absurd (congrFun h 1) (by decide +kernel)⟩

/-- MUSCL fluxes with and without gradient classes agree on a non-constant stencil, and differ from the first order flux. -/
example : muscl2Flux exEqn (fun l r => (l, r)) minModLimiter (1, 0, 1) (2, 1, 4) (4, 2, 16) (5, 2, 25) 1 1 =
    musclFlux exEqn (fun l r => (l, r)) minModSlope (1, 0, 1) (2, 1, 4) (4, 2, 16) (5, 2, 25) 1 1 ∧
    musclFlux exEqn (fun l r => (l, r)) minModSlope (1, 0, 1) (2, 1, 4) (4, 2, 16) (5, 2, 25) 1 1 ≠ (((2, 1, 4) : ℚ × ℚ × ℚ), ((4, 2, 16) : ℚ × ℚ × ℚ)) :=
  ⟨(muscl_implementations_agree _ _ _ _ _ _ _ _ (by norm_num)).1, by decide +kernel⟩

end Fub
