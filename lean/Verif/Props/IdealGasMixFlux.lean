import Verif.Props.IdealGasMix
import Verif.Props.Gas

/-!
# Lanes, fluxes, rotations and names of the ideal gas mixture
-/

namespace Fub

section generic
variable {d : ℕ} {S : Type*}

/-! ## Lanes -/

theorem igmCompleteMasked_true [Fintype S] (m : Mechanism S ℝ) (s : ReactorState S ℝ) (v : Fin d → ℝ) :
    igmCompleteMasked true m s v = igmCompleteFromReactor m s v := rfl

theorem igmCompleteMasked_false [Fintype S] (m : Mechanism S ℝ) (s : ReactorState S ℝ) :
    igmCompleteMasked false m s (fun _ => 0) = igmZero d S := by
  simp [igmCompleteMasked, igmZero, igmKineticMasked]

theorem igmVelocityMasked_false (c : IgmCons d S) : igmVelocityMasked false c = fun _ => 0 := by
  funext i
  simp [igmVelocityMasked]

/-- **C128** The array version with mask, for every number of lanes: if the masked lanes hold the
conservative variables of mixtures (as in `igm_round_trip_partial`), there is no exception, the
masked lanes are completed with the same accuracy and all other lanes are zero, whatever they held
before. -/
theorem igm_lanes_round_trip_partial {ι : Type*} [Fintype ι] (first : BSp) (mask : ι → Bool)
    (ρ : ι → ℝ) (v : ι → Fin d → ℝ) (Y : ι → BSp → ℝ) (Ts : ι → ℝ) (q : ι → IgmComplete d BSp)
    (h : ∀ l, mask l = true → 0 < ρ l ∧ (∀ i, 0 ≤ Y l i) ∧ ∑ i, Y l i = 1 ∧
      (300 ≤ Ts l ∧ Ts l ≤ 2500 ∧ (Ts l ≤ 999 ∨ 1001 ≤ Ts l)) ∧
      IsMixture burkeReactor (ρ l) (v l) (Y l) (Ts l) (q l)) :
    ∃ q', igmCompleteLanes burkeReactor first mask (fun l => (q l).toIgmCons) = some q' ∧
      (∀ l, mask l = true → IsMixture burkeReactor (ρ l) (v l) (Y l) (q' l).temperature (q' l) ∧
        |(q' l).temperature - Ts l| ≤ 5e-4 ∧ |(q' l).energy - (q l).energy| ≤ 17 * ρ l) ∧
      ∀ l, mask l = false → q' l = igmZero d BSp := by
  by_cases hall : ∀ l, mask l = false
  · refine ⟨fun _ => igmZero d BSp, ?_, fun l hl => ?_, fun _ _ => rfl⟩
    · unfold igmCompleteLanes
      rw [if_pos hall]
    · rw [hall l] at hl
      cases hl
  · set s : ι → ReactorState BSp ℝ := fun l => igmLane burkeReactor first (mask l) (q l).toIgmCons
      with hs
    have hcached : ∀ l, Cached burkeReactor (s l) := fun l => ⟨rfl, rfl⟩
    have hYl : ∀ l, mask l = true → (s l).massFractions = Y l := fun l hl => by
      obtain ⟨hρ, hY, h1, -, hq⟩ := h l hl
      show massFractionsLaneMasked first (mask l) (q l).species = Y l
      rw [hl]
      have hsp : (q l).species = fun i => ρ l * Y l i := funext hq.species
      rw [(mass_fraction_lanes burkeReactor (s l) (q l).species first
        (fun i => by rw [hq.species]; exact mul_nonneg hρ.le (hY i))).2, hsp]
      exact set_mass_fractions_densities burkeReactor (s l) (ρ l) (Y l) hρ hY h1
    have hρl : ∀ l, mask l = true → (s l).density = ρ l := fun l hl => by
      show (if mask l = true then (q l).density else 1) = ρ l
      rw [if_pos hl, (h l hl).2.2.2.2.density]
    have hU : ∀ l, mask l = true → ∀ t, energyAt (s l) t =
        ∑ i, Y l i * ((burkeReactor.thermo t).1 i -
          burkeReactor.gasConstant / burkeReactor.molarMass i * t) := fun l hl t => by
      rw [energyAt_eq _ (hcached l), hYl l hl]
      rfl
    obtain ⟨T, hT, hacc, -⟩ := burke_temperature_lanes_partial mask s hcached
      (fun l hl => by rw [hYl l hl]; exact (h l hl).2.1)
      (fun l hl => by rw [hYl l hl]; exact (h l hl).2.2.1) Ts
      (fun l => ((if mask l then (q l).energy else 0) -
        igmKineticMasked (mask l) (q l).density (q l).momentum) /
          (if mask l then (q l).density else 1))
      (fun l hl => by
        obtain ⟨hρ, hY, h1, -, hq⟩ := h l hl
        have hkin : igmKineticMasked true (q l).density (q l).momentum =
            1 / 2 * ρ l * ∑ i, v l i * v l i := by
          show igmKinetic (q l).density (q l).momentum = _
          rw [hq.density, show (q l).momentum = fun i => ρ l * v l i from funext hq.momentum]
          exact igmKinetic_velocity (ρ l) (ne_of_gt hρ) (v l)
        simp only [hl, if_true]
        rw [hkin, hq.energy, hq.density, hU l hl]
        field_simp
        ring)
      (fun l hl => (h l hl).2.2.2.1.1) (fun l hl => (h l hl).2.2.2.1.2.1)
      (fun l hl => (h l hl).2.2.2.1.2.2)
    refine ⟨fun l => igmCompleteMasked (mask l) burkeReactor ((s l).setTemperature burkeReactor (T l))
      (igmVelocityMasked (mask l) (q l).toIgmCons), ?_, fun l hl => ?_, fun l hl => ?_⟩
    · unfold igmCompleteLanes
      rw [if_neg hall]
      have h2 := congrArg (Option.map (fun T l => igmCompleteMasked (mask l) burkeReactor
        ((s l).setTemperature burkeReactor (T l))
        (igmVelocityMasked (mask l) (q l).toIgmCons))) hT
      exact h2
    · obtain ⟨hρ, hY, h1, -, hq⟩ := h l hl
      have hv : igmVelocityMasked (mask l) (q l).toIgmCons = v l := by
        funext i
        show (if mask l = true then (q l).momentum i else 0) /
          (if mask l = true then (q l).density else 1) = v l i
        rw [if_pos hl, if_pos hl, hq.momentum, hq.density, mul_div_cancel_left₀ _ (ne_of_gt hρ)]
      have hf := setTemperature_fields burkeReactor (s l) (T l) (hcached l)
      have hmix := igm_complete_from_reactor burkeReactor
        ((s l).setTemperature burkeReactor (T l)) (v l) (by rw [hf]; exact ⟨rfl, rfl⟩) (by rw [hf])
        (by rw [hf]; show (s l).density ≠ 0; rw [hρl l hl]; exact ne_of_gt hρ)
      have e1 : ((s l).setTemperature burkeReactor (T l)).density = ρ l := by rw [hf]; exact hρl l hl
      have e2 : ((s l).setTemperature burkeReactor (T l)).massFractions = Y l := by
        rw [hf]
        exact hYl l hl
      have e3 : ((s l).setTemperature burkeReactor (T l)).temperature = T l := by rw [hf]
      rw [e1, e2, e3] at hmix
      show IsMixture _ _ _ _ (igmCompleteMasked (mask l) _ _ _).temperature
        (igmCompleteMasked (mask l) _ _ _) ∧ |(igmCompleteMasked (mask l) _ _ _).temperature - _| ≤ _ ∧
        |(igmCompleteMasked (mask l) _ _ _).energy - _| ≤ _
      rw [hv, hl, igmCompleteMasked_true]
      generalize igmCompleteFromReactor burkeReactor
        ((s l).setTemperature burkeReactor (T l)) (v l) = q' at *
      rw [hmix.temperature]
      refine ⟨hmix, (hacc l hl).1, ?_⟩
      rw [hmix.energy, hq.energy, ← hU l hl, ← hU l hl]
      rw [show ρ l * energyAt (s l) (T l) + 1 / 2 * ρ l * ∑ i, v l i * v l i -
        (ρ l * energyAt (s l) (Ts l) + 1 / 2 * ρ l * ∑ i, v l i * v l i) =
        ρ l * (energyAt (s l) (T l) - energyAt (s l) (Ts l)) by ring, abs_mul, abs_of_pos hρ]
      linarith [mul_le_mul_of_nonneg_left (hacc l hl).2 hρ.le]
    · show igmCompleteMasked (mask l) _ _ (igmVelocityMasked (mask l) _) = _
      rw [hl, igmVelocityMasked_false, igmCompleteMasked_false]

/-! ## Fluxes -/

/-- Specification: the flux of the multi-species Euler equations through a unit face with normal `n`.
-/
noncomputable def mixNormalFlux (q : IgmComplete d S) (n : Fin d → ℝ) : IgmCons d S :=
  let un := ∑ i, q.momentum i / q.density * n i
  { density := q.density * un
    momentum := fun i => q.momentum i * un + q.pressure * n i
    energy := un * (q.energy + q.pressure)
    species := fun s => un * q.species s }

theorem IgmCons.ext' {a b : IgmCons d S} (h1 : a.density = b.density) (h2 : a.momentum = b.momentum)
    (h3 : a.energy = b.energy) (h4 : a.species = b.species) : a = b := by
  cases a
  cases b
  simp only at h1 h2 h3 h4
  subst h1 h2 h3 h4
  rfl

/-- **C129** The three versions of the flux are the Euler flux in the coordinate direction for every
state of positive density; lanes outside of the mask have no flux. -/
theorem igm_flux_spec (old : IgmCons d S) (q : IgmComplete d S) (dir : Fin d) (hρ : 0 < q.density) :
    let n : Fin d → ℝ := fun i => if i = dir then 1 else 0
    igmFlux old q dir = mixNormalFlux q n ∧ igmFluxLane q dir = mixNormalFlux q n ∧
    igmFluxMasked true q dir = mixNormalFlux q n ∧
    igmFluxMasked false q dir = ⟨0, fun _ => 0, 0, fun _ => 0⟩ := by
  intro n
  have hun : ∑ i, q.momentum i / q.density * n i = q.momentum dir / q.density := by simp [n]
  have hlane : igmFluxLane q dir = mixNormalFlux q n := by
    unfold igmFluxLane mixNormalFlux
    rw [hun]
    refine IgmCons.ext' ?_ ?_ rfl rfl
    · show q.momentum dir = q.density * (q.momentum dir / q.density)
      rw [mul_div_cancel₀ _ (ne_of_gt hρ)]
    · funext i
      show _ * _ + (if i = dir then q.pressure else 0) = q.momentum i * _ + q.pressure * n i
      by_cases h : i = dir
      · simp only [h, n, if_true]
        ring
      · simp only [h, n, if_false]
        ring
  have hle : ¬ q.density ≤ 0 := not_le.mpr hρ
  refine ⟨?_, hlane, ?_, ?_⟩
  · rw [← hlane]
    unfold igmFlux igmFluxLane
    rw [if_neg hle]
  · rw [← hlane]
    unfold igmFluxLane igmFluxMasked
    simp only [if_true]
  · unfold igmFluxMasked
    simp

/-- **C129** In a cell without density the scalar flux is not written: the output variable keeps
whatever it held, for example the flux of the cell before. -/
theorem igm_flux_vacuum (old : IgmCons d S) (q : IgmComplete d S) (dir : Fin d)
    (h : q.density ≤ 0) : igmFlux old q dir = old := by
  unfold igmFlux
  rw [if_pos h]

/-- **C129** The species fluxes add up to the mass flux if the species add up to the density. -/
theorem igm_flux_species [Fintype S] (old : IgmCons d S) (q : IgmComplete d S) (dir : Fin d)
    (hρ : 0 < q.density) (h : ∑ s, q.species s = q.density) :
    ∑ s, (igmFlux old q dir).species s = (igmFlux old q dir).density := by
  have hle : ¬ q.density ≤ 0 := not_le.mpr hρ
  unfold igmFlux
  rw [if_neg hle]
  show ∑ s, q.momentum dir / q.density * q.species s = q.momentum dir
  rw [← Finset.mul_sum, h, div_mul_cancel₀ _ (ne_of_gt hρ)]

/-! ## Rotations and reflections -/

/-- **C129** Rotating a state, evaluating the flux in a coordinate direction and rotating back is the
flux through the face whose normal the rotation maps to this direction. -/
theorem igm_rotate_flux (R : Fin d → Fin d → ℝ) (hR : IsOrtho R) (old : IgmCons d S)
    (q : IgmComplete d S) (hρ : 0 < q.density) (dir : Fin d) :
    igmRotateCons (fun i j => R j i) (igmFlux old (igmRotate R q) dir) =
      mixNormalFlux q (R dir) := by
  have hg := gas_rotate_flux R hR ⟨q.density, q.momentum, q.energy, q.pressure, q.speedOfSound⟩
    (ne_of_gt hρ) dir
  have hle : ¬ (igmRotate R q).density ≤ 0 := not_le.mpr hρ
  have hflux : igmFlux old (igmRotate R q) dir = igmFluxLane (igmRotate R q) dir := by
    unfold igmFlux igmFluxLane
    rw [if_neg hle]
  rw [hflux]
  refine IgmCons.ext' ?_ ?_ ?_ ?_
  · exact congrArg GasCons.density hg
  · exact congrArg GasCons.momentum hg
  · have := congrArg GasCons.energy hg
    refine this.trans ?_
    show (q.energy + q.pressure) * _ = _ * (q.energy + q.pressure)
    ring
  · funext s
    show rotateVec R q.momentum dir / q.density * q.species s =
      (∑ i, q.momentum i / q.density * R dir i) * q.species s
    congr 1
    simp only [rotateVec, Finset.sum_div]
    exact Finset.sum_congr rfl fun i _ => by ring

theorem rotate_sq (R : Fin d → Fin d → ℝ) (hR : IsOrtho R) (p : Fin d → ℝ) :
    ∑ i, rotateVec R p i * rotateVec R p i = ∑ i, p i * p i := by
  have h := (gas_rotate (GasEq.new 1 2) R hR ⟨1, p, 1, 1, 1⟩).2.1
  simpa only [gasRotate, sq] using h

theorem reflect_sq (n : Fin d → ℝ) (hn : IsUnit' n) (p : Fin d → ℝ) :
    ∑ i, reflectVec n p i * reflectVec n p i = ∑ i, p i * p i := by
  have h := reflectVec_sq n p hn
  simpa only [sq] using h

/-- **C129** Rotation and completion commute: `CompleteFromCons` of a rotated conservative state
is the rotated complete state, and the reactor is left in the same state. -/
theorem igm_rotate_complete [Fintype S] (m : Mechanism S ℝ) (s : ReactorState S ℝ)
    (R : Fin d → Fin d → ℝ) (hR : IsOrtho R) (c : IgmCons d S) :
    igmCompleteFromCons m s (igmRotateCons R c) =
      (igmCompleteFromCons m s c).map (fun r => (r.1, igmRotate R r.2)) := by
  have hkin : igmKinetic (igmRotateCons R c).density (igmRotateCons R c).momentum =
      igmKinetic c.density c.momentum := by
    show 1 / 2 * (∑ i, rotateVec R c.momentum i * rotateVec R c.momentum i) / c.density = _
    rw [rotate_sq R hR]
    rfl
  have hload : igmLoad m (igmRotateCons R c) s = igmLoad m c s := rfl
  unfold igmCompleteFromCons
  rw [hkin, hload, Option.map_map]
  show Option.map _ ((igmLoad m c s).setInternalEnergy m
    ((c.energy - igmKinetic c.density c.momentum) / c.density)) = _
  congr 1
  funext s'
  have hvel : igmVelocity (igmRotateCons R c) = rotateVec R (igmVelocity c) := by
    funext i
    show (∑ j, R i j * c.momentum j) / c.density = ∑ j, R i j * (c.momentum j / c.density)
    rw [Finset.sum_div]
    exact Finset.sum_congr rfl fun j _ => by ring
  have hmom : ∀ v : Fin d → ℝ, (fun i => s'.density * rotateVec R v i) =
      rotateVec R (fun i => s'.density * v i) := fun v => by
    funext i
    show s'.density * (∑ j, R i j * v j) = ∑ j, R i j * (s'.density * v j)
    rw [Finset.mul_sum]
    exact Finset.sum_congr rfl fun j _ => by ring
  show (s', igmCompleteFromReactor m s' (igmVelocity (igmRotateCons R c))) =
    (s', igmRotate R (igmCompleteFromReactor m s' (igmVelocity c)))
  rw [hvel]
  unfold igmCompleteFromReactor igmRotate
  simp only [hmom]
  congr 4
  unfold igmKinetic
  rw [rotate_sq R hR]

/-- **C129** Reflection at a wall with unit normal: the normal momentum changes its sign, tangential
momentum, kinetic energy and all other members stay, and a second reflection undoes it. -/
theorem igm_reflect [Fintype S] (m : Mechanism S ℝ) (n : Fin d → ℝ) (hn : IsUnit' n)
    (q : IgmComplete d S) :
    igmReflect n (igmReflect n q) = q ∧
    ∑ i, (igmReflect n q).momentum i * n i = -∑ i, q.momentum i * n i ∧
    (∀ t : Fin d → ℝ, ∑ i, t i * n i = 0 →
      ∑ i, (igmReflect n q).momentum i * t i = ∑ i, q.momentum i * t i) ∧
    (∀ ρ v Y T, ρ ≠ 0 → IsMixture m ρ v Y T q →
      IsMixture m ρ (reflectVec n v) Y T (igmReflect n q)) := by
  refine ⟨?_, reflectVec_dot n q.momentum hn, fun t ht => ?_, fun ρ v Y T hρ hq => ?_⟩
  · unfold igmReflect
    simp only [reflectVec_twice n q.momentum hn]
  · show ∑ i, (q.momentum i - 2 * ((∑ j, q.momentum j * n j) * n i)) * t i = _
    simp only [sub_mul, Finset.sum_sub_distrib]
    have e : ∑ i, 2 * ((∑ j, q.momentum j * n j) * n i) * t i =
        2 * (∑ j, q.momentum j * n j) * ∑ i, t i * n i := by
      rw [Finset.mul_sum]
      exact Finset.sum_congr rfl fun i _ => by ring
    rw [e, ht]
    ring
  · refine ⟨hq.density, fun i => ?_, hq.species, ?_, hq.temperature, hq.pressure, hq.cp, hq.gamma,
      hq.speedOfSound⟩
    · show q.momentum i - 2 * ((∑ j, q.momentum j * n j) * n i) =
        ρ * (v i - 2 * ((∑ j, v j * n j) * n i))
      have e : ∑ j, q.momentum j * n j = ρ * ∑ j, v j * n j := by
        rw [Finset.mul_sum]
        exact Finset.sum_congr rfl fun j _ => by rw [hq.momentum]; ring
      rw [e, hq.momentum]
      ring
    · rw [reflect_sq n hn]
      exact hq.energy

/-! ## Names -/

/-- **C129** There is one name for each component, in the order of the members. -/
theorem igm_var_names_length (speciesNames : List String) (fields : List (String × ℕ)) :
    (igmVarNames speciesNames fields).length = (fields.map Prod.snd).sum := by
  unfold igmVarNames
  rw [List.length_flatMap]
  congr 1
  refine List.map_congr_left fun f _ => ?_
  by_cases h : f.2 = 1
  · rw [if_pos h, h]
    rfl
  · rw [if_neg h, List.length_map, List.length_range]

/-- **C129** With two or more species the components of the species have the names of the species, in order; the components of another
member with several components have its name and their number. -/
theorem igm_var_names_species (speciesNames : List String) (pre post : List (String × ℕ)) (n : ℕ) (hn : n ≠ 1) :
    (speciesNames.length = n → igmVarNames speciesNames (pre ++ ("Species", n) :: post) =
      igmVarNames speciesNames pre ++ speciesNames ++ igmVarNames speciesNames post) ∧
    ∀ name : String, name ≠ "Species" → igmVarNames speciesNames (pre ++ (name, n) :: post) =
      igmVarNames speciesNames pre ++ (List.range n).map (fun i : ℕ => name ++ "_" ++ toString i) ++ igmVarNames speciesNames post := by
  constructor
  · intro hl
    simp only [igmVarNames, List.flatMap_append, List.flatMap_cons, List.append_assoc, hn, if_false, if_true]
    congr 2
    apply List.ext_getElem
    · simp [hl]
    · intro i h1 h2
      simp [h2]
  · intro name h
    simp only [igmVarNames, List.flatMap_append, List.flatMap_cons, List.append_assoc, hn, if_false, h]

example : igmVarNames ["H2", "O2"] [("Density", 1), ("Species", 2), ("Momentum", 2)] =
    ["Density", "H2", "O2", "Momentum_0", "Momentum_1"] := by decide +kernel

/-- **C129** A mechanism with a single species loses the name of the species. -/
theorem igm_var_names_single : igmVarNames ["H2"] [("Density", 1), ("Species", 1)] =
    ["Density", "Species"] := by decide

end generic

end Fub
