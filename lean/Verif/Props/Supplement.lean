import Verif.Props.NodalSmooth
import Verif.Props.Control
import Verif.Props.Counter
import Verif.Props.CutWall
import Verif.Props.IdealGasMixFlux
import Verif.Props.LevelIntegrator
import Verif.Props.Options
import Verif.Props.Output
import Verif.Props.Splitting

/-!
# Further theorems about single functions of the model
-/

namespace Fub

/-! ## Nodal right-hand side (C99, C101) -/

section Nodal
variable {I J K : Type} [AddGroupWithOne I] [AddGroupWithOne J] [Field K] [CharZero K]

/-- **C99** A cell centered right-hand side on the nodes: zero on masked nodes, constants are kept, and
on a periodic grid the integral is kept. -/
theorem node_rhcc (msk : I → J → Bool) (r : I → J → K) :
    (∀ i j, msk i j = true → nodeRhcc msk r i j = 0) ∧
    (∀ (a : K) i j, msk i j = false → nodeRhcc msk (fun _ _ => a) i j = a) ∧
    (∀ [Fintype I] [Fintype J], gridSum (nodeRhcc (fun _ _ => false) r) = gridSum r) := by
  have h4 : (4 : K) ≠ 0 := by norm_num
  refine ⟨fun i j h => by simp [nodeRhcc, h], fun a i j h => ?_, ?_⟩
  · simp only [nodeRhcc, h]
    simp only [Bool.false_eq_true, if_false]
    field_simp
    ring
  · intro _ _
    have e : nodeRhcc (fun _ _ => false) r = fun i j =>
        ((fun i j => (1 / 4) * r (i - 1) (j - 1)) i j + (fun i j => (1 / 4) * r (i - 0) (j - 1)) i j) +
          ((fun i j => (1 / 4) * r (i - 1) (j - 0)) i j + (1 / 4) * r i j) := by
      funext i j
      simp only [nodeRhcc, sub_zero, Bool.false_eq_true, if_false]
      ring
    have s1 := gridSum_shift (fun i j => (1 / 4) * r i j) (1 : I) (1 : J)
    have s2 := gridSum_shift (fun i j => (1 / 4) * r i j) (0 : I) (1 : J)
    have s3 := gridSum_shift (fun i j => (1 / 4) * r i j) (1 : I) (0 : J)
    rw [e, gridSum_add, gridSum_add, gridSum_add]
    rw [s1, s2, s3]
    have s4 : gridSum (fun i j => (1 / 4 : K) * r i j) = (1 / 4) * gridSum r := by
      unfold gridSum
      simp only [Finset.mul_sum]
    rw [s4]
    field_simp
    ring

omit [CharZero K] in
/-- **C101** The normalisation divides by the diagonal of the operator: applied to the operator on a unit
vector it gives one at this node. Masked nodes are not changed. -/
theorem helm_normalize {c : HelmCoef ℤ ℤ K} {msk : ℤ → ℤ → Bool} {i j : ℤ} (hd : helmDiag c i j ≠ 0) :
    (msk i j = true → ∀ x, helmNormalize c msk x i j = x i j) ∧
    (msk i j = false → helmNormalize c msk
      (helmApply c msk (fun a b => if a = i ∧ b = j then 1 else 0)) i j = 1) := by
  constructor
  · intro h x
    simp [helmNormalize, h]
  · intro h
    have e : helmApply c msk (fun a b => if a = i ∧ b = j then 1 else 0) i j = helmDiag c i j := by
      have h1 : ¬(i - 1 = i) := by omega
      have h2 : ¬(i + 1 = i) := by omega
      have h3 : ¬(j - 1 = j) := by omega
      have h4 : ¬(j + 1 = j) := by omega
      simp only [helmApply, h, helmStencil, helmDiag, h1, h2, h3, h4, false_and, and_false, if_false,
        if_true, Bool.false_eq_true, and_self]
      ring
    rw [show helmNormalize c msk (helmApply c msk fun a b => if a = i ∧ b = j then 1 else 0) i j =
      helmApply c msk (fun a b => if a = i ∧ b = j then 1 else 0) i j / helmDiag c i j by
        simp [helmNormalize, h], e, div_self hd]

end Nodal

/-! ## The feedback of the tube (C77) -/

/-- What the feedback reads from the tube in a time step: the fluxes at its ends. -/
structure TubeFluxes where
  rho : ℝ
  spec : ℝ
  rhoLast : ℝ
  rhoeLast : ℝ
  dt : ℝ

/-- All time steps of a run with feedback. -/
noncomputable def feedbackRun (eq : MixEq) (o : ControlOptions) (correlation : ℝ) : List TubeFluxes → ControlState → Option ControlState
  | [], s => some s
  | f :: fs, s => (feedbackStep eq o correlation f.rho f.spec f.rhoLast f.rhoeLast f.dt s).bind (feedbackRun eq o correlation fs)

/-- **C77** Everything that holds after all histories of updates of the plena holds after all runs of the
feedback: each run is a history of updates. -/
theorem feedback_run_history (eq : MixEq) (o : ControlOptions) (c : ℝ) (fs : List TubeFluxes) (s s' : ControlState)
    (h : feedbackRun eq o c fs s = some s') : ∃ is, is.length = fs.length ∧ controlRun eq o is s = some s' ∧
      ∀ k (hk : k < is.length) (hk' : k < fs.length), is[k].dt = fs[k].dt := by
  induction fs generalizing s with
  | nil => exact ⟨[], rfl, h, fun k hk => absurd hk (Nat.not_lt_zero k)⟩
  | cons f fs ih =>
    simp only [feedbackRun, Option.bind_eq_some_iff] at h
    obtain ⟨s1, h1, h2⟩ := h
    obtain ⟨is, e, h3, h4⟩ := ih s1 h2
    refine ⟨⟨(feedbackTurbine eq o c s.turbine f.rhoLast f.rhoeLast f.dt).2,
      (feedbackTurbine eq o c s.turbine f.rhoLast f.rhoeLast f.dt).1, f.rho, f.spec, f.rhoLast, f.dt⟩ :: is,
      by simp [e], ?_, ?_⟩
    · simp only [controlRun, Option.bind_eq_some_iff]
      exact ⟨s1, h1, h3⟩
    · intro k hk hk'
      cases k with
      | zero => rfl
      | succ k => simpa using h4 k (by simpa using hk) (by simpa using hk')

/-- **C77** After all time steps of all runs with feedback the speed of the compressor is in its range. -/
theorem feedback_rpm (eq : MixEq) (o : ControlOptions) (h : o.rpmmin ≤ o.rpmmax) (c : ℝ) (fs : List TubeFluxes) (s : ControlState)
    (hs : feedbackRun eq o c fs (controlInit eq o) = some s) : o.rpmmin ≤ s.rpm ∧ s.rpm ≤ o.rpmmax := by
  obtain ⟨is, -, hr, -⟩ := feedback_run_history eq o c fs _ s hs
  exact control_rpm eq o h is s hr

/-! ## Statistics of all counters (C24) -/

/-- **C24** The statistics of a registry on one process: one result for each name that was ever used, with
the number of samples recorded under this name, their mean, and their extremes. -/
theorem registry_gather {K : Type} [Field K] [CharZero K] (h : List RegOp) :
    ((Registry.gather (K := K) (Registry.run h)).map (·.name)).Nodup ∧
    (∀ name, mentioned name h ↔ ∃ r ∈ Registry.gather (K := K) (Registry.run h), r.name = name) ∧
    ∀ r ∈ Registry.gather (K := K) (Registry.run h), r.count = (recorded r.name h).length ∧
      (recorded r.name h ≠ [] → IsLeast {v | v ∈ recorded r.name h} r.min ∧
        IsGreatest {v | v ∈ recorded r.name h} r.max ∧
        r.mean = ((recorded r.name h).map fun v : Int => (v : K)).sum / ((recorded r.name h).length : K)) := by
  have hfind : ∀ p ∈ Registry.run h, (Registry.run h).find p.1 = some p.2 := by
    have hn := (registry_records h "").2.2
    generalize Registry.run h = reg at hn
    intro p hp
    induction reg with
    | nil => exact absurd hp (by simp)
    | cons a l ih =>
      rw [List.map_cons, List.nodup_cons] at hn
      rcases List.mem_cons.1 hp with rfl | hp'
      · simp [Registry.find]
      · have hne : ¬(a.1 = p.1) := fun e => hn.1 (e ▸ List.mem_map_of_mem hp')
        have := ih hn.2 hp'
        unfold Registry.find at this ⊢
        rwa [List.find?_cons_of_neg (by simpa using hne)]
  have hval : ∀ p ∈ Registry.run h, p.2 = ⟨p.1, recorded p.1 h⟩ ∧ mentioned p.1 h := by
    intro p hp
    have h1 := hfind p hp
    have hm : mentioned p.1 h := (registry_records h p.1).1.1 (by rw [h1]; simp)
    have h2 := (registry_records h p.1).2.1 hm
    rw [h1] at h2
    exact ⟨Option.some.inj h2, hm⟩
  have hname : (Registry.gather (K := K) (Registry.run h)).map (·.name) = (Registry.run h).map Prod.fst := by
    unfold Registry.gather
    rw [List.map_map]
    refine List.map_congr_left fun p hp => ?_
    show p.2.name = p.1
    rw [(hval p hp).1]
  refine ⟨hname ▸ (registry_records h "").2.2, fun name => ⟨fun hm => ?_, ?_⟩, ?_⟩
  · have h2 := (registry_records h name).2.1 hm
    unfold Registry.find at h2
    obtain ⟨p, hp, hq⟩ := Option.map_eq_some_iff.1 h2
    have hp' := List.mem_of_find?_eq_some hp
    have hk : p.1 = name := by simpa using List.find?_some hp
    refine ⟨_, List.mem_map_of_mem hp', ?_⟩
    show p.2.name = name
    rw [hq]
  · rintro ⟨r, hr, rfl⟩
    obtain ⟨p, hp, rfl⟩ := List.mem_map.1 hr
    show mentioned p.2.name h
    rw [(hval p hp).1]
    exact (hval p hp).2
  · intro r hr
    obtain ⟨p, hp, rfl⟩ := List.mem_map.1 hr
    have e := (hval p hp).1
    obtain ⟨s1, -, s3, -⟩ := counter_stats (K := K) p.2
    have en : (gatherStatistics (K := K) p.2 []).name = p.1 := by
      show p.2.name = p.1
      rw [e]
    have ev : p.2.values = recorded p.1 h := by rw [e]
    rw [en]
    refine ⟨by show p.2.getCount = _; rw [s1, ev], fun hne => ?_⟩
    obtain ⟨a, b, m, -⟩ := s3 (by rw [ev]; exact hne)
    rw [ev] at a b m
    refine ⟨a, b, ?_⟩
    show Counter.calcMean [p.2.getMean K] = _
    rw [m]
    simp [Counter.calcMean]

/-! ## Reference states of cut cells (C72) -/

/-- **C72** The reference state of a cut cell with mass: if a wall state was found it is a state of the gas
without velocity through the wall; a cell without mass keeps its reference. -/
theorem kbn_reference {d : ℕ} [NeZero d] (rot : (Fin d → ℝ) → (Fin d → ℝ) → Fin d → Fin d → ℝ) (hrot : IsRotationMaker rot) (eq : GasEq)
    (hv : eq.Valid) (n : Fin d → ℝ) (hn : IsUnit' n) (s : GasComplete d) (oldReference : GasComplete d) :
    (s.density ≤ 0 → ∀ limit old, kbnReference rot eq limit old oldReference n s = some oldReference) ∧
    (IsGasState eq s → ∑ i, n i * s.vel i < 2 * s.speedOfSound / (eq.gamma - 1) →
      1 / 10 ^ 7 / 2 * (eq.gamma + 1) < s.speedOfSound * min 1 (Real.sqrt (8 * (eq.gamma - 1))) →
      ∃ N : ℤ, ∀ limit, N ≤ limit → ∀ old q, kbnReference rot eq limit old oldReference n s = some q →
        IsGasState eq q ∧ ∑ i, n i * q.momentum i = 0 ∧
        ∀ t : Fin d → ℝ, ∑ i, n i * t i = 0 → ∑ i, t i * q.vel i = ∑ i, t i * s.vel i) := by
  constructor
  · intro h limit old
    unfold kbnReference
    rw [if_neg (not_lt.2 h)]
  · intro hs hvac hsmall
    obtain ⟨N, hN⟩ := kbn_wall_state rot hrot eq hv n hn s hs hvac hsmall
    refine ⟨N, fun limit hl old q hq => ?_⟩
    unfold kbnReference at hq
    rw [if_pos hs.density_pos] at hq
    rcases hN limit hl old with h0 | ⟨q', h1, h2, h3, h4, -⟩
    · rw [h0] at hq
      exact absurd hq (by simp)
    · rw [h1] at hq
      obtain rfl := Option.some.inj hq
      exact ⟨h2, h3, h4⟩

/-! ## Complete states and the reactor (C128) -/

section Igm
variable {d : ℕ} {S : Type*} [Fintype S]

/-- **C128** Setting the reactor from a complete state and reading it again gives the same state. -/
theorem igm_set_reactor (m : Mechanism S ℝ) (s : ReactorState S ℝ) (hs : Cached m s) (ρ : ℝ) (v : Fin d → ℝ)
    (Y : S → ℝ) (T : ℝ) (q : IgmComplete d S) (hρ : 0 < ρ) (hY : ∀ i, 0 ≤ Y i) (h1 : ∑ i, Y i = 1)
    (hq : IsMixture m ρ v Y T q) :
    (igmSetReactor m q s).density = ρ ∧ (igmSetReactor m q s).massFractions = Y ∧
    (igmSetReactor m q s).temperature = T ∧ (igmSetReactor m q s).pressure m = q.pressure ∧
    igmCompleteFromReactor m (igmSetReactor m q s) v = q := by
  have hsp : q.species = fun i => ρ * Y i := funext hq.species
  have hc : Cached m ((s.setDensity q.density).setMassFractions m q.species) := hs
  have e := setTemperature_fields m _ q.temperature hc
  have eY : (igmSetReactor m q s).massFractions = Y := by
    unfold igmSetReactor
    rw [e]
    show ((s.setDensity q.density).setMassFractions m q.species).massFractions = Y
    rw [hsp]
    exact set_mass_fractions_densities m _ ρ Y hρ hY h1
  have eρ : (igmSetReactor m q s).density = ρ := by
    unfold igmSetReactor
    rw [e]
    exact hq.density
  have eT : (igmSetReactor m q s).temperature = T := by
    unfold igmSetReactor
    rw [e]
    exact hq.temperature
  have hmix := igm_complete_from_reactor m (igmSetReactor m q s) v
    (by unfold igmSetReactor; rw [e]; exact ⟨rfl, rfl⟩) (by unfold igmSetReactor; rw [e]) (by rw [eρ]; exact hρ.ne')
  have hp : (igmSetReactor m q s).pressure m = q.pressure := by
    have := hmix.pressure
    rw [eρ, eY, eT] at this
    rw [hq.pressure, ← this]
    rfl
  refine ⟨eρ, eY, eT, hp, ?_⟩
  rw [eρ, eY, eT] at hmix
  have c1 := hmix.cp.trans hq.cp.symm
  have c2 := hmix.pressure.trans hq.pressure.symm
  have c3 : (igmCompleteFromReactor m (igmSetReactor m q s) v).gamma = q.gamma := by
    rw [hmix.gamma, hq.gamma, c1]
  have c4 := hmix.density.trans hq.density.symm
  have c5 : (igmCompleteFromReactor m (igmSetReactor m q s) v).speedOfSound = q.speedOfSound := by
    rw [hmix.speedOfSound, hq.speedOfSound, c2, c3, c4]
  have c6 : (igmCompleteFromReactor m (igmSetReactor m q s) v).momentum = q.momentum :=
    funext fun i => (hmix.momentum i).trans (hq.momentum i).symm
  have c7 : (igmCompleteFromReactor m (igmSetReactor m q s) v).species = q.species :=
    funext fun i => (hmix.species i).trans (hq.species i).symm
  have c8 := hmix.energy.trans hq.energy.symm
  have c9 := hmix.temperature.trans hq.temperature.symm
  generalize igmCompleteFromReactor m (igmSetReactor m q s) v = a at *
  obtain ⟨⟨a1, a2, a3, a4⟩, a5, a6, a7, a8, a9⟩ := a
  obtain ⟨⟨b1, b2, b3, b4⟩, b5, b6, b7, b8, b9⟩ := q
  simp only at c1 c2 c3 c4 c5 c6 c7 c8 c9
  subst c1 c2 c3 c4 c5 c6 c7 c8 c9
  rfl

/-- **C128** The array version without mask: for partial densities which are not negative it is the masked
version with all lanes set. -/
theorem igm_array_is_masked [DecidableEq S] {ι : Type*} [Fintype ι] [Nonempty ι] (m : Mechanism S ℝ) (first : S)
    (c : ι → IgmCons d S) (hc : ∀ l i, 0 ≤ (c l).species i) :
    igmCompleteArray m c = igmCompleteLanes m first (fun _ => true) c := by
  have hl : ∀ l, massFractionsLane (c l).species = massFractionsLaneMasked first true (c l).species := fun l => by
    have := mass_fraction_lanes m (igmLane m first true (c l)) (c l).species first (hc l)
    rw [this.1, this.2]
  unfold igmCompleteArray igmCompleteLanes
  rw [if_neg (by
    intro h
    exact absurd (h (Classical.arbitrary ι)) (by simp))]
  have hs : (fun l : ι => ({ massFractions := massFractionsLane (c l).species, moles := fun _ => 0
                             temperature := 300, density := (c l).density, thermoTemp := 300
                             enthalpies := (m.thermo 300).1, heatCapacities := (m.thermo 300).2 } :
      ReactorState S ℝ)) = fun l => igmLane m first true (c l) := by
    funext l
    rw [hl l]
    rfl
  have hk : ∀ l, igmKineticMasked true (c l).density (c l).momentum = igmKinetic (c l).density (c l).momentum :=
    fun l => by simp [igmKineticMasked, igmKinetic]
  have hv : ∀ l, igmVelocityMasked true (c l) = igmVelocity (c l) := fun l => by
    funext i
    simp [igmVelocityMasked, igmVelocity]
  dsimp only
  simp only [hk, hv, igmCompleteMasked_true, if_true]
  have hs' : ∀ l : ι, ({ massFractions := massFractionsLane (c l).species, moles := fun _ => 0
                         temperature := 300, density := (c l).density, thermoTemp := 300
                         enthalpies := (m.thermo 300).1, heatCapacities := (m.thermo 300).2 } :
      ReactorState S ℝ) = igmLane m first true (c l) := fun l => congrFun hs l
  simp only [hs']

/-- **C128** The array version of the completion (partial for the same reason as
`igm_lanes_round_trip_partial`): no exception, and all lanes are completed with the same accuracy as a
single cell. -/
theorem igm_array_round_trip_partial {ι : Type*} [Fintype ι] [Nonempty ι]
    (ρ : ι → ℝ) (v : ι → Fin d → ℝ) (Y : ι → BSp → ℝ) (Ts : ι → ℝ) (q : ι → IgmComplete d BSp)
    (h : ∀ l, 0 < ρ l ∧ (∀ i, 0 ≤ Y l i) ∧ ∑ i, Y l i = 1 ∧
      (300 ≤ Ts l ∧ Ts l ≤ 2500 ∧ (Ts l ≤ 999 ∨ 1001 ≤ Ts l)) ∧
      IsMixture burkeReactor (ρ l) (v l) (Y l) (Ts l) (q l)) :
    ∃ q', igmCompleteArray burkeReactor (fun l => (q l).toIgmCons) = some q' ∧
      ∀ l, IsMixture burkeReactor (ρ l) (v l) (Y l) (q' l).temperature (q' l) ∧
        |(q' l).temperature - Ts l| ≤ 5e-4 ∧ |(q' l).energy - (q l).energy| ≤ 17 * ρ l := by
  obtain ⟨q', e, h1, -⟩ := igm_lanes_round_trip_partial BSp.N2 (fun _ => true) ρ v Y Ts q (fun l _ => h l)
  refine ⟨q', ?_, fun l => h1 l rfl⟩
  rw [igm_array_is_masked burkeReactor BSp.N2 _ (fun l i => by
    obtain ⟨a, b, -, -, hq⟩ := h l
    show 0 ≤ (q l).species i
    rw [hq.species]
    exact mul_nonneg a.le (b i))]
  exact e

end Igm

/-! ## Mean values over mole fractions (C122) -/

/-- **C122** `MeanX` is the mean over the mole fractions: a constant is its own mean, the mean is linear and
between the smallest and the largest value, and the mean of the molar masses is the mean molar mass. -/
theorem meanX_spec {S K : Type*} [Fintype S] [Field K] [LinearOrder K] [IsStrictOrderedRing K] (m : Mechanism S K)
    (s : ReactorState S K) (hM : ∀ i, 0 < m.molarMass i) (hY : ∀ i, 0 ≤ s.massFractions i)
    (h1 : ∑ i, s.massFractions i = 1) (q : S → K) :
    (∀ a, s.meanX m (fun _ => a) = a) ∧
    (∀ lo hi, (∀ i, lo ≤ q i ∧ q i ≤ hi) → lo ≤ s.meanX m q ∧ s.meanX m q ≤ hi) ∧
    s.meanX m m.molarMass = s.meanMolarMass m := by
  have hpos : 0 < ∑ i, s.massFractions i / m.molarMass i := by
    have hex : ∃ i, 0 < s.massFractions i := by
      by_contra hcon
      push Not at hcon
      have : ∑ i, s.massFractions i = 0 := Finset.sum_eq_zero fun i _ => le_antisymm (hcon i) (hY i)
      rw [this] at h1
      exact zero_ne_one h1
    obtain ⟨i, hi⟩ := hex
    exact Finset.sum_pos' (fun j _ => div_nonneg (hY j) (hM j).le) ⟨i, Finset.mem_univ i, div_pos hi (hM i)⟩
  have hX : ∀ q : S → K, s.meanX m q = (∑ i, q i * (s.massFractions i / m.molarMass i)) /
      ∑ i, s.massFractions i / m.molarMass i := by
    intro q
    unfold ReactorState.meanX ReactorState.meanMolarMass
    rw [Finset.sum_div]
    exact Finset.sum_congr rfl fun i _ => by ring
  refine ⟨fun a => ?_, fun lo hi hq => ?_, ?_⟩
  · rw [hX, ← Finset.mul_sum, mul_div_assoc, div_self hpos.ne', mul_one]
  · rw [hX, le_div_iff₀ hpos, div_le_iff₀ hpos, Finset.mul_sum, Finset.mul_sum]
    exact ⟨Finset.sum_le_sum fun i _ => mul_le_mul_of_nonneg_right (hq i).1 (div_nonneg (hY i) (hM i).le),
      Finset.sum_le_sum fun i _ => mul_le_mul_of_nonneg_right (hq i).2 (div_nonneg (hY i) (hM i).le)⟩
  · rw [hX]
    unfold ReactorState.meanMolarMass
    congr 1
    rw [← h1]
    exact Finset.sum_congr rfl fun i _ => by
      have := (hM i).ne'
      field_simp

/-! ## Names of the species (C118) -/

/-- **C118** Different species have different names. -/
theorem burke_names_injective : Function.Injective burkeName := by
  intro a b h
  cases a <;> cases b <;> first | rfl | (exact absurd h (by decide))

/-! ## Embedded indices (C18) -/

/-- **C18** Indices of different directions or positions are different after embedding. -/
theorem embedIndex_injective {n : Nat} (i j : Index n) (d e : Nat) :
    embedIndex i d = embedIndex j e ↔ i = j ∧ d = e := by
  unfold embedIndex
  constructor
  · intro h
    refine ⟨funext fun k => ?_, ?_⟩
    · have := congrFun h k.castSucc
      simpa using this
    · have := congrFun h (Fin.last n)
      simpa using this
  · rintro ⟨rfl, rfl⟩
    rfl

/-! ## Source terms (C09) -/

section Source
variable {K : Type} [Field K] [LinearOrder K]

omit [LinearOrder K] in
/-- **C09** Splitting of a source term and a system without errors: Godunov splitting makes one step of the
source and then one of the system; the lumped Strang splitting encloses one step of the system by half steps
of the source; an error of the source ends the step before the system has changed anything. -/
theorem system_source_order {S E : Type} (src sys : K → S → S) (source system : Op K S E)
    (h1 : ∀ dt s, source dt s = (src dt s, none)) (h2 : ∀ dt s, system dt s = (sys dt s, none)) (dt : K) (s : S) :
    advanceSystemSource godunovSplit source system dt s = (sys dt (src dt s), none) ∧
    advanceSystemSource lumpedSplit source system dt s =
      (src (1 / 2 * dt) (sys dt (src (1 / 2 * dt) s)), none) ∧
    advanceSystemSource strangSplit source system dt s =
      (src (1 / 2 * dt) (sys (1 / 2 * dt) (sys (1 / 2 * dt) (src (1 / 2 * dt) s))), none) := by
  unfold advanceSystemSource godunovSplit lumpedSplit strangSplit andThen
  simp only [h1, h2, and_self]

omit [LinearOrder K] in
/-- **C09** An error of the source ends the step before the system is called. -/
theorem system_source_error {S E : Type} (source system : Op K S E) (dt : K) (s s' : S) (e : E)
    (h : ∀ dt, source dt s = (s', some e)) :
    advanceSystemSource godunovSplit source system dt s = (s', some e) ∧
    advanceSystemSource lumpedSplit source system dt s = (s', some e) ∧
    advanceSystemSource strangSplit source system dt s = (s', some e) := by
  unfold advanceSystemSource godunovSplit lumpedSplit strangSplit andThen
  simp only [h, and_self]

omit [Field K] in
/-- **C13** The stable time step with source term is stable for both and as large as possible. -/
theorem system_source_stable (a b dt : K) : dt ≤ systemSourceStableDt a b ↔ dt ≤ a ∧ dt ≤ b := le_min_iff

end Source

/-! ## Options and outputs (C08, C137) -/

/-- **C137** An option that is a string has the value of the string; a number instead of a string is an error. -/
theorem option_string {K : Type} (map : OptionMap K) (name s value : List Char) :
    (map name = some (.str s) → getOptionOr castString map name value = some s) ∧
    (map name = none → getOptionOr castString map name value = some value) ∧
    (∀ n, map name = some (.int n) → getOptionOr castString map name value = none) := by
  refine ⟨fun h => ?_, fun h => ?_, fun n h => ?_⟩ <;> simp [getOptionOr, h, castString]

/-- **C08** The members made from the options: one for each entry with a type, in the order of the entries; it is
null exactly if the type was never registered. -/
theorem multi_from_options {F O : Type} (apply : F → List (String × OptVal) → O) (regs : List (String × F))
    (fr iv : OptVal) (outputs : List (List (String × OptVal)))
    (hty : ∀ o ∈ outputs, ∃ ty, mapFind o "type" = some (.str ty)) :
    (multiFromOptions apply (registerAll regs) fr iv outputs).length = outputs.length ∧
    ∀ k (hk : k < outputs.length) (hk' : k < (multiFromOptions apply (registerAll regs) fr iv outputs).length) ty,
      mapFind outputs[k] "type" = some (.str ty) →
      ((multiFromOptions apply (registerAll regs) fr iv outputs)[k] = none ↔ ∀ r ∈ regs, r.1 ≠ ty) ∧
      ∀ pre r post, regs = pre ++ r :: post → r.1 = ty → (∀ q ∈ pre, q.1 ≠ ty) →
        ∃ o, (multiFromOptions apply (registerAll regs) fr iv outputs)[k] = some (apply r.2 o) ∧
          ∀ key, mapFind o key = (match mapFind outputs[k] key with
            | some v => some v
            | none => if key = "frequencies" then some fr else if key = "intervals" then some iv else none) := by
  induction outputs with
  | nil => exact ⟨rfl, fun k hk => absurd hk (Nat.not_lt_zero k)⟩
  | cons a l ih =>
    obtain ⟨ih1, ih2⟩ := ih (fun o ho => hty o (by simp [ho]))
    obtain ⟨ty, ht⟩ := hty a (by simp)
    obtain ⟨o, ho, hkeys⟩ := outputOptions_defaults fr iv a ty ht
    have e : multiFromOptions apply (registerAll regs) fr iv (a :: l) =
        makeOutput apply (registerAll regs) ty o :: multiFromOptions apply (registerAll regs) fr iv l := by
      unfold multiFromOptions
      rw [List.filterMap_cons, ho]
      rfl
    refine ⟨by rw [e]; simp [ih1], fun k hk hk' ty' ht' => ?_⟩
    cases k with
    | zero =>
      have hty' : ty' = ty := by
        have : mapFind a "type" = some (.str ty') := ht'
        rw [ht] at this
        simpa using this.symm
      subst hty'
      simp only [e, List.getElem_cons_zero]
      obtain ⟨s1, s2⟩ := makeOutput_spec apply regs ty' o
      refine ⟨s1, fun pre r post h1 h2 h3 => ⟨o, s2 pre r post h1 h2 h3, hkeys⟩⟩
    | succ k =>
      simp only [e, List.getElem_cons_succ] at ht' ⊢
      exact ih2 k (by simpa using hk) (by rw [ih1]; simpa using hk) ty' ht'

end Fub
